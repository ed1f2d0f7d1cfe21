import Verif.Props.SoundArchiveLoad

/-!
# When a sound archive can be saved, and saving a loaded one again (C88, C89)
-/

namespace Verif.Props.SoundArchive

open Verif Verif.Model.Common Verif.Model.SoundArchive Verif.Model.SoundStream Verif.Spec.SoundArchive Verif.Proofs.SoundArchive

attribute [local irreducible] saved loadedFiles loadedFile fileID firstUses allUses

/-! ## C88: when saving works -/

/-- **C88.** When an archive can be saved. -/
theorem archive_save_iff (s : SDAT) : Saves s ↔ NoEmptySlotFirst s ∧ (∀ n, some n ∈ namesIn s → ∀ c ∈ n, c < 256) ∧ FieldsFit s ∧
    AlignmentsUsable s ∧ (∀ f ∈ storedFiles s, tableLength s f < 2 ^ 32) ∧ archiveSize s < 2 ^ 32 := by
  rw [← saveable_iff]
  unfold Saves
  constructor
  · rintro ⟨d, h⟩; exact (save_eq_ok.1 h).1
  · intro h; exact ⟨_, save_eq_ok.2 ⟨h, rfl⟩⟩

/-- An archive whose only sequence archive is an empty slot with a name. -/
def slot : SDAT := { SDAT.new with sequenceArchives := [(some [0x41], none)] }

/-- A file like that of `slot`, but without names. -/
def slotData : Bytes :=
  match slot.save with
  | .ok d => d.take 0x10 ++ zeros 8 ++ d.drop 0x18
  | .error _ => []

/-- **C88.** An archive without names whose first sequence archive slot is empty can be loaded, but not saved any more. -/
theorem archive_load_no_save : ∃ d t, SDAT.load d = .ok t ∧ t.sequenceArchives = [(none, none)] ∧
    t.save = .error .attributeError := by
  refine ⟨slotData, match SDAT.load slotData with | .ok t => t | .error _ => SDAT.new, ?_, ?_, ?_⟩ <;> decide +kernel

example : Saves slot ∧ ¬ Saves { demo with sequenceArchives := [(none, none)] } ∧ ¬ Saves { demo with fileAlignment := 0 } ∧
    ¬ Saves { demo with banks := [(none, some ⟨[1], 0, 0, [some 0, some 1, some 2, some 3, some 4]⟩)] } ∧
    ¬ Saves { demo with groups := [(some [0x100], none)] } := by decide +kernel

/-! ## C89: saving a loaded archive again -/

/-- The alignments are powers of two up to 0x200. -/
def AlignmentsUsual (s : SDAT) : Prop := s.fileAlignment ∣ 0x200 ∧ ∀ a, s.firstFileAlignment = some a → a ∣ 0x200

theorem loaded_eq {s t : SDAT} {d : Bytes} (h : s.save = .ok d) (hn : NamesReadable s) (hg : GroupsReadable s)
    (hl : SDAT.load d = .ok t) : t = backOf s := by
  obtain ⟨_, _, hl'⟩ := load_of_save h hn hg
  rw [hl'] at hl
  exact (Except.ok.inj hl).symm

theorem readable_back {s : SDAT} (hn : NamesReadable s) (hg : GroupsReadable s) :
    NamesReadable (backOf s) ∧ GroupsReadable (backOf s) :=
  ⟨(names_iff _).1 (names_back ((names_iff s).2 hn)), (groups_iff _).1 (groups_back ((groups_iff s).2 hg))⟩

/-- The length that the table gives for the last file. -/
def lastLength (s : SDAT) : Option Nat := (storedFiles s).getLast?.map (tableLength s)

theorem lastLength_eq (s : SDAT) : lastLength s = (filesOf s).getLast?.map (flen s.fatLengthsIncludePadding s.fileAlignment) := by
  unfold lastLength; rw [filesOf_eq]; rfl

theorem total_size {s : SDAT} (hI : ItemsFit s) : total s = archiveSize s := total_eq s (banksOk_of (fieldsFit_of hI))

theorem entries_inj {s t : SDAT} (hs : ∀ e ∈ fatEntries s, e.1 < 2 ^ 32 ∧ e.2 < 2 ^ 32)
    (ht : ∀ e ∈ fatEntries t, e.1 < 2 ^ 32 ∧ e.2 < 2 ^ 32) (hd : saved t = saved s) (ho : fatOff t = fatOff s)
    {i : Nat} {a b : Nat × Nat} (h1 : (fatEntries s)[i]? = some a) (h2 : (fatEntries t)[i]? = some b) : b = a := by
  have r1 := fatEntry_read hs h1
  have r2 := fatEntry_read ht h2
  rw [hd, ho, r1] at r2
  have := Except.ok.inj r2
  injection this with e1 e2
  injection e2 with e2 _
  exact Prod.ext e1.symm e2.symm

/-- **C89.** Saving a loaded archive gives the same bytes exactly if the settings that were found out lead to the same size
and the same length of the last file. -/
theorem archive_resave_iff {s t : SDAT} {d : Bytes} (h : s.save = .ok d) (hn : NamesReadable s) (hg : GroupsReadable s)
    (ha : AlignmentsUsual s) (hf : usedFiles s ≠ []) (hl : SDAT.load d = .ok t) :
    t.save = .ok d ↔ archiveSize t = archiveSize s ∧ lastLength t = lastLength s := by
  have ht := loaded_eq h hn hg hl
  subst ht
  obtain ⟨hS, rfl⟩ := save_eq_ok.1 h
  have hA := hS.align
  have hne : filesOf s ≠ [] := by
    rw [filesOf_eq]
    intro e
    unfold storedFiles at e
    obtain ⟨u, hu⟩ := List.exists_mem_of_ne_nil _ hf
    have := mem_firstUses.2 hu
    rw [List.map_eq_nil_iff.1 e] at this
    cases this
  obtain ⟨f, hlast⟩ := last_some hne
  have hI' : ItemsFit (backOf s) := itemsFit_back hS.items
  have hlast' : (filesOf (backOf s)).getLast? = some (padFile s.fileAlignment (s.fatLengthsIncludePadding && s.padAtEnd) f) := by
    have : filesOf (backOf s) = _ := filesOf_back' hA
    rw [this, padFiles_last, hlast]; rfl
  have hL : lastLength (backOf s) = lastLength s ↔
      flen (backOf s).fatLengthsIncludePadding (backOf s).fileAlignment
        (padFile s.fileAlignment (s.fatLengthsIncludePadding && s.padAtEnd) f) =
          flen s.fatLengthsIncludePadding s.fileAlignment f := by
    rw [lastLength_eq, lastLength_eq, hlast, hlast', Option.map_some, Option.map_some, Option.some.injEq]
  rw [hL, ← total_size hS.items, ← total_size hI']
  constructor
  · intro hs
    obtain ⟨hS', hd⟩ := save_eq_ok.1 hs
    have hT : total (backOf s) = total s := by
      rw [← saved_length hA, ← saved_length hS'.align, hd]
    refine ⟨hT, ?_⟩
    have ho : fatOff (backOf s) = fatOff s := (fileOff_back hA hS.items).2.1
    obtain ⟨o, f', g1, g2, g3, g4⟩ := last_file hne
    have hne' : filesOf (backOf s) ≠ [] := by intro e; rw [e] at hlast'; cases hlast'
    obtain ⟨o', f'', k1, k2, k3, k4⟩ := last_file hne'
    rw [hlast] at g2; cases g2
    rw [hlast'] at k2; cases k2
    have hlen : (fatEntries (backOf s)).length = (fatEntries s).length := by
      rw [fatEntries_length, fatEntries_length]; exact fileCount_back hA
    rw [List.getLast?_eq_getElem?] at g4 k4
    rw [hlen] at k4
    have := entries_inj hS.entries hS'.entries hd.symm ho g4 k4
    exact congrArg Prod.snd this
  · intro hc
    obtain ⟨h1, h2⟩ := resave_of_last hS ha hlast hc
    exact save_eq_ok.2 ⟨h1, h2.symm⟩

theorem files_ne {s : SDAT} (hf : usedFiles s ≠ []) : filesOf s ≠ [] := by
  rw [filesOf_eq]
  intro e
  unfold storedFiles at e
  obtain ⟨u, hu⟩ := List.exists_mem_of_ne_nil _ hf
  have := mem_firstUses.2 hu
  rw [List.map_eq_nil_iff.1 e] at this
  cases this

theorem files_nil {s : SDAT} (hf : usedFiles s = []) : filesOf s = [] := by
  rw [filesOf_eq]
  unfold storedFiles
  rw [hf, firstUses_nil]
  rfl

/-- **C89**, partial: saving a loaded archive gives the same bytes if the length of the last file is a multiple of the
alignment that was found out, or if alignment and kind of lengths were found out correctly (and the archive is padded if the
lengths include padding).  Missing: the other archives, for which it is false, see below. -/
theorem archive_resave_partial {s t : SDAT} {d : Bytes} (h : s.save = .ok d) (hn : NamesReadable s) (hg : GroupsReadable s)
    (ha : AlignmentsUsual s) (hl : SDAT.load d = .ok t) {f : Bytes} (hf : (storedFiles s).getLast? = some f)
    (hc : t.fileAlignment ∣ f.length ∨ (t.fileAlignment = s.fileAlignment ∧
      t.fatLengthsIncludePadding = s.fatLengthsIncludePadding ∧ (s.fatLengthsIncludePadding = true → s.padAtEnd = true))) :
    t.save = .ok d := by
  have ht := loaded_eq h hn hg hl
  subst ht
  obtain ⟨hS, rfl⟩ := save_eq_ok.1 h
  rw [← filesOf_eq] at hf
  have : Saveable (backOf s) ∧ saved (backOf s) = saved s := by
    refine resave_of_last hS ha hf ?_
    rcases hc with hc | ⟨h1, h2, h3⟩
    · exact same_of_aligned hS.items ha hf hc
    · exact same_of_settings hS.items ha hf h1 h2 h3
  exact save_eq_ok.2 ⟨this.1, this.2.symm⟩

/-- **C89.** From the second loading on, saving changes nothing any more. -/
theorem archive_resave_settles {s t1 t2 : SDAT} {d0 d1 d2 : Bytes} (h0 : s.save = .ok d0) (hn : NamesReadable s)
    (hg : GroupsReadable s) (ha : AlignmentsUsual s) (l0 : SDAT.load d0 = .ok t1) (h1 : t1.save = .ok d1)
    (l1 : SDAT.load d1 = .ok t2) (h2 : t2.save = .ok d2) : ∃ t3, SDAT.load d2 = .ok t3 ∧ t3.save = .ok d2 := by
  have e1 := loaded_eq h0 hn hg l0
  subst e1
  obtain ⟨hn1, hg1⟩ := readable_back hn hg
  have e2 := loaded_eq h1 hn1 hg1 l1
  subst e2
  obtain ⟨hn2, hg2⟩ := readable_back hn1 hg1
  obtain ⟨hS2, hd2, hl2⟩ := load_of_save h2 hn2 hg2
  have hS0 := (save_eq_ok.1 h0).1
  have hS1 := (save_eq_ok.1 h1).1
  refine ⟨_, hl2, save_eq_ok.2 ?_⟩
  rw [hd2]
  by_cases hf : usedFiles s = []
  · have h3 : filesOf (backOf s) = [] := files_back_empty hS0.align (files_nil hf)
    obtain ⟨k1, k2⟩ := resave_empty hS2 hS1.align h3
    exact ⟨k1, k2.symm⟩
  · obtain ⟨k1, k2⟩ := resave_settles hS2 hS0.items ha (files_ne hf)
    exact ⟨k1, k2.symm⟩

/-- **C89.** Without any files, saving changes nothing from the first loading on. -/
theorem archive_resave_empty {s t1 : SDAT} {d0 d1 : Bytes} (h0 : s.save = .ok d0) (hn : NamesReadable s)
    (hg : GroupsReadable s) (hf : usedFiles s = []) (l0 : SDAT.load d0 = .ok t1) (h1 : t1.save = .ok d1) :
    ∃ t2, SDAT.load d1 = .ok t2 ∧ t2.save = .ok d1 := by
  have e1 := loaded_eq h0 hn hg l0
  subst e1
  obtain ⟨hn1, hg1⟩ := readable_back hn hg
  obtain ⟨hS1, hd1, hl1⟩ := load_of_save h1 hn1 hg1
  refine ⟨_, hl1, save_eq_ok.2 ?_⟩
  obtain ⟨k1, k2⟩ := resave_empty hS1 (save_eq_ok.1 h0).1.align (files_nil hf)
  rw [hd1]
  exact ⟨k1, k2.symm⟩

/-! ### Examples -/

/-- Saving, loading and saving again, as often as wanted; the last file that was saved. -/
def resaved (s : SDAT) : Nat → Py Bytes
  | 0 => s.save
  | n + 1 => do
    let d ← resaved s n
    let t ← SDAT.load d
    t.save

example : demoBack.save = .ok demoData ∧ AlignmentsUsual demo ∧ NamesReadable demo ∧ GroupsReadable demo := by
  refine ⟨by decide +kernel, ⟨by decide, ?_⟩, by decide +kernel, by decide +kernel⟩
  intro a h; cases h

/-- A new archive with one sequence whose file has one byte. -/
def single : SDAT := { SDAT.new with sequences := [(none, some ⟨[1], 0, 0, 0, 0, 0, 0, 0⟩)] }

/-- The same, not padded at the end. -/
def singleShort : SDAT := { single with padAtEnd := false }

/-- **C89** is false of a new archive without any items: it gets longer. -/
theorem new_resave_longer : ∃ d d', SDAT.new.save = .ok d ∧ resaved SDAT.new 1 = .ok d' ∧ d.length < d'.length := by
  refine ⟨match SDAT.new.save with | .ok d => d | .error _ => [], match resaved SDAT.new 1 with | .ok d => d | .error _ => [], ?_, ?_, ?_⟩ <;>
    decide +kernel

/-- **C89** is false of a new archive with one item. -/
theorem single_resave_differs : ∃ d d', single.save = .ok d ∧ resaved single 1 = .ok d' ∧ d ≠ d' := by
  refine ⟨match single.save with | .ok d => d | .error _ => [], match resaved single 1 with | .ok d => d | .error _ => [], ?_, ?_, ?_⟩ <;>
    decide +kernel

/-- The files may differ twice in a row, so `archive_resave_settles` cannot be improved. -/
theorem single_resave_twice_differs : ∃ d d' d'', resaved singleShort 0 = .ok d ∧ resaved singleShort 1 = .ok d' ∧
    resaved singleShort 2 = .ok d'' ∧ d ≠ d' ∧ d' ≠ d'' := by
  refine ⟨match resaved singleShort 0 with | .ok d => d | .error _ => [], match resaved singleShort 1 with | .ok d => d | .error _ => [],
    match resaved singleShort 2 with | .ok d => d | .error _ => [], ?_, ?_, ?_, ?_, ?_⟩ <;> decide +kernel

/-- Loading and saving a new archive with one item changes the data of the item that is loaded next. -/
theorem single_data_grows : ∃ d t, resaved single 1 = .ok d ∧ SDAT.load d = .ok t ∧
    (usedFiles single).map (fun u => u.1.length) = [1] ∧ (usedFiles t).map (fun u => u.1.length) = [32] := by
  refine ⟨match resaved single 1 with | .ok d => d | .error _ => [],
    match resaved single 1 with | .ok d => (match SDAT.load d with | .ok t => t | .error _ => SDAT.new) | .error _ => SDAT.new,
    ?_, ?_, ?_, ?_⟩ <;> decide +kernel

end Verif.Props.SoundArchive
