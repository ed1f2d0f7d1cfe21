import Verif.Props.SoundArchiveObject
import Verif.Props.SoundArchiveSave
import Verif.Proofs.SoundArchiveRenew2

/-!
# Loading and saving the objects of a sound archive again and again (C118, C119)
-/

namespace Verif.Props.SoundArchiveObject

open Verif Verif.Model.SoundArchive Verif.Model.SequenceObject Verif.Model.SoundArchiveObject Verif.Spec.SoundArchive
open Verif.Spec.SoundArchiveObject Verif.Props.SoundArchive Verif.Proofs.SoundArchiveObject
open Verif.Proofs.SoundArchive (renewOf renew backOf readBack Saveable save_eq_ok saved total filesOf flen ItemsFit)

attribute [local irreducible] saved Proofs.SoundArchive.loadedFiles Proofs.SoundArchive.loadedFile Proofs.SoundArchive.fileID
  firstUses Proofs.SoundArchive.allUses

/-! ## What comes back comes back again -/

theorem slots_trans {α β γ : Type} {R : α → β → Prop} {S : β → γ → Prop} {T : α → γ → Prop}
    (h : ∀ a b c, R a b → S b c → T a c) : ∀ {l : List (Symbol × Option α)} {l' : List (Symbol × Option β)}
    {l'' : List (Symbol × Option γ)}, Slots R l l' → Slots S l' l'' → Slots T l l'' := by
  intro l l' l'' h1
  induction h1 generalizing l'' with
  | nil => intro h2; cases h2; exact .nil
  | empty _ ih => intro h2; cases h2 with | empty h2 => exact .empty (ih h2)
  | item h3 _ ih => intro h2; cases h2 with | item h4 h2 => exact .item (h _ _ _ h3 h4) (ih h2)

theorem slots_names {α β : Type} {R : α → β → Prop} {l : List (Symbol × Option α)} {l' : List (Symbol × Option β)}
    (h : Slots R l l') : l'.map Prod.fst = l.map Prod.fst := by
  induction h with
  | nil => rfl
  | empty h ih => simp [ih]
  | item _ h ih => simp [ih]

theorem slots_mem {α β : Type} {R : α → β → Prop} {l : List (Symbol × Option α)} {l' : List (Symbol × Option β)}
    (h : Slots R l l') {n : Symbol} {b : β} (hb : (n, some b) ∈ l') : ∃ a, (n, some a) ∈ l ∧ R a b := by
  induction h with
  | nil => cases hb
  | empty h ih =>
    obtain ⟨a, h1, h2⟩ := ih (by simpa using hb)
    exact ⟨a, by simp [h1], h2⟩
  | @item m a b' l l' hab h ih =>
    rcases List.mem_cons.1 hb with e | hb
    · cases e
      exact ⟨a, by simp, hab⟩
    · obtain ⟨a, h1, h2⟩ := ih hb
      exact ⟨a, by simp [h1], h2⟩

theorem seqBack_trans (x y z : Seq) (h : SeqBack x y) (k : SeqBack y z) : SeqBack x z where
  unk02 := k.unk02.trans h.unk02
  bankID := k.bankID.trans h.bankID
  volume := k.volume.trans h.volume
  channelPressure := k.channelPressure.trans h.channelPressure
  polyphonicPressure := k.polyphonicPressure.trans h.polyphonicPressure
  playerID := k.playerID.trans h.playerID
  parsed := k.parsed
  kept := fun hx => (k.kept h.parsed).trans (h.kept hx)
  written := fun hx => by
    obtain ⟨d, offs, h1, h2⟩ := h.written hx
    exact ⟨d, offs, h1, (k.kept h.parsed).trans h2⟩

theorem nowhere_nowhere (f : Model.SoundSequenceArchive.First) : nowhere (nowhere f) = nowhere f := by
  cases f with
  | parsed e => rfl
  | unparsed o =>
    cases o with
    | none => rfl
    | some z =>
      unfold nowhere
      by_cases h : z = -1
      · simp [h]
      · simp [h]

theorem nowhere_whereIn (es : List (Nat × Model.SoundSequence.Ev)) (f : Model.SoundSequenceArchive.First) :
    nowhere (whereIn es f) = whereIn es f := by
  unfold whereIn
  split
  · unfold nowhere
    simp only [Model.SoundSequenceArchive.First.unparsed.injEq]
    rw [if_neg (by omega)]
  · rfl

theorem ssarBack_trans (x y z : Ssar) (h : SsarBack x y) (k : SsarBack y z) : SsarBack x z where
  unk02 := k.unk02.trans h.unk02
  parsed := k.parsed
  attributes := k.attributes.trans h.attributes
  kept := fun hx => by
    obtain ⟨h1, h2⟩ := h.kept hx
    obtain ⟨k1, k2⟩ := k.kept h.parsed
    refine ⟨k1.trans h1, ?_⟩
    rw [k2, h2, List.map_map]
    refine List.map_congr_left fun s _ => ?_
    simp only [Function.comp, nowhere_nowhere]
  written := fun hx => by
    obtain ⟨es, starts, d, offs, h1, h2, h3, h4⟩ := h.written hx
    obtain ⟨k1, k2⟩ := k.kept h.parsed
    refine ⟨es, starts, d, offs, h1, h2, k1.trans h3, fun hn hin => ?_⟩
    rw [k2, h4 hn hin, List.map_map]
    refine List.map_congr_left fun s _ => ?_
    simp only [Function.comp, nowhere_whereIn]

theorem bankBack_trans (x y z : Bank) (h : BankBack x y) (k : BankBack y z) : BankBack x z where
  unk02 := k.unk02.trans h.unk02
  instruments := k.instruments.trans h.instruments
  waveArchives := fun i v => by
    rw [k.waveArchives, h.waveArchives, and_assoc, and_self]
  waveArchivesEnd := k.waveArchivesEnd
  inaccessible := fun hx => k.inaccessible (h.inaccessible hx)

theorem swarBack_trans (x y z : Swar) (h : SwarBack x y) (k : SwarBack y z) : SwarBack x z :=
  ⟨k.unk02.trans h.unk02, k.waves.trans h.waves⟩

theorem strmBack_trans (x y z : Strm) (h : StrmBack x y) (k : StrmBack y z) : StrmBack x z :=
  ⟨k.unk02.trans h.unk02, k.volume.trans h.volume, k.priority.trans h.priority, k.playerID.trans h.playerID,
    k.unk07.trans h.unk07, k.stream.trans h.stream⟩

theorem playerBack_trans (x y z : SeqPlayer) (h : PlayerBack x y) (k : PlayerBack y z) : PlayerBack x z :=
  ⟨k.maxSequences.trans h.maxSequences, k.heapSize.trans h.heapSize, k.channels.1, fun c => by
    rw [k.channels.2, h.channels.2, and_assoc, and_self]⟩

theorem archiveBack_trans {o t u : Archive} (h : ArchiveBack o t) (k : ArchiveBack t u) : ArchiveBack o u where
  sequences := slots_trans seqBack_trans h.sequences k.sequences
  sequenceArchives := slots_trans ssarBack_trans h.sequenceArchives k.sequenceArchives
  banks := slots_trans bankBack_trans h.banks k.banks
  waveArchives := slots_trans swarBack_trans h.waveArchives k.waveArchives
  sequencePlayers := slots_trans playerBack_trans h.sequencePlayers k.sequencePlayers
  groups := k.groups.trans h.groups
  streamPlayers := k.streamPlayers.trans h.streamPlayers
  streams := slots_trans strmBack_trans h.streams k.streams

theorem ssarBack_names {x y : Ssar} (h : SsarBack x y) :
    y.obj.sequences.map Prod.fst = x.obj.sequences.map Prod.fst := by
  have := congrArg (List.map Prod.fst) h.attributes
  rw [List.map_map, List.map_map] at this
  exact this

theorem namesOf_back {o t : Archive} (h : ArchiveBack o t) : namesOf t = namesOf o := by
  unfold namesOf
  rw [slots_names h.sequences, slots_names h.banks, slots_names h.waveArchives, slots_names h.sequencePlayers, h.groups,
    h.streamPlayers, slots_names h.streams]
  congr 7
  have h2 := h.sequenceArchives
  generalize o.sequenceArchives = l, t.sequenceArchives = l' at h2
  induction h2 with
  | nil => rfl
  | empty h ih =>
    rw [List.flatMap_cons, List.flatMap_cons, ih]
  | item hab h ih =>
    rw [List.flatMap_cons, List.flatMap_cons, ih]
    congr 2
    exact ssarBack_names hab

/-- What is loaded can be loaded again after it is saved. -/
theorem readable_again {o t : Archive} (h : ArchiveBack o t) (hr : Readable o) : Readable t where
  names := by rw [namesOf_back h]; exact hr.names
  groups := by rw [h.groups]; exact hr.groups
  banks := by
    intro n y hy i hi
    obtain ⟨x, hx, hb⟩ := slots_mem h.banks hy
    have h1 : some i.kind ∈ x.obj.instruments.map (Option.map Model.SoundBank.Inst.kind) := by
      rw [← hb.instruments]
      exact List.mem_map.2 ⟨some i, hi, rfl⟩
    obtain ⟨j, hj, e⟩ := List.mem_map.1 h1
    cases j with
    | none => cases e
    | some j =>
      have e := Option.some.inj e
      rw [← e]
      exact hr.banks n x hx j hj
  waves := by
    intro n y hy w hw
    obtain ⟨x, hx, hb⟩ := slots_mem h.waveArchives hy
    rw [hb.waves] at hw
    exact hr.waves n x hx w hw
  streams := by
    intro n y hy
    obtain ⟨x, hx, hb⟩ := slots_mem h.streams hy
    rw [hb.stream]
    exact hr.streams n x hx

/-- One archive is the result of saving and loading the other once or several times. -/
inductive Again (o : Archive) : Archive → Prop
  | once {choose d t} : o.save = .ok d → Archive.load choose d = .ok t → Again o t
  | more {choose d t u} : Again o t → t.save = .ok d → Archive.load choose d = .ok u → Again o u

theorem back_of_load {choose : List Nat → Nat} {o t : Archive} {d : Bytes} (h : o.save = .ok d) (hr : Readable o)
    (hl : Archive.load choose d = .ok t) : ArchiveBack o t := by
  obtain ⟨t', hl', hb⟩ := archive_objects choose h hr
  rw [hl] at hl'
  cases hl'
  exact hb

/-- **C118.** However often an archive is saved and loaded, its objects stay what they are after the first time. -/
theorem archive_objects_again {o t : Archive} (hr : Readable o) (h : Again o t) : ArchiveBack o t ∧ Readable t := by
  induction h with
  | once h1 h2 =>
    have := back_of_load h1 hr h2
    exact ⟨this, readable_again this hr⟩
  | more _ h1 h2 ih =>
    have := back_of_load h1 ih.2 h2
    exact ⟨archiveBack_trans ih.1 this, readable_again this ih.2⟩

/-! ## The bytes -/

/-- No bank has instruments that its table does not point to. -/
def AllAccessible (o : Archive) : Prop := ∀ n x, (n, some x) ∈ o.banks → x.obj.inaccessible = []

theorem accessible_again {o t : Archive} (h : ArchiveBack o t) (ha : AllAccessible o) : AllAccessible t := by
  intro n y hy
  obtain ⟨x, hx, hb⟩ := slots_mem h.banks hy
  exact hb.inaccessible (ha n x hx)

/-- What the objects of a loaded archive save to. -/
theorem items_again {choose : List Nat → Nat} {o t : Archive} {s : SDAT} {d : Bytes} (hi : o.items = .ok s)
    (hs : s.save = .ok d) (hr : Readable o) (ha : AllAccessible o) (hl : Archive.load choose d = .ok t) :
    t.items = .ok (renewOf s) := by
  obtain ⟨hn, hg⟩ := readable_items hi hr
  obtain ⟨b, hb, hc⟩ := archive_round_trip hs hn hg
  obtain ⟨u, hu, _, h⟩ := make_back choose hi hr hc
  have e : t = u := by
    unfold Archive.load at hl
    rw [hb, bind_ok, hu] at hl
    exact (Except.ok.inj hl).symm
  subst e
  rw [h ha, loaded_eq hs hn hg hb]
  have hf : fileNumber s = Proofs.SoundArchive.fileID s := by
    funext x
    rw [← Proofs.SoundArchive.fileNumber_eq]
    unfold Proofs.SoundArchive.fileID
    rfl
  have h4 : ∀ l, fourSlots l = Proofs.SoundArchive.fourSwars l := by
    intro l
    unfold fourSlots Proofs.SoundArchive.fourSwars Proofs.SoundArchive.fourIDs
    rw [List.map_append, List.map_map, List.map_replicate]
    congr 1
    refine List.map_congr_left fun x _ => ?_
    cases x with
    | none => rfl
    | some z => simp
  unfold renewSeq renewSsar renewBank renewSwar renewStrm
  rw [hf]
  simp only [h4]
  rfl

theorem save_items {o : Archive} {d : Bytes} (h : o.save = .ok d) : ∃ s, o.items = .ok s ∧ s.save = .ok d := by
  unfold Archive.save at h
  simp only [bind_eq_ok] at h
  exact h

theorem usual_items {o : Archive} {s : SDAT} (hi : o.items = .ok s) (h1 : o.fileAlignment ∣ 0x200)
    (h2 : ∀ a, o.firstFileAlignment = some a → a ∣ 0x200) : AlignmentsUsual s := by
  obtain ⟨_, _, _, _, _, _, _, _, _, e1, e2, _⟩ := items_ok hi
  exact ⟨by rw [e2]; exact h1, by rw [e1]; exact h2⟩

theorem stored_last {s : SDAT} (hf : usedFiles s ≠ []) : ∃ f, (filesOf s).getLast? = some f :=
  Proofs.SoundArchive.last_some (files_ne hf)

/-- **C119.** Saving a loaded archive gives the same bytes exactly if the settings that were found out lead to the same size
and the same length of the last file. -/
theorem archive_objects_resave_iff {choose : List Nat → Nat} {o t : Archive} {s : SDAT} {d : Bytes} (h : o.save = .ok d)
    (hi : o.items = .ok s) (hr : Readable o) (ha : AllAccessible o) (h1 : o.fileAlignment ∣ 0x200)
    (h2 : ∀ a, o.firstFileAlignment = some a → a ∣ 0x200) (hf : usedFiles s ≠ []) (hl : Archive.load choose d = .ok t) :
    t.save = .ok d ↔ ∃ s', t.items = .ok s' ∧ archiveSize s' = archiveSize s ∧ lastLength s' = lastLength s := by
  obtain ⟨s0, hi0, hs⟩ := save_items h
  rw [hi] at hi0; cases hi0
  have hp := usual_items hi h1 h2
  have ht := items_again hi hs hr ha hl
  obtain ⟨hS, rfl⟩ := save_eq_ok.1 hs
  have hA := hS.align
  obtain ⟨f, hlast⟩ := stored_last hf
  have hne := files_ne hf
  have hI' : ItemsFit (renewOf s) := Proofs.SoundArchive.itemsFit_renew hS.items
  have hfs : filesOf (renewOf s) = filesOf s := Proofs.SoundArchive.filesOf_renew _ _
  have hlast' : (filesOf (renewOf s)).getLast? = some f := by rw [hfs, hlast]
  have hL : lastLength (renewOf s) = lastLength s ↔
      flen (renewOf s).fatLengthsIncludePadding (renewOf s).fileAlignment f =
          flen s.fatLengthsIncludePadding s.fileAlignment f := by
    rw [lastLength_eq, lastLength_eq, hlast, hlast', Option.map_some, Option.map_some, Option.some.injEq]
  have hsv : t.save = (renewOf s).save := by
    unfold Archive.save
    rw [ht, bind_ok]
  rw [hsv]
  constructor
  · intro hs'
    refine ⟨_, ht, ?_⟩
    rw [hL, ← total_size hS.items, ← total_size hI']
    obtain ⟨hS', hd⟩ := save_eq_ok.1 hs'
    have hT : total (renewOf s) = total s := by
      rw [← Proofs.SoundArchive.saved_length hA, ← Proofs.SoundArchive.saved_length hS'.align, hd]
    refine ⟨hT, ?_⟩
    have ho : Proofs.SoundArchive.fatOff (renewOf s) = Proofs.SoundArchive.fatOff s :=
      (Proofs.SoundArchive.fileOff_renew hS.items).2.1
    obtain ⟨p, f', g1, g2, g3, g4⟩ := Proofs.SoundArchive.last_file hne
    have hne' : filesOf (renewOf s) ≠ [] := by rw [hfs]; exact hne
    obtain ⟨p', f'', k1, k2, k3, k4⟩ := Proofs.SoundArchive.last_file hne'
    rw [hlast] at g2; cases g2
    rw [hlast'] at k2; cases k2
    have hlen : (Proofs.SoundArchive.fatEntries (renewOf s)).length = (Proofs.SoundArchive.fatEntries s).length := by
      rw [Proofs.SoundArchive.fatEntries_length, Proofs.SoundArchive.fatEntries_length]
      exact Proofs.SoundArchive.fileCount_renew
    rw [List.getLast?_eq_getElem?] at g4 k4
    rw [hlen] at k4
    have := entries_inj hS.entries hS'.entries hd.symm ho g4 k4
    exact congrArg Prod.snd this
  · rintro ⟨s', hs', hc⟩
    rw [ht] at hs'
    cases hs'
    rw [hL, ← total_size hS.items, ← total_size hI'] at hc
    obtain ⟨h1, h2⟩ := Proofs.SoundArchive.resave_of_last_renew hS hp hlast hc
    exact save_eq_ok.2 ⟨h1, h2.symm⟩

/-- **C119**, partial: saving a loaded archive gives the same bytes if the length of the last file is a multiple of the
alignment that was found out, or if alignment and kind of lengths were found out correctly (and the archive is padded if the
lengths include padding).  Missing: the other archives, for which it is false, see below. -/
theorem archive_objects_resave_partial {choose : List Nat → Nat} {o t : Archive} {s : SDAT} {d : Bytes} (h : o.save = .ok d)
    (hi : o.items = .ok s) (hr : Readable o) (ha : AllAccessible o) (h1 : o.fileAlignment ∣ 0x200)
    (h2 : ∀ a, o.firstFileAlignment = some a → a ∣ 0x200) (hl : Archive.load choose d = .ok t) {f : Bytes}
    (hf : (storedFiles s).getLast? = some f)
    (hc : t.fileAlignment ∣ f.length ∨ (t.fileAlignment = o.fileAlignment ∧
      t.fatLengthsIncludePadding = o.fatLengthsIncludePadding ∧ (o.fatLengthsIncludePadding = true → o.padAtEnd = true))) :
    t.save = .ok d := by
  obtain ⟨s0, hi0, hs⟩ := save_items h
  rw [hi] at hi0; cases hi0
  have hp := usual_items hi h1 h2
  have ht := items_again hi hs hr ha hl
  obtain ⟨hS, rfl⟩ := save_eq_ok.1 hs
  obtain ⟨_, _, _, _, _, _, _, _, b1, b2, b3, b4, _⟩ := items_ok hi
  obtain ⟨_, _, _, _, _, _, _, _, c1, c2, c3, c4, _⟩ := items_ok ht
  rw [← Proofs.SoundArchive.filesOf_eq] at hf
  have : Saveable (renewOf s) ∧ saved (renewOf s) = saved s := by
    refine Proofs.SoundArchive.resave_of_last_renew hS hp hf ?_
    rw [← b1, ← b3, ← b4, ← c1, ← c3] at hc
    rcases hc with hc | ⟨h1, h2, h3⟩
    · exact Proofs.SoundArchive.same_of_aligned_renew hS.items hp hf hc
    · exact Proofs.SoundArchive.same_of_settings_renew hS.items hp hf h1 h2 h3
  unfold Archive.save
  rw [ht, bind_ok]
  exact save_eq_ok.2 ⟨this.1, this.2.symm⟩

/-- **C119.** From the second loading on, saving changes nothing any more. -/
theorem archive_objects_settle {choose : List Nat → Nat} {o t1 t2 : Archive} {d0 d1 d2 : Bytes} (h0 : o.save = .ok d0)
    (hr : Readable o) (ha : AllAccessible o) (a1 : o.fileAlignment ∣ 0x200)
    (a2 : ∀ a, o.firstFileAlignment = some a → a ∣ 0x200) (l0 : Archive.load choose d0 = .ok t1) (h1 : t1.save = .ok d1)
    (l1 : Archive.load choose d1 = .ok t2) (h2 : t2.save = .ok d2) :
    ∃ t3, Archive.load choose d2 = .ok t3 ∧ t3.save = .ok d2 := by
  obtain ⟨s, hi, hs⟩ := save_items h0
  have hp := usual_items hi a1 a2
  have b1 := back_of_load h0 hr l0
  have hr1 := readable_again b1 hr
  have ha1 := accessible_again b1 ha
  have b2 := back_of_load h1 hr1 l1
  have hr2 := readable_again b2 hr1
  have ha2 := accessible_again b2 ha1
  have i1 := items_again hi hs hr ha l0
  have s1 : (renewOf s).save = .ok d1 := by
    unfold Archive.save at h1
    rw [i1, bind_ok] at h1
    exact h1
  have i2 := items_again i1 s1 hr1 ha1 l1
  have s2 : (renewOf (renewOf s)).save = .ok d2 := by
    unfold Archive.save at h2
    rw [i2, bind_ok] at h2
    exact h2
  obtain ⟨t3, l2, _⟩ := archive_objects choose h2 hr2
  have i3 := items_again i2 s2 hr2 ha2 l2
  refine ⟨t3, l2, ?_⟩
  unfold Archive.save
  rw [i3, bind_ok]
  obtain ⟨hS, _⟩ := save_eq_ok.1 hs
  obtain ⟨hS1, _⟩ := save_eq_ok.1 s1
  obtain ⟨hS2, rfl⟩ := save_eq_ok.1 s2
  by_cases hf : usedFiles s = []
  · have h3 : filesOf (renewOf s) = [] := (Proofs.SoundArchive.filesOf_renew _ _).trans (files_nil hf)
    obtain ⟨k1, k2⟩ := Proofs.SoundArchive.resave_empty_renew hS2 hS1.align h3
    exact save_eq_ok.2 ⟨k1, k2.symm⟩
  · obtain ⟨k1, k2⟩ := Proofs.SoundArchive.resave_settles_renew hS2 hS.items hp (files_ne hf)
    exact save_eq_ok.2 ⟨k1, k2.symm⟩

/-! ### Examples -/

theorem exObjects_accessible : AllAccessible exObjects := by
  intro n x h
  cases (List.mem_singleton.1 h)
  rfl

example : exBack.save = .ok exData ∧ AllAccessible exObjects ∧ exObjects.fileAlignment ∣ 0x200 :=
  ⟨by decide +kernel, exObjects_accessible, by decide⟩

/-- Saving, loading and saving again, as often as wanted; the last file that was saved. -/
def resavedObjects (o : Archive) : Nat → Py Bytes
  | 0 => o.save
  | n + 1 => do
    let d ← resavedObjects o n
    let t ← Archive.load (fun _ => 0) d
    t.save

/-- An archive with one sequence of three bytes, not padded at the end. -/
def exShort : Archive := { exObjects with
  sequences := [(none, some ⟨⟨[], some [0x80, 5, 0xFF], false⟩, 0, 1, 2, 3, 4, 5, 6⟩)], sequenceArchives := [], banks := []
  waveArchives := [], streams := [], padAtEnd := false }

/-- **C119** is false of an archive with one item; and the files may differ twice in a row, so
`archive_objects_settle` cannot be improved. -/
theorem objects_resave_differ : ∃ d d' d'', resavedObjects exShort 0 = .ok d ∧ resavedObjects exShort 1 = .ok d' ∧
    resavedObjects exShort 2 = .ok d'' ∧ d ≠ d' ∧ d' ≠ d'' := by
  refine ⟨match resavedObjects exShort 0 with | .ok d => d | .error _ => [], match resavedObjects exShort 1 with | .ok d => d | .error _ => [],
    match resavedObjects exShort 2 with | .ok d => d | .error _ => [], ?_, ?_, ?_, ?_, ?_⟩ <;> decide +kernel

end Verif.Props.SoundArchiveObject
