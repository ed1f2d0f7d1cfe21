import Verif.Proofs.SoundArchiveResave2
import Verif.Proofs.SoundArchiveSize

/-!
# Sound archives: sharing of files, round trip, layout, when saving works (C36, C84–C88)
-/

namespace Verif.Props.SoundArchive

open Verif Verif.Model.Common Verif.Model.SoundArchive Verif.Model.SoundStream Verif.Spec.SoundArchive Verif.Proofs.SoundArchive

attribute [local irreducible] saved loadedFiles loadedFile fileID firstUses allUses

/-! ## Examples -/

/-- An archive with something in every list; two sequences share a file, a wave archive has a file of its own with the same
data as a sequence, and the last file is not aligned. -/
def demo : SDAT where
  sequences := [(some [0x41], some ⟨[1, 2, 3], 0, 0, 7, 100, 64, 50, 1⟩), (none, none), (none, some ⟨[1, 2, 3], 0, 1, 2, 3, 4, 5, 6⟩)]
  sequenceArchives := [(some [0x42, 0x43], some ⟨[4, 5], 0, 0, [none, some [0x44]]⟩)]
  banks := [(some [0xE9], some ⟨[6], 0, 0, [some 0, none]⟩)]
  waveArchives := [(none, some ⟨[1, 2, 3], 9, 0⟩)]
  sequencePlayers := [(none, some ⟨1, [15, 2, 2], 0x1000⟩)]
  groups := [(none, some [⟨0, 1, true, 1, false, true⟩])]
  streamPlayers := [(none, some [3, 4])]
  streams := [(none, some ⟨[7, 7, 7, 7, 7], 0, 0, 127, 64, 2, 0⟩)]
  fatLengthsIncludePadding := false
  firstFileAlignment := none
  fileAlignment := 0x20
  padAtEnd := false
  padSymbSizeTo4InSDATHeader := false

/-- Saving worked. -/
def Saves (s : SDAT) : Prop := ∃ d, s.save = .ok d

instance (s : SDAT) : Decidable (Saves s) :=
  decidable_of_iff ((match s.save with | .ok _ => true | .error _ => false) = true) (by
    unfold Saves
    cases s.save with
    | ok d => simp
    | error e => simp)

example : Saves demo := by decide +kernel

/-! ## C36: which items share a file -/

/-- The IDs that a sequence of files gets, one after the other, and the files in the end. -/
def register : Files → List (Bytes × Int) → List Nat × Files
  | files, [] => ([], files)
  | files, u :: us =>
    let r := addFileAndGetID files u.1 u.2
    let rs := register r.2 us
    (r.1 :: rs.1, rs.2)

theorem register_eq : ∀ (l us : List (Bytes × Int)),
    register (firstUses l) us = (us.map fun u => (firstUses (l ++ us)).idxOf u, firstUses (l ++ us))
  | l, [] => by rw [register, List.append_nil]; rfl
  | l, u :: us => by
    obtain ⟨f, m⟩ := u
    rw [register, addFile_eq]
    dsimp only
    rw [register_eq (l ++ [(f, m)]) us, List.append_assoc, List.singleton_append, List.map_cons]
    dsimp only
    congr 2
    exact (idxOf_firstUses (l := l ++ [(f, m)]) ⟨us, by simp⟩ (by simp)).symm

theorem register_start (us : List (Bytes × Int)) :
    register [] us = (us.map fun u => (firstUses us).idxOf u, firstUses us) := by
  have := register_eq [] us
  rwa [firstUses_nil, List.nil_append] at this

/-- Two items get the same file ID exactly if their data and their merge IDs agree. -/
theorem file_id_shared (us : List (Bytes × Int)) (i j : Nat) (hi : i < us.length) (hj : j < us.length) :
    (register [] us).1[i]? = (register [] us).1[j]? ↔ us[i] = us[j] := by
  rw [register_start]
  dsimp only
  rw [List.getElem?_map, List.getElem?_map, List.getElem?_eq_getElem hi, List.getElem?_eq_getElem hj]
  simp only [Option.map_some, Option.some.injEq]
  constructor
  · intro h
    exact idxOf_inj (mem_firstUses.2 (List.getElem_mem hi)) h (mem_firstUses.2 (List.getElem_mem hj))
  · intro h; rw [h]

/-- The ID of an item refers to its own data. -/
theorem file_id_own (us : List (Bytes × Int)) (i : Nat) (hi : i < us.length) :
    ∃ k, (register [] us).1[i]? = some k ∧ (register [] us).2[k]? = some us[i] := by
  rw [register_start]
  have hm : us[i] ∈ firstUses us := mem_firstUses.2 (List.getElem_mem hi)
  refine ⟨(firstUses us).idxOf us[i], ?_, ?_⟩
  · dsimp only
    rw [List.getElem?_map, List.getElem?_eq_getElem hi]; rfl
  · dsimp only
    have h1 := List.idxOf_lt_length_of_mem hm
    rw [List.getElem?_eq_getElem h1, List.getElem_idxOf]

/-- IDs and files once given stay. -/
theorem file_ids_stay (us more : List (Bytes × Int)) :
    (register [] us).1 <+: (register [] (us ++ more)).1 ∧ (register [] us).2 <+: (register [] (us ++ more)).2 := by
  rw [register_start, register_start]
  refine ⟨?_, firstUses_prefix _ _⟩
  dsimp only
  rw [List.map_append]
  have : us.map (fun u => (firstUses us).idxOf u) = us.map fun u => (firstUses (us ++ more)).idxOf u :=
    List.map_congr_left fun u hu => (idxOf_firstUses (List.prefix_append _ _) hu).symm
  rw [this]
  exact List.prefix_append _ _

/-- No file is stored twice. -/
theorem files_once (us : List (Bytes × Int)) : (register [] us).2.Nodup := by
  rw [register_start]; exact firstUses_nodup _

example : register [] [([1], 0), ([2], 0), ([1], 0), ([1], 5), ([2], 0)] = ([0, 1, 0, 2, 1], [([1], 0), ([2], 0), ([1], 5)]) := by
  decide

/-! ## The round trip -/

/-- No name has a NUL in it. -/
def NamesReadable (s : SDAT) : Prop := ∀ n, some n ∈ namesIn s → 0 ∉ n

/-- The groups have only types and flags that can be read. -/
def GroupsReadable (s : SDAT) : Prop := ∀ n g, (n, some g) ∈ s.groups → ∀ e ∈ g, e.type ≤ 3 ∧ e.loadSBNKSWARsFrom ≤ 1

instance (s : SDAT) : Decidable (NamesReadable s) :=
  decidable_of_iff (∀ x ∈ namesIn s, ∀ n ∈ x.toList, 0 ∉ n) (by
    unfold NamesReadable
    constructor
    · intro h n hn; exact h _ hn n (by simp)
    · intro h x hx n hn
      cases x with
      | none => simp at hn
      | some m => simp at hn; subst hn; exact h n hx)

instance (s : SDAT) : Decidable (GroupsReadable s) :=
  decidable_of_iff (∀ p ∈ s.groups, ∀ g ∈ p.2.toList, ∀ e ∈ g, e.type ≤ 3 ∧ e.loadSBNKSWARsFrom ≤ 1) (by
    unfold GroupsReadable
    constructor
    · intro h n g hg; exact h _ hg g (by simp)
    · rintro h ⟨n, x⟩ hx g hg
      cases x with
      | none => simp at hg
      | some m => simp at hg; subst hg; exact h n g hx)

example : NamesReadable demo ∧ GroupsReadable demo := by decide +kernel

theorem names_iff (s : SDAT) : (∀ x ∈ allSyms s, NameOk x) ↔ NamesReadable s := by
  rw [allSyms_eq]
  constructor
  · intro h n hn; exact h _ hn n rfl
  · rintro h x hx n rfl; exact h n hx

theorem groups_iff (s : SDAT) : GroupsOk s ↔ GroupsReadable s := by
  constructor
  · intro h n g hg; exact h _ hg g rfl
  · rintro h ⟨n, x⟩ hx g rfl; exact h n g hx

theorem load_of_save {s : SDAT} {d : Bytes} (h : s.save = .ok d) (hn : NamesReadable s) (hg : GroupsReadable s) :
    Saveable s ∧ d = saved s ∧ SDAT.load d = .ok (backOf s) := by
  obtain ⟨hS, rfl⟩ := save_eq_ok.1 h
  exact ⟨hS, rfl, load_saved hS ((names_iff s).2 hn) ((groups_iff s).2 hg)⟩

/-- What is read in place of a file: the file itself, or with zeros behind it. -/
def fileRead (s : SDAT) (u : Bytes × Int) : Bytes := (readableFiles s)[fileNumber s u]?.getD []

/-- The four slots for wave archives. -/
def fourSlots (l : List (Option Int)) : List (Option Int) :=
  (l.map fun x => if x = some (-1) then none else x) ++ List.replicate (4 - l.length) none

/-- What comes back: names, numbers and order of all items are the same; merge IDs are file numbers; wave archives of banks
are filled up to four; channels of players are sorted, once each, and those from 16 on are gone. -/
structure ComesBack (s t : SDAT) : Prop where
  sequences : t.sequences = s.sequences.map fun p => (p.1, p.2.map fun x =>
    { x with file := fileRead s (x.file, x.mergeID), mergeID := (fileNumber s (x.file, x.mergeID) : Int) })
  sequenceArchives : t.sequenceArchives = s.sequenceArchives.map fun p => (p.1, p.2.map fun x =>
    { x with file := fileRead s (x.file, x.mergeID), mergeID := (fileNumber s (x.file, x.mergeID) : Int),
             names := if Named s then x.names else [] })
  banks : t.banks = s.banks.map fun p => (p.1, p.2.map fun x =>
    { x with file := fileRead s (x.file, x.mergeID), mergeID := (fileNumber s (x.file, x.mergeID) : Int),
             waveArchiveIDs := fourSlots x.waveArchiveIDs })
  waveArchives : t.waveArchives = s.waveArchives.map fun p => (p.1, p.2.map fun x =>
    { x with file := fileRead s (x.file, x.mergeID), mergeID := (fileNumber s (x.file, x.mergeID) : Int) })
  sequencePlayers : t.sequencePlayers = s.sequencePlayers.map fun p => (p.1, p.2.map fun x =>
    { x with channels := (List.range 16).filter fun i => i ∈ x.channels })
  groups : t.groups = s.groups
  streamPlayers : t.streamPlayers = s.streamPlayers
  streams : t.streams = s.streams.map fun p => (p.1, p.2.map fun x =>
    { x with file := fileRead s (x.file, x.mergeID), mergeID := (fileNumber s (x.file, x.mergeID) : Int) })

theorem fileRead_eq {s : SDAT} (h : AlignOk s) (u : Bytes × Int) : loadedFile s u = fileRead s u := by
  unfold loadedFile fileRead readableFiles
  rw [loadedFiles_eq h, filesOf_eq, fileNumber_eq]

theorem fileID_eq (s : SDAT) (u : Bytes × Int) : fileID s u = fileNumber s u := by
  unfold fileID; exact fileNumber_eq s u

theorem fourSlots_eq {l : List (Option Int)} : fourSwars l = fourSlots l := by
  unfold fourSwars fourIDs fourSlots
  rw [List.map_append, List.map_map, List.map_replicate]
  congr 1
  refine List.map_congr_left fun x _ => ?_
  cases x with
  | none => rfl
  | some z =>
    simp only [Function.comp_apply, Option.getD_some, Option.some.injEq]

theorem comesBack {s : SDAT} {k : Nat} (h : AlignOk s) : ComesBack s (readBack s k) := by
  constructor
  · refine List.map_congr_left fun p _ => ?_
    congr 2; funext x
    unfold backSeq; rw [fileRead_eq h, fileID_eq]
  · refine List.map_congr_left fun p _ => ?_
    congr 2; funext x
    unfold backSsar; rw [fileRead_eq h, fileID_eq]
    congr 1
    by_cases hs : hasSyms s = true
    · rw [if_pos hs, if_pos ((hasSyms_iff s).1 hs)]
    · rw [if_neg hs, if_neg (fun hn => hs ((hasSyms_iff s).2 hn))]
  · refine List.map_congr_left fun p _ => ?_
    congr 2; funext x
    unfold backBank; rw [fileRead_eq h, fileID_eq, fourSlots_eq]
  · refine List.map_congr_left fun p _ => ?_
    congr 2; funext x
    unfold backSwar; rw [fileRead_eq h, fileID_eq]
  · rfl
  · rfl
  · rfl
  · refine List.map_congr_left fun p _ => ?_
    congr 2; funext x
    unfold backStrm; rw [fileRead_eq h, fileID_eq]

/-- **C84.** What is loaded from a saved archive. -/
theorem archive_round_trip {s : SDAT} {d : Bytes} (h : s.save = .ok d) (hn : NamesReadable s) (hg : GroupsReadable s) :
    ∃ t, SDAT.load d = .ok t ∧ ComesBack s t := by
  obtain ⟨hS, rfl, hl⟩ := load_of_save h hn hg
  exact ⟨_, hl, comesBack hS.align⟩

theorem fileRead_exact {s : SDAT} {u : Bytes × Int} (h : s.fatLengthsIncludePadding = false) (hu : u ∈ usedFiles s) :
    fileRead s u = u.1 := by
  unfold fileRead readableFiles
  rw [h, Bool.false_and, padFiles_false]
  unfold storedFiles fileNumber
  have hm := mem_firstUses.2 hu
  have h1 := List.idxOf_lt_length_of_mem hm
  rw [List.getElem?_map, List.getElem?_eq_getElem h1, List.getElem_idxOf]
  rfl

/-- **C84.** If the lengths in the table do not include padding, every item is loaded with exactly its own data. -/
theorem archive_files_exact {s : SDAT} {d : Bytes} (h : s.save = .ok d) (hn : NamesReadable s) (hg : GroupsReadable s)
    (hp : s.fatLengthsIncludePadding = false) : ∃ t, SDAT.load d = .ok t ∧ ComesBack s t ∧
      (usedFiles t).map Prod.fst = (usedFiles s).map Prod.fst := by
  obtain ⟨hS, rfl, hl⟩ := load_of_save h hn hg
  refine ⟨_, hl, comesBack hS.align, ?_⟩
  have : usedFiles (backOf s) = (usedFiles s).map (backUse s) := by
    rw [← allUses_eq, ← allUses_eq]; exact allUses_back s _
  rw [this, List.map_map]
  refine List.map_congr_left fun u hu => ?_
  show loadedFile s u = u.1
  rw [fileRead_eq hS.align, fileRead_exact hp hu]

/-- **C36.** After saving and loading, two items have the same merge ID exactly if their data and merge IDs agreed. -/
theorem archive_sharing {s : SDAT} {d : Bytes} (h : s.save = .ok d) (hn : NamesReadable s) (hg : GroupsReadable s) :
    ∃ t, SDAT.load d = .ok t ∧ (usedFiles t).length = (usedFiles s).length ∧
      ∀ (i j : Nat) (u v u' v' : Bytes × Int), (usedFiles s)[i]? = some u → (usedFiles s)[j]? = some v →
        (usedFiles t)[i]? = some u' → (usedFiles t)[j]? = some v' → (u'.2 = v'.2 ↔ u = v) := by
  obtain ⟨hS, rfl, hl⟩ := load_of_save h hn hg
  have e : usedFiles (backOf s) = (usedFiles s).map (backUse s) := by
    rw [← allUses_eq, ← allUses_eq]; exact allUses_back s _
  refine ⟨_, hl, by rw [e, List.length_map], ?_⟩
  intro i j u v u' v' h1 h2 h3 h4
  rw [e, List.getElem?_map, h1] at h3
  rw [e, List.getElem?_map, h2] at h4
  cases h3; cases h4
  have hu : u ∈ usedFiles s := List.mem_of_getElem? h1
  have hv : v ∈ usedFiles s := List.mem_of_getElem? h2
  show ((fileID s u : Nat) : Int) = ((fileID s v : Nat) : Int) ↔ u = v
  rw [fileID_eq, fileID_eq]
  unfold fileNumber
  constructor
  · intro h
    exact idxOf_inj (mem_firstUses.2 hu) (Int.ofNat_inj.1 h) (mem_firstUses.2 hv)
  · intro h; rw [h]

/-! ## C85: padding in what is loaded -/

theorem padFiles_get {a : Nat} {p q : Bool} : ∀ {fs : List Bytes} {i : Nat} {f : Bytes}, fs[i]? = some f →
    (padFiles a p q fs)[i]? = some (padFile a (if i + 1 = fs.length then q else p) f)
  | [], _, _, h => by cases h
  | [g], 0, f, h => by cases h; rfl
  | [g], i + 1, f, h => by simp at h
  | g :: g' :: fs, 0, f, h => by
    cases h
    rw [padFiles, if_neg (by simp)]
    rfl
  | g :: g' :: fs, i + 1, f, h => by
    rw [List.getElem?_cons_succ] at h
    rw [padFiles, List.getElem?_cons_succ, padFiles_get h]
    simp only [List.length_cons, Nat.add_right_cancel_iff]

/-- **C85.** The data that an item is loaded with is its own data, with zeros up to a multiple of the alignment if the
lengths in the table include padding, except that the last file of the archive gets none if the archive is not padded. -/
theorem archive_file_padding {s : SDAT} {u : Bytes × Int} (hu : u ∈ usedFiles s) :
    fileRead s u = if s.fatLengthsIncludePadding = true ∧ (fileNumber s u + 1 = (storedFiles s).length → s.padAtEnd = true)
      then u.1 ++ zeros (ceilTo s.fileAlignment u.1.length - u.1.length) else u.1 := by
  have hm := mem_firstUses.2 hu
  have h1 := List.idxOf_lt_length_of_mem hm
  have h2 : (storedFiles s)[fileNumber s u]? = some u.1 := by
    unfold storedFiles fileNumber
    rw [List.getElem?_map, List.getElem?_eq_getElem h1, List.getElem_idxOf]
    rfl
  unfold fileRead readableFiles
  rw [padFiles_get h2, Option.getD_some]
  unfold padFile
  cases s.fatLengthsIncludePadding <;> cases s.padAtEnd <;> by_cases hl : fileNumber s u + 1 = (storedFiles s).length <;>
    simp [hl]

example : usedFiles demo = [([1, 2, 3], 0), ([1, 2, 3], 0), ([4, 5], 0), ([6], 0), ([1, 2, 3], 9), ([7, 7, 7, 7, 7], 0)] ∧
    fileRead { demo with fatLengthsIncludePadding := true, fileAlignment := 4 } ([4, 5], 0) = [4, 5, 0, 0] ∧
    fileRead { demo with fatLengthsIncludePadding := true, fileAlignment := 4 } ([7, 7, 7, 7, 7], 0) = [7, 7, 7, 7, 7] := by
  decide +kernel

/-! ## C86: layout -/

/-- The number in a 32-bit field. -/
def u32 (d : Bytes) (o : Nat) : Nat := leVal (slice d o (o + 4))

theorem u32_at {d : Bytes} {o n : Nat} (h : At d o (enBytes .little 4 n)) (hn : n < 2 ^ 32) : u32 d o = n := by
  have h1 := h.unpackU (by omega)
  have hb := h.bound
  rw [enBytes_length] at hb
  rw [unpackU, if_pos hb] at h1
  exact Except.ok.inj h1

theorem u32_of_unpack {d : Bytes} {o n : Nat} (h : unpackU .little 4 d o = .ok n) : u32 d o = n := by
  obtain ⟨h1, h2⟩ := unpackU_eq_ok.1 h
  exact h2.symm

theorem u32_two {d : Bytes} {o a b : Nat} (h : unpackUs .little [4, 4] d o = .ok [a, b]) : u32 d o = a ∧ u32 d (o + 4) = b := by
  simp only [unpackUs, bind_eq_ok, pure_eq_ok] at h
  obtain ⟨v, hv, vs, ⟨w, hw, ws, e1, rfl⟩, e2⟩ := h
  cases e1
  cases e2
  exact ⟨u32_of_unpack hv, u32_of_unpack hw⟩

theorem header_size {d : Bytes} {h : StdHeader} (ha : At d 0 (stdHeaderBytes h)) (hm : h.magic.length = 4) (hs : h.fileSize < 2 ^ 32) :
    u32 d 8 = h.fileSize := by
  unfold stdHeaderBytes at ha
  simp only [At.split, List.length_append, packStr_length, enBytes_length] at ha
  exact u32_at (ha.1.1.2.cast (by omega)) hs

/-- **C86.** The header names the blocks, which follow each other without gaps from the header to the end of the file. -/
theorem archive_layout {s : SDAT} {d : Bytes} (h : s.save = .ok d) :
    d.length = archiveSize s ∧ d.take 4 = [0x53, 0x44, 0x41, 0x54] ∧ u32 d 8 = d.length ∧
    u32 d 0x10 = (if Named s then 0x40 else 0) ∧
    u32 d 0x14 = (if Named s then if s.padSymbSizeTo4InSDATHeader = true then symbolBlockSize s else symbolsSize s else 0) ∧
    u32 d 0x18 = infoStart s ∧ u32 d 0x1C = infoBlockSize s ∧ u32 d 0x20 = fatStart s ∧
    u32 d 0x24 = 0xC + 0x10 * (storedFiles s).length ∧ u32 d 0x28 = filesStart s ∧ u32 d 0x2C = d.length - filesStart s := by
  obtain ⟨hS, rfl⟩ := save_eq_ok.1 h
  have hb := banksOk_of (fieldsFit_of hS.items)
  have hlen : (saved s).length = archiveSize s := by rw [saved_length hS.align, total_eq s hb]
  have hsz := hS.size
  obtain ⟨sg1, sg2, _⟩ := segments s
  have hF := hS.blocks
  unfold blockFields at hF
  obtain ⟨f1, f2, f3, f4, f5, f6, f7, f8, _⟩ := hF
  have hB := sg2
  unfold blockFields at hB
  simp only [structBytes, At.split, enBytes_length] at hB
  obtain ⟨b1, b2, b3, b4, b5, b6, b7, b8, _⟩ := hB
  have hN := hasSyms_iff s
  have hH := sg1
  unfold stdHeaderBytes at hH
  refine ⟨hlen, ?_, ?_, ?_, ?_, ?_, ?_, ?_, ?_, ?_, ?_⟩
  · have hh : At (saved s) 0 magicSDAT := by
      simp only [At.split] at hH
      exact (hH.1.1.1.1.1)
    obtain ⟨a, b, h1, h2⟩ := hh
    have : a = [] := List.eq_nil_of_length_eq_zero h2
    subst this
    rw [h1]; rfl
  · rw [header_size sg1 rfl hsz, hlen]
    exact total_eq s hb
  · rw [u32_at b1 f1]
    by_cases hs : hasSyms s = true
    · rw [if_pos hs, if_pos (hN.1 hs)]
    · rw [if_neg hs, if_neg (fun h => hs (hN.2 h))]
  · rw [u32_at b2 f2]
    unfold symbHeadSize symbolBlockSize
    by_cases hs : hasSyms s = true
    · rw [if_pos hs, if_pos (hN.1 hs), if_pos (hN.1 hs), symbSize_eq]
    · rw [if_neg hs, if_neg (fun h => hs (hN.2 h))]
  · rw [u32_at b3 f3, infoOff_eq]
  · rw [u32_at b4 f4, infoBytes_length s hb]
  · rw [u32_at b5 f5, fatOff_eq s hb]
  · rw [u32_at b6 f6]; unfold fileCount; rw [filesOf_eq]
  · rw [u32_at b7 f7, fileOff_eq s hb]
  · rw [u32_at b8 f8, hlen, total_eq s hb, fileOff_eq s hb]

theorem body_at {a : Nat} (ha : 0 < a) {d : Bytes} : ∀ {fs : List Bytes} {pos i o : Nat} {f : Bytes}, At d pos (body a pos fs) →
    (places a pos fs)[i]? = some o → fs[i]? = some f → At d o f
  | [], _, _, _, _, _, _, h => by cases h
  | g :: gs, pos, 0, o, f, h, ho, hf => by
    cases hf
    rw [places] at ho
    cases ho
    rw [body, At.split, At.split, zeros_length] at h
    exact h.1.2.cast (by have := le_ceilTo (n := pos) ha; omega)
  | g :: gs, pos, i + 1, o, f, h, ho, hf => by
    rw [places, List.getElem?_cons_succ] at ho
    rw [List.getElem?_cons_succ] at hf
    rw [body, At.split, List.length_append, zeros_length] at h
    exact body_at ha (h.2.cast (by have := le_ceilTo (n := pos) ha; omega)) ho hf

theorem zeros_at {d : Bytes} {o n k : Nat} (h : At d o (zeros n)) (h1 : o ≤ k) (h2 : k < o + n) : d[k]? = some 0 := by
  have := h.getElem? (i := k - o) (by rw [zeros_length]; omega)
  rw [show o + (k - o) = k by omega] at this
  rw [this]
  unfold zeros
  rw [List.getElem?_replicate, if_pos (by omega)]

theorem body_zero {a : Nat} (ha : 0 < a) {d : Bytes} : ∀ {fs : List Bytes} {pos k : Nat}, At d pos (body a pos fs) → pos ≤ k →
    k < bodyEnd a pos fs →
    (∀ (i o : Nat) (f : Bytes), (places a pos fs)[i]? = some o → fs[i]? = some f → ¬(o ≤ k ∧ k < o + f.length)) → d[k]? = some 0
  | [], _, _, _, h1, h2, _ => by rw [bodyEnd] at h2; omega
  | g :: gs, pos, k, h, h1, h2, h3 => by
    have hle := le_ceilTo (n := pos) ha
    rw [body, At.split, At.split, List.length_append, zeros_length] at h
    rw [bodyEnd] at h2
    by_cases hk : k < ceilTo a pos
    · exact zeros_at h.1.1 h1 (by omega)
    · have h0 := h3 0 (ceilTo a pos) g rfl rfl
      exact body_zero ha (h.2.cast (by omega)) (by omega) h2 fun i o f ho hf => h3 (i + 1) o f ho hf

/-- **C86.** The table names every stored file once, in order, at its aligned place; the data of the file is there; the
bytes between the files and behind them are zeros. -/
theorem archive_files {s : SDAT} {d : Bytes} (h : s.save = .ok d) :
    u32 d (fatStart s + 8) = (storedFiles s).length ∧ u32 d (filesStart s + 8) = (storedFiles s).length ∧
    (∀ (i o : Nat) (f : Bytes), (filePlaces s)[i]? = some o → (storedFiles s)[i]? = some f →
      u32 d (fatStart s + 0xC + 0x10 * i) = o ∧ u32 d (fatStart s + 0xC + 0x10 * i + 4) = tableLength s f ∧
      s.fileAlignment ∣ o ∧ slice d o (o + f.length) = f) ∧
    ∀ k, filesStart s + 0xC ≤ k → k < d.length →
      (∀ (i o : Nat) (f : Bytes), (filePlaces s)[i]? = some o → (storedFiles s)[i]? = some f → ¬(o ≤ k ∧ k < o + f.length)) →
      d[k]? = some 0 := by
  obtain ⟨hS, rfl⟩ := save_eq_ok.1 h
  have hb := banksOk_of (fieldsFit_of hS.items)
  have hA := hS.align
  have hlen := saved_length hA
  have h1 := saved_body hA
  have hf7 : fileCount s = (storedFiles s).length := by unfold fileCount; rw [filesOf_eq]
  have hplaces : filePlaces s = offs s := (offs_eq s hb).symm
  have hcl := count_lt hS.blocks
  have hsf := (segments s).file
  unfold fileBytes at hsf
  rw [At.split, At.split, At.split, At.split] at hsf
  rw [← fatOff_eq s hb, ← fileOff_eq s hb, ← hf7, hplaces, ← filesOf_eq]
  refine ⟨u32_of_unpack (saved_fat hS.blocks).2.2, ?_, ?_, ?_⟩
  · have h3 := hsf.1.1.1.2
    simp only [structBytes, At.split, enBytes_length] at h3
    exact u32_at (h3.2.1.cast (by show fileOff s + 4 + 4 = _; omega)) (by omega)
  · intro i o f ho hf
    have hfe : (fatEntries s)[i]? = some (o, fatLen s f) := by
      unfold fatEntries
      rw [List.getElem?_map, List.getElem?_zip_eq_some (z := (o, f)).2 ⟨ho, hf⟩]; rfl
    have hr := fatEntry_read hS.entries hfe
    rw [Nat.zero_add] at hr
    obtain ⟨r1, r2⟩ := u32_two hr
    have hne : filesOf s ≠ [] := by intro e; rw [e] at hf; cases hf
    have ha := hA.2.2 hne
    refine ⟨r1, ?_, ?_, ?_⟩
    · rw [r2]; rfl
    · have : o ∈ offs s := List.mem_of_getElem? ho
      exact places_dvd _ this
    · exact (body_at ha (At.split.1 h1).1 ho hf).slice_eq rfl
  · intro k hk hk2 hno
    rw [hlen] at hk2
    by_cases hk3 : k < firstPos s
    · have h4 := hsf.1.1.2
      rw [List.length_append, structBytes_length] at h4
      refine zeros_at (h4.cast (show fileOff s + (4 + 8) = fileOff s + 12 by omega)) hk ?_
      have := firstPos_ge hA.1
      omega
    · by_cases hk4 : k < endPos s
      · by_cases hne : filesOf s = []
        · unfold endPos at hk4
          rw [hne, bodyEnd] at hk4
          exact absurd hk4 hk3
        · exact body_zero (hA.2.2 hne) (At.split.1 h1).1 (by omega) hk4 hno
      · have h5 := (At.split.1 h1).2
        rw [body_length' hA.2.2] at h5
        exact zeros_at h5 (by omega) (by omega)

end Verif.Props.SoundArchive
