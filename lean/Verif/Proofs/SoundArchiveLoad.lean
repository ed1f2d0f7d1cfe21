import Verif.Proofs.SoundArchiveSave

/-!
# Loading a saved sound archive
-/

namespace Verif.Proofs.SoundArchive

open Verif Verif.Model.Common Verif.Model.SoundArchive Verif.Model.SoundStream Verif.Spec.SoundArchive

/-! ## Where everything is -/

structure Segments (s : SDAT) : Prop where
  header : At (saved s) 0 (stdHeaderBytes (stdHeader s))
  blocks : At (saved s) 0x10 (structBytes .little (blockFields s))
  symb : At (saved s) 0x40 (symbData s)
  info : At (saved s) (infoOff s) (infoBytes s)
  fat : At (saved s) (fatOff s) (fatBytes s)
  file : At (saved s) (fileOff s) (fileBytes s)

theorem stdHeaderBytes_length (s : SDAT) : (stdHeaderBytes (stdHeader s)).length = 0x10 := by
  simp [stdHeaderBytes, packStr_length]

theorem blockFields_length (s : SDAT) : (structBytes .little (blockFields s)).length = 0x20 := by
  rw [structBytes_length]; rfl

theorem segments (s : SDAT) : Segments s := by
  have h : At (saved s) 0 (stdHeaderBytes (stdHeader s) ++ structBytes .little (blockFields s) ++ zeros 0x10 ++ symbData s ++
    infoBytes s ++ fatBytes s ++ fileBytes s) := At.refl _
  simp only [At.split, List.length_append, stdHeaderBytes_length, blockFields_length, zeros_length, fatBytes_length] at h
  obtain ⟨⟨⟨⟨⟨⟨h1, h2⟩, _⟩, h4⟩, h5⟩, h6⟩, h7⟩ := h
  refine ⟨h1, h2, h4, ?_, ?_, ?_⟩
  · exact h5.cast (by unfold infoOff; omega)
  · exact h6.cast (by unfold fatOff infoOff; omega)
  · exact h7.cast (by unfold fileOff fatOff infoOff; omega)

theorem saved_length {s : SDAT} (h : AlignOk s) : (saved s).length = total s := by
  unfold saved
  have h1 := fileOff_le_total h
  have h2 : 0x40 + (symbData s).length + (infoBytes s).length + (0xC + 0x10 * fileCount s) = fileOff s := rfl
  simp only [List.length_append, stdHeaderBytes_length, blockFields_length, zeros_length, fatBytes_length, fileBytes_length h]
  omega

/-- The parts of the INFO block. -/
structure InfoSegments (s : SDAT) (data : Bytes) (base : Nat) : Prop where
  magic : At data base magicINFO
  size : At data (base + 4) (enBytes .little 4 (0x40 + (body8 s).length))
  heads : At data (base + 8) (table (infoHeads s))
  p0 : At data (base + (0x40 + body0.length)) (partBytes (0x40 + body0.length) (part0 s))
  p1 : At data (base + (0x40 + (body1 s).length)) (partBytes (0x40 + (body1 s).length) (part1 s))
  p2 : At data (base + (0x40 + (body2 s).length)) (partBytes (0x40 + (body2 s).length) (part2 s))
  p3 : At data (base + (0x40 + (body3 s).length)) (partBytes (0x40 + (body3 s).length) (part3 s))
  p4 : At data (base + (0x40 + (body4 s).length)) (partBytes (0x40 + (body4 s).length) (part4 s))
  p5 : At data (base + (0x40 + (body5 s).length)) (partBytes (0x40 + (body5 s).length) (part5 s))
  p6 : At data (base + (0x40 + (body6 s).length)) (partBytes (0x40 + (body6 s).length) (part6 s))
  p7 : At data (base + (0x40 + (body7 s).length)) (partBytes (0x40 + (body7 s).length) (part7 s))

theorem infoSegments {s : SDAT} {data : Bytes} {base : Nat} (h : At data base (infoBytes s)) : InfoSegments s data base := by
  unfold infoBytes at h
  rw [At.split, At.split, At.split, At.split] at h
  simp only [List.length_append, enBytes_length, table_length, zeros_length] at h
  obtain ⟨⟨⟨⟨h1, h2⟩, h3⟩, _⟩, h8⟩ := h
  have h8 : At data (base + 0x40) (body8 s) := h8
  have h8 : At data (base + 0x40) (body7 s ++ partBytes (0x40 + (body7 s).length) (part7 s)) := h8
  obtain ⟨h8, q7⟩ := At.split.1 h8
  have h8 : At data (base + 0x40) (body6 s ++ partBytes (0x40 + (body6 s).length) (part6 s)) := h8
  obtain ⟨h8, q6⟩ := At.split.1 h8
  have h8 : At data (base + 0x40) (body5 s ++ partBytes (0x40 + (body5 s).length) (part5 s)) := h8
  obtain ⟨h8, q5⟩ := At.split.1 h8
  have h8 : At data (base + 0x40) (body4 s ++ partBytes (0x40 + (body4 s).length) (part4 s)) := h8
  obtain ⟨h8, q4⟩ := At.split.1 h8
  have h8 : At data (base + 0x40) (body3 s ++ partBytes (0x40 + (body3 s).length) (part3 s)) := h8
  obtain ⟨h8, q3⟩ := At.split.1 h8
  have h8 : At data (base + 0x40) (body2 s ++ partBytes (0x40 + (body2 s).length) (part2 s)) := h8
  obtain ⟨h8, q2⟩ := At.split.1 h8
  have h8 : At data (base + 0x40) (body1 s ++ partBytes (0x40 + (body1 s).length) (part1 s)) := h8
  obtain ⟨h8, q1⟩ := At.split.1 h8
  have h8 : At data (base + 0x40) (body0 ++ partBytes (0x40 + body0.length) (part0 s)) := h8
  obtain ⟨h8, q0⟩ := At.split.1 h8
  exact ⟨h1, h2, h3, q0.cast (by omega), q1.cast (by omega), q2.cast (by omega), q3.cast (by omega), q4.cast (by omega), q5.cast (by omega), q6.cast (by omega), q7.cast (by omega)⟩

theorem infoHeads_lt {s : SDAT} (h : PartsFit s) : ∀ n ∈ infoHeads s, n < 2 ^ 32 := by
  have := h.total
  intro n hn
  simp only [infoHeads, List.mem_cons, List.not_mem_nil, or_false] at hn
  rcases hn with rfl | rfl | rfl | rfl | rfl | rfl | rfl | rfl
  · exact h.p0.1
  · exact h.p1.1
  · exact h.p2.1
  · exact h.p3.1
  · exact h.p4.1
  · exact h.p5.1
  · exact h.p6.1
  · exact h.p7.1

/-! ## The files -/

/-- The files as they are loaded. -/
def loadedFiles (s : SDAT) : List Bytes := (fatEntries s).map fun e => slice (saved s) e.1 (e.1 + e.2)

/-- The loaded file in place of the file that an item uses. -/
def loadedFile (s : SDAT) (u : Bytes × Int) : Bytes := (loadedFiles s)[(firstUses (allUses s)).idxOf u]?.getD []

theorem loadedFiles_length (s : SDAT) : (loadedFiles s).length = (firstUses (allUses s)).length := by
  rw [loadedFiles, List.length_map, fatEntries_length, fileCount, filesOf, List.length_map]

theorem loadedFile_get {s : SDAT} {u : Bytes × Int} (h : u ∈ allUses s) :
    (loadedFiles s)[(firstUses (allUses s)).idxOf u]? = some (loadedFile s u) := by
  have h1 : (firstUses (allUses s)).idxOf u < (loadedFiles s).length := by
    rw [loadedFiles_length]
    exact List.idxOf_lt_length_of_mem (mem_firstUses.2 h)
  unfold loadedFile
  rw [List.getElem?_eq_getElem h1]
  rfl

theorem fatEntry_at {data : Bytes} {o k i : Nat} {e : Nat × Nat} (h : At data (o + k + i * 16) (fatEntry e.1 e.2)) (hk : k = 12)
    (h1 : e.1 < 2 ^ 32) (h2 : e.2 < 2 ^ 32) : unpackUs .little [4, 4] data (o + 0xC + 0x10 * (0 + i)) = .ok [e.1, e.2] := by
  have h5 : At data (o + 0xC + 0x10 * (0 + i)) (structBytes .little [(4, e.1), (4, e.2)]) :=
    (At.split.1 h).1.cast (by omega)
  exact unpackUs_at h5 ⟨h1, h2, trivial⟩

theorem fatEntry_read {s : SDAT} (h : ∀ e ∈ fatEntries s, e.1 < 2 ^ 32 ∧ e.2 < 2 ^ 32) {i : Nat} {e : Nat × Nat}
    (he : (fatEntries s)[i]? = some e) :
    unpackUs .little [4, 4] (saved s) (fatOff s + 0xC + 0x10 * (0 + i)) = .ok [e.1, e.2] := by
  have h1 := (segments s).fat
  unfold fatBytes at h1
  rw [At.split] at h1
  have h2 := h1.2
  rw [List.length_append, structBytes_length] at h2
  obtain ⟨hi, rfl⟩ := List.getElem?_eq_some_iff.1 he
  have h3 := flatten_at (n := 0x10) (parts := (fatEntries s).map fun e => fatEntry e.1 e.2)
    (by intro p hp; obtain ⟨e, _, rfl⟩ := List.mem_map.1 hp; exact fatEntry_length _ _) (i := i) (by simpa using hi)
  have h4 := h2.sub h3
  rw [List.getElem_map] at h4
  exact fatEntry_at h4 rfl (h _ (List.getElem_mem hi)).1 (h _ (List.getElem_mem hi)).2

/-! ## The archive that is loaded -/

/-- The number of the file that an item uses. -/
def fileID (s : SDAT) (u : Bytes × Int) : Nat := (firstUses (allUses s)).idxOf u

def backSeq (s : SDAT) (x : SeqItem) : SeqItem :=
  { x with file := loadedFile s (x.file, x.mergeID), mergeID := (fileID s (x.file, x.mergeID) : Int) }

def backSsar (s : SDAT) (names : List Symbol) (x : SsarItem) : SsarItem :=
  { x with file := loadedFile s (x.file, x.mergeID), mergeID := (fileID s (x.file, x.mergeID) : Int), names := names }

def backBank (s : SDAT) (x : BankItem) : BankItem :=
  { x with file := loadedFile s (x.file, x.mergeID), mergeID := (fileID s (x.file, x.mergeID) : Int), waveArchiveIDs := fourSwars x.waveArchiveIDs }

def backSwar (s : SDAT) (x : SwarItem) : SwarItem :=
  { x with file := loadedFile s (x.file, x.mergeID), mergeID := (fileID s (x.file, x.mergeID) : Int) }

def backPlayer (x : SeqPlayer) : SeqPlayer := { x with channels := (List.range 16).filter fun i => i ∈ x.channels }

def backStrm (s : SDAT) (x : StrmItem) : StrmItem :=
  { x with file := loadedFile s (x.file, x.mergeID), mergeID := (fileID s (x.file, x.mergeID) : Int) }

/-- What the loop over the files finds out. -/
def fatState (s : SDAT) : FatState := fatResult (saved s) 0 (fatEntries s) ⟨[], 0x200, none, true, fileOff s + 8⟩

/-- The archive that is loaded from a saved one. -/
def readBack (s : SDAT) (last : Nat) : SDAT where
  sequences := s.sequences.map fun p => (p.1, p.2.map (backSeq s))
  sequenceArchives := s.sequenceArchives.map fun p => (p.1, p.2.map fun x => backSsar s (if hasSyms s = true then x.names else []) x)
  banks := s.banks.map fun p => (p.1, p.2.map (backBank s))
  waveArchives := s.waveArchives.map fun p => (p.1, p.2.map (backSwar s))
  sequencePlayers := s.sequencePlayers.map fun p => (p.1, p.2.map backPlayer)
  groups := s.groups
  streamPlayers := s.streamPlayers
  streams := s.streams.map fun p => (p.1, p.2.map (backStrm s))
  fatLengthsIncludePadding := (fatState s).lengthsIncludePadding
  firstFileAlignment := if (fatState s).firstFileAlignment = some (fatState s).fileAlignment then none else (fatState s).firstFileAlignment
  fileAlignment := (fatState s).fileAlignment
  padAtEnd := ! decide ((fatState s).finalFileEnd = (saved s).length ∧ (fatState s).finalFileEnd % (fatState s).fileAlignment ≠ 0)
  padSymbSizeTo4InSDATHeader := decide (symbHeadSize s % 4 = 0 ∧ last % 4 ≠ 0)

theorem map_id_snd {α : Type} (l : List (Symbol × Option α)) : (l.map fun p => (p.1, p.2.map fun x => x)) = l := by
  conv => rhs; rw [← List.map_id l]
  refine List.map_congr_left fun p _ => ?_
  simp

theorem mem_usesOf {α : Type} {c : Codec α} {items : List (Option α)} {x : α} {u : Bytes × Int} (h : some x ∈ items)
    (hu : u ∈ c.use x) : u ∈ usesOf c items :=
  List.mem_flatMap.2 ⟨some x, h, hu⟩

/-- Groups with known types only. -/
def GroupsOk (s : SDAT) : Prop :=
  ∀ p ∈ s.groups, ∀ g, p.2 = some g → ∀ e ∈ g, e.type ≤ 3 ∧ e.loadSBNKSWARsFrom ≤ 1

/-- The offset of the SYMB block. -/
def symbPlace (s : SDAT) : Nat := if hasSyms s = true then 0x40 else 0

theorem saved_blocks {s : SDAT} (h : Fits (blockFields s)) :
    unpackUs .little [4, 4, 4, 4, 4, 4, 4, 4] (saved s) 0x10 = .ok [symbPlace s, symbHeadSize s, infoOff s,
    (infoBytes s).length, fatOff s, 0xC + 0x10 * fileCount s, fileOff s, total s - fileOff s] := by
  have := unpackUs_at (segments s).blocks h
  simp only [blockFields, List.map_cons, List.map_nil] at this
  exact this

theorem saved_heads {s : SDAT} (h : PartsFit s) :
    unpackUs .little [4, 4, 4, 4, 4, 4, 4, 4] (saved s) (infoOff s + 8) = .ok (infoHeads s) :=
  table_read (infoSegments (segments s).info).heads (infoHeads_lt h)

theorem fat_at {data : Bytes} {o a b : Nat} {t : Bytes}
    (h : At data o (magicFAT ++ structBytes .little [(4, a), (4, b)] ++ t)) (ha : a < 2 ^ 32) (hb : b < 2 ^ 32) :
    unpackStr 4 data o = .ok magicFAT ∧ unpackU .little 4 data (o + 4) = .ok a ∧ unpackU .little 4 data (o + 8) = .ok b := by
  rw [At.split, At.split] at h
  have h3 : At data (o + 4) (enBytes .little 4 a ++ (enBytes .little 4 b ++ [])) := h.1.2
  rw [At.split, At.split, enBytes_length] at h3
  exact ⟨h.1.1.unpackStr rfl, h3.1.unpackU ha, h3.2.1.unpackU hb⟩

theorem count_lt {s : SDAT} (h : Fits (blockFields s)) : 0xC + 0x10 * fileCount s < 2 ^ 32 := by
  have h1 : 0xC + 0x10 * fileCount s < 256 ^ 4 := by
    unfold blockFields at h
    exact h.2.2.2.2.2.1
  omega

theorem saved_fat {s : SDAT} (h : Fits (blockFields s)) :
    unpackStr 4 (saved s) (fatOff s) = .ok magicFAT ∧
      unpackU .little 4 (saved s) (fatOff s + 4) = .ok (0xC + 0x10 * fileCount s) ∧
      unpackU .little 4 (saved s) (fatOff s + 8) = .ok (fileCount s) := by
  have h1 := count_lt h
  have h2 := (segments s).fat
  unfold fatBytes at h2
  refine fat_at h2 h1 ?_
  omega

theorem fatState_files (s : SDAT) : (fatState s).files = loadedFiles s := by
  unfold fatState fatResult loadedFiles
  exact List.nil_append _

theorem saved_files {s : SDAT} (h : ∀ e ∈ fatEntries s, e.1 < 2 ^ 32 ∧ e.2 < 2 ^ 32) :
    readFiles (saved s) (fatOff s) (fileCount s) (List.range (fileCount s)) ⟨[], 0x200, none, true, fileOff s + 8⟩ =
      .ok (fatState s) := by
  have := readFiles_eq (data := saved s) (fat := fatOff s) (count := fileCount s) (es := fatEntries s) (k := 0)
    (s := ⟨[], 0x200, none, true, fileOff s + 8⟩) (fun i e he => fatEntry_read h he)
    (by rw [fatEntries_length]; omega)
  rw [fatEntries_length, ← List.range_eq_range'] at this
  exact this

theorem saved_header {s : SDAT} (h : total s < 2 ^ 32) : unpackStdHeader (saved s) 0 = .ok (stdHeader s) := by
  refine unpackStdHeader_at (segments s).header ?_ rfl
  refine ⟨(by decide : (0xFEFF : Nat) < 2 ^ 16), (by decide : (0x100 : Nat) < 2 ^ 16), h,
      (by decide : (0x40 : Nat) < 2 ^ 16), ?_⟩
  show (if hasSyms s = true then 4 else 3) < 2 ^ 16
  split <;> decide

theorem mem_uses0 {s : SDAT} : ∀ x, some x ∈ s.sequences.map Prod.snd → (x.file, x.mergeID) ∈ allUses s := by
  intro x hx
  have : (x.file, x.mergeID) ∈ uses0 s := mem_usesOf hx (by simp [seqCodec])
  simp only [allUses, List.mem_append, this, true_or, or_true]

theorem mem_uses1 {s : SDAT} : ∀ x, some x ∈ s.sequenceArchives.map Prod.snd → (x.file, x.mergeID) ∈ allUses s := by
  intro x hx
  have : (x.file, x.mergeID) ∈ uses1 s := mem_usesOf hx (by simp [ssarCodec])
  simp only [allUses, List.mem_append, this, true_or, or_true]

theorem mem_uses2 {s : SDAT} : ∀ x, some x ∈ s.banks.map Prod.snd → (x.file, x.mergeID) ∈ allUses s := by
  intro x hx
  have : (x.file, x.mergeID) ∈ uses2 s := mem_usesOf hx (by simp [bankCodec])
  simp only [allUses, List.mem_append, this, true_or, or_true]

theorem mem_uses3 {s : SDAT} : ∀ x, some x ∈ s.waveArchives.map Prod.snd → (x.file, x.mergeID) ∈ allUses s := by
  intro x hx
  have : (x.file, x.mergeID) ∈ uses3 s := mem_usesOf hx (by simp [swarCodec])
  simp only [allUses, List.mem_append, this, true_or, or_true]

theorem mem_uses7 {s : SDAT} : ∀ x, some x ∈ s.streams.map Prod.snd → (x.file, x.mergeID) ∈ allUses s := by
  intro x hx
  have : (x.file, x.mergeID) ∈ uses7 s := mem_usesOf hx (by simp [strmCodec])
  simp only [allUses, List.mem_append, this, true_or, or_true]

theorem saved_part0 {s : SDAT} (hI : ItemsFit s) (hP : PartsFit s) {o : Option Nat} {l l' k : Nat} {y : List Symbol}
    (hr : readSymbolsOpt (saved s) (symbPlace s) o l = .ok (y, l')) (hs : y = symbolsOf s.sequences ∨ (y = [] ∧ ∀ p ∈ s.sequences, p.1 = none)) :
    readPart (readSeq (saved s) (loadedFiles s)) (saved s) (symbPlace s) o (infoOff s) (0x40 + body0.length) l =
      .ok ((readBack s k).sequences, l') := by
  have := readPart_at (norm := backSeq s) hr hs (infoSegments (segments s).info).p0 hP.p0 (fun x hx o ho =>
    readSeq_at ho (hI.f0 x hx) (loadedFile_get (mem_uses0 x hx)))
  exact this

theorem saved_part1 {s : SDAT} (hI : ItemsFit s) (hP : PartsFit s) {o : Option Nat} {l l' k : Nat} {y : List (Symbol × List Symbol)}
    (hnames : y = [] → hasSyms s = true → s.sequenceArchives = []) (hnames' : hasSyms s = false → y = [])
    (hr : readNestedOpt (saved s) (symbPlace s) o l = .ok (y, l')) (hs : y = s.sequenceArchives.map (fun p => (p.1, (p.2.map SsarItem.names).getD [])) ∨ (y = [] ∧ ∀ p ∈ s.sequenceArchives, p.1 = none)) :
    readSsars (saved s) (loadedFiles s) (symbPlace s) o (infoOff s) (0x40 + (body1 s).length) l =
      .ok ((readBack s k).sequenceArchives, l') := by
  rw [readSsars_at (norm := backSsar s) hr hs (infoSegments (segments s).info).p1 hP.p1 (fun x hx names o ho =>
    readSsar_at ho (hI.f1 x hx) (loadedFile_get (mem_uses1 x hx)))]
  congr 2
  refine List.map_congr_left fun p hp => ?_
  congr 1
  cases p.2 with
  | none => rfl
  | some x =>
    rw [Option.map_some, Option.map_some]
    congr 2
    by_cases hh : hasSyms s = true
    · have hne : y ≠ [] := fun h => by rw [hnames h hh] at hp; simp at hp
      rw [if_neg hne, if_pos hh]
    · rw [if_pos (hnames' (by simpa using hh)), if_neg hh]

theorem saved_part2 {s : SDAT} (hI : ItemsFit s) (hP : PartsFit s) {o : Option Nat} {l l' k : Nat} {y : List Symbol}
    (hr : readSymbolsOpt (saved s) (symbPlace s) o l = .ok (y, l')) (hs : y = symbolsOf s.banks ∨ (y = [] ∧ ∀ p ∈ s.banks, p.1 = none)) :
    readPart (readBank (saved s) (loadedFiles s)) (saved s) (symbPlace s) o (infoOff s) (0x40 + (body2 s).length) l =
      .ok ((readBack s k).banks, l') := by
  have := readPart_at (norm := backBank s) hr hs (infoSegments (segments s).info).p2 hP.p2 (fun x hx o ho =>
    readBank_at ho (hI.f2 x hx) (loadedFile_get (mem_uses2 x hx)))
  exact this

theorem saved_part3 {s : SDAT} (hI : ItemsFit s) (hP : PartsFit s) {o : Option Nat} {l l' k : Nat} {y : List Symbol}
    (hr : readSymbolsOpt (saved s) (symbPlace s) o l = .ok (y, l')) (hs : y = symbolsOf s.waveArchives ∨ (y = [] ∧ ∀ p ∈ s.waveArchives, p.1 = none)) :
    readPart (readSwar (saved s) (loadedFiles s)) (saved s) (symbPlace s) o (infoOff s) (0x40 + (body3 s).length) l =
      .ok ((readBack s k).waveArchives, l') := by
  have := readPart_at (norm := backSwar s) hr hs (infoSegments (segments s).info).p3 hP.p3 (fun x hx o ho =>
    readSwar_at ho (hI.f3 x hx) (loadedFile_get (mem_uses3 x hx)))
  exact this

theorem saved_part4 {s : SDAT} (hI : ItemsFit s) (hP : PartsFit s) {o : Option Nat} {l l' k : Nat} {y : List Symbol}
    (hr : readSymbolsOpt (saved s) (symbPlace s) o l = .ok (y, l')) (hs : y = symbolsOf s.sequencePlayers ∨ (y = [] ∧ ∀ p ∈ s.sequencePlayers, p.1 = none)) :
    readPart (readPlayer (saved s)) (saved s) (symbPlace s) o (infoOff s) (0x40 + (body4 s).length) l =
      .ok ((readBack s k).sequencePlayers, l') := by
  have := readPart_at (norm := backPlayer) hr hs (infoSegments (segments s).info).p4 hP.p4 (fun x hx o ho =>
    readPlayer_at ho (hI.f4 x hx))
  exact this

theorem saved_part5 {s : SDAT} (hI : ItemsFit s) (hP : PartsFit s) (hg : GroupsOk s) {o : Option Nat} {l l' k : Nat} {y : List Symbol}
    (hr : readSymbolsOpt (saved s) (symbPlace s) o l = .ok (y, l')) (hs : y = symbolsOf s.groups ∨ (y = [] ∧ ∀ p ∈ s.groups, p.1 = none)) :
    readPart (unpackGroup (saved s)) (saved s) (symbPlace s) o (infoOff s) (0x40 + (body5 s).length) l =
      .ok ((readBack s k).groups, l') := by
  have := readPart_at (norm := fun x => x) hr hs (infoSegments (segments s).info).p5 hP.p5 (fun x hx o ho =>
    readGroup_at ho (hI.f5 x hx) (by
      obtain ⟨p, hp, hpx⟩ := List.mem_map.1 hx
      exact hg p hp x hpx))
  rw [map_id_snd] at this
  exact this

theorem saved_part6 {s : SDAT} (hI : ItemsFit s) (hP : PartsFit s) {o : Option Nat} {l l' k : Nat} {y : List Symbol}
    (hr : readSymbolsOpt (saved s) (symbPlace s) o l = .ok (y, l')) (hs : y = symbolsOf s.streamPlayers ∨ (y = [] ∧ ∀ p ∈ s.streamPlayers, p.1 = none)) :
    readPart (readStreamPlayer (saved s)) (saved s) (symbPlace s) o (infoOff s) (0x40 + (body6 s).length) l =
      .ok ((readBack s k).streamPlayers, l') := by
  have := readPart_at (norm := fun x => x) hr hs (infoSegments (segments s).info).p6 hP.p6 (fun x hx o ho =>
    readStreamPlayer_at ho (hI.f6 x hx))
  rw [map_id_snd] at this
  exact this

theorem saved_part7 {s : SDAT} (hI : ItemsFit s) (hP : PartsFit s) {o : Option Nat} {l l' k : Nat} {y : List Symbol}
    (hr : readSymbolsOpt (saved s) (symbPlace s) o l = .ok (y, l')) (hs : y = symbolsOf s.streams ∨ (y = [] ∧ ∀ p ∈ s.streams, p.1 = none)) :
    readPart (readStrm (saved s) (loadedFiles s)) (saved s) (symbPlace s) o (infoOff s) (0x40 + (body7 s).length) l =
      .ok ((readBack s k).streams, l') := by
  have := readPart_at (norm := backStrm s) hr hs (infoSegments (segments s).info).p7 hP.p7 (fun x hx o ho =>
    readStrm_at ho (hI.f7 x hx) (loadedFile_get (mem_uses7 x hx)))
  exact this

theorem load_core {s : SDAT} (hS : Saveable s) (hg : GroupsOk s) {O : List Nat} {l1 l2 l3 l4 l5 l6 l7 l8 : Nat}
    {y0 y2 y3 y4 y5 y6 y7 : List Symbol} {y1 : List (Symbol × List Symbol)} {m : Bytes}
    (hm : unpackStr 4 (saved s) (symbPlace s) = .ok m) {k : Nat} (hk : unpackU .little 4 (saved s) (symbPlace s + 4) = .ok k)
    (hO : symbolOffsets (saved s) (symbPlace s) m = .ok O)
    (hnames : y1 = [] → hasSyms s = true → s.sequenceArchives = []) (hnames' : hasSyms s = false → y1 = [])
    (hr0 : readSymbolsOpt (saved s) (symbPlace s) O[0]? 0 = .ok (y0, l1))
    (hs0 : y0 = symbolsOf s.sequences ∨ (y0 = [] ∧ ∀ p ∈ s.sequences, p.1 = none))
    (hr1 : readNestedOpt (saved s) (symbPlace s) O[1]? l1 = .ok (y1, l2))
    (hs1 : y1 = s.sequenceArchives.map (fun p => (p.1, (p.2.map SsarItem.names).getD [])) ∨ (y1 = [] ∧ ∀ p ∈ s.sequenceArchives, p.1 = none))
    (hr2 : readSymbolsOpt (saved s) (symbPlace s) O[2]? l2 = .ok (y2, l3))
    (hs2 : y2 = symbolsOf s.banks ∨ (y2 = [] ∧ ∀ p ∈ s.banks, p.1 = none))
    (hr3 : readSymbolsOpt (saved s) (symbPlace s) O[3]? l3 = .ok (y3, l4))
    (hs3 : y3 = symbolsOf s.waveArchives ∨ (y3 = [] ∧ ∀ p ∈ s.waveArchives, p.1 = none))
    (hr4 : readSymbolsOpt (saved s) (symbPlace s) O[4]? l4 = .ok (y4, l5))
    (hs4 : y4 = symbolsOf s.sequencePlayers ∨ (y4 = [] ∧ ∀ p ∈ s.sequencePlayers, p.1 = none))
    (hr5 : readSymbolsOpt (saved s) (symbPlace s) O[5]? l5 = .ok (y5, l6))
    (hs5 : y5 = symbolsOf s.groups ∨ (y5 = [] ∧ ∀ p ∈ s.groups, p.1 = none))
    (hr6 : readSymbolsOpt (saved s) (symbPlace s) O[6]? l6 = .ok (y6, l7))
    (hs6 : y6 = symbolsOf s.streamPlayers ∨ (y6 = [] ∧ ∀ p ∈ s.streamPlayers, p.1 = none))
    (hr7 : readSymbolsOpt (saved s) (symbPlace s) O[7]? l7 = .ok (y7, l8))
    (hs7 : y7 = symbolsOf s.streams ∨ (y7 = [] ∧ ∀ p ∈ s.streams, p.1 = none)) :
    SDAT.load (saved s) = .ok (readBack s l8) := by
  obtain ⟨f1, f2, f3⟩ := saved_fat hS.blocks
  have hinfo := infoSegments (segments s).info
  have hF := fatState_files s
  unfold SDAT.load
  refine bind_eq_ok.2 ⟨_, saved_header hS.size, ?_⟩
  refine bind_eq_ok.2 ⟨(), raiseIf_false (fun h => h rfl), ?_⟩
  refine bind_eq_ok.2 ⟨(), raiseIf_false (fun h => h rfl), ?_⟩
  refine bind_eq_ok.2 ⟨_, saved_blocks hS.blocks, ?_⟩
  dsimp only
  refine bind_eq_ok.2 ⟨_, hm, ?_⟩
  refine bind_eq_ok.2 ⟨_, hk, ?_⟩
  refine bind_eq_ok.2 ⟨_, hO, ?_⟩
  refine bind_eq_ok.2 ⟨_, f1, ?_⟩
  refine bind_eq_ok.2 ⟨_, f2, ?_⟩
  refine bind_eq_ok.2 ⟨_, f3, ?_⟩
  refine bind_eq_ok.2 ⟨(), pyAssert_true rfl, ?_⟩
  refine bind_eq_ok.2 ⟨_, saved_files hS.entries, ?_⟩
  refine bind_eq_ok.2 ⟨_, hinfo.magic.unpackStr rfl, ?_⟩
  refine bind_eq_ok.2 ⟨_, hinfo.size.unpackU hS.parts.total, ?_⟩
  refine bind_eq_ok.2 ⟨_, saved_heads hS.parts, ?_⟩
  refine bind_eq_ok.2 ⟨(), pyAssert_true rfl, ?_⟩
  unfold infoHeads
  dsimp only
  rw [hF]
  refine bind_eq_ok.2 ⟨_, saved_part0 (k := l8) hS.items hS.parts hr0 hs0, ?_⟩
  refine bind_eq_ok.2 ⟨_, saved_part1 (k := l8) hS.items hS.parts hnames hnames' hr1 hs1, ?_⟩
  refine bind_eq_ok.2 ⟨_, saved_part2 (k := l8) hS.items hS.parts hr2 hs2, ?_⟩
  refine bind_eq_ok.2 ⟨_, saved_part3 (k := l8) hS.items hS.parts hr3 hs3, ?_⟩
  refine bind_eq_ok.2 ⟨_, saved_part4 (k := l8) hS.items hS.parts hr4 hs4, ?_⟩
  refine bind_eq_ok.2 ⟨_, saved_part5 (k := l8) hS.items hS.parts hg hr5 hs5, ?_⟩
  refine bind_eq_ok.2 ⟨_, saved_part6 (k := l8) hS.items hS.parts hr6 hs6, ?_⟩
  refine bind_eq_ok.2 ⟨_, saved_part7 (k := l8) hS.items hS.parts hr7 hs7, ?_⟩
  rfl

/-! ## The symbols -/

theorem symbT_pos (s : SDAT) : 0 < symbT s := by unfold symbT; omega

theorem endOf_symb0 (T : Nat) : endOf T symb0 = 0 := by unfold endOf symb0; rfl

theorem endOf_symb8 {s : SDAT} (h : hasSyms s = true) : endOf (symbT s) (symb8 s) = symbSize s := by
  unfold hasSyms at h
  unfold endOf
  rw [symb8_any, if_pos h]
  rfl

theorem symb_at {data : Bytes} {B n : Nat} {hs : List Nat} {t u w : Bytes}
    (h : At data B (magicSYMB ++ enBytes .little 4 n ++ structBytes .little (hs.map fun h => (4, h + 0x40)) ++ zeros 0x18 ++
      t ++ u ++ w)) (hl : hs.length = 8) (hn : n < 2 ^ 32) (hh : ∀ h ∈ hs, h + 0x40 < 2 ^ 32) :
    unpackStr 4 data B = .ok magicSYMB ∧ unpackU .little 4 data (B + 4) = .ok n ∧
      unpackUs .little [4, 4, 4, 4, 4, 4, 4, 4] data (B + 8) = .ok (hs.map (· + 0x40)) ∧ At data (B + 0x40) t ∧
      At data (B + 0x40 + t.length) u := by
  have e : structBytes .little (hs.map fun h => (4, h + 0x40)) = table (hs.map (· + 0x40)) := by
    unfold table
    rw [List.map_map]
    rfl
  rw [e] at h
  have e2 : magicSYMB.length = 4 := rfl
  simp only [At.split, List.length_append, enBytes_length, table_length, List.length_map, hl, zeros_length, e2] at h
  obtain ⟨⟨⟨⟨⟨⟨h1, h2⟩, h3⟩, _⟩, h4⟩, h5⟩, _⟩ := h
  refine ⟨h1.unpackStr rfl, h2.unpackU hn, ?_, h4, h5.cast (by omega)⟩
  have := table_read h3 (by
    intro n hn
    obtain ⟨m, hm, rfl⟩ := List.mem_map.1 hn
    exact hh m hm)
  rw [List.length_map, hl] at this
  exact this

theorem saved_symb {s : SDAT} (h : hasSyms s = true) (hf : SymbFits s) :
    unpackStr 4 (saved s) 0x40 = .ok magicSYMB ∧ unpackU .little 4 (saved s) (0x40 + 4) = .ok (ceilTo 4 (symbSize s)) ∧
      unpackUs .little [4, 4, 4, 4, 4, 4, 4, 4] (saved s) (0x40 + 8) = .ok ((symbHeads s).map (· + 0x40)) ∧
      Stored (saved s) 0x40 (symbT s) (symb8 s) := by
  have h1 := (segments s).symb
  unfold symbData at h1
  rw [if_pos h] at h1
  unfold symbBytes at h1
  obtain ⟨a, b, c, d, e⟩ := symb_at h1 rfl hf.2.1 hf.2.2
  refine ⟨a, b, c, d, ?_, hf.1⟩
  rw [words_length] at e
  exact e.cast (by unfold symbT; omega)

theorem opt_some {data : Bytes} {B o l : Nat} {O : List Nat} {i : Nat} {r : Py (List Symbol × Nat)} (hO : O[i]? = some o)
    (hB : B = 0x40) (h : readSymbolsList data 0x40 o l = r) : readSymbolsOpt data B O[i]? l = r := by
  rw [hO, hB]; exact h

theorem opt_nested {data : Bytes} {B o l : Nat} {O : List Nat} {i : Nat} {r : Py (List (Symbol × List Symbol) × Nat)}
    (hO : O[i]? = some o) (hB : B = 0x40) (h : readNestedList data 0x40 o l = r) : readNestedOpt data B O[i]? l = r := by
  rw [hO, hB]; exact h

theorem nested_names (s : SDAT) : (ssarNames s).map (fun e => (e.1, e.2.getD [])) =
    s.sequenceArchives.map (fun p => (p.1, (p.2.map SsarItem.names).getD [])) := by
  unfold ssarNames
  rw [List.map_map]
  rfl

theorem mem_flatSyms {s : SDAT} {p : Symbol × Option SsarItem} (hp : p ∈ s.sequenceArchives) : p.1 ∈ flatSyms (ssarNames s) :=
  List.mem_flatMap.2 ⟨(p.1, p.2.map SsarItem.names), List.mem_map_of_mem (f := fun p => (p.1, p.2.map SsarItem.names)) hp, by simp⟩

/-- What is loaded from a saved archive. -/
theorem load_saved {s : SDAT} (hS : Saveable s) (hn : ∀ x ∈ allSyms s, NameOk x) (hg : GroupsOk s) :
    SDAT.load (saved s) = .ok (readBack s (if hasSyms s = true then symbSize s else 0)) := by
  by_cases h : hasSyms s = true
  · rw [if_pos h, ← endOf_symb8 h]
    have hp : symbPlace s = 0x40 := by unfold symbPlace; rw [if_pos h]
    obtain ⟨h1, h2, h3, st8⟩ := saved_symb h (hS.symb h)
    have hl := hS.latin
    simp only [allSyms, List.mem_append] at hl hn
    have st7 : Stored (saved s) 0x40 (symbT s) (symb7 s) := st8.mono (afterList_mono (symbolsOf s.streams) (symb7 s)).1 (afterList_mono (symbolsOf s.streams) (symb7 s)).2
    have st6 : Stored (saved s) 0x40 (symbT s) (symb6 s) := st7.mono (afterList_mono (symbolsOf s.streamPlayers) (symb6 s)).1 (afterList_mono (symbolsOf s.streamPlayers) (symb6 s)).2
    have st5 : Stored (saved s) 0x40 (symbT s) (symb5 s) := st6.mono (afterList_mono (symbolsOf s.groups) (symb5 s)).1 (afterList_mono (symbolsOf s.groups) (symb5 s)).2
    have st4 : Stored (saved s) 0x40 (symbT s) (symb4 s) := st5.mono (afterList_mono (symbolsOf s.sequencePlayers) (symb4 s)).1 (afterList_mono (symbolsOf s.sequencePlayers) (symb4 s)).2
    have st3 : Stored (saved s) 0x40 (symbT s) (symb3 s) := st4.mono (afterList_mono (symbolsOf s.waveArchives) (symb3 s)).1 (afterList_mono (symbolsOf s.waveArchives) (symb3 s)).2
    have st2 : Stored (saved s) 0x40 (symbT s) (symb2 s) := st3.mono (afterList_mono (symbolsOf s.banks) (symb2 s)).1 (afterList_mono (symbolsOf s.banks) (symb2 s)).2
    have st1 : Stored (saved s) 0x40 (symbT s) (symb1 s) := st2.mono (afterNested_mono (ssarNames s) (symb1 s)).1 (afterNested_mono (ssarNames s) (symb1 s)).2
    have r0 := readList_stored (symbT_pos s) (fun x (hx : x ∈ symbolsOf s.sequences) => hl x (by simp only [hx, true_or, or_true]))
      (fun x (hx : x ∈ symbolsOf s.sequences) => hn x (by simp only [hx, true_or, or_true])) (st := symb0) st1
    have r1 := readNested_stored (symbT_pos s) (fun x (hx : x ∈ flatSyms (ssarNames s)) => hl x (by simp only [hx, true_or, or_true]))
      (fun x (hx : x ∈ flatSyms (ssarNames s)) => hn x (by simp only [hx, true_or, or_true])) (st := (symb1 s)) st2
    have r2 := readList_stored (symbT_pos s) (fun x (hx : x ∈ symbolsOf s.banks) => hl x (by simp only [hx, true_or, or_true]))
      (fun x (hx : x ∈ symbolsOf s.banks) => hn x (by simp only [hx, true_or, or_true])) (st := (symb2 s)) st3
    have r3 := readList_stored (symbT_pos s) (fun x (hx : x ∈ symbolsOf s.waveArchives) => hl x (by simp only [hx, true_or, or_true]))
      (fun x (hx : x ∈ symbolsOf s.waveArchives) => hn x (by simp only [hx, true_or, or_true])) (st := (symb3 s)) st4
    have r4 := readList_stored (symbT_pos s) (fun x (hx : x ∈ symbolsOf s.sequencePlayers) => hl x (by simp only [hx, true_or, or_true]))
      (fun x (hx : x ∈ symbolsOf s.sequencePlayers) => hn x (by simp only [hx, true_or, or_true])) (st := (symb4 s)) st5
    have r5 := readList_stored (symbT_pos s) (fun x (hx : x ∈ symbolsOf s.groups) => hl x (by simp only [hx, true_or, or_true]))
      (fun x (hx : x ∈ symbolsOf s.groups) => hn x (by simp only [hx, true_or, or_true])) (st := (symb5 s)) st6
    have r6 := readList_stored (symbT_pos s) (fun x (hx : x ∈ symbolsOf s.streamPlayers) => hl x (by simp only [hx, true_or, or_true]))
      (fun x (hx : x ∈ symbolsOf s.streamPlayers) => hn x (by simp only [hx, true_or, or_true])) (st := (symb6 s)) st7
    have r7 := readList_stored (symbT_pos s) (fun x (hx : x ∈ symbolsOf s.streams) => hl x (by simp only [hx, true_or, or_true]))
      (fun x (hx : x ∈ symbolsOf s.streams) => hn x (by simp only [hx, true_or, or_true])) (st := (symb7 s)) st8
    rw [nested_names] at r1
    rw [endOf_symb0] at r0
    have hO : symbolOffsets (saved s) (symbPlace s) magicSYMB = .ok ((symbHeads s).map (· + 0x40)) := by
      unfold symbolOffsets
      rw [hp, if_neg (by decide), h3, bind_ok, pyAssert_true rfl, bind_ok]
      rfl
    rw [← hp] at h1 h2
    refine load_core hS hg h1 h2 hO ?_ ?_ (opt_some (by unfold symbHeads; rfl) hp r0) (Or.inl rfl) (opt_nested (by unfold symbHeads; rfl) hp r1) (Or.inl rfl) (opt_some (by unfold symbHeads; rfl) hp r2) (Or.inl rfl) (opt_some (by unfold symbHeads; rfl) hp r3) (Or.inl rfl) (opt_some (by unfold symbHeads; rfl) hp r4) (Or.inl rfl) (opt_some (by unfold symbHeads; rfl) hp r5) (Or.inl rfl) (opt_some (by unfold symbHeads; rfl) hp r6) (Or.inl rfl) (opt_some (by unfold symbHeads; rfl) hp r7) (Or.inl rfl)
    · intro h' _
      exact List.map_eq_nil_iff.1 h'
    · intro h'
      rw [h] at h'
      exact absurd h' (by decide)
  · rw [if_neg h]
    have hp : symbPlace s = 0 := by unfold symbPlace; rw [if_neg h]
    have hO : ∀ m, symbolOffsets (saved s) (symbPlace s) m = .ok [] := by
      intro m
      unfold symbolOffsets
      rw [hp, if_pos rfl]
    have hnone : ∀ x ∈ allSyms s, x = none := by
      intro x hx
      cases x with
      | none => rfl
      | some v => exact absurd (List.any_eq_true.2 ⟨_, hx, rfl⟩) h
    simp only [allSyms, List.mem_append] at hnone
    have hlen : 0x10 ≤ (saved s).length := by
      have := (segments s).header.bound
      rw [stdHeaderBytes_length] at this
      omega
    obtain ⟨m, hm⟩ : ∃ m, unpackStr 4 (saved s) (symbPlace s) = .ok m := by
      rw [hp]; unfold unpackStr; rw [if_pos (by omega)]; exact ⟨_, rfl⟩
    obtain ⟨k, hk⟩ : ∃ k, unpackU .little 4 (saved s) (symbPlace s + 4) = .ok k := by
      rw [hp]; unfold unpackU; rw [if_pos (by omega)]; exact ⟨_, rfl⟩
    refine load_core hS hg hm hk (hO m) (fun _ h' => absurd h' h) (fun _ => rfl)
      rfl (Or.inr ⟨rfl, fun p hp => hnone p.1 (by have : p.1 ∈ symbolsOf s.sequences := List.mem_map_of_mem hp
                                                  simp only [this, true_or, or_true])⟩)
      rfl (Or.inr ⟨rfl, fun p hp => hnone p.1 (by have := mem_flatSyms hp
                                                  simp only [this, true_or, or_true])⟩)
      rfl (Or.inr ⟨rfl, fun p hp => hnone p.1 (by have : p.1 ∈ symbolsOf s.banks := List.mem_map_of_mem hp
                                                  simp only [this, true_or, or_true])⟩)
      rfl (Or.inr ⟨rfl, fun p hp => hnone p.1 (by have : p.1 ∈ symbolsOf s.waveArchives := List.mem_map_of_mem hp
                                                  simp only [this, true_or, or_true])⟩)
      rfl (Or.inr ⟨rfl, fun p hp => hnone p.1 (by have : p.1 ∈ symbolsOf s.sequencePlayers := List.mem_map_of_mem hp
                                                  simp only [this, true_or, or_true])⟩)
      rfl (Or.inr ⟨rfl, fun p hp => hnone p.1 (by have : p.1 ∈ symbolsOf s.groups := List.mem_map_of_mem hp
                                                  simp only [this, true_or, or_true])⟩)
      rfl (Or.inr ⟨rfl, fun p hp => hnone p.1 (by have : p.1 ∈ symbolsOf s.streamPlayers := List.mem_map_of_mem hp
                                                  simp only [this, true_or, or_true])⟩)
      rfl (Or.inr ⟨rfl, fun p hp => hnone p.1 (by have : p.1 ∈ symbolsOf s.streams := List.mem_map_of_mem hp
                                                  simp only [this, true_or, or_true])⟩)

end Verif.Proofs.SoundArchive
