import Verif.Proofs.SoundArchiveItems
import Verif.Proofs.SoundArchiveSymb2
import Verif.Proofs.SoundArchiveFat

/-!
# A saved sound archive in closed form
-/

namespace Verif.Proofs.SoundArchive

open Verif Verif.Model.Common Verif.Model.SoundArchive Verif.Model.SoundStream Verif.Spec.SoundArchive

def uses0 (s : SDAT) : Uses := usesOf seqCodec (s.sequences.map Prod.snd)
def uses1 (s : SDAT) : Uses := usesOf ssarCodec (s.sequenceArchives.map Prod.snd)
def uses2 (s : SDAT) : Uses := usesOf bankCodec (s.banks.map Prod.snd)
def uses3 (s : SDAT) : Uses := usesOf swarCodec (s.waveArchives.map Prod.snd)
def uses4 (s : SDAT) : Uses := usesOf playerCodec (s.sequencePlayers.map Prod.snd)
def uses5 (s : SDAT) : Uses := usesOf groupCodec (s.groups.map Prod.snd)
def uses6 (s : SDAT) : Uses := usesOf streamPlayerCodec (s.streamPlayers.map Prod.snd)
def uses7 (s : SDAT) : Uses := usesOf strmCodec (s.streams.map Prod.snd)

/-- All files that the items use, in order. -/
def allUses (s : SDAT) : Uses :=
  uses0 s ++ uses1 s ++ uses2 s ++ uses3 s ++ uses4 s ++ uses5 s ++ uses6 s ++ uses7 s

def part0 (s : SDAT) : List (Option Bytes) := encAll seqCodec (allUses s) (s.sequences.map Prod.snd)
def part1 (s : SDAT) : List (Option Bytes) := encAll ssarCodec (allUses s) (s.sequenceArchives.map Prod.snd)
def part2 (s : SDAT) : List (Option Bytes) := encAll bankCodec (allUses s) (s.banks.map Prod.snd)
def part3 (s : SDAT) : List (Option Bytes) := encAll swarCodec (allUses s) (s.waveArchives.map Prod.snd)
def part4 (s : SDAT) : List (Option Bytes) := encAll playerCodec (allUses s) (s.sequencePlayers.map Prod.snd)
def part5 (s : SDAT) : List (Option Bytes) := encAll groupCodec (allUses s) (s.groups.map Prod.snd)
def part6 (s : SDAT) : List (Option Bytes) := encAll streamPlayerCodec (allUses s) (s.streamPlayers.map Prod.snd)
def part7 (s : SDAT) : List (Option Bytes) := encAll strmCodec (allUses s) (s.streams.map Prod.snd)

def body0 : Bytes := []
def body1 (s : SDAT) : Bytes := body0 ++ partBytes (0x40 + body0.length) (part0 s)
def body2 (s : SDAT) : Bytes := body1 s ++ partBytes (0x40 + (body1 s).length) (part1 s)
def body3 (s : SDAT) : Bytes := body2 s ++ partBytes (0x40 + (body2 s).length) (part2 s)
def body4 (s : SDAT) : Bytes := body3 s ++ partBytes (0x40 + (body3 s).length) (part3 s)
def body5 (s : SDAT) : Bytes := body4 s ++ partBytes (0x40 + (body4 s).length) (part4 s)
def body6 (s : SDAT) : Bytes := body5 s ++ partBytes (0x40 + (body5 s).length) (part5 s)
def body7 (s : SDAT) : Bytes := body6 s ++ partBytes (0x40 + (body6 s).length) (part6 s)
def body8 (s : SDAT) : Bytes := body7 s ++ partBytes (0x40 + (body7 s).length) (part7 s)

/-- The offsets of the parts. -/
def infoHeads (s : SDAT) : List Nat :=
  [0x40 + body0.length, 0x40 + (body1 s).length, 0x40 + (body2 s).length, 0x40 + (body3 s).length, 0x40 + (body4 s).length,
    0x40 + (body5 s).length, 0x40 + (body6 s).length, 0x40 + (body7 s).length]

/-- The INFO block. -/
def infoBytes (s : SDAT) : Bytes :=
  magicINFO ++ enBytes .little 4 (0x40 + (body8 s).length) ++ table (infoHeads s) ++ zeros 0x18 ++ body8 s

/-- The items fit. -/
structure ItemsFit (s : SDAT) : Prop where
  f0 : ∀ x, some x ∈ s.sequences.map Prod.snd → seqCodec.fits (idIn (allUses s) (seqCodec.use x)) x
  f1 : ∀ x, some x ∈ s.sequenceArchives.map Prod.snd → ssarCodec.fits (idIn (allUses s) (ssarCodec.use x)) x
  f2 : ∀ x, some x ∈ s.banks.map Prod.snd → bankCodec.fits (idIn (allUses s) (bankCodec.use x)) x
  f3 : ∀ x, some x ∈ s.waveArchives.map Prod.snd → swarCodec.fits (idIn (allUses s) (swarCodec.use x)) x
  f4 : ∀ x, some x ∈ s.sequencePlayers.map Prod.snd → playerCodec.fits (idIn (allUses s) (playerCodec.use x)) x
  f5 : ∀ x, some x ∈ s.groups.map Prod.snd → groupCodec.fits (idIn (allUses s) (groupCodec.use x)) x
  f6 : ∀ x, some x ∈ s.streamPlayers.map Prod.snd → streamPlayerCodec.fits (idIn (allUses s) (streamPlayerCodec.use x)) x
  f7 : ∀ x, some x ∈ s.streams.map Prod.snd → strmCodec.fits (idIn (allUses s) (strmCodec.use x)) x

/-- The offsets fit. -/
structure PartsFit (s : SDAT) : Prop where
  p0 : PartFits (0x40 + body0.length) (part0 s)
  p1 : PartFits (0x40 + (body1 s).length) (part1 s)
  p2 : PartFits (0x40 + (body2 s).length) (part2 s)
  p3 : PartFits (0x40 + (body3 s).length) (part3 s)
  p4 : PartFits (0x40 + (body4 s).length) (part4 s)
  p5 : PartFits (0x40 + (body5 s).length) (part5 s)
  p6 : PartFits (0x40 + (body6 s).length) (part6 s)
  p7 : PartFits (0x40 + (body7 s).length) (part7 s)
  total : 0x40 + (body8 s).length < 2 ^ 32

/-- The distinct files. -/
def filesOf (s : SDAT) : List Bytes := (firstUses (allUses s)).map Prod.fst

theorem infoBlock_eq_ok {s : SDAT} {r : Bytes × List Bytes} :
    infoBlock s = .ok r ↔ ItemsFit s ∧ PartsFit s ∧ r = (infoBytes s, filesOf s) := by
  have hp : ∀ {a b : Uses}, a <+: a ++ b := List.prefix_append _ _
  have h0 : ([] : Uses) ++ usesOf seqCodec (s.sequences.map Prod.snd) <+: allUses s := ((((((hp).trans hp).trans hp).trans hp).trans hp).trans hp).trans hp
  have h1 : (uses0 s) ++ usesOf ssarCodec (s.sequenceArchives.map Prod.snd) <+: allUses s := (((((hp).trans hp).trans hp).trans hp).trans hp).trans hp
  have h2 : (uses0 s ++ uses1 s) ++ usesOf bankCodec (s.banks.map Prod.snd) <+: allUses s := ((((hp).trans hp).trans hp).trans hp).trans hp
  have h3 : (uses0 s ++ uses1 s ++ uses2 s) ++ usesOf swarCodec (s.waveArchives.map Prod.snd) <+: allUses s := (((hp).trans hp).trans hp).trans hp
  have h4 : (uses0 s ++ uses1 s ++ uses2 s ++ uses3 s) ++ usesOf playerCodec (s.sequencePlayers.map Prod.snd) <+: allUses s := ((hp).trans hp).trans hp
  have h5 : (uses0 s ++ uses1 s ++ uses2 s ++ uses3 s ++ uses4 s) ++ usesOf groupCodec (s.groups.map Prod.snd) <+: allUses s := (hp).trans hp
  have h6 : (uses0 s ++ uses1 s ++ uses2 s ++ uses3 s ++ uses4 s ++ uses5 s) ++ usesOf streamPlayerCodec (s.streamPlayers.map Prod.snd) <+: allUses s := hp
  have h7 : (uses0 s ++ uses1 s ++ uses2 s ++ uses3 s ++ uses4 s ++ uses5 s ++ uses6 s) ++ usesOf strmCodec (s.streams.map Prod.snd) <+: allUses s := List.prefix_refl _
  have e0 : (firstUses [] : Files) = [] := rfl
  have e1 : (⟨[], [], []⟩ : Info) = ⟨body0, firstUses [], []⟩ := rfl
  unfold infoBlock
  rw [e1]
  constructor
  · intro h
    obtain ⟨_, g0, h⟩ := bind_eq_ok.1 h
    obtain ⟨a0, b0, rfl⟩ := (packPart_eq_ok seqCodec_describes h0).1 g0
    obtain ⟨_, g1, h⟩ := bind_eq_ok.1 h
    obtain ⟨a1, b1, rfl⟩ := (packPart_eq_ok ssarCodec_describes h1).1 g1
    obtain ⟨_, g2, h⟩ := bind_eq_ok.1 h
    obtain ⟨a2, b2, rfl⟩ := (packPart_eq_ok bankCodec_describes h2).1 g2
    obtain ⟨_, g3, h⟩ := bind_eq_ok.1 h
    obtain ⟨a3, b3, rfl⟩ := (packPart_eq_ok swarCodec_describes h3).1 g3
    obtain ⟨_, g4, h⟩ := bind_eq_ok.1 h
    obtain ⟨a4, b4, rfl⟩ := (packPart_eq_ok playerCodec_describes h4).1 g4
    obtain ⟨_, g5, h⟩ := bind_eq_ok.1 h
    obtain ⟨a5, b5, rfl⟩ := (packPart_eq_ok groupCodec_describes h5).1 g5
    obtain ⟨_, g6, h⟩ := bind_eq_ok.1 h
    obtain ⟨a6, b6, rfl⟩ := (packPart_eq_ok streamPlayerCodec_describes h6).1 g6
    obtain ⟨_, g7, h⟩ := bind_eq_ok.1 h
    obtain ⟨a7, b7, rfl⟩ := (packPart_eq_ok strmCodec_describes h7).1 g7
    obtain ⟨_, g8, h⟩ := bind_eq_ok.1 h
    obtain ⟨b8, rfl⟩ := packU_eq_ok.1 g8
    refine ⟨⟨a0, a1, a2, a3, a4, a5, a6, a7⟩, ⟨b0, b1, b2, b3, b4, b5, b6, b7, b8⟩, ?_⟩
    rw [← pure_eq_ok.1 h]
    rfl
  · rintro ⟨a, b, rfl⟩
    refine bind_eq_ok.2 ⟨_, (packPart_eq_ok seqCodec_describes h0).2 ⟨a.f0, b.p0, rfl⟩, ?_⟩
    refine bind_eq_ok.2 ⟨_, (packPart_eq_ok ssarCodec_describes h1).2 ⟨a.f1, b.p1, rfl⟩, ?_⟩
    refine bind_eq_ok.2 ⟨_, (packPart_eq_ok bankCodec_describes h2).2 ⟨a.f2, b.p2, rfl⟩, ?_⟩
    refine bind_eq_ok.2 ⟨_, (packPart_eq_ok swarCodec_describes h3).2 ⟨a.f3, b.p3, rfl⟩, ?_⟩
    refine bind_eq_ok.2 ⟨_, (packPart_eq_ok playerCodec_describes h4).2 ⟨a.f4, b.p4, rfl⟩, ?_⟩
    refine bind_eq_ok.2 ⟨_, (packPart_eq_ok groupCodec_describes h5).2 ⟨a.f5, b.p5, rfl⟩, ?_⟩
    refine bind_eq_ok.2 ⟨_, (packPart_eq_ok streamPlayerCodec_describes h6).2 ⟨a.f6, b.p6, rfl⟩, ?_⟩
    refine bind_eq_ok.2 ⟨_, (packPart_eq_ok strmCodec_describes h7).2 ⟨a.f7, b.p7, rfl⟩, ?_⟩
    refine bind_eq_ok.2 ⟨_, packU_of_lt b.total, ?_⟩
    rfl

/-! ## The whole archive -/

/-- There is a symbol. -/
def hasSyms (s : SDAT) : Bool := (allSyms s).any Option.isSome

/-- The SYMB block with its padding. -/
def symbData (s : SDAT) : Bytes :=
  if hasSyms s = true then symbBytes s ++ zeros (ceilTo 4 (symbSize s) - symbSize s) else []

/-- The size of the SYMB block for the header. -/
def symbHeadSize (s : SDAT) : Nat :=
  if hasSyms s = true then if s.padSymbSizeTo4InSDATHeader = true then ceilTo 4 (symbSize s) else symbSize s else 0

def fileCount (s : SDAT) : Nat := (filesOf s).length
def infoOff (s : SDAT) : Nat := 0x40 + (symbData s).length
def fatOff (s : SDAT) : Nat := infoOff s + (infoBytes s).length
def fileOff (s : SDAT) : Nat := fatOff s + (0xC + 0x10 * fileCount s)

/-- Where the files start, before the padding of the first one to the usual alignment. -/
def firstPos (s : SDAT) : Nat :=
  match s.firstFileAlignment with
  | none => fileOff s + 0xC
  | some a => ceilTo a (fileOff s + 0xC)

/-- Where the files are. -/
def offs (s : SDAT) : List Nat := places s.fileAlignment (firstPos s) (filesOf s)

def endPos (s : SDAT) : Nat := bodyEnd s.fileAlignment (firstPos s) (filesOf s)

/-- The size of the archive. -/
def total (s : SDAT) : Nat := if s.padAtEnd = true then ceilTo s.fileAlignment (endPos s) else endPos s

/-- The entries of the file allocation table. -/
def fatEntries (s : SDAT) : List (Nat × Nat) := ((offs s).zip (filesOf s)).map fun p => (p.1, fatLen s p.2)

def fatBytes (s : SDAT) : Bytes :=
  magicFAT ++ structBytes .little [(4, 0xC + 0x10 * fileCount s), (4, fileCount s)] ++
    ((fatEntries s).map fun e => fatEntry e.1 e.2).flatten

def fileBytes (s : SDAT) : Bytes :=
  magicFILE ++ structBytes .little [(4, total s - fileOff s), (4, fileCount s)] ++ zeros (firstPos s - (fileOff s + 0xC)) ++
    body s.fileAlignment (firstPos s) (filesOf s) ++ zeros (total s - endPos s)

/-- The offsets and sizes of the blocks. -/
def blockFields (s : SDAT) : List (Nat × Nat) :=
  [(4, if hasSyms s = true then 0x40 else 0), (4, symbHeadSize s), (4, infoOff s), (4, (infoBytes s).length), (4, fatOff s),
    (4, 0xC + 0x10 * fileCount s), (4, fileOff s), (4, total s - fileOff s)]

def stdHeader (s : SDAT) : StdHeader := ⟨magicSDAT, 0xFEFF, 0x100, total s, 0x40, if hasSyms s = true then 4 else 3⟩

/-- The saved archive. -/
def saved (s : SDAT) : Bytes :=
  stdHeaderBytes (stdHeader s) ++ structBytes .little (blockFields s) ++ zeros 0x10 ++ symbData s ++ infoBytes s ++
    fatBytes s ++ fileBytes s

/-- The alignments are not zero where they matter. -/
def AlignOk (s : SDAT) : Prop :=
  s.firstFileAlignment ≠ some 0 ∧ (s.padAtEnd = true → 0 < s.fileAlignment) ∧ (filesOf s ≠ [] → 0 < s.fileAlignment)

/-- When saving works. -/
structure Saveable (s : SDAT) : Prop where
  nested : ∃ b, anyNested (ssarNames s) false = .ok b
  latin : ∀ x ∈ allSyms s, Latin1 x
  symb : hasSyms s = true → SymbFits s
  items : ItemsFit s
  parts : PartsFit s
  align : AlignOk s
  entries : ∀ e ∈ fatEntries s, e.1 < 2 ^ 32 ∧ e.2 < 2 ^ 32
  blocks : Fits (blockFields s)
  size : total s < 2 ^ 32

theorem firstPadding_eq_ok {s : SDAT} {pos k : Nat} : firstPadding s pos = .ok k ↔ s.firstFileAlignment ≠ some 0 ∧
    pos + k = (match s.firstFileAlignment with | none => pos | some a => ceilTo a pos) := by
  unfold firstPadding
  cases s.firstFileAlignment with
  | none =>
    simp only [Except.ok.injEq, ne_eq, reduceCtorEq, not_false_iff, true_and]
    omega
  | some a =>
    simp only [padZeros_eq_ok, ne_eq, Option.some.injEq]
    constructor
    · rintro ⟨h, rfl⟩; exact ⟨by omega, padLen_ceil h⟩
    · rintro ⟨h, h'⟩
      have : 0 < a := by omega
      rw [← padLen_ceil this] at h'
      exact ⟨this, by omega⟩

theorem lastPadding_eq_ok {s : SDAT} {pos k : Nat} : lastPadding s pos = .ok k ↔ (s.padAtEnd = true → 0 < s.fileAlignment) ∧
    pos + k = if s.padAtEnd = true then ceilTo s.fileAlignment pos else pos := by
  unfold lastPadding
  by_cases h : s.padAtEnd = true
  · rw [if_pos h, if_pos h, padZeros_eq_ok]
    constructor
    · rintro ⟨h', rfl⟩; exact ⟨fun _ => h', padLen_ceil h'⟩
    · rintro ⟨h1, h2⟩
      rw [← padLen_ceil (h1 h)] at h2
      exact ⟨h1 h, by omega⟩
  · rw [if_neg h, if_neg h]
    rw [Except.ok.injEq]
    constructor
    · rintro rfl; exact ⟨fun h' => absurd h' h, rfl⟩
    · rintro ⟨_, h'⟩; omega

theorem firstPos_ge {s : SDAT} (h : s.firstFileAlignment ≠ some 0) : fileOff s + 0xC ≤ firstPos s := by
  unfold firstPos
  cases hf : s.firstFileAlignment with
  | none => exact Nat.le_refl _
  | some a => exact le_ceilTo (by rw [hf] at h; simp only [ne_eq, Option.some.injEq] at h; omega)

theorem body_length' {s : SDAT} (h : filesOf s ≠ [] → 0 < s.fileAlignment) :
    firstPos s + (body s.fileAlignment (firstPos s) (filesOf s)).length = endPos s := by
  unfold endPos
  by_cases hf : filesOf s = []
  · rw [hf]; rfl
  · exact body_length (h hf)

theorem total_ge {s : SDAT} (h : s.padAtEnd = true → 0 < s.fileAlignment) : endPos s ≤ total s := by
  unfold total
  split
  · rename_i hp
    exact le_ceilTo (h hp)
  · exact Nat.le_refl _

theorem fatEntries_length (s : SDAT) : (fatEntries s).length = fileCount s := by
  simp [fatEntries, offs, places_length, fileCount]

theorem fatTable_length (s : SDAT) : ((fatEntries s).map fun e => fatEntry e.1 e.2).flatten.length = 0x10 * fileCount s := by
  rw [flatten_length_const (n := 0x10) (by intro p hp; obtain ⟨e, _, rfl⟩ := List.mem_map.1 hp; exact fatEntry_length _ _),
    List.length_map, fatEntries_length, Nat.mul_comm]

theorem fatBytes_length (s : SDAT) : (fatBytes s).length = 0xC + 0x10 * fileCount s := by
  unfold fatBytes
  rw [List.length_append, List.length_append, fatTable_length, structBytes_length]
  rfl

theorem fileBytes_length {s : SDAT} (h : AlignOk s) : (fileBytes s).length = total s - fileOff s := by
  obtain ⟨h1, h2, h3⟩ := h
  have h4 := firstPos_ge h1
  have h5 := body_length' h3
  have h6 := total_ge h2
  unfold fileBytes
  simp only [List.length_append, structBytes_length, zeros_length]
  show 4 + 8 + _ + _ + _ = _
  omega

theorem fileOff_le_total {s : SDAT} (h : AlignOk s) : fileOff s + 0xC ≤ total s := by
  obtain ⟨h1, h2, h3⟩ := h
  have h4 := firstPos_ge h1
  have h5 := body_length' h3
  have h6 := total_ge h2
  omega

theorem fileBlocks_eq_ok {s : SDAT} {r : Bytes × Bytes} :
    fileBlocks s (filesOf s) (fatOff s) = .ok r ↔ Fits [(4, 0xC + 0x10 * fileCount s), (4, fileCount s)] ∧ AlignOk s ∧
      (∀ e ∈ fatEntries s, e.1 < 2 ^ 32 ∧ e.2 < 2 ^ 32) ∧ total s - fileOff s < 2 ^ 32 ∧ r = (fatBytes s, fileBytes s) := by
  unfold fileBlocks
  have hpk : ∀ {x : Bytes × Bytes}, packFiles s (filesOf s) (firstPos s) = .ok x ↔
      (filesOf s ≠ [] → 0 < s.fileAlignment) ∧ (∀ e ∈ fatEntries s, e.1 < 2 ^ 32 ∧ e.2 < 2 ^ 32) ∧
      x = (((fatEntries s).map fun e => fatEntry e.1 e.2).flatten, body s.fileAlignment (firstPos s) (filesOf s)) := by
    intro x
    rw [packFiles_eq_ok]
    unfold fatEntries offs
    rw [List.map_map]
    constructor
    · rintro ⟨h1, h2, rfl⟩
      refine ⟨h1, ?_, rfl⟩
      intro e he
      obtain ⟨p, hp, rfl⟩ := List.mem_map.1 he
      exact h2 p hp
    · rintro ⟨h1, h2, rfl⟩
      exact ⟨h1, fun p hp => h2 _ (List.mem_map_of_mem hp), rfl⟩
  simp only [bind_eq_ok, pure_eq_ok, packUs_eq_ok, firstPadding_eq_ok]
  have hfirst : ∀ {k : Nat}, fatOff s + (0xC + 0x10 * (filesOf s).length) + 0xC + k =
      (match s.firstFileAlignment with
        | none => fatOff s + (0xC + 0x10 * (filesOf s).length) + 0xC
        | some a => ceilTo a (fatOff s + (0xC + 0x10 * (filesOf s).length) + 0xC)) ↔
      fileOff s + 0xC + k = firstPos s := Iff.rfl
  simp only [hfirst]
  constructor
  · rintro ⟨_, ⟨h1, rfl⟩, k, ⟨h2, h3⟩, x, h4, m, h5, _, ⟨h6, rfl⟩, rfl⟩
    have h4' : packFiles s (filesOf s) (fileOff s + 0xC + k) = .ok x := h4
    rw [h3, hpk] at h4'
    obtain ⟨h7, h8, rfl⟩ := h4'
    have h9 := body_length' h7
    have h5' : lastPadding s (fileOff s + 0xC + k + (body s.fileAlignment (firstPos s) (filesOf s)).length) = .ok m := h5
    rw [h3, h9, lastPadding_eq_ok] at h5'
    obtain ⟨h10, h11⟩ := h5'
    have h11' : endPos s + m = total s := h11
    have hal : AlignOk s := ⟨h2, h10, h7⟩
    have hk : k = firstPos s - (fileOff s + 0xC) := by omega
    have hm : m = total s - endPos s := by omega
    have hsz : 0xC + k + (body s.fileAlignment (firstPos s) (filesOf s)).length + m = total s - fileOff s := by omega
    dsimp only at h6
    rw [hsz] at h6
    refine ⟨h1, hal, h8, h6.1, ?_⟩
    unfold fatBytes fileBytes
    dsimp only
    rw [hsz, ← hk, ← hm]
    rfl
  · rintro ⟨h1, ⟨h2, h10, h7⟩, h8, h12, rfl⟩
    have h4 := firstPos_ge h2
    have h5 := body_length' h7
    have h6 := total_ge h10
    have hk : fileOff s + 0xC + (firstPos s - (fileOff s + 0xC)) = firstPos s := by omega
    have hsz : 0xC + (firstPos s - (fileOff s + 0xC)) + (body s.fileAlignment (firstPos s) (filesOf s)).length +
      (total s - endPos s) = total s - fileOff s := by omega
    refine ⟨_, ⟨h1, rfl⟩, firstPos s - (fileOff s + 0xC), ⟨h2, hk⟩,
      (((fatEntries s).map fun e => fatEntry e.1 e.2).flatten, body s.fileAlignment (firstPos s) (filesOf s)), ?_,
      total s - endPos s, ?_, _, ⟨?_, rfl⟩, ?_⟩
    · show packFiles s (filesOf s) (fileOff s + 0xC + (firstPos s - (fileOff s + 0xC))) = _
      rw [hk, hpk]
      exact ⟨h7, h8, rfl⟩
    · show lastPadding s (fileOff s + 0xC + (firstPos s - (fileOff s + 0xC)) +
        (body s.fileAlignment (firstPos s) (filesOf s)).length) = _
      rw [hk, h5, lastPadding_eq_ok]
      refine ⟨h10, ?_⟩
      show _ = total s
      omega
    · dsimp only
      rw [hsz]
      exact ⟨h12, h1.2.1, trivial⟩
    · unfold fatBytes fileBytes
      dsimp only
      rw [hsz]
      rfl

theorem symbData_some {s : SDAT} (h : hasSyms s = true) :
    symbData s = symbBytes s ++ zeros (padLen (symbBytes s).length 4) := by
  unfold symbData
  rw [if_pos h, symbBytes_length]
  congr 2
  have := padLen_ceil (a := 4) (n := symbSize s) (by omega)
  omega

theorem save_eq_ok {s : SDAT} {d : Bytes} : s.save = .ok d ↔ Saveable s ∧ d = saved s := by
  have hfo : ∀ h : AlignOk s, fatOff s + (0xC + 0x10 * fileCount s) + (total s - fileOff s) = total s := by
    intro h
    have := fileOff_le_total h
    unfold fileOff at this ⊢
    omega
  constructor
  · intro h
    unfold SDAT.save at h
    obtain ⟨symb, h1, h⟩ := bind_eq_ok.1 h
    obtain ⟨info, h2, h⟩ := bind_eq_ok.1 h
    obtain ⟨r, h3, h⟩ := bind_eq_ok.1 h
    obtain ⟨bl, h4, h⟩ := bind_eq_ok.1 h
    obtain ⟨hd, h5, h⟩ := bind_eq_ok.1 h
    obtain ⟨hit, hpt, rfl⟩ := infoBlock_eq_ok.1 h2
    obtain ⟨hn, hl, hs⟩ := symbBlock_eq_ok.1 h1
    rw [pure_eq_ok] at h
    obtain ⟨hb, rfl⟩ := packUs_eq_ok.1 h4
    obtain ⟨hh, rfl⟩ := packStdHeader_eq_ok.1 h5
    rcases hs with ⟨hs, hsf, rfl⟩ | ⟨hs, rfl⟩
    · have hs' : hasSyms s = true := hs
      dsimp only at h h3 hb hh
      rw [← symbData_some hs'] at h h3 hb hh
      obtain ⟨hc, hal, he, ht, rfl⟩ := fileBlocks_eq_ok.1 h3
      dsimp only at h hb hh
      have hft := hfo hal
      rw [fatBytes_length, fileBytes_length hal] at h hb hh
      have hbf : Fits (blockFields s) := by
        unfold blockFields symbHeadSize
        rw [if_pos hs', if_pos hs']
        exact hb
      have htot : 0x40 + (symbData s).length + (infoBytes s).length + (0xC + 0x10 * fileCount s) + (total s - fileOff s) = total s := hft
      rw [htot] at hh h
      refine ⟨⟨hn, hl, fun _ => hsf, hit, hpt, hal, he, hbf, ?_⟩, ?_⟩
      · exact hh.2.2.1
      · rw [← h]
        unfold saved stdHeader blockFields symbHeadSize
        rw [if_pos hs', if_pos hs', if_pos hs']
        rfl
    · have hs' : ¬ hasSyms s = true := by unfold hasSyms; rw [hs]; exact Bool.false_ne_true
      dsimp only at h h3 hb hh
      have hsd : ([] : Bytes) = symbData s := by unfold symbData; rw [if_neg hs']
      rw [hsd] at h h3 hb hh
      obtain ⟨hc, hal, he, ht, rfl⟩ := fileBlocks_eq_ok.1 h3
      dsimp only at h hb hh
      have hft := hfo hal
      rw [fatBytes_length, fileBytes_length hal] at h hb hh
      have hbf : Fits (blockFields s) := by
        unfold blockFields symbHeadSize
        rw [if_neg hs', if_neg hs']
        exact hb
      have htot : 0x40 + (symbData s).length + (infoBytes s).length + (0xC + 0x10 * fileCount s) + (total s - fileOff s) = total s := hft
      rw [htot] at hh h
      refine ⟨⟨hn, hl, fun h => absurd h hs', hit, hpt, hal, he, hbf, ?_⟩, ?_⟩
      · exact hh.2.2.1
      · rw [← h]
        unfold saved stdHeader blockFields symbHeadSize
        rw [if_neg hs', if_neg hs', if_neg hs']
        rfl
  · rintro ⟨hS, rfl⟩
    have hft := hfo hS.align
    have htot : 0x40 + (symbData s).length + (infoBytes s).length + (0xC + 0x10 * fileCount s) + (total s - fileOff s) = total s := hft
    have hbf := hS.blocks
    have hdr : ∀ n, n < 2 ^ 16 → (⟨magicSDAT, 0xFEFF, 0x100, total s, 0x40, n⟩ : StdHeader).Ok :=
      fun n hn => ⟨(by decide : (0xFEFF : Nat) < 2 ^ 16), (by decide : (0x100 : Nat) < 2 ^ 16), hS.size,
        (by decide : (0x40 : Nat) < 2 ^ 16), hn⟩
    have hfb : fileBlocks s (filesOf s) (0x40 + (symbData s).length + (infoBytes s).length) = .ok (fatBytes s, fileBytes s) := by
      refine fileBlocks_eq_ok.2 ⟨?_, hS.align, hS.entries, ?_, rfl⟩
      · have h := hbf.2.2.2.2.2.1
        refine ⟨h, ?_, trivial⟩
        have : 0xC + 0x10 * fileCount s < 256 ^ 4 := h
        have : fileCount s < 256 ^ 4 := by omega
        exact this
      · have := hS.size; omega
    unfold SDAT.save
    refine bind_eq_ok.2 ⟨if hasSyms s = true then some (symbBytes s, symbHeadSize s) else none, ?_, ?_⟩
    · refine symbBlock_eq_ok.2 ⟨hS.nested, hS.latin, ?_⟩
      by_cases hs : hasSyms s = true
      · refine Or.inl ⟨hs, hS.symb hs, ?_⟩
        unfold symbHeadSize
        rw [if_pos hs, if_pos hs]
      · refine Or.inr ⟨?_, ?_⟩
        · unfold hasSyms at hs; revert hs; cases (allSyms s).any Option.isSome <;> simp
        · rw [if_neg hs]
    refine bind_eq_ok.2 ⟨_, infoBlock_eq_ok.2 ⟨hS.items, hS.parts, rfl⟩, ?_⟩
    by_cases hs : hasSyms s = true
    · rw [if_pos hs]
      dsimp only
      rw [← symbData_some hs]
      refine bind_eq_ok.2 ⟨_, hfb, ?_⟩
      dsimp only
      rw [fatBytes_length, fileBytes_length hS.align, htot]
      refine bind_eq_ok.2 ⟨_, packUs_eq_ok.2 ⟨?_, rfl⟩, ?_⟩
      · unfold blockFields at hbf
        rw [if_pos hs] at hbf
        exact hbf
      refine bind_eq_ok.2 ⟨_, packStdHeader_eq_ok.2 ⟨hdr _ (by decide), rfl⟩, ?_⟩
      rw [pure_eq_ok]
      unfold saved stdHeader blockFields
      rw [if_pos hs, if_pos hs]
      rfl
    · rw [if_neg hs]
      dsimp only
      have hsd : ([] : Bytes) = symbData s := by unfold symbData; rw [if_neg hs]
      rw [hsd]
      refine bind_eq_ok.2 ⟨_, hfb, ?_⟩
      dsimp only
      rw [fatBytes_length, fileBytes_length hS.align, htot]
      have hz : symbHeadSize s = 0 := by unfold symbHeadSize; rw [if_neg hs]
      refine bind_eq_ok.2 ⟨_, packUs_eq_ok.2 ⟨?_, rfl⟩, ?_⟩
      · unfold blockFields at hbf
        rw [if_neg hs, hz] at hbf
        exact hbf
      refine bind_eq_ok.2 ⟨_, packStdHeader_eq_ok.2 ⟨hdr _ (by decide), rfl⟩, ?_⟩
      rw [pure_eq_ok]
      unfold saved stdHeader blockFields
      rw [if_neg hs, if_neg hs, hz]
      rfl

end Verif.Proofs.SoundArchive
