import Verif.Model.SoundArchive
import Verif.Spec.SoundArchive

/-!
# Specification vocabulary for whole sound archives

Only the data structures of the model are used here, none of its functions.
-/

namespace Verif.Spec.SoundArchive

open Verif Verif.Model.SoundArchive Verif.Model.SoundStream

/-! ## Names -/

/-- The names of the sequences in a sequence archive, if there is one. -/
def innerNames (x : Option SsarItem) : List Symbol :=
  match x with
  | none => []
  | some y => y.names

/-- All names in an archive. -/
def namesIn (s : SDAT) : List Symbol :=
  s.sequences.map Prod.fst ++ s.sequenceArchives.flatMap (fun p => p.1 :: innerNames p.2) ++ s.banks.map Prod.fst ++
    s.waveArchives.map Prod.fst ++ s.sequencePlayers.map Prod.fst ++ s.groups.map Prod.fst ++
    s.streamPlayers.map Prod.fst ++ s.streams.map Prod.fst

/-- Something in the archive has a name. -/
def Named (s : SDAT) : Prop := ∃ n, some n ∈ namesIn s

instance (s : SDAT) : Decidable (Named s) :=
  decidable_of_iff (∃ x ∈ namesIn s, x.isSome = true) (by
    constructor
    · rintro ⟨x, hx, h⟩
      cases x with
      | none => cases h
      | some n => exact ⟨n, hx⟩
    · rintro ⟨n, hn⟩
      exact ⟨_, hn, rfl⟩)

/-! ## Files -/

/-- The files that the items use, with their merge IDs, in the order of the archive. -/
def usedFiles (s : SDAT) : List (Bytes × Int) :=
  s.sequences.filterMap (fun p => p.2.map fun x => (x.file, x.mergeID)) ++
  s.sequenceArchives.filterMap (fun p => p.2.map fun x => (x.file, x.mergeID)) ++
  s.banks.filterMap (fun p => p.2.map fun x => (x.file, x.mergeID)) ++
  s.waveArchives.filterMap (fun p => p.2.map fun x => (x.file, x.mergeID)) ++
  s.streams.filterMap (fun p => p.2.map fun x => (x.file, x.mergeID))

/-- The number of a file: how many different ones are used before it first is. -/
def fileNumber (s : SDAT) (u : Bytes × Int) : Nat := (firstUses (usedFiles s)).idxOf u

/-- The files as they are stored, each once. -/
def storedFiles (s : SDAT) : List Bytes := (firstUses (usedFiles s)).map Prod.fst

/-- What can be read back in place of the stored files. -/
def readableFiles (s : SDAT) : List Bytes :=
  padFiles s.fileAlignment s.fatLengthsIncludePadding (s.fatLengthsIncludePadding && s.padAtEnd) (storedFiles s)

/-! ## Sizes -/

/-- The size of something that may be missing. -/
def sizeOr0 {α : Type} (size : α → Nat) : Option α → Nat
  | none => 0
  | some x => size x

/-- The size of a name. -/
def nameSize : Symbol → Nat
  | none => 0
  | some n => n.length + 1

/-- The size of the block of the names without padding. -/
def symbolsSize (s : SDAT) : Nat :=
  0x40 + 4 * ((1 + s.sequences.length) + (1 + 2 * s.sequenceArchives.length +
      (s.sequenceArchives.map fun p => sizeOr0 (fun x => 1 + x.names.length) p.2).sum) +
    (1 + s.banks.length) + (1 + s.waveArchives.length) + (1 + s.sequencePlayers.length) + (1 + s.groups.length) +
    (1 + s.streamPlayers.length) + (1 + s.streams.length)) + ((namesIn s).map nameSize).sum

/-- The size of the block of the names in the file. -/
def symbolBlockSize (s : SDAT) : Nat := if Named s then ceilTo 4 (symbolsSize s) else 0

/-- The size of a part of the information: number, table and entries. -/
def partSize {α : Type} (size : α → Nat) (l : List (Symbol × Option α)) : Nat :=
  4 + 4 * l.length + (l.map fun p => sizeOr0 size p.2).sum

/-- The size of the block with the information about the items. -/
def infoBlockSize (s : SDAT) : Nat :=
  0x40 + partSize (fun _ => 12) s.sequences + partSize (fun _ => 4) s.sequenceArchives + partSize (fun _ => 12) s.banks +
    partSize (fun _ => 4) s.waveArchives + partSize (fun _ => 8) s.sequencePlayers +
    partSize (fun g => 4 + 8 * g.length) s.groups + partSize (fun c => ceilTo 4 (1 + max 16 c.length + 4)) s.streamPlayers +
    partSize (fun _ => 12) s.streams

/-- Where the blocks start. -/
def infoStart (s : SDAT) : Nat := 0x40 + symbolBlockSize s
def fatStart (s : SDAT) : Nat := infoStart s + infoBlockSize s
def filesStart (s : SDAT) : Nat := fatStart s + (0xC + 0x10 * (storedFiles s).length)

/-- Where the first file is put before it is aligned like the others. -/
def dataStart (s : SDAT) : Nat :=
  match s.firstFileAlignment with
  | none => filesStart s + 0xC
  | some a => ceilTo a (filesStart s + 0xC)

/-- Where the files are. -/
def filePlaces (s : SDAT) : List Nat := places s.fileAlignment (dataStart s) (storedFiles s)

/-- Where the last file ends. -/
def dataEnd (s : SDAT) : Nat :=
  match (filePlaces s).getLast?, (storedFiles s).getLast? with
  | some o, some f => o + f.length
  | _, _ => dataStart s

/-- The size of the whole archive. -/
def archiveSize (s : SDAT) : Nat := if s.padAtEnd = true then ceilTo s.fileAlignment (dataEnd s) else dataEnd s

/-- The length of a file that the table gives. -/
def tableLength (s : SDAT) (f : Bytes) : Nat :=
  if s.fatLengthsIncludePadding = true then ceilTo s.fileAlignment f.length else f.length

/-! ## What the format can hold -/

/-- The numbers of the items fit into their fields. -/
structure FieldsFit (s : SDAT) : Prop where
  sequences : ∀ n x, (n, some x) ∈ s.sequences → fileNumber s (x.file, x.mergeID) < 2 ^ 16 ∧ x.unk02 < 2 ^ 16 ∧
    x.bankID < 2 ^ 16 ∧ x.volume < 2 ^ 8 ∧ x.channelPressure < 2 ^ 8 ∧ x.polyphonicPressure < 2 ^ 8 ∧ x.playerID < 2 ^ 8
  sequenceArchives : ∀ n x, (n, some x) ∈ s.sequenceArchives → fileNumber s (x.file, x.mergeID) < 2 ^ 16 ∧ x.unk02 < 2 ^ 16
  banks : ∀ n x, (n, some x) ∈ s.banks → fileNumber s (x.file, x.mergeID) < 2 ^ 16 ∧ x.unk02 < 2 ^ 16 ∧
    x.waveArchiveIDs.length ≤ 4 ∧ ∀ z, some z ∈ x.waveArchiveIDs → -(2 ^ 15) ≤ z ∧ z < 2 ^ 15
  waveArchives : ∀ n x, (n, some x) ∈ s.waveArchives → fileNumber s (x.file, x.mergeID) < 2 ^ 16 ∧ x.unk02 < 2 ^ 16
  sequencePlayers : ∀ n x, (n, some x) ∈ s.sequencePlayers → x.maxSequences < 2 ^ 16 ∧ x.heapSize < 2 ^ 32
  groups : ∀ n g, (n, some g) ∈ s.groups → ∀ e ∈ g, e.type < 2 ^ 8 ∧ e.id < 2 ^ 32
  streamPlayers : ∀ n c, (n, some c) ∈ s.streamPlayers → c.length < 2 ^ 8 ∧ ∀ k ∈ c, k < 2 ^ 8
  streams : ∀ n x, (n, some x) ∈ s.streams → fileNumber s (x.file, x.mergeID) < 2 ^ 16 ∧ x.unk02 < 2 ^ 16 ∧
    x.volume < 2 ^ 8 ∧ x.priority < 2 ^ 8 ∧ x.playerID < 2 ^ 8 ∧ x.unk07 < 2 ^ 8

/-- No empty slot without a name comes before the first named one among the sequence archives. -/
def NoEmptySlotFirst (s : SDAT) : Prop :=
  ∀ before after, s.sequenceArchives = before ++ (none, none) :: after → ∃ n x, (some n, x) ∈ before

/-- The alignments that are used are not zero. -/
def AlignmentsUsable (s : SDAT) : Prop :=
  s.firstFileAlignment ≠ some 0 ∧ (s.padAtEnd = true ∨ usedFiles s ≠ [] → 0 < s.fileAlignment)

end Verif.Spec.SoundArchive
