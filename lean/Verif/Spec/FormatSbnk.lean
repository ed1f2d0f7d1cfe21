import Verif.Spec.Reader
import Verif.Model.SoundBank

/-!
# Instrument banks, byte by byte

Only the data structures of notes, instruments and banks are used from the model.
-/

namespace Verif.Spec.FormatSbnk

open Verif Verif.Spec.Reader Verif.Model.SoundBank

/-! ## Instruments -/

/-- The note definition at a place, and one with its type before it. -/
def noteAt (d : Bytes) (o type : Nat) : Note where
  waveID := u16 d o
  waveArchiveIDID := u16 d (o + 2)
  pitch := u8 d (o + 4)
  attack := u8 d (o + 5)
  decay := u8 d (o + 6)
  sustain := u8 d (o + 7)
  release := u8 d (o + 8)
  pan := u8 d (o + 9)
  type := type
def typedNoteAt (d : Bytes) (o : Nat) : Note := noteAt d (o + 2) (u16 d o)

/-- How many notes a range instrument has: one for each pitch from the first to the last. -/
def rangeCount (d : Bytes) (o : Nat) : Nat := u8 d (o + 1) + 1 - u8 d o

/-- How many regions a regional instrument has: the eight bytes at its beginning are their last pitches, and all but the first
one can be zero, which ends the list. -/
def regionCount (d : Bytes) (o : Nat) : Nat :=
  1 + ((List.range 7).takeWhile fun i => u8 d (o + 1 + i) ≠ 0).length

/-- How many bytes an instrument of this type at this place takes. -/
def sizeAt (d : Bytes) (type o : Nat) : Nat :=
  if type = 0 then 0
  else if type < 16 then 10
  else if type = 16 then 2 + 12 * rangeCount d o
  else 8 + 12 * regionCount d o

/-- Such an instrument can be there. -/
def InstOk (d : Bytes) (type o : Nat) : Prop := type < 18 ∧ (type = 0 ∨ o + sizeAt d type o ≤ d.length)

/-- The instrument there; none if the type is 0. -/
def instAt (d : Bytes) (type o : Nat) : Option Kind :=
  if type = 0 then none
  else if type < 16 then some (.single (noteAt d o type))
  else if type = 16 then
    some (.range (u8 d o) ((List.range (rangeCount d o)).map fun i => typedNoteAt d (o + 2 + 12 * i)))
  else some (.regional ((List.range (regionCount d o)).map fun i => (u8 d (o + i), typedNoteAt d (o + 8 + 12 * i))))

/-! ## The table -/

/-- The number of slots, and the type and place in each. -/
def slots (d : Bytes) : Nat := u32 d 0x38
def typeAt (d : Bytes) (i : Nat) : Nat := u8 d (0x3C + 4 * i)
def placeAt (d : Bytes) (i : Nat) : Nat := u16 d (0x3C + 4 * i + 1)

/-- A file is all right: name, version, the block, the table, and all instruments in it. -/
def FileOk (d : Bytes) : Prop :=
  bytesAt d 0 4 = [0x53, 0x42, 0x4E, 0x4B] ∧ u16 d 6 = 0x100 ∧ bytesAt d 0x10 4 = [0x44, 0x41, 0x54, 0x41] ∧
  0x3C + 4 * slots d ≤ d.length ∧ ∀ i < slots d, InstOk d (typeAt d i) (placeAt d i)

/-- The instruments of the table, made to be saved in the order and with the sharing of the file. -/
def instruments (d : Bytes) : List (Option Inst) :=
  (List.range (slots d)).map fun i => (instAt d (typeAt d i) (placeAt d i)).map fun k => ⟨k, placeAt d i, placeAt d i⟩

/-- A byte belongs to an instrument of the table. -/
def Used (d : Bytes) (x : Nat) : Prop :=
  ∃ i < slots d, placeAt d i ≤ x ∧ x < placeAt d i + sizeAt d (typeAt d i) (placeAt d i)

/-- The slot whose instrument begins last before a place; of several the first. -/
def Before (d : Bytes) (o : Nat) : Option Nat → Prop
  | none => ∀ i < slots d, typeAt d i ≠ 0 → o ≤ placeAt d i
  | some k => k < slots d ∧ typeAt d k ≠ 0 ∧ placeAt d k < o ∧
    ∀ i < slots d, typeAt d i ≠ 0 → placeAt d i < o → placeAt d i < placeAt d k ∨ placeAt d i = placeAt d k ∧ k ≤ i

/-- The slot whose instrument begins first behind a place; of several the first. -/
def Behind (d : Bytes) (o k : Nat) : Prop := k < slots d ∧ typeAt d k ≠ 0 ∧ o < placeAt d k ∧
  ∀ i < slots d, typeAt d i ≠ 0 → o < placeAt d i → placeAt d k < placeAt d i ∨ placeAt d i = placeAt d k ∧ k ≤ i

/-! ## Instruments that the table does not mention -/

/-- In files, single notes come first, then range instruments, then regional ones. -/
def rank (type : Nat) : Nat := if type < 16 then 0 else if type = 16 then 1 else 2
def rankOf : Kind → Nat
  | .single _ => 0
  | .range _ _ => 1
  | .regional _ => 2

/-- How many bytes an instrument takes. -/
def size : Kind → Nat
  | .single _ => 10
  | .range _ notes => 2 + 12 * notes.length
  | .regional regions => 8 + 12 * regions.length

/-- An instrument which is found behind the slot `k`: it is read from bytes behind the table, beginning at one that belongs to no
instrument of the table; if it is a single note, its type is 1; and it does not break the order of the kinds. -/
def FoundAfter (d : Bytes) (k : Option Nat) (x : Inst) : Prop :=
  (∃ type, InstOk d type x.orderKey ∧ instAt d type x.orderKey = some x.kind ∧ (type = 1 ∨ type = 16 ∨ type = 17)) ∧
  x.mergeID = x.orderKey ∧ 0x3C + 4 * slots d ≤ x.orderKey ∧ x.orderKey < u32 d 8 ∧ ¬ Used d x.orderKey ∧
  Before d x.orderKey k ∧ (∀ i, k = some i → rank (typeAt d i) ≤ rankOf x.kind) ∧
  ∀ i, Behind d x.orderKey i → rankOf x.kind ≤ rank (typeAt d i)

/-- The types among which one is to be chosen; 2 and 3 count as 1. -/
def Candidate (types : List Nat) (t : Nat) : Prop := t ≠ 2 ∧ t ≠ 3 ∧ t ∈ types ∨ t = 1 ∧ (2 ∈ types ∨ 3 ∈ types)

/-- Data looks like an instrument of a type, if `avail` bytes are available: a single note has the pitch of the middle C, or the high
bytes of its numbers are small and the pitch is not zero; a range instrument has a range, and its notes fit; a regional one begins
with ascending pitches, followed by zeros, and its notes fit. -/
def LooksLike (d : Bytes) (o avail t : Nat) : Prop :=
  (t = 0 → 10 ≤ avail) ∧
  (t = 1 → u8 d (o + 4) = 0x3C ∨ u8 d (o + 1) < 10 ∧ u8 d (o + 3) < 10 ∧ u8 d (o + 4) ≠ 0) ∧
  (t = 16 → u8 d o ≤ u8 d (o + 1) ∧ 2 + 12 * (u8 d (o + 1) + 1 - u8 d o) ≤ avail) ∧
  (t = 17 → 20 ≤ avail ∧ ∃ n ≤ 8, (∀ i < n, u8 d (o + i) ≠ 0) ∧ (∀ i, i + 1 < n → u8 d (o + i) < u8 d (o + i + 1)) ∧
    (∀ i < 8, n ≤ i → u8 d (o + i) = 0) ∧ 8 + 12 * n ≤ avail)

/-- Two instruments have no byte in common. -/
def Apart (x y : Inst) : Prop := x.orderKey + size x.kind ≤ y.orderKey ∨ y.orderKey + size y.kind ≤ x.orderKey

/-- A type does not break the order of the kinds at a place. -/
def Allowed (d : Bytes) (o t : Nat) : Prop := (t = 1 ∨ t = 16 ∨ t = 17) ∧
  (∀ k, Before d o (some k) → rank (typeAt d k) ≤ rank t) ∧ ∀ k, Behind d o k → rank t ≤ rank (typeAt d k)

/-- At a place nothing is found: from there on `n` bytes belong to no instrument of the table, either few, or they do not look like an
instrument of an allowed type. -/
def Nothing (d : Bytes) (o : Nat) : Prop := ∃ n, 0 < n ∧ (∀ i < n, ¬ Used d (o + i)) ∧ (o + n + 2 < u32 d 8 → Used d (o + n)) ∧
  (n < 10 ∨ ∀ t, Allowed d o t → ¬ LooksLike d o n t)

/-- All bytes behind the table, but two of padding, belong to instruments of the table. -/
def Covered (d : Bytes) : Prop :=
  (∀ x, 0x3C + 4 * slots d ≤ x → x < u32 d 8 → Used d x) ∨
  (0x3C + 4 * slots d + 2 ≤ u32 d 8 ∧ (∀ x, 0x3C + 4 * slots d ≤ x → x < u32 d 8 → (Used d x ↔ x + 2 < u32 d 8)))

/-- The IDs without the `None`s at the end. -/
def trimmed : List (Option Int) → List (Option Int)
  | [] => []
  | none :: l => match trimmed l with
    | [] => []
    | l => none :: l
  | some x :: l => some x :: trimmed l

end Verif.Spec.FormatSbnk
