import Verif.Base.Bytes

/-!
# Specification of LZ-style streams

An independent description of the stream format shared by LZ10 and (read backwards) code compression:
blocks of one flag byte and eight items, an item being a literal byte or a two-byte back reference.
It does not mention the compressor or the decompressors.
-/

namespace Verif.Spec.LZ

open Verif

/-- Append `n` bytes, each a copy of the byte `dist` places before the end. -/
def copyBack : Nat → Nat → Bytes → Option Bytes
  | 0, _, out => some out
  | n + 1, dist, out =>
    if dist = 0 ∨ out.length < dist then none
    else match out[out.length - dist]? with
      | some b => copyBack n dist (out ++ [b])
      | none => none

/-- Reading position in a stream: `pos` bytes read, `slots` items left in the current block whose flag byte
is `flags`, and the output so far. -/
structure State where
  pos : Nat
  slots : Nat
  flags : Nat
  out : Bytes

/-- The item that comes next is a back reference. -/
def State.isRef (s : State) : Prop := s.flags / 2 ^ (s.slots - 1) % 2 = 1

/-- One step of reading the stream `R`.  `extra` is the number added to the stored displacement. -/
inductive Step (extra : Nat) (R : Bytes) : State → State → Prop
  | fetch (pos fl : Nat) (out : Bytes) (b : UInt8) : R[pos]? = some b →
      Step extra R ⟨pos, 0, fl, out⟩ ⟨pos + 1, 8, b.toNat, out⟩
  | literal (pos k fl : Nat) (out : Bytes) (b : UInt8) : fl / 2 ^ k % 2 = 0 → R[pos]? = some b →
      Step extra R ⟨pos, k + 1, fl, out⟩ ⟨pos + 1, k, fl, out ++ [b]⟩
  | ref (pos k fl : Nat) (out out' : Bytes) (b1 b2 : UInt8) : fl / 2 ^ k % 2 = 1 →
      R[pos]? = some b1 → R[pos + 1]? = some b2 →
      copyBack (b1.toNat / 16 + 3) (b1.toNat % 16 * 256 + b2.toNat + extra) out = some out' →
      Step extra R ⟨pos, k + 1, fl, out⟩ ⟨pos + 2, k, fl, out'⟩

/-- States reachable from the start of the stream. -/
inductive Reach (extra : Nat) (R : Bytes) : State → Prop
  | start : Reach extra R ⟨0, 0, 0, []⟩
  | step {s s' : State} : Reach extra R s → Step extra R s s' → Reach extra R s'

/-- The stream `R` describes the byte string `out`. -/
def Decodes (extra : Nat) (R out : Bytes) : Prop := ∃ s, Reach extra R s ∧ s.out = out

/-- `data[p : p+len]` equals `data[pos : pos+len]` and lies in the window `[start, pos)`. -/
def IsMatch (data : Bytes) (start pos len p : Nat) : Prop :=
  start ≤ p ∧ p + len ≤ pos ∧ slice data p (p + len) = slice data pos (pos + len)

end Verif.Spec.LZ
