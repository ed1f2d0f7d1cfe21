import Verif.Spec.Reader

/-!
# Main code files, byte by byte

Where the code settings of an uncompressed main code file are, and what its sections are, for any bytes.
-/

namespace Verif.Spec.FormatMainCode

open Verif Verif.Spec.Reader

/-- Where `size` bytes begin whose place is given as a number that counts from the end if it is negative; nowhere if they do not
fit. -/
def place (len : Nat) (off : Int) (size : Nat) : Option Nat :=
  if 0 ≤ off ∧ off + size ≤ len then some off.toNat
  else if off + size ≤ 0 ∧ 0 ≤ off + len ∧ off < 0 then some (off + len).toNat
  else none

/-- The word at such a place. -/
def wordAt (d : Bytes) (off : Int) : Option Nat := (place d.length off 4).map (u32 d)

/-- A bound that counts from the end if it is negative. -/
def bound (len : Nat) (i : Int) : Nat := if 0 ≤ i then i.toNat else (i + len).toNat

/-- The bytes between two such bounds. -/
def cut (d : Bytes) (a b : Int) : Bytes := span d (bound d.length a) (bound d.length b)

/-- The settings are at `o` because the word before the address `p` is their address: it lies inside the file, which is loaded
at `ram`, at least five bytes before its end. -/
def PointerAt (d : Bytes) (ram : Nat) (ptr : Option Nat) (o : Int) : Prop :=
  ∃ p w, ptr = some p ∧ p ≠ 0 ∧ wordAt d ((p : Int) - ram - 4) = some w ∧ ram ≤ w ∧ w - ram + 4 < d.length ∧
    o = ((w - ram : Nat) : Int)

/-- `21 06 C0 DE DE C0 06 21` is at a place. -/
def MagicAt (d : Bytes) (i : Nat) : Prop := bytesAt d i 8 = [0x21, 0x06, 0xC0, 0xDE, 0xDE, 0xC0, 0x06, 0x21]

/-- The address of the end of the file is at a place. -/
def EndAt (d : Bytes) (ram m : Nat) : Prop := m + 4 ≤ d.length ∧ u32 d m = ram + d.length

/-- ... and the word before it may be the address of a section table that goes up to there. -/
def TableAt (d : Bytes) (ram m : Nat) : Prop :=
  EndAt d ram m ∧ ∃ s, wordAt d ((m : Int) - 4) = some s ∧ s % 4 = 0 ∧
    (((ram + d.length : Nat) : Int) - s) % 12 = 0 ∧ ((ram + d.length : Nat) : Int) - s < 0x100

/-- The settings of an uncompressed file that is loaded at `ram` are at `o`: where the pointer says, else 0x1C before the first
magic number on a multiple of four below 0x8000, else where the first table ends that may be the one at the end of the file,
else nowhere. -/
def SettingsAt (d : Bytes) (ram : Nat) (ptr : Option Nat) (o : Option Int) : Prop :=
  (∃ x, o = some x ∧ PointerAt d ram ptr x) ∨
  (∀ x, ¬ PointerAt d ram ptr x) ∧
    ((∃ i : Nat, i < 0x2000 ∧ o = some (4 * (i : Int) - 0x1C) ∧ MagicAt d (4 * i) ∧ ∀ j < i, ¬ MagicAt d (4 * j)) ∨
     (∀ i < 0x2000, ¬ MagicAt d (4 * i)) ∧ ram + d.length < 2 ^ 32 ∧
      ((∃ m : Nat, o = some ((m : Int) - 4) ∧ TableAt d ram m ∧
          ∀ m' < m, ¬ TableAt d ram m' ∧ ¬ (EndAt d ram m' ∧ wordAt d ((m' : Int) - 4) = none)) ∨
       (o = none ∧ ∀ m, ¬ TableAt d ram m ∧ ¬ (EndAt d ram m ∧ wordAt d ((m : Int) - 4) = none))))

/-- The sizes of the first sections of a table, together. -/
def sizes (d : Bytes) (table : Int) : Nat → Nat
  | 0 => 0
  | i + 1 => sizes d table i + ((place d.length (table + 12 * i) 12).map (fun p => u32 d (p + 4))).getD 0

end Verif.Spec.FormatMainCode
