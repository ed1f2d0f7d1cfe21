import Verif.Base.Bytes

/-!
# Reading numbers and texts out of bytes

Total functions for describing file formats byte by byte.  They do not use `struct` as it is modelled: a number is the sum of
its bytes with their weights.
-/

namespace Verif.Spec.Reader

open Verif

/-- The byte at a place, 0 behind the end. -/
def u8 (d : Bytes) (o : Nat) : Nat := (d[o]?.getD 0).toNat

/-- The little-endian numbers at a place. -/
def u16 (d : Bytes) (o : Nat) : Nat := u8 d o + 0x100 * u8 d (o + 1)
def u24 (d : Bytes) (o : Nat) : Nat := u8 d o + 0x100 * u8 d (o + 1) + 0x10000 * u8 d (o + 2)
def u32 (d : Bytes) (o : Nat) : Nat :=
  u8 d o + 0x100 * u8 d (o + 1) + 0x10000 * u8 d (o + 2) + 0x1000000 * u8 d (o + 3)

/-- The signed number at a place. -/
def i16 (d : Bytes) (o : Nat) : Int := if u16 d o < 0x8000 then (u16 d o : Int) else (u16 d o : Int) - 0x10000

/-- A bit of a number. -/
def bit (n k : Nat) : Bool := decide (n / 2 ^ k % 2 = 1)

/-- The bits of a number from `k` on, `w` of them. -/
def bits (n k w : Nat) : Nat := n / 2 ^ k % 2 ^ w

/-- The bytes from one place up to another one. -/
def span (d : Bytes) (a b : Nat) : Bytes := (d.take b).drop a

/-- The bytes at a place, `n` of them. -/
def bytesAt (d : Bytes) (o n : Nat) : Bytes := (d.drop o).take n

end Verif.Spec.Reader
