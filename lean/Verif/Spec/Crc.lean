import Verif.Base.Bytes

/-!
# CRC-16 as a remainder

A natural number stands for the polynomial over the field with two elements whose coefficient of `x^k` is bit `k`; addition
is exclusive or, multiplication by `x^k` a shift by `k`.
-/

namespace Verif.Spec.Crc

open Verif

/-- `x^16 + x^15 + x^2 + 1`. -/
def poly : Nat := 2 ^ 16 + 2 ^ 15 + 2 ^ 2 + 1

/-- The multiples of the polynomial: sums of shifted copies of it. -/
inductive Multiple : Nat → Prop
  | zero : Multiple 0
  | add (k : Nat) {n : Nat} : Multiple n → Multiple (n ^^^ (poly <<< k))

/-- The lowest `k` bits in the opposite order. -/
def mirror : Nat → Nat → Nat
  | 0, _ => 0
  | k + 1, v => 2 ^ k * (v % 2) + mirror k (v / 2)

/-- The message as a polynomial: one byte after another, each with its lowest bit first. -/
def message (data : Bytes) : Nat := data.foldl (fun m b => 256 * m + mirror 8 b.toNat) 0

/-- What is divided: the message times `x^16`, with the 16 ones of the initial value added at the top. -/
def dividend (data : Bytes) : Nat := (message data <<< 16) ^^^ (0xFFFF <<< (8 * data.length))

end Verif.Spec.Crc
