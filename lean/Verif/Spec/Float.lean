/-!
# What rounding means

A `float` is a number with at most 53 binary digits, times a power of two.
-/

namespace Verif.Spec.Float

/-- `z` is `m` times a power of two, where `m` has at most 53 binary digits. -/
def IsFloat (z : Rat) : Prop := ∃ m a b : Nat, m < 2 ^ 53 ∧ z * 2 ^ a = m * 2 ^ b

/-- The last of the 53 binary digits of `z` is 0. -/
def LastDigitZero (z : Rat) : Prop :=
  ∃ m a b : Nat, 2 ^ 52 ≤ m ∧ m < 2 ^ 53 ∧ m % 2 = 0 ∧ z * 2 ^ a = m * 2 ^ b

/-- The distance of two numbers. -/
def dist (x y : Rat) : Rat := if x ≤ y then y - x else x - y

/-- `z` is `x` rounded the way IEEE 754 asks for: a float, with no float nearer to `x`, and if another one is as near
as `z`, the last digit of `z` is 0. -/
structure Rounded (x z : Rat) : Prop where
  isFloat : IsFloat z
  nearest : ∀ w, IsFloat w → dist x z ≤ dist x w
  even : ∀ w, IsFloat w → w ≠ z → dist x w = dist x z → LastDigitZero z

end Verif.Spec.Float
