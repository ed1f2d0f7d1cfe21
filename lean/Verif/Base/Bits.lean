/-!
# Bit fields as arithmetic
-/

namespace Verif.Bits

theorem or_add {a b k : Nat} (h : a < 2 ^ k) : a ||| (b <<< k) = a + b * 2 ^ k := by
  rw [Nat.or_comm, ← Nat.shiftLeft_add_eq_or_of_lt h, Nat.shiftLeft_eq, Nat.add_comm]

theorem or_add' {a b k : Nat} (h : a < 2 ^ k) : (b <<< k) ||| a = b * 2 ^ k + a := by
  rw [← Nat.shiftLeft_add_eq_or_of_lt h, Nat.shiftLeft_eq]

theorem and_mask (n k : Nat) {m : Nat} (h : m = 2 ^ k - 1) : n &&& m = n % 2 ^ k := by
  rw [h, Nat.and_two_pow_sub_one_eq_mod]

theorem shr (n k : Nat) : n >>> k = n / 2 ^ k := Nat.shiftRight_eq_div_pow n k

theorem shl (n k : Nat) : n <<< k = n * 2 ^ k := Nat.shiftLeft_eq n k

theorem and_two_pow_ne (n i : Nat) : (n &&& 2 ^ i != 0) = n.testBit i := by
  cases h : n.testBit i
  · have : n &&& 2 ^ i = 0 := by
      apply Nat.eq_of_testBit_eq
      intro j
      rw [Nat.testBit_and, Nat.testBit_two_pow, Nat.zero_testBit]
      by_cases hj : i = j
      · rw [← hj, h]; rfl
      · simp [hj]
    rw [this]; rfl
  · have : (n &&& 2 ^ i).testBit i = true := by
      rw [Nat.testBit_and, Nat.testBit_two_pow, h]; simp
    have hne : n &&& 2 ^ i ≠ 0 := by
      intro h0; rw [h0, Nat.zero_testBit] at this; cases this
    exact bne_iff_ne.2 hne

end Verif.Bits
