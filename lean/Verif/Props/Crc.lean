import Verif.Spec.Crc
import Verif.Props.Util

/-!
# CRC-16 is a remainder (C113)
-/

namespace Verif.Props.Crc

open Verif Verif.Model.Util Verif.Spec.Crc

theorem xor_right_comm (a b c : Nat) : a ^^^ b ^^^ c = a ^^^ c ^^^ b := by
  rw [Nat.xor_assoc, Nat.xor_comm b, ← Nat.xor_assoc]

theorem mirror_lt : ∀ k v, mirror k v < 2 ^ k
  | 0, _ => by simp [mirror]
  | k + 1, v => by
    have h1 := mirror_lt k (v / 2)
    have h2 : v % 2 = 0 ∨ v % 2 = 1 := by omega
    rw [mirror, Nat.pow_succ]
    rcases h2 with h | h <;> rw [h] <;> omega

theorem mirror_testBit : ∀ k v i, (mirror k v).testBit i = (decide (i < k) && v.testBit (k - 1 - i))
  | 0, v, i => by simp [mirror]
  | k + 1, v, i => by
    rw [mirror, Nat.testBit_two_pow_mul_add _ (mirror_lt k _)]
    by_cases h : i < k
    · rw [if_pos h, mirror_testBit k, Nat.testBit_div_two]
      rw [show k - 1 - i + 1 = k + 1 - 1 - i by omega]
      simp [h, show i < k + 1 by omega]
    · rw [if_neg h]
      by_cases h2 : i = k
      · subst h2
        simp only [Nat.sub_self, Nat.testBit_zero, Nat.add_sub_cancel]
        simp
      · rw [decide_eq_false (by omega : ¬ i < k + 1), Bool.false_and]
        apply Nat.testBit_lt_two_pow
        have : 2 ^ 1 ≤ 2 ^ (i - k) := Nat.pow_le_pow_right (by decide) (by omega)
        omega

theorem mirror_xor (k a b : Nat) : mirror k (a ^^^ b) = mirror k a ^^^ mirror k b := by
  apply Nat.eq_of_testBit_eq
  intro i
  simp only [mirror_testBit, Nat.testBit_xor]
  cases decide (i < k) <;> simp

theorem mirror_mirror {k v : Nat} (h : v < 2 ^ k) : mirror k (mirror k v) = v := by
  apply Nat.eq_of_testBit_eq
  intro i
  rw [mirror_testBit, mirror_testBit]
  by_cases hi : i < k
  · simp only [hi, decide_true, Bool.true_and, show k - 1 - i < k by omega, show k - 1 - (k - 1 - i) = i by omega]
  · rw [decide_eq_false hi, Bool.false_and]
    exact (Nat.testBit_lt_two_pow (Nat.lt_of_lt_of_le h (Nat.pow_le_pow_right (by decide) (by omega)))).symm

theorem multiple_xor {a b : Nat} (ha : Multiple a) (hb : Multiple b) : Multiple (a ^^^ b) := by
  induction hb with
  | zero => simpa using ha
  | add k _ ih => rw [← Nat.xor_assoc]; exact .add k ih

theorem multiple_shift {a : Nat} (ha : Multiple a) (j : Nat) : Multiple (a <<< j) := by
  induction ha with
  | zero => simpa using Multiple.zero
  | add k _ ih =>
    rw [Nat.shiftLeft_xor_distrib, ← Nat.shiftLeft_add]
    exact .add _ ih

theorem multiple_one : Multiple poly := by simpa using Multiple.add 0 .zero

/-- One step of the loop multiplies by `x`. -/
theorem step (c : Nat) (h : c < 2 ^ 16) :
    mirror 16 (crcBit c) ^^^ (mirror 16 c <<< 1) = if c % 2 = 1 then poly else 0 := by
  have h0 : mirror 16 (c >>> 1) ^^^ (mirror 16 c <<< 1) = if c % 2 = 1 then 2 ^ 16 else 0 := by
    apply Nat.eq_of_testBit_eq
    intro i
    rw [Nat.testBit_xor, mirror_testBit, Nat.testBit_shiftRight, Nat.testBit_shiftLeft, mirror_testBit]
    have hr : (if c % 2 = 1 then 2 ^ 16 else 0).testBit i = (decide (i = 16) && c.testBit 0) := by
      rw [Nat.testBit_zero]
      split
      · rename_i h1; rw [Nat.testBit_two_pow]; simp [h1, eq_comm]
      · rename_i h1; simp [h1]
    rw [hr]
    by_cases h1 : i = 0
    · subst h1
      have : c.testBit 16 = false := Nat.testBit_lt_two_pow h
      simp [this]
    · by_cases h2 : i < 16
      · rw [show 1 + (16 - 1 - i) = 16 - 1 - (i - 1) by omega]
        simp [h2, show 1 ≤ i by omega, show i - 1 < 16 by omega, show i ≠ 16 by omega]
      · by_cases h3 : i = 16
        · subst h3; simp
        · simp [h2, h3, show ¬ i - 1 < 16 by omega]
  have h1 : c &&& 1 = c % 2 := Nat.and_two_pow_sub_one_eq_mod c 1
  unfold crcBit
  rw [h1]
  by_cases h2 : c % 2 = 1
  · rw [if_pos (by omega), if_pos h2, mirror_xor]
    rw [if_pos h2] at h0
    rw [xor_right_comm, h0]
    decide
  · rw [if_neg (by omega), if_neg h2]
    rw [if_neg h2] at h0
    exact h0

theorem crcBit_lt {c : Nat} (h : c < 2 ^ 16) : crcBit c < 2 ^ 16 := by
  unfold crcBit
  have h1 : c >>> 1 < 2 ^ 16 := by rw [Nat.shiftRight_eq_div_pow]; omega
  split
  · exact Nat.xor_lt_two_pow h1 (by decide)
  · exact h1

theorem steps : ∀ (n c : Nat), c < 2 ^ 16 →
    crcBits n c < 2 ^ 16 ∧ Multiple (mirror 16 (crcBits n c) ^^^ (mirror 16 c <<< n))
  | 0, c, h => ⟨h, by rw [crcBits]; simpa using Multiple.zero⟩
  | n + 1, c, h => by
    obtain ⟨h1, h2⟩ := steps n (crcBit c) (crcBit_lt h)
    refine ⟨h1, ?_⟩
    have h3 : Multiple (mirror 16 (crcBit c) ^^^ (mirror 16 c <<< 1)) := by
      rw [step c h]; split
      · exact multiple_one
      · exact .zero
    have h4 := multiple_xor h2 (multiple_shift h3 n)
    rw [Nat.shiftLeft_xor_distrib, ← Nat.shiftLeft_add, Nat.add_comm 1 n, Nat.xor_assoc, ← Nat.xor_assoc (mirror 16 (crcBit c) <<< n),
      Nat.xor_self, Nat.zero_xor] at h4
    exact h4

theorem mirror_byte {v : Nat} (h : v < 2 ^ 8) : mirror 16 v = mirror 8 v <<< 8 := by
  apply Nat.eq_of_testBit_eq
  intro i
  rw [Nat.testBit_shiftLeft, mirror_testBit, mirror_testBit]
  by_cases h1 : i < 8
  · have : v.testBit (16 - 1 - i) = false :=
      Nat.testBit_lt_two_pow (Nat.lt_of_lt_of_le h (Nat.pow_le_pow_right (by decide) (by omega)))
    simp [this, show ¬ 8 ≤ i by omega]
  · by_cases h2 : i < 16
    · rw [show 16 - 1 - i = 8 - 1 - (i - 8) by omega]
      simp [h2, show 8 ≤ i by omega, show i - 8 < 8 by omega]
    · simp [h2, show ¬ i - 8 < 8 by omega]

theorem mul_shift (m : Nat) {v : Nat} (h : v < 2 ^ 8) : 256 * m + v = (m <<< 8) ^^^ v := by
  have := Nat.two_pow_add_eq_or_of_lt h m
  rw [show 256 = 2 ^ 8 from rfl, this, Nat.shiftLeft_eq, Nat.mul_comm m]
  apply Nat.eq_of_testBit_eq
  intro i
  rw [Nat.testBit_or, Nat.testBit_xor, Nat.testBit_two_pow_mul]
  by_cases h1 : i < 8
  · simp [show ¬ 8 ≤ i by omega]
  · have : v.testBit i = false :=
      Nat.testBit_lt_two_pow (Nat.lt_of_lt_of_le h (Nat.pow_le_pow_right (by decide) (by omega)))
    simp [this]

theorem dividend_snoc (d : Bytes) (b : UInt8) :
    dividend (d ++ [b]) = (dividend d ^^^ (mirror 16 b.toNat)) <<< 8 := by
  unfold dividend message
  rw [List.foldl_append, List.foldl_cons, List.foldl_nil, mul_shift _ (mirror_lt 8 _), mirror_byte b.toNat_lt]
  simp only [Nat.shiftLeft_xor_distrib, ← Nat.shiftLeft_add, List.length_append, List.length_singleton, Nat.mul_add]
  rw [xor_right_comm]

theorem crcFrom_append (c : Nat) : ∀ a b : Bytes, crcFrom c (a ++ b) = crcFrom (crcFrom c a) b
  | [], _ => rfl
  | _ :: a, b => crcFrom_append _ a b

theorem invariant (d : Bytes) : crcFrom 0xFFFF d < 2 ^ 16 ∧ Multiple (mirror 16 (crcFrom 0xFFFF d) ^^^ dividend d) := by
  suffices h : ∀ l : Bytes, crcFrom 0xFFFF l.reverse < 2 ^ 16 ∧
      Multiple (mirror 16 (crcFrom 0xFFFF l.reverse) ^^^ dividend l.reverse) by
    simpa using h d.reverse
  intro l
  induction l with
  | nil =>
    refine ⟨by decide, ?_⟩
    have : mirror 16 (crcFrom 0xFFFF ([] : Bytes).reverse) ^^^ dividend ([] : Bytes).reverse = 0 := by decide
    rw [this]; exact .zero
  | cons b l ih =>
    obtain ⟨h1, h2⟩ := ih
    rw [List.reverse_cons, crcFrom_append, dividend_snoc]
    have hb : b.toNat < 2 ^ 16 := Nat.lt_trans b.toNat_lt (by decide)
    obtain ⟨h3, h4⟩ := steps 8 (crcFrom 0xFFFF l.reverse ^^^ b.toNat) (Nat.xor_lt_two_pow h1 hb)
    refine ⟨h3, ?_⟩
    have h5 := multiple_xor h4 (multiple_shift h2 8)
    rw [mirror_xor] at h5
    simp only [Nat.shiftLeft_xor_distrib] at h5 ⊢
    show Multiple (mirror 16 (crcBits 8 _) ^^^ _)
    generalize mirror 16 (crcBits 8 (crcFrom 65535 l.reverse ^^^ b.toNat)) = x at h5 ⊢
    generalize mirror 16 (crcFrom 65535 l.reverse) <<< 8 = y at h5 ⊢
    generalize mirror 16 b.toNat <<< 8 = z at h5 ⊢
    generalize dividend l.reverse <<< 8 = w at h5 ⊢
    have e : x ^^^ (y ^^^ z) ^^^ (y ^^^ w) = x ^^^ (w ^^^ z) := by
      apply Nat.eq_of_testBit_eq
      intro i
      simp only [Nat.testBit_xor]
      cases x.testBit i <;> cases y.testBit i <;> cases z.testBit i <;> cases w.testBit i <;> rfl
    rwa [e] at h5

/-- The polynomial times another one, which is given by its coefficients. -/
def times : List Bool → Nat
  | [] => 0
  | b :: q => (if b then poly else 0) ^^^ (times q <<< 1)

theorem times_add : ∀ (k : Nat) (q : List Bool), ∃ q', times q' = times q ^^^ (poly <<< k)
  | 0, [] => ⟨[true], by decide⟩
  | 0, b :: q => ⟨(!b) :: q, by
      rw [times, times, xor_right_comm]
      cases b <;> simp⟩
  | k + 1, [] => by
    obtain ⟨q', h⟩ := times_add k []
    refine ⟨false :: q', ?_⟩
    have e : times (false :: q') = 0 ^^^ (times q' <<< 1) := rfl
    rw [e, h, show times [] = 0 from rfl, Nat.zero_xor, Nat.zero_xor, Nat.zero_xor, ← Nat.shiftLeft_add]
  | k + 1, b :: q => by
    obtain ⟨q', h⟩ := times_add k q
    refine ⟨b :: q', ?_⟩
    rw [times, h, times, Nat.shiftLeft_xor_distrib, ← Nat.shiftLeft_add, Nat.xor_assoc]

theorem multiple_times {n : Nat} (h : Multiple n) : ∃ q, n = times q := by
  induction h with
  | zero => exact ⟨[], rfl⟩
  | add k _ ih =>
    obtain ⟨q, rfl⟩ := ih
    obtain ⟨q', h⟩ := times_add k q
    exact ⟨q', h.symm⟩

theorem times_large : ∀ q : List Bool, times q = 0 ∨ 2 ^ 16 ≤ times q
  | [] => .inl rfl
  | b :: q => by
    rw [times]
    rcases times_large q with h | h
    · rw [h]; cases b <;> decide
    · right
      have hp : (if b then poly else 0) < 2 ^ 17 := by cases b <;> decide
      apply Nat.le_of_not_lt
      intro hlt
      have h2 : (times q) <<< 1 < 2 ^ 17 := by
        have := Nat.xor_lt_two_pow (Nat.lt_trans hlt (by decide : 2 ^ 16 < 2 ^ 17)) hp
        rwa [Nat.xor_comm, ← Nat.xor_assoc, Nat.xor_self, Nat.zero_xor] at this
      rw [Nat.shiftLeft_eq] at h2
      omega

/-- A multiple of the polynomial that has no bit from 16 on is zero. -/
theorem multiple_small {n : Nat} (h : Multiple n) (hn : n < 2 ^ 16) : n = 0 := by
  obtain ⟨q, rfl⟩ := multiple_times h
  exact (times_large q).resolve_right (by omega)

/-- C113: the checksum is the remainder of the message, times `x^16` and with the initial value, in the division by
`x^16 + x^15 + x^2 + 1`, with its lowest coefficient in the highest bit. -/
theorem crc16_remainder (data : Bytes) (n : Nat) (hn : n < 2 ^ 16) :
    Multiple (dividend data ^^^ mirror 16 n) ↔ n = crc16 data := by
  obtain ⟨h1, h2⟩ := invariant data
  have e : crc16 data = crcFrom 0xFFFF data := Nat.and_two_pow_sub_one_of_lt_two_pow h1
  rw [e, Nat.xor_comm]
  constructor
  · intro h
    have h3 := multiple_xor h h2
    rw [xor_right_comm, Nat.xor_assoc, Nat.xor_assoc, Nat.xor_self, Nat.xor_zero] at h3
    have h4 := multiple_small h3 (Nat.xor_lt_two_pow (mirror_lt 16 _) (mirror_lt 16 _))
    have h5 : mirror 16 n = mirror 16 (crcFrom 0xFFFF data) := by
      rw [← Nat.xor_zero (mirror 16 (crcFrom 0xFFFF data)), ← h4, Nat.xor_comm (mirror 16 n), ← Nat.xor_assoc, Nat.xor_self,
        Nat.zero_xor]
    rw [← mirror_mirror hn, h5, mirror_mirror h1]
  · rintro rfl
    exact h2

/-- The check value of CRC-16/MODBUS. -/
example : Multiple (dividend [0x31, 0x32, 0x33, 0x34, 0x35, 0x36, 0x37, 0x38, 0x39] ^^^ mirror 16 0x4B37) :=
  (crc16_remainder _ _ (by decide)).2 (by decide +kernel)
example : mirror 8 0b00010110 = 0b01101000 ∧ message [0b1, 0b10] = 0b1000000001000000 := by decide

end Verif.Props.Crc
