import Verif.Model.Float
import Verif.Proofs.SoundStream
import Verif.Spec.Float

/-!
# Lemmas about rounding
-/

namespace Verif.Proofs.Float

open Verif Verif.Model.Float Verif.Spec.Float

theorem floor_eq {x : Rat} {n : Int} (h1 : (n : Rat) ≤ x) (h2 : x < n + 1) : x.floor = n := by
  have h3 := Rat.floor_le x
  have h4 := Rat.lt_floor (x := x)
  have h5 : (n : Rat) < x.floor + 1 := by grind
  have h6 : (x.floor : Rat) < n + 1 := by grind
  have h5' : n < x.floor + 1 := by exact_mod_cast h5
  have h6' : x.floor < n + 1 := by exact_mod_cast h6
  omega

theorem two_pow_pos (n : Nat) : (0 : Rat) < 2 ^ n := Rat.pow_pos (by decide)

theorem pow2_pos (e : Int) : 0 < pow2 e := by
  unfold pow2
  split
  · exact two_pow_pos _
  · rw [Rat.div_def, Rat.one_mul]
    exact Rat.inv_pos.2 (two_pow_pos _)

theorem pow2_succ (e : Int) : pow2 (e + 1) = 2 * pow2 e := by
  unfold pow2
  by_cases h : 0 ≤ e
  · rw [if_pos h, if_pos (by omega), show (e + 1).toNat = e.toNat + 1 by omega, Rat.pow_succ]
    grind
  · by_cases h1 : e = -1
    · subst h1; decide +kernel
    · rw [if_neg h, if_neg (by omega), show (-e).toNat = (-(e + 1)).toNat + 1 by omega, Rat.pow_succ]
      have := two_pow_pos (-(e + 1)).toNat
      grind

theorem roundEven_err (x : Rat) : x - 1 / 2 ≤ roundEven x ∧ (roundEven x : Rat) ≤ x + 1 / 2 := by
  have h3 := Rat.floor_le x
  have h4 := Rat.lt_floor (x := x)
  unfold roundEven
  have e : ((x.floor + 1 : Int) : Rat) = x.floor + 1 := by simp
  split
  · grind
  · split
    · grind
    · split <;> grind

theorem roundEven_int (n : Int) : roundEven n = n := by
  unfold roundEven
  rw [Rat.floor_intCast, if_pos (by grind)]

theorem pow2_sub (e : Int) : ∀ n : Nat, pow2 (e - n) * 2 ^ n = pow2 e
  | 0 => by simp
  | n + 1 => by
    have h := pow2_succ (e - (n + 1 : Nat))
    rw [show e - ((n + 1 : Nat) : Int) + 1 = e - n by omega] at h
    have h2 := pow2_sub e n
    rw [h] at h2
    rw [Rat.pow_succ]
    grind

theorem pow2_nat (n : Nat) : pow2 n = 2 ^ n := by
  unfold pow2
  rw [if_pos (by omega), Int.toNat_natCast]

theorem pow2_zero : pow2 0 = 1 := by decide +kernel

theorem le_pow2_add {e : Int} (n : Nat) : pow2 (e + n) = pow2 e * 2 ^ n := by
  have := pow2_sub (e + n) n
  rw [show e + n - n = e by omega] at this
  exact this.symm

theorem pow2_mono {a b : Int} (h : a ≤ b) : pow2 a ≤ pow2 b := by
  obtain ⟨n, rfl⟩ : ∃ n : Nat, b = a + n := ⟨(b - a).toNat, by omega⟩
  rw [le_pow2_add]
  have h1 : (1 : Rat) ≤ 2 ^ n := by
    induction n with
    | zero => simp
    | succ n ih =>
      have := ih (by omega)
      rw [Rat.pow_succ]
      grind
  have := Rat.mul_le_mul_of_nonneg_left h1 (Rat.le_of_lt (pow2_pos a))
  grind

theorem num_bounds {x : Rat} (h : 0 < x) : x * x.den = (x.num.toNat : Rat) ∧ 0 < x.num.toNat := by
  have h0 : 0 ≤ x.num := Rat.num_nonneg.2 (Rat.le_of_lt h)
  have h2 : x.num ≠ 0 := fun e => by
    rw [Rat.num_eq_zero] at e
    grind
  refine ⟨?_, by omega⟩
  have h1 : (x.num.toNat : Rat) = ((x.num.toNat : Int) : Rat) := rfl
  rw [h1, Int.toNat_of_nonneg h0, Rat.mul_def', Rat.num_natCast, Rat.den_natCast, Nat.mul_one]
  have h3 := Rat.mkRat_mul_right (n := x.num) (d := 1) x.den_nz
  rw [Nat.one_mul] at h3
  rw [h3, ← Rat.mkRat_self (x.num : Rat)]
  rfl

theorem expo_le {x : Rat} (h : 0 < x) : pow2 (expo x) ≤ x := by
  unfold expo
  dsimp only
  split
  · obtain ⟨h1, h2⟩ := num_bounds h
    generalize x.num.toNat = n at *
    have hd : 0 < x.den := x.den_pos
    generalize x.den = d at *
    have h3 : 2 ^ n.log2 ≤ n := Nat.log2_self_le (by omega)
    have h4 : d < 2 ^ (d.log2 + 1) := Nat.lt_log2_self
    have h3' : (2 : Rat) ^ n.log2 ≤ n := by exact_mod_cast h3
    have h4' : (d : Rat) < 2 ^ (d.log2 + 1) := by exact_mod_cast h4
    have h5 := pow2_sub (n.log2 : Int) (d.log2 + 1)
    rw [pow2_nat, show (n.log2 : Int) - ((d.log2 + 1 : Nat) : Int) = (n.log2 : Int) - d.log2 - 1 by omega] at h5
    have h6 : (0 : Rat) < d := by exact_mod_cast hd
    have h7 := pow2_pos ((n.log2 : Int) - d.log2 - 1)
    generalize pow2 ((n.log2 : Int) - d.log2 - 1) = p at *
    -- p * d < p * 2 ^ (log2 d + 1) = 2 ^ log2 n ≤ n = x * d
    have h8 : p * d ≤ x * d := by
      have := Rat.mul_le_mul_of_nonneg_left (Rat.le_of_lt h4') (Rat.le_of_lt h7)
      grind
    exact Rat.le_of_mul_le_mul_right h8 h6
  · grind

/-- The error is at most one part in 2 ^ 53. -/
theorem round53_err {x : Rat} (h : 0 < x) :
    x * (2 ^ 53 - 1) ≤ round53 x * 2 ^ 53 ∧ round53 x * 2 ^ 53 ≤ x * (2 ^ 53 + 1) := by
  unfold round53
  have h1 := pow2_pos (expo x - 52)
  have h2 := expo_le h
  have h3 := pow2_sub (expo x) 52
  rw [show ((52 : Nat) : Int) = 52 from rfl] at h3
  generalize pow2 (expo x - 52) = p at *
  have h4 := roundEven_err (x / p)
  have h5 : x / p * p = x := Rat.div_mul_cancel (by grind)
  generalize x / p = y at *
  have h6 := Rat.mul_le_mul_of_nonneg_right h4.1 (Rat.le_of_lt h1)
  have h7 := Rat.mul_le_mul_of_nonneg_right h4.2 (Rat.le_of_lt h1)
  constructor <;> grind

theorem round53_pos {x : Rat} (h : 0 < x) : 0 < round53 x := by
  have := (round53_err h).1
  grind

/-- Integers of at most 53 digits are not changed. -/
theorem round53_nat {n : Nat} (h0 : 0 < n) (h : n < 2 ^ 53) : round53 n = n := by
  have hn : (0 : Rat) < n := by exact_mod_cast h0
  have h1 := expo_le hn
  have he : expo n < 53 := by
    refine Int.not_le.1 fun hge => ?_
    have h2 := pow2_mono hge
    rw [show (53 : Int) = ((53 : Nat) : Int) from rfl, pow2_nat] at h2
    have h3 : ((n : Nat) : Rat) < ((2 ^ 53 : Nat) : Rat) := by exact_mod_cast h
    have h4 : ((2 ^ 53 : Nat) : Rat) = 2 ^ 53 := by decide +kernel
    grind
  unfold round53
  obtain ⟨k, hk⟩ : ∃ k : Nat, (k : Int) = 52 - expo n := ⟨(52 - expo n).toNat, by omega⟩
  have h5 := pow2_sub 0 k
  rw [pow2_zero, show (0 : Int) - k = expo n - 52 by omega] at h5
  have h6 := pow2_pos (expo n - 52)
  generalize pow2 (expo n - 52) = p at *
  have h7 : (n : Rat) / p = ((n * 2 ^ k : Nat) : Int) := by
    rw [Rat.intCast_natCast, Rat.natCast_mul, Rat.natCast_pow]
    have h8 : p ≠ 0 := by grind
    grind
  rw [h7, roundEven_int, Rat.intCast_natCast, Rat.natCast_mul, Rat.natCast_pow]
  grind

/-- A number close enough to a quotient that is not an integer has the same integer part. -/
theorem toInt_near {c d : Nat} {y : Rat} (hd : 0 < d) (hnd : c % d ≠ 0) (h1 : (c : Rat) - 1 < y * d)
    (h2 : y * d < c + 1) : toInt y = c / d := by
  have e := Nat.div_add_mod c d
  have hr := Nat.mod_lt c hd
  generalize c / d = q at *
  generalize c % d = r at *
  have hd' : (0 : Rat) < d := by exact_mod_cast hd
  have e' : (d : Rat) * q + r = c := by exact_mod_cast e
  have r1 : (1 : Rat) ≤ r := by exact_mod_cast (show 1 ≤ r by omega)
  have r2 : (r : Rat) + 1 ≤ d := by exact_mod_cast (show r + 1 ≤ d by omega)
  have h3 : (q : Rat) * d < y * d := by grind
  have h4 : y * d < (q + 1) * d := by grind
  have h5 := Rat.lt_of_mul_lt_mul_right h3 (Rat.le_of_lt hd')
  have h6 := Rat.lt_of_mul_lt_mul_right h4 (Rat.le_of_lt hd')
  unfold toInt
  rw [floor_eq (n := (q : Int)) (Rat.le_of_lt h5) h6, Int.toNat_natCast]

theorem waveTime_eq {sr : Nat} (h : 0 < sr) : waveTime sr = 16756991 / sr := by
  unfold waveTime
  have hs : (0 : Rat) < sr := by exact_mod_cast h
  by_cases hd : 16756991 % sr = 0
  · have e := Nat.div_add_mod 16756991 sr
    rw [hd, Nat.add_zero] at e
    have hq : 16756991 / sr ≤ 16756991 := Nat.div_le_self _ _
    generalize 16756991 / sr = q at *
    have e' : (sr : Rat) * q = 16756991 := by exact_mod_cast e
    have h1 : (16756991 : Rat) / sr = q := by grind
    have h2 : 0 < q := Nat.pos_of_ne_zero fun h0 => by subst h0; simp at e
    rw [h1, round53_nat h2 (by omega)]
    unfold toInt
    rw [← Rat.intCast_natCast, Rat.floor_intCast, Int.toNat_natCast]
  · have h1 : (16756991 : Rat) / sr * sr = 16756991 := Rat.div_mul_cancel (by grind)
    have h0 : (0 : Rat) < 16756991 / sr := by
      rw [Rat.div_def]
      exact Rat.mul_pos (by decide) (Rat.inv_pos.2 hs)
    obtain ⟨h2, h3⟩ := round53_err h0
    have h2' := Rat.mul_le_mul_of_nonneg_right h2 (Rat.le_of_lt hs)
    have h3' := Rat.mul_le_mul_of_nonneg_right h3 (Rat.le_of_lt hs)
    generalize round53 (16756991 / sr) = y at *
    generalize (16756991 : Rat) / sr = x at *
    have h4 : ((16756991 : Nat) : Rat) = 16756991 := rfl
    refine toInt_near h hd ?_ ?_
    · rw [h4]; grind
    · rw [h4]; grind

theorem streamTime_eq {sr : Nat} (h : 0 < sr) : streamTime sr = 16756991 / (32 * sr) := by
  unfold streamTime div mul ofNat
  have hs : (0 : Rat) < sr := by exact_mod_cast h
  have hc := round53_nat (n := 16756991) (by decide) (by decide)
  have h32 := round53_nat (n := 32) (by decide) (by decide)
  rw [hc, h32]
  have h0 := round53_err hs
  have p0 := round53_pos hs
  generalize round53 (sr : Rat) = v0 at *
  have q1 : (0 : Rat) < 1 / v0 := by
    rw [Rat.div_def, Rat.one_mul]
    exact Rat.inv_pos.2 p0
  have e1 : (1 : Rat) / v0 * v0 = 1 := Rat.div_mul_cancel (by grind)
  have h1 := round53_err q1
  have p1 := round53_pos q1
  generalize round53 (1 / v0) = v1 at *
  generalize 1 / v0 = x1 at *
  have h1a := Rat.mul_le_mul_of_nonneg_right h1.1 (Rat.le_of_lt p0)
  have h1b := Rat.mul_le_mul_of_nonneg_right h1.2 (Rat.le_of_lt p0)
  have hc' : ((16756991 : Nat) : Rat) = 16756991 := rfl
  have h32' : ((32 : Nat) : Rat) = 32 := rfl
  rw [hc', h32']
  have q2 : 0 < v1 * 16756991 := Rat.mul_pos p1 (by decide)
  have h2 := round53_err q2
  have p2 := round53_pos q2
  generalize round53 (v1 * 16756991) = v2 at *
  have h2a := Rat.mul_le_mul_of_nonneg_right h2.1 (Rat.le_of_lt p0)
  have h2b := Rat.mul_le_mul_of_nonneg_right h2.2 (Rat.le_of_lt p0)
  have q3 : 0 < v2 / 32 := by
    rw [Rat.div_def]
    exact Rat.mul_pos p2 (by decide +kernel)
  have e3 : v2 / 32 * 32 = v2 := Rat.div_mul_cancel (by decide)
  have h3 := round53_err q3
  have p3 := round53_pos q3
  generalize round53 (v2 / 32) = v3 at *
  generalize v2 / 32 = x3 at *
  subst e3
  have h3a := Rat.mul_le_mul_of_nonneg_right h3.1 (Rat.le_of_lt p0)
  have h3b := Rat.mul_le_mul_of_nonneg_right h3.2 (Rat.le_of_lt p0)
  have h4a := Rat.mul_le_mul_of_nonneg_left h0.1 (Rat.le_of_lt p3)
  have h4b := Rat.mul_le_mul_of_nonneg_left h0.2 (Rat.le_of_lt p3)
  have hx : (((32 * sr : Nat)) : Rat) = 32 * sr := by rw [Rat.natCast_mul, h32']
  refine toInt_near (by omega) ?_ ?_ ?_
  · intro e
    have := Nat.dvd_of_mod_eq_zero e
    have h2 : 2 ∣ 32 * sr := ⟨16 * sr, by omega⟩
    have := Nat.dvd_trans h2 this
    omega
  · rw [hx, hc']
    clear hc h32 h0 h1 h2 h3 q1 q2 q3 hc' h32' hx p1 p2 p3 p0 hs
    grind
  · rw [hx, hc']
    clear hc h32 h0 h1 h2 h3 q1 q2 q3 hc' h32' hx p1 p2 p3 p0 hs
    grind

theorem lt_expo {x : Rat} (h : 0 < x) : x < pow2 (expo x + 1) := by
  unfold expo
  dsimp only
  split
  · rename_i h1
    rw [show ∀ a : Int, a - 1 + 1 = a by omega]
    exact h1
  · obtain ⟨h1, h2⟩ := num_bounds h
    generalize x.num.toNat = n at *
    have hd : 0 < x.den := x.den_pos
    generalize x.den = d at *
    have h3 : n < 2 ^ (n.log2 + 1) := Nat.lt_log2_self
    have h4 : 2 ^ d.log2 ≤ d := Nat.log2_self_le (by omega)
    have h3' : (n : Rat) < 2 ^ (n.log2 + 1) := by exact_mod_cast h3
    have h4' : (2 : Rat) ^ d.log2 ≤ d := by exact_mod_cast h4
    have h5 := pow2_sub ((n.log2 + 1 : Nat) : Int) d.log2
    rw [pow2_nat, show ((n.log2 + 1 : Nat) : Int) - (d.log2 : Int) = (n.log2 : Int) - d.log2 + 1 by omega] at h5
    have h6 : (0 : Rat) < d := by exact_mod_cast hd
    have h7 := pow2_pos ((n.log2 : Int) - d.log2 + 1)
    generalize pow2 ((n.log2 : Int) - d.log2 + 1) = p at *
    have h8 : x * d < p * d := by
      have := Rat.mul_le_mul_of_nonneg_left h4' (Rat.le_of_lt h7)
      grind
    exact Rat.lt_of_mul_lt_mul_right h8 (Rat.le_of_lt h6)

theorem pow2_lt {a b : Int} (h : pow2 a < pow2 b) : a < b := by
  refine Int.not_le.1 fun hge => ?_
  have := pow2_mono hge
  grind

/-- No integer is nearer. -/
theorem roundEven_near (x : Rat) (k : Int) :
    (roundEven x - x ≤ k - x ∨ roundEven x - x ≤ x - k) ∧ (x - roundEven x ≤ k - x ∨ x - roundEven x ≤ x - k) := by
  obtain ⟨h1, h2⟩ := roundEven_err x
  rcases Int.lt_trichotomy k (roundEven x) with h | h | h
  · have : ((k + 1 : Int) : Rat) ≤ roundEven x := by exact_mod_cast h
    have e : ((k + 1 : Int) : Rat) = k + 1 := by simp
    grind
  · subst h
    grind
  · have : ((roundEven x + 1 : Int) : Rat) ≤ k := by exact_mod_cast h
    have e : ((roundEven x + 1 : Int) : Rat) = roundEven x + 1 := by simp
    grind

theorem roundEven_tie {x : Rat} {k : Int} (hk : k ≠ roundEven x) (h : k - x ≤ 1 / 2) (h' : x - k ≤ 1 / 2) :
    roundEven x % 2 = 0 := by
  have h3 := Rat.floor_le x
  have h4 := Rat.lt_floor (x := x)
  have e : ((x.floor + 1 : Int) : Rat) = x.floor + 1 := by simp
  have a : k = x.floor ∨ k = x.floor + 1 := by
    have h5 : (k : Rat) < ((x.floor + 2 : Int) : Rat) := by
      have : ((x.floor + 2 : Int) : Rat) = x.floor + 2 := by simp
      grind
    have h6 : ((x.floor - 1 : Int) : Rat) < k := by
      have : ((x.floor - 1 : Int) : Rat) = x.floor - 1 := by simp
      grind
    have h5' : k < x.floor + 2 := by exact_mod_cast h5
    have h6' : x.floor - 1 < k := by exact_mod_cast h6
    omega
  unfold roundEven at hk ⊢
  split at hk
  · rename_i h1
    rcases a with rfl | rfl
    · exact absurd rfl hk
    · grind
  · rename_i h1
    rw [if_neg h1]
    split at hk
    · rename_i h2
      rcases a with rfl | rfl
      · grind
      · exact absurd rfl hk
    · rename_i h2
      rw [if_neg h2]
      split at hk
      · rename_i h3
        rw [if_pos h3]; exact h3
      · rename_i h3
        rw [if_neg h3]; omega

theorem pow2_split (e : Int) : ∃ a b : Nat, pow2 e * 2 ^ a = 2 ^ b ∧ e = (b : Int) - a := by
  by_cases h : 0 ≤ e
  · obtain ⟨n, rfl⟩ := Int.eq_ofNat_of_zero_le h
    exact ⟨0, n, by rw [pow2_nat]; grind, by omega⟩
  · obtain ⟨n, hn⟩ := Int.eq_ofNat_of_zero_le (show 0 ≤ -e by omega)
    have := pow2_sub 0 n
    rw [pow2_zero, show (0 : Int) - n = e by omega] at this
    exact ⟨n, 0, by grind, by omega⟩

theorem isFloat_iff {z : Rat} : IsFloat z ↔ ∃ (m : Nat) (e : Int), m < 2 ^ 53 ∧ z = m * pow2 e := by
  constructor
  · rintro ⟨m, a, b, h, e⟩
    refine ⟨m, (b : Int) - a, h, ?_⟩
    have h1 := pow2_sub (b : Int) a
    rw [pow2_nat] at h1
    have h2 := two_pow_pos a
    generalize (2 : Rat) ^ a = p at *
    generalize pow2 ((b : Int) - a) = q at *
    have h3 : z * p = m * q * p := by rw [e, ← h1]; grind
    exact Rat.le_antisymm (Rat.le_of_mul_le_mul_right (by grind) h2) (Rat.le_of_mul_le_mul_right (by grind) h2)
  · rintro ⟨m, e, h, rfl⟩
    obtain ⟨a, b, h1, h2⟩ := pow2_split e
    exact ⟨m, a, b, h, by grind⟩

theorem lastDigitZero_of {z : Rat} (h : ∃ (m : Nat) (e : Int), 2 ^ 52 ≤ m ∧ m < 2 ^ 53 ∧ m % 2 = 0 ∧ z = m * pow2 e) :
    LastDigitZero z := by
  obtain ⟨m, e, h1, h2, h3, rfl⟩ := h
  obtain ⟨a, b, h4, -⟩ := pow2_split e
  exact ⟨m, a, b, h1, h2, h3, by grind⟩

theorem round53_rounded {x : Rat} (h : 0 < x) : Rounded x (round53 x) := by
  have hlo := expo_le h
  have hhi := lt_expo h
  generalize hE : expo x = E at *
  have hp := pow2_pos (E - 52)
  have e1 := pow2_sub E 52
  rw [show ((52 : Nat) : Int) = 52 from rfl] at e1
  have e2 := pow2_succ E
  have hr : round53 x = roundEven (x / pow2 (E - 52)) * pow2 (E - 52) := by unfold round53; rw [hE]
  generalize hq : pow2 (E - 52) = p at *
  have hy : x / p * p = x := Rat.div_mul_cancel (by grind)
  generalize x / p = y at *
  -- the significand
  have y1 : (2 : Rat) ^ 52 ≤ y := by
    refine Rat.le_of_mul_le_mul_right (c := p) ?_ hp
    grind
  have y2 : y < 2 ^ 53 := by
    refine Rat.lt_of_mul_lt_mul_right (c := p) ?_ (Rat.le_of_lt hp)
    grind
  have hk1 : 2 ^ 52 ≤ roundEven y := by
    rcases (roundEven_near y (2 ^ 52)).2 with h | h
    · have e : ((2 ^ 52 : Int) : Rat) = 2 ^ 52 := by decide +kernel
      have h' : ((2 ^ 52 : Int) : Rat) ≤ roundEven y := by grind
      exact_mod_cast h'
    · have e : ((2 ^ 52 : Int) : Rat) = 2 ^ 52 := by decide +kernel
      have h' : ((2 ^ 52 : Int) : Rat) ≤ roundEven y := by grind
      exact_mod_cast h'
  have hk2 : roundEven y ≤ 2 ^ 53 := by
    have := (roundEven_err y).2
    have e : ((2 ^ 53 + 1 : Int) : Rat) = 2 ^ 53 + 1 := by decide +kernel
    have h' : (roundEven y : Rat) < ((2 ^ 53 + 1 : Int) : Rat) := by grind
    have : roundEven y < 2 ^ 53 + 1 := by exact_mod_cast h'
    omega
  -- the floats from 2 ^ E on are multiples of p
  have hmul : ∀ w, IsFloat w → pow2 E ≤ w → ∃ k : Int, w = k * p := by
    intro w hw hge
    obtain ⟨m, e, hm, rfl⟩ := isFloat_iff.1 hw
    have he : E - 52 ≤ e := by
      have hm' : (m : Rat) < 2 ^ 53 := by
        have e : ((2 ^ 53 : Nat) : Rat) = 2 ^ 53 := by decide +kernel
        rw [← e]; exact_mod_cast hm
      have h1 : pow2 E < pow2 (e + 53) := by
        have h2 := le_pow2_add (e := e) 53
        rw [show ((53 : Nat) : Int) = 53 from rfl] at h2
        rw [h2]
        have := Rat.mul_lt_mul_of_pos_right hm' (pow2_pos e)
        grind
      have := pow2_lt h1
      omega
    obtain ⟨n, hn⟩ := Int.eq_ofNat_of_zero_le (show 0 ≤ e - (E - 52) by omega)
    have h3 := le_pow2_add (e := E - 52) n
    rw [show E - 52 + (n : Int) = e by omega, hq] at h3
    refine ⟨((m * 2 ^ n : Nat) : Int), ?_⟩
    rw [h3, Rat.intCast_natCast, Rat.natCast_mul, Rat.natCast_pow]
    have : ((2 : Nat) : Rat) = 2 := rfl
    grind
  have hnear : ∀ k : Int, dist x (round53 x) ≤ dist x (k * p) := by
    intro k
    have h1 := roundEven_near y k
    rw [hr]
    have a1 : ∀ u v : Rat, u ≤ v → u * p ≤ v * p := fun u v h => Rat.mul_le_mul_of_nonneg_right h (Rat.le_of_lt hp)
    have h2 : (roundEven y * p - x ≤ k * p - x ∨ roundEven y * p - x ≤ x - k * p) ∧
        (x - roundEven y * p ≤ k * p - x ∨ x - roundEven y * p ≤ x - k * p) := by
      obtain ⟨h3, h4⟩ := h1
      constructor
      · rcases h3 with h | h
        · left; have := a1 _ _ h; grind
        · right; have := a1 _ _ h; grind
      · rcases h4 with h | h
        · left; have := a1 _ _ h; grind
        · right; have := a1 _ _ h; grind
    unfold dist
    generalize (roundEven y : Rat) * p = r at *
    generalize (k : Rat) * p = t at *
    split <;> split <;> grind
  have hlow : dist x (round53 x) ≤ x - pow2 E := by
    have h1 := hnear (2 ^ 52)
    have e : ((2 ^ 52 : Int) : Rat) = 2 ^ 52 := by decide +kernel
    have h2 : ((2 ^ 52 : Int) : Rat) * p = pow2 E := by rw [e]; grind
    rw [h2] at h1
    unfold dist at h1 ⊢
    split at h1 <;> grind
  refine ⟨?_, ?_, ?_⟩
  · rw [isFloat_iff, hr]
    by_cases hlt : roundEven y < 2 ^ 53
    · refine ⟨(roundEven y).toNat, E - 52, by omega, ?_⟩
      rw [hq, ← Rat.intCast_natCast, Int.toNat_of_nonneg (by omega)]
    · refine ⟨2 ^ 52, E - 52 + 1, by decide, ?_⟩
      rw [pow2_succ, hq, show roundEven y = 2 ^ 53 by omega]
      have e : ((2 ^ 53 : Int) : Rat) = 2 * ((2 ^ 52 : Nat) : Rat) := by decide +kernel
      rw [e]; grind
  · intro w hw
    by_cases hge : pow2 E ≤ w
    · obtain ⟨k, rfl⟩ := hmul w hw hge
      exact hnear k
    · unfold dist at hlow ⊢
      split at hlow <;> split <;> grind
  · intro w hw hne hd
    by_cases hge : pow2 E ≤ w
    · obtain ⟨k, rfl⟩ := hmul w hw hge
      have hk : k ≠ roundEven y := fun e => hne (by rw [hr, e])
      have herr := roundEven_err y
      have hd2 : dist x (k * p) ≤ 1 / 2 * p := by
        rw [hd, hr]
        have a1 := Rat.mul_le_mul_of_nonneg_right herr.1 (Rat.le_of_lt hp)
        have a2 := Rat.mul_le_mul_of_nonneg_right herr.2 (Rat.le_of_lt hp)
        unfold dist
        split <;> grind
      have b1 : (k - y) * p ≤ 1 / 2 * p := by unfold dist at hd2; split at hd2 <;> grind
      have b2 : (y - k) * p ≤ 1 / 2 * p := by unfold dist at hd2; split at hd2 <;> grind
      have hev := roundEven_tie hk (Rat.le_of_mul_le_mul_right b1 hp) (Rat.le_of_mul_le_mul_right b2 hp)
      refine lastDigitZero_of ?_
      rw [hr]
      by_cases hlt : roundEven y < 2 ^ 53
      · refine ⟨(roundEven y).toNat, E - 52, by omega, by omega, by omega, ?_⟩
        rw [hq, ← Rat.intCast_natCast, Int.toNat_of_nonneg (by omega)]
      · refine ⟨2 ^ 52, E - 52 + 1, by decide, by decide, by decide, ?_⟩
        rw [pow2_succ, hq, show roundEven y = 2 ^ 53 by omega]
        have e : ((2 ^ 53 : Int) : Rat) = 2 * ((2 ^ 52 : Nat) : Rat) := by decide +kernel
        rw [e]; grind
    · exfalso
      have : dist x w = x - w := by unfold dist; split <;> grind
      grind

theorem headOk_time {s : Model.SoundStream.STRM} {n bpb last t : Nat}
    (h : Proofs.SoundStream.HeadOk { s with time := 0 } n bpb last) (ht : t < 2 ^ 16) :
    Proofs.SoundStream.HeadOk { s with time := t } n bpb last := by
  obtain ⟨h1, h2, h3, h4⟩ := h
  refine ⟨h1, h2, h3, ?_⟩
  unfold Proofs.SoundStream.headFields Proofs.SoundStream.adjust at h4 ⊢
  dsimp only [Fits] at h4 ⊢
  obtain ⟨a1, a2, a3, a4, a5, a6, a7⟩ := h4
  exact ⟨a1, a2, a3, a4, a5, ht, a7⟩

theorem headOk_time_lt {s : Model.SoundStream.STRM} {n bpb last : Nat} (h : Proofs.SoundStream.HeadOk s n bpb last) :
    s.time < 2 ^ 16 := by
  obtain ⟨h1, h2, h3, h4⟩ := h
  unfold Proofs.SoundStream.headFields at h4
  dsimp only [Fits] at h4
  obtain ⟨a1, a2, a3, a4, a5, a6, a7⟩ := h4
  exact a6

end Verif.Proofs.Float
