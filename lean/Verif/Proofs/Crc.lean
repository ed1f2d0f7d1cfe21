import Verif.Model.Util

/-!
# Lemmas about CRC-16
-/

namespace Verif.Proofs.Crc

open Verif Verif.Model.Util

theorem and_one_eq (c : Nat) : c &&& 1 = c % 2 := by simp

theorem xor_left_comm (a b c : Nat) : a ^^^ (b ^^^ c) = b ^^^ (a ^^^ c) := by
  rw [← Nat.xor_assoc, ← Nat.xor_assoc, Nat.xor_comm a b]

theorem xor_cancel (a b : Nat) : a ^^^ (a ^^^ b) = b := by
  rw [← Nat.xor_assoc, Nat.xor_self, Nat.zero_xor]

theorem xor_inj {a b c : Nat} (h : a ^^^ b = a ^^^ c) : b = c := by
  rw [← xor_cancel a b, h, xor_cancel]

theorem eq_of_xor_eq_zero {a b : Nat} (h : a ^^^ b = 0) : a = b := by
  have := congrArg (a ^^^ ·) h
  simp only [xor_cancel, Nat.xor_zero] at this
  exact this.symm

theorem xor_lt {a b : Nat} (ha : a < 65536) (hb : b < 65536) : a ^^^ b < 65536 :=
  Nat.xor_lt_two_pow (n := 16) ha hb

/-- The step written without a case distinction. -/
theorem crcBit_eq (c : Nat) : crcBit c = (c >>> 1) ^^^ (if c % 2 = 1 then 0xA001 else 0) := by
  unfold crcBit
  rw [and_one_eq]
  rcases Nat.mod_two_eq_zero_or_one c with h | h <;> simp [h]

theorem crcBit_lt {c : Nat} (h : c < 65536) : crcBit c < 65536 := by
  rw [crcBit_eq]
  apply xor_lt
  · rw [Nat.shiftRight_eq_div_pow]; omega
  · split <;> omega

theorem xor_mod_two (a b : Nat) : (a ^^^ b) % 2 = (a % 2 + b % 2) % 2 := by
  have := Nat.xor_mod_two_pow (a := a) (b := b) (n := 1)
  simp only [Nat.pow_one] at this
  rw [this]
  rcases Nat.mod_two_eq_zero_or_one a with h | h <;> rcases Nat.mod_two_eq_zero_or_one b with h' | h' <;>
    simp [h, h']

/-- The step is linear. -/
theorem crcBit_xor (a b : Nat) : crcBit (a ^^^ b) = crcBit a ^^^ crcBit b := by
  rw [crcBit_eq, crcBit_eq, crcBit_eq, Nat.shiftRight_xor_distrib, xor_mod_two]
  rcases Nat.mod_two_eq_zero_or_one a with h | h <;> rcases Nat.mod_two_eq_zero_or_one b with h' | h' <;>
    simp only [h, h'] <;> simp only [Nat.xor_assoc, xor_left_comm, Nat.xor_self,
      Nat.zero_xor, reduceCtorEq, if_true, if_false, Nat.zero_mod, Nat.reduceAdd, Nat.reduceMod, Nat.xor_comm]

/-- The step can be undone. -/
theorem crcBit_eq_zero {c : Nat} (hc : c < 65536) (h : crcBit c = 0) : c = 0 := by
  rw [crcBit_eq] at h
  have h2 := eq_of_xor_eq_zero h
  rw [Nat.shiftRight_eq_div_pow] at h2
  split at h2 <;> omega

theorem crcBits_lt : ∀ (n : Nat) {c : Nat}, c < 65536 → crcBits n c < 65536
  | 0, _, h => h
  | n + 1, _, h => crcBits_lt n (crcBit_lt h)

theorem crcBits_xor : ∀ (n a b : Nat), crcBits n (a ^^^ b) = crcBits n a ^^^ crcBits n b
  | 0, _, _ => rfl
  | n + 1, a, b => by
    simp only [crcBits]
    rw [crcBit_xor, crcBits_xor n]

theorem crcBits_eq_zero : ∀ (n : Nat) {c : Nat}, c < 65536 → crcBits n c = 0 → c = 0
  | 0, _, _, h => h
  | n + 1, _, hc, h => crcBit_eq_zero hc (crcBits_eq_zero n (crcBit_lt hc) h)

theorem crcBits_inj {n a b : Nat} (ha : a < 65536) (hb : b < 65536) (h : crcBits n a = crcBits n b) : a = b := by
  apply eq_of_xor_eq_zero
  apply crcBits_eq_zero n (xor_lt ha hb)
  rw [crcBits_xor, h, Nat.xor_self]

theorem byte_lt (b : UInt8) : b.toNat < 65536 := by have := b.toNat_lt; omega

theorem crcFrom_lt : ∀ (d : Bytes) {c : Nat}, c < 65536 → crcFrom c d < 65536
  | [], _, h => h
  | b :: d, _, h => crcFrom_lt d (crcBits_lt 8 (xor_lt h (byte_lt b)))

theorem crcFrom_append (c : Nat) (a b : Bytes) : crcFrom c (a ++ b) = crcFrom (crcFrom c a) b := by
  induction a generalizing c with
  | nil => rfl
  | cons x a ih => exact ih _

theorem crcFrom_inj : ∀ (d : Bytes) {a b : Nat}, a < 65536 → b < 65536 → crcFrom a d = crcFrom b d → a = b
  | [], _, _, _, _, h => h
  | x :: d, a, b, ha, hb, h => by
    have h1 := crcFrom_inj d (crcBits_lt 8 (xor_lt ha (byte_lt x))) (crcBits_lt 8 (xor_lt hb (byte_lt x))) h
    exact xor_inj (a := x.toNat)
      (by simpa only [Nat.xor_comm] using crcBits_inj (xor_lt ha (byte_lt x)) (xor_lt hb (byte_lt x)) h1)

/-- No non-zero byte can be cancelled by the byte that follows it (the whole table of 256 values). -/
theorem byte_table : ∀ x : Fin 256, crcBits 8 x.val < 256 → x.val = 0 := by decide +kernel

theorem two_bytes_inj {c x1 x2 y1 y2 : Nat} (hc : c < 65536) (hx1 : x1 < 256) (hx2 : x2 < 256) (hy1 : y1 < 256)
    (hy2 : y2 < 256)
    (h : crcBits 8 (crcBits 8 (c ^^^ x1) ^^^ x2) = crcBits 8 (crcBits 8 (c ^^^ y1) ^^^ y2)) :
    x1 = y1 ∧ x2 = y2 := by
  have l1 : crcBits 8 (c ^^^ x1) < 65536 := crcBits_lt 8 (xor_lt hc (by omega))
  have l2 : crcBits 8 (c ^^^ y1) < 65536 := crcBits_lt 8 (xor_lt hc (by omega))
  have h1 := crcBits_inj (xor_lt l1 (by omega)) (xor_lt l2 (by omega)) h
  rw [crcBits_xor, crcBits_xor] at h1
  have h2 : crcBits 8 x1 ^^^ crcBits 8 y1 = x2 ^^^ y2 := by
    have e : ∀ a b c d f : Nat, a ^^^ b ^^^ d = a ^^^ c ^^^ f → b ^^^ c = d ^^^ f := by
      intro a b c d f he
      have e1 : b ^^^ d = c ^^^ f := xor_inj (a := a) (by simpa only [Nat.xor_assoc] using he)
      have e2 := congrArg (fun z => c ^^^ (d ^^^ z)) e1
      rw [xor_left_comm d b d, Nat.xor_self, Nat.xor_zero, xor_left_comm d c f, xor_cancel, Nat.xor_comm c b] at e2
      exact e2
    exact e _ _ _ _ _ h1
  rw [← crcBits_xor] at h2
  have h3 : x2 ^^^ y2 < 256 := Nat.xor_lt_two_pow (n := 8) hx2 hy2
  have h4 : x1 ^^^ y1 < 256 := Nat.xor_lt_two_pow (n := 8) hx1 hy1
  have h5 := byte_table ⟨x1 ^^^ y1, h4⟩ (by simp only; omega)
  simp only at h5
  rw [h5] at h2
  have h6 : crcBits 8 0 = 0 := by decide
  rw [h6] at h2
  exact ⟨eq_of_xor_eq_zero h5, eq_of_xor_eq_zero h2.symm⟩

theorem crc16_eq (d : Bytes) : crc16 d = crcFrom 0xFFFF d := by
  unfold crc16
  have := Nat.and_two_pow_sub_one_eq_mod (crcFrom 0xFFFF d) 16
  have hl := crcFrom_lt d (c := 0xFFFF) (by decide)
  simp only [show (2 : Nat) ^ 16 - 1 = 0xFFFF by decide] at this
  rw [this]
  exact Nat.mod_eq_of_lt hl

theorem crc16_two (pre suf : Bytes) (x1 x2 y1 y2 : UInt8)
    (h : crc16 (pre ++ x1 :: x2 :: suf) = crc16 (pre ++ y1 :: y2 :: suf)) : x1 = y1 ∧ x2 = y2 := by
  rw [crc16_eq, crc16_eq, crcFrom_append, crcFrom_append] at h
  have hp := crcFrom_lt pre (c := 0xFFFF) (by decide)
  simp only [crcFrom] at h
  have hh := crcFrom_inj suf
    (crcBits_lt 8 (xor_lt (crcBits_lt 8 (xor_lt hp (byte_lt x1))) (byte_lt x2)))
    (crcBits_lt 8 (xor_lt (crcBits_lt 8 (xor_lt hp (byte_lt y1))) (byte_lt y2))) h
  have := two_bytes_inj hp x1.toNat_lt x2.toNat_lt y1.toNat_lt y2.toNat_lt hh
  exact ⟨UInt8.toNat_inj.1 this.1, UInt8.toNat_inj.1 this.2⟩

theorem crc16_one (pre suf : Bytes) (x y : UInt8)
    (h : crc16 (pre ++ x :: suf) = crc16 (pre ++ y :: suf)) : x = y := by
  rw [crc16_eq, crc16_eq, crcFrom_append, crcFrom_append] at h
  have hp := crcFrom_lt pre (c := 0xFFFF) (by decide)
  have h1 := crcFrom_inj suf (crcBits_lt 8 (xor_lt hp (byte_lt x))) (crcBits_lt 8 (xor_lt hp (byte_lt y))) h
  have h2 := crcBits_inj (xor_lt hp (byte_lt x)) (xor_lt hp (byte_lt y)) h1
  exact UInt8.toNat_inj.1 (xor_inj h2)

theorem crcFrom_xor : ∀ (a b : Bytes) (c c' : Nat), a.length = b.length →
    crcFrom (c ^^^ c') (List.zipWith (fun x y => UInt8.ofNat (x.toNat ^^^ y.toNat)) a b) =
      crcFrom c a ^^^ crcFrom c' b
  | [], [], _, _, _ => rfl
  | x :: a, y :: b, c, c', h => by
    have hl : x.toNat ^^^ y.toNat < 256 := Nat.xor_lt_two_pow (n := 8) x.toNat_lt y.toNat_lt
    simp only [List.zipWith_cons_cons, crcFrom]
    rw [UInt8.toNat_ofNat_of_lt' hl]
    have e : c ^^^ c' ^^^ (x.toNat ^^^ y.toNat) = (c ^^^ x.toNat) ^^^ (c' ^^^ y.toNat) := by
      rw [Nat.xor_assoc, Nat.xor_assoc, xor_left_comm c']
    rw [e, crcBits_xor]
    exact crcFrom_xor a b _ _ (by simpa using h)
  | [], _ :: _, _, _, h => by simp at h
  | _ :: _, [], _, _, h => by simp at h

end Verif.Proofs.Crc
