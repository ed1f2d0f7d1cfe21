import Verif.Model.SoundSequence
import Verif.Base.Bits

/-!
# Variable-length integers: the encoding is the base-128 representation
-/

namespace Verif.Proofs.SeqVar

open Verif Verif.Model.SoundSequence

theorem and7F (n : Nat) : n &&& 0x7F = n % 128 := Bits.and_mask n 7 rfl

theorem shr7 (n : Nat) : n >>> 7 = n / 128 := Bits.shr n 7

theorem or80 {n : Nat} (h : n < 128) : n ||| 0x80 = n + 128 := by
  have := Bits.or_add (a := n) (b := 1) (k := 7) h
  simpa using this

theorem and80_lt {n : Nat} (h : n < 128) : n &&& 0x80 = 0 := by
  have h2 := Bits.and_two_pow_ne n 7
  rw [Nat.testBit_lt_two_pow (by simpa using h)] at h2
  simpa using h2

theorem and80_ge {n : Nat} (h : n < 128) : (n + 128) &&& 0x80 ≠ 0 := by
  have h2 := Bits.and_two_pow_ne (n + 128) 7
  have h3 : (n + 128).testBit 7 = true := by
    rw [Nat.testBit_eq_decide_div_mod_eq]
    have : (n + 128) / 2 ^ 7 = 1 := by omega
    rw [this]; rfl
  rw [h3] at h2
  simpa using h2

theorem or_shift7 {v b : Nat} (h : b < 128) : (v <<< 7) ||| b = v * 128 + b :=
  Bits.or_add' (k := 7) h

/-! ## Digits -/

theorem varDigits_small {f x : Nat} (h : x < 128) : varDigits f x = [x] := by
  cases f with
  | zero => rw [varDigits, and7F, Nat.mod_eq_of_lt h]
  | succ f =>
    rw [varDigits, and7F, shr7, Nat.mod_eq_of_lt h, if_pos (by omega)]

theorem varDigits_big {f x : Nat} (h : 128 ≤ x) :
    varDigits (f + 1) x = x % 128 :: varDigits f (x / 128) := by
  rw [varDigits, and7F, shr7, if_neg (by omega)]

theorem varDigits_ne_nil (f x : Nat) : varDigits f x ≠ [] := by
  cases f <;> simp [varDigits]

theorem varDigits_lt : ∀ (f x : Nat), ∀ v ∈ varDigits f x, v < 128
  | 0, x, v, hv => by
    rw [varDigits, and7F] at hv
    simp only [List.mem_singleton] at hv
    omega
  | f + 1, x, v, hv => by
    by_cases h : x < 128
    · rw [varDigits_small h] at hv; simp only [List.mem_singleton] at hv; omega
    · rw [varDigits_big (by omega)] at hv
      rcases List.mem_cons.1 hv with rfl | hv
      · omega
      · exact varDigits_lt f _ v hv

/-- The digits, most significant first, have the value `x`. -/
theorem varDigits_val : ∀ (f x : Nat), x ≤ f → (varDigits f x).foldr (fun v acc => acc * 128 + v) 0 = x
  | 0, x, h => by
    have : x = 0 := by omega
    subst this; rfl
  | f + 1, x, h => by
    by_cases hx : x < 128
    · rw [varDigits_small hx]; simp
    · rw [varDigits_big (by omega), List.foldr_cons, varDigits_val f _ (by omega)]
      omega

theorem varDigits_length_le : ∀ (f x m : Nat), x ≤ f → ((varDigits f x).length ≤ m + 1 ↔ x < 2 ^ (7 * (m + 1)))
  | 0, x, m, h => by
    have : x = 0 := by omega
    subst this
    rw [varDigits_small (by decide)]
    simp [Nat.two_pow_pos]
  | f + 1, x, m, h => by
    by_cases hx : x < 128
    · rw [varDigits_small hx]
      have : 2 ^ 7 ≤ 2 ^ (7 * (m + 1)) := Nat.pow_le_pow_right (by decide) (by omega)
      simp only [List.length_singleton]
      constructor <;> intro _ <;> omega
    · rw [varDigits_big (by omega), List.length_cons]
      cases m with
      | zero =>
        have := List.length_pos_iff.2 (varDigits_ne_nil f (x / 128))
        constructor
        · intro h'; omega
        · intro h'; simp at h'; omega
      | succ m =>
        have ih := varDigits_length_le f (x / 128) m (by omega)
        have e : 2 ^ (7 * (m + 1 + 1)) = 2 ^ (7 * (m + 1)) * 128 := by
          rw [show 7 * (m + 1 + 1) = 7 * (m + 1) + 7 by omega, Nat.pow_add]
        rw [e, ← Nat.div_lt_iff_lt_mul (by decide), ← ih]
        omega

theorem bitLength_le (x k : Nat) : bitLength x ≤ k ↔ x < 2 ^ k := by
  unfold bitLength
  split
  · rename_i h; subst h; simp [Nat.two_pow_pos]
  · rename_i h
    rw [← Nat.log2_lt h]; omega

theorem groupLoop_eq : ∀ (f b : Nat), b ≤ f → groupLoop f b = (b + 6) / 7
  | 0, b, h => by
    have : b = 0 := by omega
    subst this; rfl
  | f + 1, b, h => by
    rw [groupLoop]
    split
    · rename_i h; subst h; rfl
    · rw [groupLoop_eq f _ (by omega)]; omega

/-- The declared length is the number of digits. -/
theorem lenVar_eq (x : Nat) : lenVar x = .ok (varDigits x x).length := by
  unfold lenVar
  rw [if_neg (by omega), Int.toNat_natCast, groupLoop_eq _ _ (Nat.le_refl _)]
  congr 1
  have hpos := List.length_pos_iff.2 (varDigits_ne_nil x x)
  have key : ∀ m, ((bitLength x + 6) / 7 ≤ m + 1 ↔ (varDigits x x).length ≤ m + 1) := by
    intro m
    rw [varDigits_length_le x x m (Nat.le_refl _), ← bitLength_le]
    omega
  generalize (bitLength x + 6) / 7 = a at key
  generalize (varDigits x x).length = l at key hpos
  have h1 := key (l - 1)
  have h2 := key (a - 1)
  omega

/-! ## Bytes -/

/-- The encoding of a list of digits, most significant first. -/
def enc (l : List Nat) : Bytes := (markDigits l).map UInt8.ofNat

/-- The encoding of a number. -/
def varBytes (x : Nat) : Bytes := enc (varDigits x x).reverse

theorem markDigits_length : ∀ l, (markDigits l).length = l.length
  | [] => rfl
  | [_] => rfl
  | v :: w :: r => by rw [markDigits, List.length_cons, markDigits_length (w :: r)]; rfl

theorem varBytes_length (x : Nat) : (varBytes x).length = (varDigits x x).length := by
  rw [varBytes, enc, List.length_map, markDigits_length, List.length_reverse]

theorem writeVar_eq (x : Nat) : writeVar x = .ok (varBytes x) := by
  unfold writeVar
  rw [if_neg (by omega), Int.toNat_natCast]
  rfl

theorem writeVar_eq_ok {x : Int} {w : Bytes} : writeVar x = .ok w ↔ 0 ≤ x ∧ w = varBytes x.toNat := by
  by_cases h : x < 0
  · unfold writeVar; rw [if_pos h]
    constructor
    · intro h'; cases h'
    · intro h'; omega
  · obtain ⟨n, rfl⟩ := Int.eq_ofNat_of_zero_le (by omega : 0 ≤ x)
    rw [writeVar_eq]
    simp only [Except.ok.injEq, Int.toNat_natCast]
    constructor
    · intro h; exact ⟨by omega, h.symm⟩
    · intro h; exact h.2.symm

theorem lenVar_eq' (x : Nat) : lenVar x = .ok (varBytes x).length := by
  rw [lenVar_eq, varBytes_length]

theorem varBytes_pos (x : Nat) : 0 < (varBytes x).length := by
  rw [varBytes_length]; exact List.length_pos_iff.2 (varDigits_ne_nil x x)

theorem enc_cons2 (p q : Nat) (l : List Nat) : enc (p :: q :: l) = UInt8.ofNat (p ||| 0x80) :: enc (q :: l) := rfl

theorem enc_head {q : Nat} (h : q < 128) (l : List Nat) :
    ∃ b t, enc (q :: l) = b :: t ∧ b.toNat &&& 0x7F = q := by
  cases l with
  | nil =>
    refine ⟨UInt8.ofNat q, [], rfl, ?_⟩
    rw [UInt8.toNat_ofNat', and7F]; omega
  | cons r l =>
    refine ⟨UInt8.ofNat (q ||| 0x80), enc (r :: l), rfl, ?_⟩
    rw [or80 h, UInt8.toNat_ofNat', and7F]; omega

theorem At.head {d : Bytes} {o : Nat} {b : UInt8} {t : Bytes} (h : At d o (b :: t)) : pyIdx d o = .ok b := by
  obtain ⟨x, y, rfl, rfl⟩ := h
  unfold pyIdx
  simp

theorem At.tail {d : Bytes} {o : Nat} {b : UInt8} {t : Bytes} (h : At d o (b :: t)) : At d (o + 1) t :=
  ((At.split (s := [b])).1 h).2

theorem readVarLoop_enc (d : Bytes) : ∀ (l : List Nat) (p room off v : Nat), At d off (enc (p :: l)) →
    p < 128 → (∀ x ∈ l, x < 128) →
    readVarLoop d room (off + 1) v =
      if l.length ≤ room then .ok (l.foldl (fun acc x => acc * 128 + x) v) else .error .valueError
  | [], p, room, off, v, hat, hp, _ => by
    have hb : pyIdx d off = .ok (UInt8.ofNat p) := At.head hat
    rw [readVarLoop, Nat.add_sub_cancel, hb, bind_ok, UInt8.toNat_ofNat', Nat.mod_eq_of_lt (by omega),
      and80_lt hp]
    simp
  | q :: l, p, room, off, v, hat, hp, hl => by
    rw [enc_cons2] at hat
    have hb := At.head hat
    have hq : q < 128 := hl q (by simp)
    obtain ⟨b, t, he, hbq⟩ := enc_head hq l
    have hb2 : pyIdx d (off + 1) = .ok b := by
      have := At.tail hat
      rw [he] at this
      exact At.head this
    rw [readVarLoop, Nat.add_sub_cancel, hb, bind_ok, UInt8.toNat_ofNat', or80 hp, Nat.mod_eq_of_lt (by omega),
      if_neg (and80_ge hp), hb2, bind_ok]
    cases room with
    | zero => simp
    | succ room =>
      dsimp only
      rw [readVarLoop_enc d l q room (off + 1) _ (At.tail hat) hq (fun x hx => hl x (by simp [hx])), hbq,
        or_shift7 hq]
      simp

/-- Reading an encoded number gives it back if it has at most five digits and raises `ValueError` otherwise. -/
theorem readVar_at {d : Bytes} {off x : Nat} (h : At d off (varBytes x)) :
    readVar d off = if x < 2 ^ 35 then .ok x else .error .valueError := by
  unfold varBytes at h
  have hlt : ∀ v ∈ (varDigits x x).reverse, v < 128 := fun v hv => varDigits_lt _ _ v (List.mem_reverse.1 hv)
  have hval : (varDigits x x).reverse.foldl (fun acc v => acc * 128 + v) 0 = x := by
    rw [List.foldl_reverse]; exact varDigits_val x x (Nat.le_refl _)
  have hlen : (varDigits x x).reverse.length ≤ 5 ↔ x < 2 ^ 35 := by
    rw [List.length_reverse]; exact varDigits_length_le x x 4 (Nat.le_refl _)
  have hne : (varDigits x x).reverse ≠ [] := by simpa using varDigits_ne_nil x x
  cases hds : (varDigits x x).reverse with
  | nil => exact absurd hds hne
  | cons p l =>
    rw [hds] at h hlt hval hlen
    have hp : p < 128 := hlt p (by simp)
    obtain ⟨b, t, he, hbq⟩ := enc_head hp l
    have hb : pyIdx d off = .ok b := by
      rw [he] at h; exact At.head h
    unfold readVar
    rw [hb, bind_ok, hbq, readVarLoop_enc d l p 4 off p h hp (fun x hx => hlt x (by simp [hx]))]
    rw [List.foldl_cons, Nat.zero_mul, Nat.zero_add] at hval
    rw [hval]
    simp only [List.length_cons, Nat.reducePow] at hlen ⊢
    by_cases h5 : l.length ≤ 4
    · rw [if_pos h5, if_pos (hlen.1 (by omega))]
    · rw [if_neg h5, if_neg (fun hx => h5 (by have := hlen.2 hx; omega))]

end Verif.Proofs.SeqVar
