import Verif.Spec.Reader
import Verif.Base.Struct
import Verif.Model.Common

/-!
# `struct.unpack_from` and the numbers in the bytes
-/

namespace Verif.Proofs.Reader

open Verif Verif.Spec.Reader Verif.Model.Common

theorem slice_succ {d : Bytes} {o k : Nat} (h : o < d.length) :
    slice d o (o + (k + 1)) = d[o] :: slice d (o + 1) (o + 1 + k) := by
  unfold slice
  rw [Nat.add_sub_cancel_left, Nat.add_sub_cancel_left, List.drop_eq_getElem_cons h]
  rfl

theorem u8_eq {d : Bytes} {o : Nat} (h : o < d.length) : u8 d o = d[o].toNat := by
  unfold u8; rw [List.getElem?_eq_getElem h]; rfl

theorem slice_none (d : Bytes) (o : Nat) : slice d o (o + 0) = [] := by simp

theorem leVal_1 {d : Bytes} {o : Nat} (h : o + 1 ≤ d.length) : leVal (slice d o (o + 1)) = u8 d o := by
  rw [slice_succ (k := 0) (by omega), slice_none, u8_eq (by omega)]
  simp [leVal]

theorem leVal_2 {d : Bytes} {o : Nat} (h : o + 2 ≤ d.length) : leVal (slice d o (o + 2)) = u16 d o := by
  rw [slice_succ (k := 1) (by omega), leVal, leVal_1 (by omega)]
  unfold u16
  rw [u8_eq (o := o) (by omega)]

theorem leVal_3 {d : Bytes} {o : Nat} (h : o + 3 ≤ d.length) : leVal (slice d o (o + 3)) = u24 d o := by
  rw [slice_succ (k := 2) (by omega), leVal, leVal_2 (by omega)]
  unfold u16 u24
  rw [u8_eq (o := o) (by omega), show o + 1 + 1 = o + 2 from rfl]
  omega

theorem leVal_4 {d : Bytes} {o : Nat} (h : o + 4 ≤ d.length) : leVal (slice d o (o + 4)) = u32 d o := by
  rw [slice_succ (k := 3) (by omega), leVal, leVal_3 (by omega)]
  unfold u24 u32
  rw [u8_eq (o := o) (by omega), show o + 1 + 1 = o + 2 from rfl, show o + 1 + 2 = o + 3 from rfl]
  omega

theorem unpack1 {d : Bytes} {o n : Nat} : unpackU .little 1 d o = .ok n ↔ o + 1 ≤ d.length ∧ n = u8 d o := by
  rw [unpackU_eq_ok]
  exact and_congr_right fun h => by rw [show enVal .little = leVal from rfl, leVal_1 h]

theorem unpack2 {d : Bytes} {o n : Nat} : unpackU .little 2 d o = .ok n ↔ o + 2 ≤ d.length ∧ n = u16 d o := by
  rw [unpackU_eq_ok]
  exact and_congr_right fun h => by rw [show enVal .little = leVal from rfl, leVal_2 h]

theorem unpack3 {d : Bytes} {o n : Nat} : unpackU .little 3 d o = .ok n ↔ o + 3 ≤ d.length ∧ n = u24 d o := by
  rw [unpackU_eq_ok]
  exact and_congr_right fun h => by rw [show enVal .little = leVal from rfl, leVal_3 h]

theorem unpack4 {d : Bytes} {o n : Nat} : unpackU .little 4 d o = .ok n ↔ o + 4 ≤ d.length ∧ n = u32 d o := by
  rw [unpackU_eq_ok]
  exact and_congr_right fun h => by rw [show enVal .little = leVal from rfl, leVal_4 h]

theorem slice_span (d : Bytes) (a b : Nat) : slice d a b = span d a b := by
  unfold slice span; rw [List.drop_take]

theorem slice_bytesAt (d : Bytes) (o n : Nat) : slice d o (o + n) = bytesAt d o n := by
  unfold slice bytesAt; rw [Nat.add_sub_cancel_left]

theorem unpackStr_iff {n : Nat} {d s : Bytes} {o : Nat} :
    unpackStr n d o = .ok s ↔ o + n ≤ d.length ∧ s = bytesAt d o n := by
  unfold unpackStr
  split
  · rename_i h
    rw [slice_bytesAt]
    simp only [Except.ok.injEq, h, true_and]
    exact eq_comm
  · rename_i h
    constructor
    · intro h'; cases h'
    · intro h'; exact absurd h'.1 h

theorem span_length (d : Bytes) (a b : Nat) : (span d a b).length = min b d.length - a := by
  unfold span; rw [List.length_drop, List.length_take]

theorem bytesAt_length (d : Bytes) (o n : Nat) : (bytesAt d o n).length = min n (d.length - o) := by
  unfold bytesAt; rw [List.length_take, List.length_drop]

theorem u8_bytesAt (d : Bytes) (o : Nat) {n i : Nat} (h : i < n) : u8 (bytesAt d o n) i = u8 d (o + i) := by
  unfold u8 bytesAt
  rw [List.getElem?_take_of_lt h, List.getElem?_drop]

theorem u16_bytesAt (d : Bytes) (o : Nat) {n i : Nat} (h : i + 1 < n) : u16 (bytesAt d o n) i = u16 d (o + i) := by
  unfold u16
  rw [u8_bytesAt _ _ (by omega), u8_bytesAt _ _ (by omega)]; rfl

theorem u32_bytesAt (d : Bytes) (o : Nat) {n i : Nat} (h : i + 3 < n) : u32 (bytesAt d o n) i = u32 d (o + i) := by
  unfold u32
  rw [u8_bytesAt _ _ (by omega), u8_bytesAt _ _ (by omega), u8_bytesAt _ _ (by omega), u8_bytesAt _ _ (by omega)]; rfl

theorem u8_span (d : Bytes) (a b : Nat) {i : Nat} (h : a + i < b) : u8 (span d a b) i = u8 d (a + i) := by
  unfold u8 span
  rw [List.getElem?_drop, List.getElem?_take_of_lt h]

theorem u16_span (d : Bytes) (a b : Nat) {i : Nat} (h : a + i + 1 < b) : u16 (span d a b) i = u16 d (a + i) := by
  unfold u16
  rw [u8_span _ _ _ (by omega), u8_span _ _ _ (by omega)]; rfl

theorem u32_span (d : Bytes) (a b : Nat) {i : Nat} (h : a + i + 3 < b) : u32 (span d a b) i = u32 d (a + i) := by
  unfold u32
  rw [u8_span _ _ _ (by omega), u8_span _ _ _ (by omega), u8_span _ _ _ (by omega), u8_span _ _ _ (by omega)]; rfl

theorem u8_lt (d : Bytes) (o : Nat) : u8 d o < 256 := by unfold u8; exact UInt8.toNat_lt _
theorem u16_lt (d : Bytes) (o : Nat) : u16 d o < 65536 := by
  have := u8_lt d o; have := u8_lt d (o + 1); unfold u16; omega
theorem u32_lt (d : Bytes) (o : Nat) : u32 d o < 2 ^ 32 := by
  have := u8_lt d o; have := u8_lt d (o + 1); have := u8_lt d (o + 2); have := u8_lt d (o + 3); unfold u32; omega

/-- What the standard header says. -/
theorem stdHeader_iff {d : Bytes} {o : Nat} {h : StdHeader} :
    unpackStdHeader d o = .ok h ↔ o + 16 ≤ d.length ∧
      h = ⟨bytesAt d o 4, u16 d (o + 4), u16 d (o + 6), u32 d (o + 8), u16 d (o + 12), u16 d (o + 14)⟩ := by
  unfold unpackStdHeader
  simp only [bind_eq_ok, pure_eq_ok, unpackStr_iff, unpack2, unpack4]
  constructor
  · rintro ⟨_, ⟨_, rfl⟩, _, ⟨_, rfl⟩, _, ⟨_, rfl⟩, _, ⟨_, rfl⟩, _, ⟨_, rfl⟩, _, ⟨h6, rfl⟩, rfl⟩
    exact ⟨by omega, rfl⟩
  · rintro ⟨hl, rfl⟩
    exact ⟨_, ⟨by omega, rfl⟩, _, ⟨by omega, rfl⟩, _, ⟨by omega, rfl⟩, _, ⟨by omega, rfl⟩, _, ⟨by omega, rfl⟩, _,
      ⟨by omega, rfl⟩, rfl⟩

theorem raiseIf_iff {c : Prop} [Decidable c] {e : PyErr} {u : Unit} : raiseIf c e = .ok u ↔ ¬c := by
  unfold raiseIf; split <;> simp [*]

theorem pyAssert_iff {c : Prop} [Decidable c] {u : Unit} : pyAssert c = .ok u ↔ c := by
  unfold pyAssert; split <;> simp [*]

theorem bit_shift (n k : Nat) : decide ((n >>> k) &&& 1 ≠ 0) = bit n k := by
  have h : (n >>> k) &&& 1 = n / 2 ^ k % 2 := by
    rw [Nat.shiftRight_eq_div_pow]
    exact Nat.and_two_pow_sub_one_eq_mod _ 1
  rw [h]
  unfold bit
  apply decide_eq_decide.2
  omega

theorem bit_testBit (n k : Nat) : bit n k = n.testBit k := by
  unfold bit
  rw [Nat.testBit_eq_decide_div_mod_eq]

theorem and_pow (n k : Nat) : decide (n &&& 2 ^ k ≠ 0) = bit n k := by
  have h1 : (n &&& 2 ^ k ≠ 0) ↔ n.testBit k = true := by
    constructor
    · intro hne
      cases h : n.testBit k with
      | true => rfl
      | false =>
        refine absurd (Nat.eq_of_testBit_eq fun i => ?_) hne
        rw [Nat.testBit_and, Nat.testBit_two_pow, Nat.zero_testBit]
        by_cases e : k = i
        · subst e; rw [h]; rfl
        · simp [e]
    · intro h e
      have := congrArg (Nat.testBit · k) e
      simp only [Nat.testBit_and, Nat.testBit_two_pow, Nat.zero_testBit, h] at this
      simp at this
  rw [bit_testBit]
  cases h : n.testBit k with
  | true => exact decide_eq_true (h1.2 h)
  | false => exact decide_eq_false (fun e => by rw [h1.1 e] at h; cases h)

/-- The number in `k` bytes. -/
def uN (k : Nat) (d : Bytes) (o : Nat) : Nat :=
  match k with
  | 1 => u8 d o
  | 2 => u16 d o
  | 3 => u24 d o
  | _ => u32 d o

/-- The numbers in consecutive fields. -/
def readAll (d : Bytes) : List Nat → Nat → List Nat
  | [], _ => []
  | k :: ks, o => uN k d o :: readAll d ks (o + k)

theorem unpackN {d : Bytes} {k o n : Nat} (hk : 1 ≤ k ∧ k ≤ 4) :
    unpackU .little k d o = .ok n ↔ o + k ≤ d.length ∧ n = uN k d o := by
  obtain ⟨h1, h2⟩ := hk
  obtain rfl | rfl | rfl | rfl : k = 1 ∨ k = 2 ∨ k = 3 ∨ k = 4 := by omega
  · exact unpack1
  · exact unpack2
  · exact unpack3
  · exact unpack4

theorem unpackUs_iff {d : Bytes} : ∀ {ks : List Nat} (_ : ∀ k ∈ ks, 1 ≤ k ∧ k ≤ 4) (_ : ks ≠ []) {o : Nat} {vs : List Nat},
    unpackUs .little ks d o = .ok vs ↔ o + ks.sum ≤ d.length ∧ vs = readAll d ks o
  | [], _, h, _, _ => absurd rfl h
  | [k], hk, _, o, vs => by
    rw [unpackUs]
    simp only [bind_eq_ok, pure_eq_ok, unpackN (hk k (by simp)), unpackUs, readAll, List.sum_cons, List.sum_nil,
      Nat.add_zero, Except.ok.injEq]
    constructor
    · rintro ⟨_, ⟨h1, rfl⟩, _, rfl, rfl⟩; exact ⟨h1, rfl⟩
    · rintro ⟨h1, rfl⟩; exact ⟨_, ⟨h1, rfl⟩, _, rfl, rfl⟩
  | k :: k' :: ks, hk, _, o, vs => by
    rw [unpackUs]
    simp only [bind_eq_ok, pure_eq_ok, unpackN (hk k (by simp)),
      unpackUs_iff (ks := k' :: ks) (fun x hx => hk x (List.mem_cons_of_mem _ hx)) (by simp)]
    rw [readAll, List.sum_cons (a := k)]
    constructor
    · rintro ⟨_, ⟨h1, rfl⟩, _, ⟨h2, rfl⟩, rfl⟩; exact ⟨by omega, rfl⟩
    · rintro ⟨h1, rfl⟩; exact ⟨_, ⟨by omega, rfl⟩, _, ⟨by omega, rfl⟩, rfl⟩

/-- The end of the last of `n` records of `k` bytes. -/
theorem records_end {n k s len : Nat} (hs : s ≤ len) :
    (∀ i ∈ List.range n, s + i * k + k ≤ len) ↔ s + k * n ≤ len := by
  constructor
  · intro h
    cases n with
    | zero => simpa using hs
    | succ n =>
      have := h n (List.mem_range.2 (by omega))
      have e : k * (n + 1) = n * k + k := by rw [Nat.mul_succ, Nat.mul_comm]
      omega
  · intro h i hi
    have hi := List.mem_range.1 hi
    have : (i + 1) * k ≤ n * k := Nat.mul_le_mul_right k hi
    rw [Nat.succ_mul] at this
    have e : k * n = n * k := Nat.mul_comm _ _
    omega

end Verif.Proofs.Reader
