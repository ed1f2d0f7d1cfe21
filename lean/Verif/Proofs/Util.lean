import Verif.Model.Util
import Verif.Spec.Util

/-!
# Lemmas about named lists, `shortBytesRepr` and alignments
-/

namespace Verif.Proofs.Util

open Verif Verif.Model.Util Verif.Spec.Util

/-! ## Named lists -/

section Named

variable {κ α : Type _} [DecidableEq κ]

/-- The index found is the first one that carries the name. -/
theorem go_ok {L : List (κ × α)} {name : κ} {k i : Nat} :
    indexInNamedList.go name L k = .ok i ↔
      ∃ pre v suf, L = pre ++ (name, v) :: suf ∧ (∀ e ∈ pre, e.1 ≠ name) ∧ i = k + pre.length := by
  induction L generalizing k with
  | nil => simp [indexInNamedList.go]
  | cons e L ih =>
    unfold indexInNamedList.go
    by_cases he : e.1 = name
    · rw [if_pos he]
      constructor
      · intro h
        cases h
        exact ⟨[], e.2, L, by rw [← he]; rfl, by simp, by simp⟩
      · rintro ⟨pre, v, suf, h, hp, rfl⟩
        cases pre with
        | nil => simp
        | cons p pre =>
          simp only [List.cons_append, List.cons.injEq] at h
          exact absurd (h.1 ▸ he) (hp p (by simp))
    · rw [if_neg he, ih]
      constructor
      · rintro ⟨pre, v, suf, rfl, hp, rfl⟩
        refine ⟨e :: pre, v, suf, rfl, ?_, by simp; omega⟩
        intro x hx
        rcases List.mem_cons.1 hx with rfl | hx
        · exact he
        · exact hp x hx
      · rintro ⟨pre, v, suf, h, hp, rfl⟩
        cases pre with
        | nil =>
          simp only [List.nil_append, List.cons.injEq] at h
          exact absurd (by rw [h.1]) he
        | cons p pre =>
          simp only [List.cons_append, List.cons.injEq] at h
          exact ⟨pre, v, suf, h.2, fun x hx => hp x (by simp [hx]), by simp; omega⟩

theorem go_err {L : List (κ × α)} {name : κ} {k : Nat} {e : PyErr}
    (h : indexInNamedList.go name L k = .error e) : e = .keyError ∧ ∀ x ∈ L, x.1 ≠ name := by
  induction L generalizing k with
  | nil => unfold indexInNamedList.go at h; cases h; simp
  | cons x L ih =>
    unfold indexInNamedList.go at h
    split at h
    · cases h
    · rename_i hx
      obtain ⟨h1, h2⟩ := ih h
      refine ⟨h1, ?_⟩
      intro y hy
      rcases List.mem_cons.1 hy with rfl | hy
      · exact hx
      · exact h2 y hy

end Named

/-! ## `shortBytesRepr` -/

theorem steps_append (s : St) (a b : Str) :
    steps s (a ++ b) = (steps s a).bind fun r => (steps r.2 b).map fun r' => (r.1 ++ r'.1, r'.2) := by
  induction a generalizing s with
  | nil => simp [steps]
  | cons c a ih =>
    simp only [List.cons_append, steps]
    cases step s c with
    | none => rfl
    | some r =>
      simp only [Option.bind_eq_bind, Option.bind_some, ih]
      cases steps r.2 a with
      | none => rfl
      | some r2 =>
        cases h : steps r2.2 b <;> simp [pure, h]

/-- The text for each single byte except the quote is read back as that byte (the whole table). -/
theorem repr_table : ∀ b : Fin 256, b.val ≠ 39 →
    steps .text (reprByte b.val) = some ([UInt8.ofNat b.val], .text) := by decide +kernel

/-- A text that does not start with a digit does not start with an octal digit (the whole table). -/
theorem repr_head_table : ∀ b : Fin 256, ¬ (0x30 ≤ b.val ∧ b.val < 0x3A) →
    ((reprByte b.val).head?.bind octVal = none ∧ reprByte b.val ≠ []) := by decide +kernel

theorem oct_table : ∀ b : Fin 8, steps .text [92, 48 + b.val] = some ([], .oct1 b.val) := by decide +kernel

theorem steps_oct1 {v c : Nat} {t : Str} (h : octVal c = none) :
    steps (.oct1 v) (c :: t) = (steps .text (c :: t)).map fun r => (UInt8.ofNat v :: r.1, r.2) := by
  simp only [steps, step, h]
  cases stepText c with
  | none => rfl
  | some r => simp [pure]; cases steps r.2 t <;> rfl

theorem loop_head {n : Nat} {d : Bytes} (h : noDigitNext d) :
    ∃ c t, shortLoop n d ++ [39] = c :: t ∧ octVal c = none := by
  cases n with
  | zero => exact ⟨39, [], by simp [shortLoop], by decide⟩
  | succ n =>
    cases d with
    | nil => exact ⟨39, [], by simp [shortLoop], by decide⟩
    | cons b rest =>
      unfold shortLoop
      split
      · exact ⟨92, _, rfl, by decide⟩
      · have ht := repr_head_table ⟨b.toNat, b.toNat_lt⟩ (by
          simp only [noDigitNext, Bool.not_eq_true', Bool.and_eq_false_iff, decide_eq_false_iff_not] at h
          simp only; omega)
        simp only at ht
        obtain ⟨h1, h2⟩ := ht
        cases hr : reprByte b.toNat with
        | nil => exact absurd hr h2
        | cons c t =>
          rw [hr] at h1
          exact ⟨c, _, rfl, by simpa using h1⟩

theorem steps_loop : ∀ (n : Nat) (d : Bytes), 39 ∉ d.take n →
    steps .text (shortLoop n d ++ [39]) = some (d.take n, .done)
  | 0, d, _ => by simp [shortLoop, steps, step, stepText]
  | n + 1, [], _ => by simp [shortLoop, steps, step, stepText]
  | n + 1, b :: rest, h => by
    simp only [List.take_succ_cons, List.mem_cons, not_or] at h
    have ih := steps_loop n rest h.2
    have hb : b.toNat ≠ 39 := by
      intro hb
      apply h.1
      apply UInt8.toNat_inj.1
      rw [hb]; rfl
    unfold shortLoop
    split
    · rename_i hc
      have ho := oct_table ⟨b.toNat, hc.1⟩
      simp only at ho
      rw [List.append_assoc, steps_append, ho]
      obtain ⟨c, t, ht, hoc⟩ := loop_head (n := n) hc.2
      rw [ht] at ih ⊢
      simp [steps_oct1 hoc, ih]
    · have hr := repr_table ⟨b.toNat, b.toNat_lt⟩ hb
      simp only at hr
      rw [List.append_assoc, steps_append, hr]
      simp [ih]

theorem steps_done {t : Str} (h : t ≠ []) : steps .done t = none := by
  cases t with
  | nil => exact absurd rfl h
  | cons c t => rfl

/-- With a quote among the bytes, something follows the closing quote. -/
theorem steps_quote : ∀ (n : Nat) (d : Bytes), 39 ∈ d.take n → steps .text (shortLoop n d ++ [39]) = none
  | 0, d, h => by simp at h
  | n + 1, [], h => by simp at h
  | n + 1, b :: rest, h => by
    simp only [List.take_succ_cons, List.mem_cons] at h
    by_cases hb : b.toNat = 39
    · unfold shortLoop
      rw [if_neg (by omega), hb, show reprByte 39 = [39] from by decide +kernel, List.append_assoc, steps_append,
        show steps .text [39] = some ([], .done) from by decide +kernel]
      simp [steps_done]
    · have h' : 39 ∈ rest.take n := by
        rcases h with h | h
        · rw [← h] at hb; exact absurd rfl hb
        · exact h
      have ih := steps_quote n rest h'
      unfold shortLoop
      split
      · rename_i hc
        have ho := oct_table ⟨b.toNat, hc.1⟩
        simp only at ho
        rw [List.append_assoc, steps_append, ho]
        obtain ⟨c, t, ht, hoc⟩ := loop_head (n := n) hc.2
        rw [ht] at ih ⊢
        simp [steps_oct1 hoc, ih]
      · have hr := repr_table ⟨b.toNat, b.toNat_lt⟩ hb
        simp only at hr
        rw [List.append_assoc, steps_append, hr]
        simp [ih]

/-! ## Alignments -/

theorem and_fff (n : Nat) : n &&& 0xFFF = n % 4096 := Nat.and_two_pow_sub_one_eq_mod n 12

theorem and_three (n : Nat) : n &&& 3 = n % 4 := Nat.and_two_pow_sub_one_eq_mod n 2

theorem shr12 (n : Nat) : n >>> 12 = n / 4096 := Nat.shiftRight_eq_div_pow n 12

theorem or_1000 {n : Nat} (h : n < 4096) : n ||| 0x1000 = n + 0x1000 := by
  rw [Nat.or_comm, Nat.add_comm]
  exact (Nat.two_pow_add_eq_or_of_lt (i := 12) h 1).symm

theorem or_2000 {n : Nat} (h : n < 4096) : n ||| 0x2000 = n + 0x2000 := by
  rw [Nat.or_comm, Nat.add_comm]
  exact (Nat.two_pow_add_eq_or_of_lt (i := 12) h 2).symm

/-- Horizontal and vertical part of the packed words. -/
theorem pack_eq (x y : Int) (a : Nat) :
    packAlignment x y a =
      ((x % 4096).toNat + (if a &&& 4 ≠ 0 then 0x1000 else if a &&& 2 ≠ 0 then 0x2000 else 0),
       (y % 4096).toNat + (if a &&& 64 ≠ 0 then 0x1000 else if a &&& 32 ≠ 0 then 0x2000 else 0)) := by
  have hx : (x % 4096).toNat < 4096 := by omega
  have hy : (y % 4096).toNat < 4096 := by omega
  unfold packAlignment
  simp only [H_CENTER, RIGHT, V_CENTER, BOTTOM, or_1000 hx, or_2000 hx, or_1000 hy, or_2000 hy]
  congr 1 <;> repeat' (first | rfl | split)

theorem pack_lt (x y : Int) (a : Nat) :
    (packAlignment x y a).1 < 0x3000 ∧ (packAlignment x y a).2 < 0x3000 := by
  rw [pack_eq]
  constructor <;> (simp only; repeat' split) <;> omega

theorem pack_unpack {x y : Int} {a : Nat} (hx : 0 ≤ x ∧ x < 4096) (hy : 0 ≤ y ∧ y < 4096)
    (ha : ProperAlignment a) :
    let r := packAlignment x y a
    unpackAlignment r.1 r.2 = (x.toNat, y.toNat, a) := by
  have ex : (x % 4096).toNat = x.toNat := by omega
  have ey : (y % 4096).toNat = y.toNat := by omega
  have ex' : x.toNat < 4096 := by omega
  have ey' : y.toNat < 4096 := by omega
  obtain ⟨h, v, hh, hv, rfl⟩ := ha
  have d1 : ∀ z k : Nat, z < 4096 → (z + 4096 * k) / 4096 = k := by intros; omega
  have m1 : ∀ z k : Nat, z < 4096 → (z + 4096 * k) % 4096 = z := by intros; omega
  simp only [pack_eq, ex, ey]
  unfold unpackAlignment
  simp only [and_fff, and_three, shr12]
  have D0 := d1 x.toNat 0 ex'
  have D1 := d1 x.toNat 1 ex'
  have D2 := d1 x.toNat 2 ex'
  have M0 := m1 x.toNat 0 ex'
  have M1 := m1 x.toNat 1 ex'
  have M2 := m1 x.toNat 2 ex'
  have E0 := d1 y.toNat 0 ey'
  have E1 := d1 y.toNat 1 ey'
  have E2 := d1 y.toNat 2 ey'
  have N0 := m1 y.toNat 0 ey'
  have N1 := m1 y.toNat 1 ey'
  have N2 := m1 y.toNat 2 ey'
  simp only [Nat.mul_zero, Nat.add_zero, Nat.mul_one, Nat.reduceMul] at D0 D1 D2 M0 M1 M2 E0 E1 E2 N0 N1 N2
  rcases hh with rfl | rfl | rfl <;> rcases hv with rfl | rfl | rfl <;>
    simp [D0, D1, D2, M0, M1, M2, E0, E1, E2, N0, N1, N2, LEFT, RIGHT, H_CENTER, TOP, BOTTOM, V_CENTER]

theorem unpack_ok (xp yp : Nat) :
    (unpackAlignment xp yp).1 < 4096 ∧ (unpackAlignment xp yp).2.1 < 4096 ∧
    ProperAlignment (unpackAlignment xp yp).2.2 := by
  unfold unpackAlignment
  simp only [and_fff, and_three, shr12]
  refine ⟨by omega, by omega, ?_⟩
  unfold ProperAlignment
  have h1 : xp / 4096 % 4 < 4 := Nat.mod_lt _ (by decide)
  have h2 : yp / 4096 % 4 < 4 := Nat.mod_lt _ (by decide)
  generalize xp / 4096 % 4 = p at *
  generalize yp / 4096 % 4 = q at *
  have e1 : p = 0 ∨ p = 1 ∨ p = 2 ∨ p = 3 := by omega
  have e2 : q = 0 ∨ q = 1 ∨ q = 2 ∨ q = 3 := by omega
  rcases e1 with rfl | rfl | rfl | rfl <;> rcases e2 with rfl | rfl | rfl | rfl <;>
    first
      | exact ⟨1, 16, by decide, by decide, by decide⟩
      | exact ⟨1, 32, by decide, by decide, by decide⟩
      | exact ⟨1, 64, by decide, by decide, by decide⟩
      | exact ⟨2, 16, by decide, by decide, by decide⟩
      | exact ⟨2, 32, by decide, by decide, by decide⟩
      | exact ⟨2, 64, by decide, by decide, by decide⟩
      | exact ⟨4, 16, by decide, by decide, by decide⟩
      | exact ⟨4, 32, by decide, by decide, by decide⟩
      | exact ⟨4, 64, by decide, by decide, by decide⟩

end Verif.Proofs.Util
