import Verif.Proofs.Music

/-! # Two moves in time, one after the other -/

namespace Verif.Proofs.Music

open Verif Verif.Model.SoundSequence Verif.Model.Music Verif.Spec.Music

/-- Counting from another moment. -/
theorem moveLoop_shift (E : List Obj) (f : Nat) (t a : Int) (c p : Bool) : ∀ (rem : List Obj) (idx : Nat) (e m : Int),
    moveLoop E f (a + t) c p rem idx (a + e) m =
      ((moveLoop E f t c p rem idx e m).1, (moveLoop E f t c p rem idx e m).2.1,
        a + (moveLoop E f t c p rem idx e m).2.2.1, (moveLoop E f t c p rem idx e m).2.2.2)
  | [], idx, e, m => by
    simp only [moveLoop]
    have : a + t - (a + e) = t - e := by omega
    rw [this]
    split <;> rfl
  | o :: rem, idx, e, m => by
    have h1 : a + t - (a + e) = t - e := by omega
    have h2 : a + e + durationOf [o.2] m = a + (e + durationOf [o.2] m) := by omega
    simp only [moveLoop, h1, h2]
    by_cases h3 : e + durationOf [o.2] m = t
    · rw [if_pos (by omega), if_pos h3]
    · rw [if_neg (by omega), if_neg h3]
      by_cases h4 : e + durationOf [o.2] m ≥ t
      · rw [if_pos (by omega), if_pos h4]
        split <;> rfl
      · rw [if_neg (by omega), if_neg h4]
        exact moveLoop_shift E f t a c p rem (idx + 1) _ _

/-- The loop passes the events before the target. -/
theorem moveLoop_skip {E : List Obj} {start : Nat} {t m : Int} {c p : Bool} {f : Nat} (n : Nat) (hn : start + n ≤ E.length)
    (hk : ∀ k, start ≤ k → k ≤ start + n → total (seg E start k) m < t) :
    moveLoop E f t c p (E.drop start) start 0 m =
      moveLoop E f t c p (E.drop (start + n)) (start + n) (total (seg E start (start + n)) m)
        (modeAfter (seg E start (start + n)) m) := by
  induction n with
  | zero => rw [Nat.add_zero, seg_self, total_nil, modeAfter_nil]
  | succ n ih =>
    rw [ih (by omega) (fun k h1 h2 => hk k h1 (by omega))]
    have hlt : start + n < E.length := by omega
    have ho : E[start + n]? = some E[start + n] := List.getElem?_eq_getElem hlt
    have hs := seg_succ (start := start) (k := start + n) (by omega) ho
    have ht := hk (start + n + 1) (by omega) (by omega)
    have e1 : total (seg E start (start + n + 1)) m =
        total (seg E start (start + n)) m + durationOf [E[start + n].2] (modeAfter (seg E start (start + n)) m) := by
      rw [hs, total_append, durationOf_eq]
    have e2 : modeAfter (seg E start (start + n + 1)) m = stepMode E[start + n].2 (modeAfter (seg E start (start + n)) m) := by
      rw [hs, modeAfter_append, stepMode_eq, modeAfter_cons]; rfl
    rw [← List.getElem_cons_drop hlt, moveLoop.eq_def]
    dsimp only
    rw [← e1, ← e2, if_neg (by omega), if_neg (by omega)]
    rfl

/-- What a move that has reached the asked time leaves. -/
theorem outcome_before {E : List Obj} {start : Nat} {t m : Int} {c p : Bool} {f : Nat} {r : List Obj × Nat × Int × Int}
    (hn : (E.map (·.1)).Nodup) (hl : start ≤ E.length) (h : Outcome E start t m c p f r) (hr : r.2.2.1 = t)
    (hk : ∀ k, start ≤ k → k < r.2.1 → total (seg E start k) m < t) :
    ∃ n, r.2.1 = start + n + 1 ∧ ∀ k, start ≤ k → k ≤ start + n → total (seg r.1 start k) m < t := by
  cases h with
  | exact j o hs ho ht =>
    refine ⟨j - start, by dsimp only; omega, fun k h1 h2 => hk k h1 (by dsimp only; omega)⟩
  | stop j o hs ho hc hb ht => dsimp only at hr; omega
  | ended ha hb => dsimp only at hr; omega
  | append ha hb =>
    refine ⟨E.length - start, by dsimp only; omega, fun k h1 h2 => ?_⟩
    have := hk k h1 (by dsimp only; omega)
    unfold seg at this ⊢
    dsimp only
    rw [List.take_append_of_le_length (by omega)]
    exact this
  | cut j id full hs ho hc hb ht =>
    obtain ⟨p, q, he, hp, hr⟩ := cut_eq (a := .rest (t - total (seg E start j) m))
      (b := .rest (full - (t - total (seg E start j) m))) (f := f) hn ho
    refine ⟨j - start, by dsimp only; omega, fun k h1 h2 => ?_⟩
    have := hk k h1 (by dsimp only; omega)
    dsimp only
    rw [hr]
    rw [he] at this
    unfold seg at this ⊢
    rw [List.take_append_of_le_length (by omega)] at this ⊢
    exact this

end Verif.Proofs.Music
