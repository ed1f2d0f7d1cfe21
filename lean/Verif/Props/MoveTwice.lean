import Verif.Proofs.MoveTwice
import Verif.Props.Music

/-! # C145: moves in time one after the other -/

namespace Verif.Props.MoveTwice

open Verif Verif.Model.SoundSequence Verif.Model.Music Verif.Spec.Music Verif.Proofs.Music

/-- C145.  After a move that has reached the time asked for, moving on from its index in its mode by a further time does to
the list what one move from the start by the sum of the times does, ends at the same index in the same mode, and returns
just as much less time as the first move had taken; with the same options, whatever those of the first move were, and also if
the second move does not reach its time. -/
theorem move_compose {E E1 : List Obj} {start i1 : Nat} {a b mode m1 : Int} {cut append : Bool} {fresh : Nat}
    (hids : (E.map (·.1)).Nodup) (h : moveInTime E start a mode cut append fresh = .ok (E1, i1, a, m1)) (hb : 0 ≤ b)
    (cut' append' : Bool) (fresh' : Nat) :
    (moveInTime E1 start (a + b) mode cut' append' fresh' = (moveInTime E1 i1 b m1 cut' append' fresh').map
      fun r => (r.1, r.2.1, a + r.2.2.1, r.2.2.2)) := by
  have hr := Props.Music.move_raises E start a mode cut append fresh
  rw [h] at hr
  have hr' : ¬ (a < 0 ∨ (a ≠ 0 ∧ E.length < start)) := fun hc => nomatch (hr.2 hc).choose_spec
  by_cases h0 : a = 0
  · subst h0
    unfold moveInTime at h
    rw [if_neg (by omega), if_pos rfl] at h
    cases h
    rw [Int.zero_add]
    cases moveInTime E start b mode cut' append' fresh' with
    | error e => rfl
    | ok r => simp only [Except.map, Int.zero_add]
  · have ha : 0 < a := by omega
    have hl : start ≤ E.length := by omega
    obtain ⟨r, h1, h2, h3⟩ := moveInTime_outcome (m0 := mode) (cut := cut) (append := append) (fresh := fresh) hl ha
    rw [h] at h1
    cases h1
    obtain ⟨n, hn, hk⟩ := outcome_before hids hl h2 rfl h3
    obtain ⟨_, hle, _, ht, hm⟩ := outcome_reach hids hl h2
    dsimp only at hn hle ht hm hk
    subst hn
    unfold moveInTime
    rw [if_neg (by omega), if_neg (by omega), if_neg (by omega), if_neg (by omega)]
    by_cases hb0 : b = 0
    · subst hb0
      rw [if_pos rfl, Int.add_zero]
      simp only [Except.map, Int.add_zero]
      rw [moveLoop_skip n (by omega) hk]
      have hlt : start + n < E1.length := by omega
      have hs := seg_succ (start := start) (k := start + n) (by omega) (List.getElem?_eq_getElem hlt)
      rw [hs] at ht hm
      rw [total_append, ← durationOf_eq [_]] at ht
      rw [modeAfter_append, modeAfter_cons, ← stepMode_eq, modeAfter_nil] at hm
      rw [← List.getElem_cons_drop hlt, moveLoop.eq_def]
      dsimp only
      rw [ht, if_pos rfl, hm]
    · rw [if_neg hb0, if_neg (by omega)]
      have := moveLoop_skip (E := E1) (start := start) (t := a + b) (m := mode) (c := cut') (p := append') (f := fresh')
        (n + 1) (by omega) (fun k h1 h2 => by
          by_cases hkn : k = start + n + 1
          · rw [hkn, ht]; omega
          · have := hk k h1 (by omega); omega)
      rw [this, ← Nat.add_assoc, ht, hm]
      have := moveLoop_shift E1 fresh' b a cut' append' (E1.drop (start + n + 1)) (start + n + 1) 0 m1
      rw [Int.add_zero] at this
      rw [this]
      rfl

example : let E := [(0, Ev.note 60 100 false 4), (1, .rest 10), (2, .monoPoly 0), (3, .rest 2), (4, .note 60 100 false 5), (5, .rest 3)]
    let E1 := [(0, Ev.note 60 100 false 4), (1, .rest 6), (9, .rest 4), (2, .monoPoly 0), (3, .rest 2), (4, .note 60 100 false 5), (5, .rest 3)]
    moveInTime E 0 10 1 true false 9 = .ok (E1, 2, 10, 1) ∧
    moveInTime E1 2 7 1 true true 10 = .ok ([(0, Ev.note 60 100 false 4), (1, .rest 6), (9, .rest 4), (2, .monoPoly 0), (3, .rest 2),
      (4, .note 60 100 false 5), (5, .rest 1), (10, .rest 2)], 7, 7, 0) := by decide

/-- C145.  Moving from the same start by the same time once more changes nothing, and returns the same: a rest is not cut
twice, and none is appended twice. -/
theorem move_again {E E1 : List Obj} {start i1 : Nat} {a mode m1 : Int} {cut append : Bool} {fresh : Nat}
    (hids : (E.map (·.1)).Nodup) (h : moveInTime E start a mode cut append fresh = .ok (E1, i1, a, m1))
    (cut' append' : Bool) (fresh' : Nat) :
    moveInTime E1 start a mode cut' append' fresh' = .ok (E1, i1, a, m1) := by
  have h1 := move_compose hids h (Int.le_refl 0) cut' append' fresh'
  rw [Int.add_zero] at h1
  have h2 : moveInTime E1 i1 0 m1 cut' append' fresh' = .ok (E1, i1, 0, m1) := by
    unfold moveInTime
    rw [if_neg (by omega), if_pos rfl]
  rw [h1, h2]
  simp only [Except.map, Int.add_zero]

example : ∃ E1, moveInTime [(0, Ev.rest 4)] 0 9 1 true true 1 = .ok (E1, 2, 9, 1) ∧ E1 = [(0, Ev.rest 4), (1, .rest 5)] ∧
    moveInTime E1 0 9 1 true true 2 = .ok (E1, 2, 9, 1) := ⟨_, rfl, by decide⟩

end Verif.Props.MoveTwice
