import Verif.Spec.Music

/-! # Lemmas about durations, moving in time and loops -/

namespace Verif.Proofs.Music

open Verif Verif.Model.SoundSequence Verif.Model.SoundBank Verif.Model.Music Verif.Spec.Music

/-! ## The specification, recursively -/

theorem modeAfter_nil (m : Int) : modeAfter [] m = m := rfl

theorem modeAfter_cons (e : Ev) (es : List Ev) (m : Int) :
    modeAfter (e :: es) m = modeAfter es ((modeValue e).getD m) := by
  unfold modeAfter
  rw [List.filterMap_cons]
  cases modeValue e with
  | none => rfl
  | some v => simp [List.getLast?_cons]

theorem modeAfter_append (a b : List Ev) (m : Int) : modeAfter (a ++ b) m = modeAfter b (modeAfter a m) := by
  induction a generalizing m with
  | nil => rfl
  | cons e es ih => rw [List.cons_append, modeAfter_cons, modeAfter_cons, ih]

theorem total_nil (m : Int) : total [] m = 0 := rfl

theorem total_cons (e : Ev) (es : List Ev) (m : Int) :
    total (e :: es) m = len m e + total es ((modeValue e).getD m) := by
  unfold total
  rw [List.length_cons, List.range_succ_eq_map, List.map_cons, List.sum_cons, List.map_map]
  congr 1
  congr 1
  refine List.map_congr_left fun i _ => ?_
  simp only [Function.comp, List.getElem?_cons_succ, Nat.succ_eq_add_one, List.take_succ_cons, modeAfter_cons]

theorem total_append (a b : List Ev) (m : Int) : total (a ++ b) m = total a m + total b (modeAfter a m) := by
  induction a generalizing m with
  | nil => simp [total_nil, modeAfter_nil]
  | cons e es ih => rw [List.cons_append, total_cons, total_cons, modeAfter_cons, ih]; omega

theorem onsets_nil {ι : Type} (m : Int) : onsets ([] : List (ι × Ev)) m = [] := rfl

theorem onsets_cons {ι : Type} (o : ι × Ev) (os : List (ι × Ev)) (m : Int) :
    onsets (o :: os) m = (if isRest o.2 = true then [] else [(0, o)]) ++
      (onsets os ((modeValue o.2).getD m)).map fun x => (len m o.2 + x.1, x.2) := by
  unfold onsets
  rw [List.length_cons, List.range_succ_eq_map, List.filterMap_cons, List.filterMap_map, List.map_filterMap]
  have hrest : ((fun i => ((o :: os)[i]?).bind fun o' => if isRest o'.2 = true then none
        else some (total (((o :: os).take i).map (·.2)) m, o')) ∘ Nat.succ) =
      (fun i => Option.map (fun x : Int × ι × Ev => (len m o.2 + x.1, x.2)) ((os[i]?).bind fun o' =>
        if isRest o'.2 = true then none
        else some (total ((os.take i).map (·.2)) ((modeValue o.2).getD m), o'))) := by
    funext i
    simp only [Function.comp, List.getElem?_cons_succ, Nat.succ_eq_add_one, List.take_succ_cons, List.map_cons,
      total_cons]
    rcases os[i]? with _ | o'
    · rfl
    · simp only [Option.bind_some]
      split <;> rfl
  rw [hrest]
  simp only [List.getElem?_cons_zero, Option.bind_some, List.take_zero, List.map_nil, total_nil]
  by_cases h : isRest o.2 = true
  · simp [h]
  · simp [h]

theorem onsets_append {ι : Type} (a b : List (ι × Ev)) (m : Int) :
    onsets (a ++ b) m = onsets a m ++
      (onsets b (modeAfter (a.map (·.2)) m)).map fun x => (total (a.map (·.2)) m + x.1, x.2) := by
  induction a generalizing m with
  | nil => simp [onsets_nil, modeAfter_nil, total_nil]
  | cons o os ih =>
    rw [List.cons_append, onsets_cons, onsets_cons, ih, List.map_append, List.map_map, List.append_assoc]
    congr 2
    rw [List.map_cons, modeAfter_cons, total_cons]
    refine List.map_congr_left fun x _ => ?_
    simp only [Function.comp, Prod.mk.injEq, and_true]
    omega

/-! ## Durations -/

theorem durationOfEvent_eq (e : Ev) (m : Int) : durationOfEvent e m = (len m e, (modeValue e).getD m) := by
  cases e <;> simp [durationOfEvent, len, modeValue, MONO]
  split <;> simp_all

theorem durationOf_eq (es : List Ev) (m : Int) : durationOf es m = total es m := by
  induction es generalizing m with
  | nil => rfl
  | cons e es ih => rw [durationOf, total_cons, durationOfEvent_eq, ih]

theorem durationOf_one (e : Ev) (m : Int) : durationOf [e] m = len m e := by
  rw [durationOf_eq, total_cons, total_nil]; omega

theorem stepMode_eq (e : Ev) (m : Int) : stepMode e m = (modeValue e).getD m := by
  cases e <;> rfl

/-! ## Moving in time -/

/-- The events from `start` up to index `k`. -/
def seg (events : List Obj) (start k : Nat) : List Ev := ((events.take k).drop start).map (·.2)

theorem seg_self (events : List Obj) (start : Nat) : seg events start start = [] := by
  unfold seg
  rw [List.drop_eq_nil_of_le (by rw [List.length_take]; omega)]
  rfl

theorem seg_succ {events : List Obj} {start k : Nat} {o : Obj} (hs : start ≤ k) (h : events[k]? = some o) :
    seg events start (k + 1) = seg events start k ++ [o.2] := by
  unfold seg
  have hk : k < events.length := by
    rw [List.getElem?_eq_some_iff] at h; exact h.1
  rw [List.take_add_one, h, Option.toList_some, List.drop_append_of_le_length (by rw [List.length_take]; omega),
    List.map_append]
  rfl

theorem seg_all (events : List Obj) (start : Nat) : seg events start events.length = (events.drop start).map (·.2) := by
  unfold seg
  rw [List.take_length]

/-- How moving ends. -/
inductive Outcome (events : List Obj) (start : Nat) (target m0 : Int) (cut append : Bool) (fresh : Nat) :
    List Obj × Nat × Int × Int → Prop
  /-- The target is reached exactly at the end of an event. -/
  | exact (j : Nat) (o : Obj) (hs : start ≤ j) (ho : events[j]? = some o)
      (ht : total (seg events start (j + 1)) m0 = target) :
      Outcome events start target m0 cut append fresh
        (events, j + 1, target, modeAfter (seg events start (j + 1)) m0)
  /-- A rest is cut in two. -/
  | cut (j id : Nat) (full : Int) (hs : start ≤ j) (ho : events[j]? = some (id, .rest full)) (hc : cut = true)
      (h1 : total (seg events start j) m0 < target) (h2 : target < total (seg events start j) m0 + full) :
      Outcome events start target m0 cut append fresh
        (insertAt (assign events id (.rest (target - total (seg events start j) m0))) (j + 1)
          (fresh, .rest (full - (target - total (seg events start j) m0))),
          j + 1, target, modeAfter (seg events start j) m0)
  /-- The event at the index would go past the target. -/
  | stop (j : Nat) (o : Obj) (hs : start ≤ j) (ho : events[j]? = some o) (hc : isRest o.2 = true → cut = false)
      (h1 : total (seg events start j) m0 < target)
      (h2 : target < total (seg events start j) m0 + len (modeAfter (seg events start j) m0) o.2) :
      Outcome events start target m0 cut append fresh
        (events, j, total (seg events start j) m0, modeAfter (seg events start j) m0)
  /-- The list ends. -/
  | ended (ha : append = false) (h1 : total (seg events start events.length) m0 < target) :
      Outcome events start target m0 cut append fresh
        (events, events.length, total (seg events start events.length) m0, modeAfter (seg events start events.length) m0)
  /-- A rest is appended. -/
  | append (ha : append = true) (h1 : total (seg events start events.length) m0 < target) :
      Outcome events start target m0 cut append fresh
        (events ++ [(fresh, .rest (target - total (seg events start events.length) m0))], events.length + 1, target,
          modeAfter (seg events start events.length) m0)

theorem moveLoop_outcome (events : List Obj) (start : Nat) (target m0 : Int) (cut append : Bool) (fresh : Nat) :
    ∀ (remaining : List Obj) (idx : Nat), start ≤ idx → idx ≤ events.length → events.drop idx = remaining →
      (∀ k, start ≤ k → k ≤ idx → total (seg events start k) m0 < target) →
      Outcome events start target m0 cut append fresh
        (moveLoop events fresh target cut append remaining idx (total (seg events start idx) m0)
          (modeAfter (seg events start idx) m0)) ∧
      ∀ k, start ≤ k → k < (moveLoop events fresh target cut append remaining idx (total (seg events start idx) m0)
          (modeAfter (seg events start idx) m0)).2.1 → total (seg events start k) m0 < target
  | [], idx, hs, hl, hr, hk => by
    have hi : idx = events.length := by
      have := congrArg List.length hr
      rw [List.length_drop, List.length_nil] at this
      omega
    subst hi
    unfold moveLoop
    cases append with
    | true =>
      refine ⟨.append rfl (hk _ hs (Nat.le_refl _)), fun k h1 h2 => ?_⟩
      exact hk k h1 (by rw [if_pos rfl] at h2; dsimp only at h2; omega)
    | false =>
      refine ⟨.ended rfl (hk _ hs (Nat.le_refl _)), fun k h1 h2 => ?_⟩
      exact hk k h1 (by rw [if_neg (by decide)] at h2; dsimp only at h2; omega)
  | e :: remaining, idx, hs, hl, hr, hk => by
    have ho : events[idx]? = some e := by
      have := congrArg (fun l => l[0]?) hr
      simpa using this
    have hlt : idx < events.length := by
      rw [List.getElem?_eq_some_iff] at ho; exact ho.1
    have hr' : events.drop (idx + 1) = remaining := by
      rw [← List.drop_drop, hr]; rfl
    have hseg := seg_succ hs ho
    have ht : total (seg events start (idx + 1)) m0 =
        total (seg events start idx) m0 + durationOf [e.2] (modeAfter (seg events start idx) m0) := by
      rw [hseg, total_append, durationOf_eq]
    have hm : modeAfter (seg events start (idx + 1)) m0 = stepMode e.2 (modeAfter (seg events start idx) m0) := by
      rw [hseg, modeAfter_append, stepMode_eq, modeAfter_cons]; rfl
    have h0 := hk idx hs (Nat.le_refl _)
    rw [moveLoop.eq_def]
    dsimp only
    rw [← ht, ← hm]
    split
    · rename_i he
      rw [he]
      exact ⟨.exact idx e hs ho he, fun k h1 h2 => hk k h1 (by dsimp only at h2; omega)⟩
    · rename_i he
      split
      · rename_i hge
        have hl2 := durationOf_one e.2 (modeAfter (seg events start idx) m0)
        have hmm : modeAfter (seg events start (idx + 1)) m0 = modeAfter (seg events start idx) m0 := by
          rw [hm, stepMode_eq]
          obtain ⟨i, e⟩ := e
          cases e with
          | monoPoly v =>
            rw [hl2] at ht
            simp only [len] at ht
            omega
          | _ => rfl
        split
        · rename_i full heq
          obtain ⟨i, e⟩ := e
          dsimp only at heq
          subst heq
          rw [hmm]
          rw [hl2] at ht
          simp only [len] at ht
          refine ⟨.cut idx i full hs ho rfl h0 (by omega), fun k h1 h2 => hk k h1 (by dsimp only at h2; omega)⟩
        · rename_i x1 x2 hne
          rw [hmm]
          refine ⟨.stop idx e hs ho ?_ h0 (by rw [hl2] at ht; omega), fun k h1 h2 => hk k h1 (by dsimp only at h2; omega)⟩
          intro hre
          cases hx : e.2 with
          | rest d => exact Bool.eq_false_iff.2 (hne d hx)
          | _ => rw [hx] at hre; cases hre
      · rename_i hge
        refine moveLoop_outcome events start target m0 cut append fresh remaining (idx + 1) (by omega) (by omega) hr' ?_
        intro k h1 h2
        by_cases hki : k ≤ idx
        · exact hk k h1 hki
        · have : k = idx + 1 := by omega
          subst this
          omega

theorem moveInTime_outcome {events : List Obj} {start : Nat} {time m0 : Int} {cut append : Bool} {fresh : Nat}
    (hs : start ≤ events.length) (ht : 0 < time) :
    ∃ r, moveInTime events start time m0 cut append fresh = .ok r ∧
      Outcome events start time m0 cut append fresh r ∧
      ∀ k, start ≤ k → k < r.2.1 → total (seg events start k) m0 < time := by
  refine ⟨moveLoop events fresh time cut append (events.drop start) start 0 m0, ?_, ?_⟩
  · unfold moveInTime
    rw [if_neg (by omega), if_neg (by omega), if_neg (by omega)]
  · have := moveLoop_outcome events start time m0 cut append fresh (events.drop start) start (Nat.le_refl _) hs rfl
      (fun k h1 h2 => by
        have : k = start := by omega
        subst this
        rw [seg_self, total_nil]; omega)
    rw [seg_self, total_nil, modeAfter_nil] at this
    exact this

theorem assign_other {id : Nat} {ev : Ev} : ∀ {l : List Obj}, id ∉ l.map (·.1) → assign l id ev = l
  | [], _ => rfl
  | o :: os, h => by
    simp only [List.map_cons, List.mem_cons, not_or] at h
    have := assign_other (ev := ev) h.2
    unfold assign at this ⊢
    rw [List.map_cons, this, if_neg (fun he => h.1 he.symm)]

theorem assign_mid {id : Nat} {ev ev' : Ev} {p q : List Obj} (h : ((p ++ (id, ev) :: q).map (·.1)).Nodup) :
    assign (p ++ (id, ev) :: q) id ev' = p ++ (id, ev') :: q := by
  rw [List.map_append, List.map_cons, List.nodup_append, List.nodup_cons] at h
  obtain ⟨_, ⟨h2, _⟩, h3⟩ := h
  have hp := assign_other (ev := ev') (l := p) (id := id) (fun hm => h3 id hm id (by simp) rfl)
  have hq := assign_other (ev := ev') (l := q) h2
  unfold assign at hp hq ⊢
  rw [List.map_append, List.map_cons, hp, hq, if_pos rfl]

theorem insertAt_append {α : Type _} (p q : List α) (x : α) : insertAt (p ++ q) p.length x = p ++ x :: q := by
  unfold insertAt
  rw [List.take_left, List.drop_left]

theorem split_at {α : Type _} {l : List α} {j : Nat} {o : α} (h : l[j]? = some o) :
    ∃ p q, l = p ++ o :: q ∧ p.length = j := by
  obtain ⟨hl, rfl⟩ := List.getElem?_eq_some_iff.1 h
  exact ⟨l.take j, l.drop (j + 1), by rw [List.getElem_cons_drop hl, List.take_append_drop], by
    rw [List.length_take]; omega⟩

theorem cut_eq {events : List Obj} {j id : Nat} {full : Int} {a b : Ev} {f : Nat} (hn : (events.map (·.1)).Nodup)
    (h : events[j]? = some (id, .rest full)) :
    ∃ p q, events = p ++ (id, .rest full) :: q ∧ p.length = j ∧
      insertAt (assign events id a) (j + 1) (f, b) = p ++ (id, a) :: (f, b) :: q := by
  obtain ⟨p, q, rfl, hp⟩ := split_at h
  refine ⟨p, q, rfl, hp, ?_⟩
  rw [assign_mid hn]
  have : p ++ (id, a) :: q = (p ++ [(id, a)]) ++ q := by simp
  rw [this, show j + 1 = (p ++ [(id, a)]).length by simp [hp], insertAt_append]
  simp

/-- How moving may change the list: not at all, by cutting a rest, or by appending one. -/
inductive Edited (E : List Obj) (f : Nat) : List Obj → Prop
  | same : Edited E f E
  | cut (p q : List Obj) (id : Nat) (a b : Int) (ha : 0 < a) (hb : 0 < b) (he : E = p ++ (id, .rest (a + b)) :: q) :
      Edited E f (p ++ (id, .rest a) :: (f, .rest b) :: q)
  | append (d : Int) (hd : 0 < d) : Edited E f (E ++ [(f, .rest d)])

theorem Edited.onsets_eq {E E' : List Obj} {f : Nat} (h : Edited E f E') (m : Int) : onsets E' m = onsets E m := by
  cases h with
  | same => rfl
  | cut p q id a b ha hb he =>
    subst he
    rw [onsets_append, onsets_append, onsets_cons, onsets_cons, onsets_cons]
    congr 2
    simp only [isRest, if_true, List.nil_append, List.map_map, modeValue, Option.getD_none]
    refine List.map_congr_left fun x _ => ?_
    simp only [Function.comp, len]
    congr 1
    omega
  | append d hd =>
    rw [onsets_append, onsets_cons]
    simp [isRest, onsets_nil]

theorem Edited.nodup {E E' : List Obj} {f : Nat} (h : Edited E f E') (hn : (E.map (·.1)).Nodup)
    (hf : f ∉ E.map (·.1)) : (E'.map (·.1)).Nodup := by
  cases h with
  | same => exact hn
  | cut p q id a b ha hb he =>
    subst he
    have e1 : (p ++ (id, Ev.rest a) :: (f, Ev.rest b) :: q).map (·.1) = p.map (·.1) ++ id :: f :: q.map (·.1) := by simp
    have e2 : (p ++ (id, Ev.rest (a + b)) :: q).map (·.1) = p.map (·.1) ++ id :: q.map (·.1) := by simp
    rw [e1]
    rw [e2] at hn hf
    generalize p.map (·.1) = P at hn hf ⊢
    generalize q.map (·.1) = Q at hn hf ⊢
    have hperm : (P ++ id :: f :: Q).Perm (f :: (P ++ id :: Q)) := by
      have h1 : P ++ id :: f :: Q = (P ++ [id]) ++ f :: Q := by simp
      have h2 : P ++ id :: Q = (P ++ [id]) ++ Q := by simp
      rw [h1, h2]
      exact List.perm_middle
    rw [hperm.nodup_iff, List.nodup_cons]
    exact ⟨hf, hn⟩
  | append d hd =>
    rw [List.map_append, List.map_cons, List.map_nil]
    have hperm : (E.map (·.1) ++ [f]).Perm (f :: E.map (·.1)) := List.perm_append_comm
    rw [hperm.nodup_iff, List.nodup_cons]
    exact ⟨hf, hn⟩

/-- No event takes negative time. -/
def NonNeg (E : List Obj) : Prop := ∀ o ∈ E, ∀ m, 0 ≤ len m o.2

theorem Edited.nonNeg {E E' : List Obj} {f : Nat} (h : Edited E f E') (hn : NonNeg E) : NonNeg E' := by
  cases h with
  | same => exact hn
  | cut p q id a b ha hb he =>
    subst he
    intro o ho m
    simp only [List.mem_append, List.mem_cons] at ho
    rcases ho with ho | rfl | rfl | ho
    · exact hn o (by simp [ho]) m
    · exact Int.le_of_lt ha
    · exact Int.le_of_lt hb
    · exact hn o (by simp [ho]) m
  | append d hd =>
    intro o ho m
    simp only [List.mem_append, List.mem_cons, List.not_mem_nil, or_false] at ho
    rcases ho with ho | rfl
    · exact hn o ho m
    · exact Int.le_of_lt hd

theorem Edited.ids {E E' : List Obj} {f : Nat} (h : Edited E f E') : ∀ x ∈ E'.map (·.1), x = f ∨ x ∈ E.map (·.1) := by
  intro x hx
  cases h with
  | same => exact .inr hx
  | cut p q id a b ha hb he =>
    subst he
    simp only [List.map_append, List.map_cons, List.mem_append, List.mem_cons] at hx ⊢
    rcases hx with hx | hx | hx | hx
    · exact .inr (.inl hx)
    · exact .inr (.inr (.inl hx))
    · exact .inl hx
    · exact .inr (.inr (.inr hx))
  | append d hd =>
    simp only [List.map_append, List.map_cons, List.map_nil, List.mem_append, List.mem_singleton] at hx
    rcases hx with hx | hx
    · exact .inr hx
    · exact .inl hx

theorem total_nonneg {l : List Obj} (h : NonNeg l) (m : Int) : 0 ≤ total (l.map (·.2)) m := by
  induction l generalizing m with
  | nil => simp [total_nil]
  | cons o os ih =>
    rw [List.map_cons, total_cons]
    have := h o (by simp) m
    have := ih (fun x hx => h x (by simp [hx])) ((modeValue o.2).getD m)
    omega

theorem total_mono {E : List Obj} (h : NonNeg E) (m : Int) {i j : Nat} (hij : i ≤ j) :
    total ((E.take i).map (·.2)) m ≤ total ((E.take j).map (·.2)) m := by
  have e : E.take j = E.take i ++ (E.take j).drop i := by
    conv => lhs; rw [← List.take_append_drop i (E.take j)]
    rw [List.take_take, Nat.min_eq_left hij]
  rw [e, List.map_append, total_append]
  have : NonNeg ((E.take j).drop i) := fun x hx =>
    h x (List.mem_of_mem_take (List.mem_of_mem_drop hx))
  have := total_nonneg this (modeAfter ((E.take i).map (·.2)) m)
  omega

theorem seg_zero (E : List Obj) (k : Nat) : seg E 0 k = (E.take k).map (·.2) := by unfold seg; rw [List.drop_zero]

theorem outcome_edited {E : List Obj} {start : Nat} {t m : Int} {c a : Bool} {f : Nat} {r : List Obj × Nat × Int × Int}
    (hn : (E.map (·.1)).Nodup) (h : Outcome E start t m c a f r) : Edited E f r.1 := by
  cases h with
  | exact => exact .same
  | stop => exact .same
  | ended => exact .same
  | append ha h1 => exact .append _ (by omega)
  | cut j id full hs ho hc h1 h2 =>
    obtain ⟨p, q, he, hp, hr⟩ := cut_eq (a := .rest (t - total (seg E start j) m))
      (b := .rest (full - (t - total (seg E start j) m))) (f := f) hn ho
    dsimp only
    rw [hr]
    exact .cut p q id _ _ (by omega) (by omega) (by rw [he]; congr 3; congr 1; omega)

theorem take_snd (E : List Obj) (k : Nat) : (E.map (·.2)).take k = (E.take k).map (·.2) := by rw [List.map_take]

theorem across_append (a b : List Ev) (m t : Int) :
    Across (a ++ b) m t ↔ Across a m t ∨ Across b (modeAfter a m) (t - total a m) := by
  unfold Across
  constructor
  · rintro ⟨i, p, v, f, d, h1, h2, h3, h4⟩
    by_cases hi : i < a.length
    · rw [List.getElem?_append_left hi] at h1
      rw [List.take_append_of_le_length (by omega)] at h2 h3 h4
      exact .inl ⟨i, p, v, f, d, h1, h2, h3, h4⟩
    · rw [List.getElem?_append_right (by omega)] at h1
      rw [List.take_append, List.take_of_length_le (l := a) (by omega)] at h2 h3 h4
      rw [modeAfter_append] at h2
      rw [total_append] at h3 h4
      exact .inr ⟨i - a.length, p, v, f, d, h1, h2, by omega, by omega⟩
  · rintro (⟨i, p, v, f, d, h1, h2, h3, h4⟩ | ⟨i, p, v, f, d, h1, h2, h3, h4⟩)
    · have hi : i < a.length := (List.getElem?_eq_some_iff.1 h1).1
      refine ⟨i, p, v, f, d, ?_⟩
      rw [List.getElem?_append_left hi, List.take_append_of_le_length (by omega)]
      exact ⟨h1, h2, h3, h4⟩
    · refine ⟨a.length + i, p, v, f, d, ?_⟩
      rw [List.getElem?_append_right (by omega), List.take_append, List.take_of_length_le (l := a) (by omega),
        modeAfter_append, total_append]
      have : a.length + i - a.length = i := by omega
      rw [this]
      exact ⟨h1, h2, by omega, by omega⟩

theorem across_rest (d : Int) (m t : Int) : ¬ Across [.rest d] m t := by
  rintro ⟨i, p, v, f, d', h1, _⟩
  cases i with
  | zero => simp at h1
  | succ i => simp at h1

theorem Edited.across {E E' : List Obj} {f : Nat} (h : Edited E f E') (m t : Int) :
    Across (E'.map (·.2)) m t ↔ Across (E.map (·.2)) m t := by
  cases h with
  | same => exact Iff.rfl
  | cut p q id a b ha hb he =>
    subst he
    have e1 : (p ++ (id, Ev.rest a) :: (f, Ev.rest b) :: q).map (·.2) =
        p.map (·.2) ++ ([.rest a] ++ ([.rest b] ++ q.map (·.2))) := by simp
    have e2 : (p ++ (id, Ev.rest (a + b)) :: q).map (·.2) = p.map (·.2) ++ ([.rest (a + b)] ++ q.map (·.2)) := by simp
    rw [e1, e2, across_append, across_append, across_append, across_append, across_append]
    simp only [across_rest, false_or]
    have hm : ∀ d m', modeAfter [Ev.rest d] m' = m' := fun d m' => rfl
    have ht : ∀ d m', total [Ev.rest d] m' = d := fun d m' => by rw [total_cons, total_nil]; simp [len]
    rw [hm, hm, hm, ht, ht, ht]
    rw [show t - total (p.map (·.2)) m - a - b = t - total (p.map (·.2)) m - (a + b) by omega]
  | append d hd =>
    rw [List.map_append, across_append]
    simp only [List.map_cons, List.map_nil, across_rest, or_false]

/-- Moving from an index takes as long as moving from the beginning of the rest of the list. -/
theorem outcome_drop {E : List Obj} {s : Nat} {t m : Int} {c a : Bool} {f : Nat} {r : List Obj × Nat × Int × Int}
    (hs : s ≤ E.length) (h : Outcome E s t m c a f r) : ∃ r', Outcome (E.drop s) 0 t m c a f r' ∧ r'.2.2.1 = r.2.2.1 := by
  have e : ∀ j, seg E s j = seg (E.drop s) 0 (j - s) := by
    intro j
    unfold seg
    rw [List.drop_zero, List.drop_take]
  have hl : (E.drop s).length = E.length - s := List.length_drop
  cases h with
  | exact j o hj ho ht =>
    refine ⟨_, .exact (j - s) o (Nat.zero_le _) ?_ ?_, rfl⟩
    · rw [List.getElem?_drop, show s + (j - s) = j by omega]; exact ho
    · rw [show j - s + 1 = j + 1 - s by omega, ← e]; exact ht
  | cut j id full hj ho hc h1 h2 =>
    rw [e] at h1 h2
    refine ⟨_, .cut (j - s) id full (Nat.zero_le _) ?_ hc h1 h2, rfl⟩
    rw [List.getElem?_drop, show s + (j - s) = j by omega]; exact ho
  | stop j o hj ho hc h1 h2 =>
    dsimp only
    rw [e] at h1 h2 ⊢
    refine ⟨_, .stop (j - s) o (Nat.zero_le _) ?_ hc h1 h2, rfl⟩
    rw [List.getElem?_drop, show s + (j - s) = j by omega]; exact ho
  | ended ha h1 =>
    dsimp only
    rw [e, ← hl] at h1 ⊢
    exact ⟨_, .ended ha h1, rfl⟩
  | append ha h1 =>
    rw [e, ← hl] at h1
    exact ⟨_, .append ha h1, rfl⟩

/-- Moving with cutting and appending allowed falls short exactly if a note sounds across the moment. -/
theorem outcome_exact_iff {E : List Obj} {t m : Int} {f : Nat} {r : List Obj × Nat × Int × Int}
    (hE : NonNeg E) (h : Outcome E 0 t m true true f r) :
    r.2.2.1 = t ↔ ¬ Across (E.map (·.2)) m t := by
  have key : ∀ {i p v fl d}, (E.map (·.2))[i]? = some (.note p v fl d) →
      modeAfter ((E.map (·.2)).take i) m = 1 →
      total ((E.take (i + 1)).map (·.2)) m = total ((E.take i).map (·.2)) m + d := by
    intro i p v fl d hi hm
    rw [← take_snd, List.take_add_one, hi, Option.toList_some, total_append, hm, total_cons, total_nil]
    rw [take_snd]
    simp only [len, if_true]
    omega
  cases h with
  | exact j o hs ho ht =>
    simp only [true_iff]
    rintro ⟨i, p, v, fl, d, h1, h2, h3, h4⟩
    rw [take_snd] at h3 h4
    have hk := key h1 h2
    rw [seg_zero] at ht
    by_cases hij : i + 1 ≤ j + 1
    · have := total_mono hE m hij; omega
    · have := total_mono hE m (i := j + 1) (j := i) (by omega); omega
  | cut j id full hs ho hc hb ht =>
    simp only [true_iff]
    rintro ⟨i, p, v, fl, d, h1, h2, h3, h4⟩
    rw [take_snd] at h3 h4
    have hk := key h1 h2
    rw [seg_zero] at ht hb
    have hj : total ((E.take (j + 1)).map (·.2)) m = total ((E.take j).map (·.2)) m + full := by
      rw [List.take_add_one, ho, Option.toList_some, List.map_append, total_append]
      simp [total_cons, total_nil, len]
    rcases Nat.lt_trichotomy i j with hij | hij | hij
    · have := total_mono hE m (i := i + 1) (j := j) (by omega); omega
    · subst hij
      rw [List.getElem?_map, ho] at h1
      simp at h1
    · have := total_mono hE m (i := j + 1) (j := i) (by omega); omega
  | stop j o hs ho hc hb ht =>
    dsimp only
    rw [seg_zero] at hb ht ⊢
    constructor
    · intro h; omega
    · intro h
      refine absurd ?_ h
      obtain ⟨id, e⟩ := o
      cases e with
      | rest d => exact absurd (hc rfl) (by decide)
      | note p v fl d =>
        simp only [len] at ht
        by_cases hm : modeAfter ((E.take j).map (·.2)) m = 1
        · rw [if_pos hm] at ht
          exact ⟨j, p, v, fl, d, by rw [List.getElem?_map, ho]; rfl, by rw [take_snd, hm], by rw [take_snd]; omega,
            by rw [take_snd]; omega⟩
        · rw [if_neg hm] at ht; omega
      | _ => simp only [len] at ht; omega
  | ended ha h1 => cases ha
  | append ha hb =>
    simp only [true_iff]
    rintro ⟨i, p, v, fl, d, h1, h2, h3, h4⟩
    rw [take_snd] at h3 h4
    have hk := key h1 h2
    have hi : i < E.length := by
      have := (List.getElem?_eq_some_iff.1 h1).1
      rwa [List.length_map] at this
    have := total_mono hE m (i := i + 1) (j := E.length) (by omega)
    rw [seg_zero] at hb
    omega

/-- Where moving with success ends: the events up to the index take exactly the time. -/
theorem outcome_reach {E : List Obj} {start : Nat} {t m : Int} {c a : Bool} {f : Nat} {r : List Obj × Nat × Int × Int}
    (hn : (E.map (·.1)).Nodup) (hl : start ≤ E.length) (h : Outcome E start t m c a f r) :
    start ≤ r.2.1 ∧ r.2.1 ≤ r.1.length ∧ r.2.2.1 ≤ t ∧ total (seg r.1 start r.2.1) m = r.2.2.1 ∧
      modeAfter (seg r.1 start r.2.1) m = r.2.2.2 := by
  cases h with
  | exact j o hs ho ht =>
    have := (List.getElem?_eq_some_iff.1 ho).1
    exact ⟨by dsimp only; omega, this, Int.le_refl _, ht, rfl⟩
  | stop j o hs ho hc hb ht =>
    have := (List.getElem?_eq_some_iff.1 ho).1
    exact ⟨hs, Nat.le_of_lt this, Int.le_of_lt hb, rfl, rfl⟩
  | ended ha hb => exact ⟨hl, Nat.le_refl _, Int.le_of_lt hb, rfl, rfl⟩
  | append ha hb =>
    have e := seg_succ (events := E ++ [(f, Ev.rest (t - total (seg E start E.length) m))]) (start := start)
      (k := E.length) (o := (f, Ev.rest (t - total (seg E start E.length) m))) hl (by simp)
    have e' : seg (E ++ [(f, Ev.rest (t - total (seg E start E.length) m))]) start E.length = seg E start E.length := by
      unfold seg
      rw [List.take_append_of_le_length (Nat.le_refl _)]
    dsimp only
    rw [e, e']
    refine ⟨by omega, by simp, Int.le_refl _, ?_, ?_⟩
    · rw [total_append, total_cons, total_nil]; simp only [len]; omega
    · rw [modeAfter_append]; rfl
  | cut j id full hs ho hc hb ht =>
    obtain ⟨p, q, he, hp, hr⟩ := cut_eq (a := .rest (t - total (seg E start j) m))
      (b := .rest (full - (t - total (seg E start j) m))) (f := f) hn ho
    dsimp only
    rw [hr]
    have e := seg_succ (events := p ++ (id, Ev.rest (t - total (seg E start j) m)) ::
      (f, Ev.rest (full - (t - total (seg E start j) m))) :: q) (start := start) (k := j)
      (o := (id, Ev.rest (t - total (seg E start j) m))) hs (by
        rw [List.getElem?_append_right (by omega), hp, Nat.sub_self]; rfl)
    have e' : seg (p ++ (id, Ev.rest (t - total (seg E start j) m)) ::
        (f, Ev.rest (full - (t - total (seg E start j) m))) :: q) start j = seg E start j := by
      unfold seg
      rw [List.take_append_of_le_length (by omega), he, List.take_append_of_le_length (by omega)]
    rw [e, e']
    refine ⟨by omega, by simp; omega, Int.le_refl _, ?_, ?_⟩
    · rw [total_append, total_cons, total_nil]; simp only [len]; omega
    · rw [modeAfter_append]; rfl

/-- The list up to any index before the one reached is unchanged, if the time at that index is not past the target. -/
theorem outcome_prefix {E : List Obj} {t m : Int} {c a : Bool} {f : Nat} {r : List Obj × Nat × Int × Int}
    (hn : (E.map (·.1)).Nodup) (hE : NonNeg E) (h : Outcome E 0 t m c a f r) (hr : r.2.2.1 = t) {i : Nat}
    (hi : i ≤ E.length) (ht : total ((E.take i).map (·.2)) m < t) : r.1.take i = E.take i ∧ i < r.2.1 := by
  cases h with
  | exact j o hs ho he =>
    refine ⟨rfl, ?_⟩
    rw [seg_zero] at he
    apply Nat.lt_of_not_le
    intro hji
    have := total_mono hE m (i := j + 1) (j := i) hji
    omega
  | stop j o hs ho hc hb ht => dsimp only at hr; omega
  | ended ha hb => dsimp only at hr; omega
  | append ha hb =>
    exact ⟨List.take_append_of_le_length hi, by dsimp only; omega⟩
  | cut j id full hs ho hc hb he =>
    obtain ⟨p, q, hEq, hp, hrr⟩ := cut_eq (a := .rest (t - total (seg E 0 j) m))
      (b := .rest (full - (t - total (seg E 0 j) m))) (f := f) hn ho
    rw [seg_zero] at he hb
    have hij : i ≤ j := by
      apply Nat.le_of_not_lt
      intro hji
      have := total_mono hE m (i := j + 1) (j := i) hji
      have hj : total ((E.take (j + 1)).map (·.2)) m = total ((E.take j).map (·.2)) m + full := by
        rw [List.take_add_one, ho, Option.toList_some, List.map_append, total_append]
        simp [total_cons, total_nil, len]
      omega
    dsimp only
    rw [hrr]
    refine ⟨?_, by omega⟩
    rw [List.take_append_of_le_length (by omega)]
    conv => rhs; rw [hEq]
    rw [List.take_append_of_le_length (by omega)]

end Verif.Proofs.Music
