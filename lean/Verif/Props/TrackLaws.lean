import Verif.Props.MusicMinify
import Verif.Props.MusicTracks

/-! # C146: changing a track or a song more than once -/

namespace Verif.Props.TrackLaws

open Verif Verif.Model.SoundSequence Verif.Model.Music Verif.Spec.Music Verif.Proofs.MusicTracks
open Verif.Props.MusicTracks
open Verif.Props.MusicMinify (tune)

/-! ### Initial values -/

theorem findControl_front {c : Control} {p q : List Obj} {o : Obj}
    (hp : ∀ x ∈ p, valueOf c x.2 = none ∧ isTimed x.2 = false) (ho : (valueOf c o.2).isSome = true) :
    findControl c (p ++ o :: q) = some o := by
  induction p with
  | nil => simp only [List.nil_append, findControl, if_pos ho]
  | cons x p ih =>
    obtain ⟨h1, h2⟩ := hp x (by simp)
    simp only [List.cons_append, findControl, h1, h2, Option.isSome_none, Bool.false_eq_true, if_false]
    exact ih fun y hy => hp y (by simp [hy])

theorem eventOf_valueOf {c : Control} {e : Ev} {v : Value} (h : valueOf c e = some v) : eventOf c v = some e := by
  cases c with
  | simple k =>
    cases e with
    | simple k' w =>
      simp only [valueOf] at h
      split at h
      · rename_i hk
        cases h
        rw [hk]; rfl
      · cases h
    | _ => cases h
  | _ => cases e <;> simp only [valueOf, Option.some.injEq, reduceCtorEq] at h <;> subst h <;> rfl

theorem valueOf_other {c c' : Control} {e : Ev} {v : Value} (hc : c ≠ c') (h : valueOf c e = some v) : valueOf c' e = none := by
  cases hv : valueOf c' e with
  | none => rfl
  | some w => exact absurd (valueOf_inj h hv) hc

/-- C146.  Of two values set for one control the second counts: the list is the one that setting the second alone gives. -/
theorem initial_set_twice {c : Control} {E E1 E2 : List Obj} {v w : Value} {fresh fresh' : Nat}
    (hids : (E.map (·.1)).Nodup) (hf : fresh ∉ E.map (·.1)) (h1 : initialSet c E (some v) fresh = .ok E1)
    (h2 : initialSet c E (some w) fresh = .ok E2) : initialSet c E1 (some w) fresh' = .ok E2 := by
  unfold initialSet at h1 h2 ⊢
  cases he1 : eventOf c v with
  | none => cases hfc : findControl c E <;> simp only [hfc, he1] at h1 <;> cases h1
  | some e1 =>
  cases he2 : eventOf c w with
  | none => cases hfc : findControl c E <;> simp only [hfc, he2] at h2 <;> cases h2
  | some e2 =>
    have hv1 : (valueOf c e1).isSome = true := by rw [eventOf_value he1]; rfl
    cases hfc : findControl c E with
    | none =>
      simp only [hfc, he1, he2] at h1 h2
      split at h1
      · cases h1
      split at h2
      · cases h2
      cases h1
      cases h2
      have := findControl_front (c := c) (p := []) (q := E) (o := (fresh, e1)) (fun x hx => nomatch hx) hv1
      rw [List.nil_append] at this
      simp only [this, he2]
      have := assign_mid (id := fresh) (ev := e1) (ev' := e2) (p := []) (q := E) (by
        rw [List.nil_append, List.map_cons, List.nodup_cons]; exact ⟨hf, hids⟩)
      rw [List.nil_append, List.nil_append] at this
      rw [this]
    | some o =>
      simp only [hfc, he1, he2] at h1 h2
      cases h1
      cases h2
      obtain ⟨p, q, rfl, hp, ho⟩ := findControl_some hfc
      obtain ⟨i, e⟩ := o
      have hids' : ((p ++ (i, e1) :: q).map (·.1)).Nodup := by simpa using hids
      rw [assign_mid hids, assign_mid hids, findControl_front hp hv1]
      dsimp only
      rw [he2]
      exact congrArg _ (assign_mid hids')

example : initialSet .tempo (tune [.monoPoly 1, .note 60 100 false 4]) (some (.num 120)) 7 =
      .ok ((7, .tempo 120) :: tune [.monoPoly 1, .note 60 100 false 4]) ∧
    initialSet .tempo (tune [.monoPoly 1, .note 60 100 false 4]) (some (.num 90)) 7 =
      .ok ((7, .tempo 90) :: tune [.monoPoly 1, .note 60 100 false 4]) := by decide

/-- C146.  Setting an initial value to what it is changes nothing. -/
theorem initial_set_same {c : Control} {E : List Obj} {v : Value} (fresh : Nat) (hids : (E.map (·.1)).Nodup)
    (h : initialGet c E = some v) : initialSet c E (some v) fresh = .ok E := by
  unfold initialGet at h
  unfold initialSet
  cases hfc : findControl c E with
  | none => rw [hfc] at h; cases h
  | some o =>
    rw [hfc] at h
    dsimp only at h
    have he : eventOf c v = some o.2 := by
      obtain ⟨i, e⟩ := o
      exact eventOf_valueOf h
    obtain ⟨p, q, rfl, hp, ho⟩ := findControl_some hfc
    obtain ⟨i, e⟩ := o
    simp only [he]
    rw [assign_mid hids]

example : initialGet (.simple .pan) (tune [.tempo 90, .simple .pan 64, .note 60 100 false 4]) = some (.num 64) := by decide

/-- C146.  Setting an initial value where there was none, and then None, leaves the track as it was. -/
theorem initial_set_undone {c : Control} {E E1 : List Obj} {v : Value} {fresh : Nat} (fresh' : Nat)
    (hn : initialGet c E = none) (h : initialSet c E (some v) fresh = .ok E1) : initialSet c E1 none fresh' = .ok E := by
  unfold initialGet at hn
  unfold initialSet at h ⊢
  cases hfc : findControl c E with
  | some o =>
    rw [hfc] at hn
    obtain ⟨_, _, _, _, ho⟩ := findControl_some hfc
    dsimp only at hn
    rw [hn] at ho
    cases ho
  | none =>
    cases he : eventOf c v with
    | none => simp only [hfc, he] at h; cases h
    | some e =>
      simp only [hfc, he] at h
      split at h
      · cases h
      cases h
      have := findControl_front (c := c) (p := []) (q := E) (o := (fresh, e)) (fun x hx => nomatch hx)
        (by rw [eventOf_value he]; rfl)
      rw [List.nil_append] at this
      simp only [this, removeObj, if_pos]

example : initialGet .instrument (tune [.tempo 90, .note 60 100 false 4, .instrumentSwitch 0 1]) = none ∧
    initialSet .instrument (tune [.tempo 90, .note 60 100 false 4, .instrumentSwitch 0 1]) (some (.inst 0 3)) 7 =
      .ok ((7, .instrumentSwitch 0 3) :: tune [.tempo 90, .note 60 100 false 4, .instrumentSwitch 0 1]) := by decide

/-- Replacing the event of one control by another one for it leaves the others found where they were. -/
theorem findControl_replace {c c' : Control} (hc : c ≠ c') {p q : List Obj} {i : Nat} {e e0 : Ev} {v v0 : Value}
    (h : valueOf c e = some v) (h0 : valueOf c e0 = some v0) :
    findControl c' (p ++ (i, e) :: q) = findControl c' (p ++ (i, e0) :: q) := by
  rw [findControl_drop (o := (i, e)) (valueOf_other hc h) (valueOf_untimed (c := c) (by rw [h]; rfl)),
    findControl_drop (o := (i, e0)) (valueOf_other hc h0) (valueOf_untimed (c := c) (by rw [h0]; rfl))]

theorem assign_comm {i j : Nat} (hij : i ≠ j) (e e' : Ev) (E : List Obj) :
    assign (assign E i e) j e' = assign (assign E j e') i e := by
  unfold assign
  rw [List.map_map, List.map_map]
  refine List.map_congr_left fun o _ => ?_
  simp only [Function.comp]
  by_cases h1 : o.1 = i
  · rw [if_pos h1, if_neg (by dsimp only; exact hij)]
    rw [if_neg (show ¬ o.1 = j by rw [h1]; exact hij), if_pos h1]
  · rw [if_neg h1]
    by_cases h2 : o.1 = j
    · rw [if_pos h2, if_neg (by dsimp only; exact hij.symm)]
    · rw [if_neg h2, if_neg h1]

/-- What setting a value does. -/
theorem initialSet_iff {c : Control} {E E1 : List Obj} {v : Value} {f : Nat} :
    initialSet c E (some v) f = .ok E1 ↔ ∃ e, eventOf c v = some e ∧
      ((findControl c E = none ∧ ¬ (c = .monoPoly ∧ v ≠ .num 0 ∧ v ≠ .num 1) ∧ E1 = (f, e) :: E) ∨
        ∃ o, findControl c E = some o ∧ E1 = assign E o.1 e) := by
  unfold initialSet
  cases he : eventOf c v with
  | none => cases hfc : findControl c E <;> simp [he]
  | some e =>
    cases hfc : findControl c E with
    | none =>
      simp only [he, Option.some.injEq, exists_eq_left', true_and, reduceCtorEq, false_and, exists_false, or_false]
      by_cases hm : c = .monoPoly ∧ v ≠ .num 0 ∧ v ≠ .num 1
      · rw [if_pos hm]; exact ⟨fun h => (nomatch h), fun h => absurd hm h.1⟩
      · rw [if_neg hm]
        exact ⟨fun h => by cases h; exact ⟨hm, rfl⟩, fun h => by rw [h.2]⟩
    | some o =>
      simp only [he, Option.some.injEq, exists_eq_left', reduceCtorEq, false_and, false_or, Except.ok.injEq]
      exact eq_comm

/-- Setting one control does not move the event of another. -/
theorem findControl_set {c c' : Control} (hc : c ≠ c') {E E1 : List Obj} {v : Value} {f : Nat}
    (hids : (E.map (·.1)).Nodup) (h : initialSet c E (some v) f = .ok E1) : findControl c' E1 = findControl c' E := by
  obtain ⟨e, he, h | ⟨o, ho, rfl⟩⟩ := initialSet_iff.1 h
  · rw [h.2.2]
    exact findControl_drop (o := (f, e)) (valueOf_other hc (eventOf_value he)) (eventOf_untimed he) []
  · obtain ⟨p, q, rfl, hp, hv⟩ := findControl_some ho
    obtain ⟨i, e0⟩ := o
    obtain ⟨w, hw⟩ := Option.isSome_iff_exists.1 hv
    rw [assign_mid hids]
    exact findControl_replace hc (eventOf_value he) hw

theorem findControl_mem {c : Control} {E : List Obj} {o : Obj} (h : findControl c E = some o) : o ∈ E := by
  obtain ⟨p, q, rfl, _, _⟩ := findControl_some h
  simp

theorem assign_cons {f i : Nat} (hf : f ≠ i) (e e' : Ev) (E : List Obj) :
    assign ((f, e) :: E) i e' = (f, e) :: assign E i e' := by
  unfold assign
  rw [List.map_cons, if_neg hf]

theorem eq_of_id {E : List Obj} (hids : (E.map (·.1)).Nodup) {o o' : Obj} (h : o ∈ E) (h' : o' ∈ E) (he : o.1 = o'.1) :
    o = o' := by
  induction E with
  | nil => cases h
  | cons x E ih =>
    rw [List.map_cons, List.nodup_cons] at hids
    rcases List.mem_cons.1 h with rfl | h2
    · rcases List.mem_cons.1 h' with rfl | h'
      · rfl
      · exact absurd (List.mem_map.2 ⟨o', h', he.symm⟩) hids.1
    · rcases List.mem_cons.1 h' with rfl | h2'
      · exact absurd (List.mem_map.2 ⟨o, h2, he⟩) hids.1
      · exact ih hids.2 h2 h2'

/-- C146.  The order in which two controls are set does not matter, if one of them had a value. -/
theorem initial_set_commute {c c' : Control} (hc : c ≠ c') {E A B : List Obj} {v v' : Value} {f f' : Nat}
    (hids : (E.map (·.1)).Nodup) (hf : f ∉ E.map (·.1)) (hf' : f' ∉ E.map (·.1))
    (hsome : initialGet c E ≠ none ∨ initialGet c' E ≠ none)
    (h1 : initialSet c E (some v) f = .ok A) (h2 : initialSet c' A (some v') f' = .ok B) :
    ∃ A', initialSet c' E (some v') f' = .ok A' ∧ initialSet c A' (some v) f = .ok B := by
  have hA := findControl_set hc hids h1
  obtain ⟨e, he, h1⟩ := initialSet_iff.1 h1
  obtain ⟨e', he', h2⟩ := initialSet_iff.1 h2
  rw [hA] at h2
  have hnot : ∀ {o : Obj}, o ∈ E → f ≠ o.1 ∧ f' ≠ o.1 := fun ho =>
    ⟨fun h => hf (h ▸ List.mem_map_of_mem ho), fun h => hf' (h ▸ List.mem_map_of_mem ho)⟩
  have hset : ∀ {A' : List Obj}, initialSet c' E (some v') f' = .ok A' → findControl c A' = findControl c E :=
    findControl_set hc.symm hids
  rcases h2 with ⟨hn', hm', rfl⟩ | ⟨o', ho', rfl⟩
  · have h3 : initialSet c' E (some v') f' = .ok ((f', e') :: E) := initialSet_iff.2 ⟨e', he', .inl ⟨hn', hm', rfl⟩⟩
    refine ⟨_, h3, initialSet_iff.2 ⟨e, he, ?_⟩⟩
    rw [hset h3]
    rcases h1 with ⟨hn, hm, rfl⟩ | ⟨o, ho, rfl⟩
    · unfold initialGet at hsome
      rw [hn, hn'] at hsome
      exact absurd rfl (hsome.resolve_left (fun h => h rfl))
    · exact .inr ⟨o, ho, (assign_cons (hnot (findControl_mem ho)).2 _ _ _).symm⟩
  · have h3 : initialSet c' E (some v') f' = .ok (assign E o'.1 e') := initialSet_iff.2 ⟨e', he', .inr ⟨o', ho', rfl⟩⟩
    refine ⟨_, h3, initialSet_iff.2 ⟨e, he, ?_⟩⟩
    rw [hset h3]
    rcases h1 with ⟨hn, hm, rfl⟩ | ⟨o, ho, rfl⟩
    · exact .inl ⟨hn, hm, assign_cons (hnot (findControl_mem ho')).1 _ _ _⟩
    · refine .inr ⟨o, ho, assign_comm (fun hid => ?_) _ _ _⟩
      have := eq_of_id hids (findControl_mem ho) (findControl_mem ho') hid
      subst this
      obtain ⟨_, _, _, _, h4⟩ := findControl_some ho
      obtain ⟨_, _, _, _, h5⟩ := findControl_some ho'
      obtain ⟨w, hw⟩ := Option.isSome_iff_exists.1 h4
      obtain ⟨w', hw'⟩ := Option.isSome_iff_exists.1 h5
      exact hc (valueOf_inj hw hw')

example : let E := tune [.tempo 90, .simple .pan 64, .note 60 100 false 4]
    initialGet .tempo E ≠ none ∧ initialSet .tempo E (some (.num 100)) 7 = .ok (tune [.tempo 100, .simple .pan 64, .note 60 100 false 4]) ∧
    initialSet .monoPoly (tune [.tempo 100, .simple .pan 64, .note 60 100 false 4]) (some (.num 0)) 8 =
      .ok ((8, .monoPoly 0) :: tune [.tempo 100, .simple .pan 64, .note 60 100 false 4]) := by decide

/-- If neither had a value, the two new events are in the opposite order. -/
example : (initialSet .tempo [] (some (.num 100)) 0).bind (fun E => initialSet .monoPoly E (some (.num 1)) 1) =
      .ok [(1, .monoPoly 1), (0, .tempo 100)] ∧
    (initialSet .monoPoly [] (some (.num 1)) 1).bind (fun E => initialSet .tempo E (some (.num 100)) 0) =
      .ok [(0, .tempo 100), (1, .monoPoly 1)] := by decide

/-! ### Velocities -/

theorem with_with (g h : Int → Int) (E : List Obj) :
    (E.map fun o => (o.1, withVelocity g o.2)).map (fun o => (o.1, withVelocity h o.2)) =
      E.map fun o => (o.1, withVelocity (fun v => h (g v)) o.2) := by
  rw [List.map_map]
  refine List.map_congr_left fun o _ => ?_
  obtain ⟨i, e⟩ := o
  cases e <;> rfl

theorem modify_ok {E E1 : List Obj} {g : Int → Int} (h : modifyVelocities E g false = .ok E1) :
    InRange E g ∧ E1 = E.map fun o => (o.1, withVelocity g o.2) := by
  by_cases hr : InRange E g
  · rw [(modifyVelocities_noclamp g E).1 hr] at h
    cases h
    exact ⟨hr, rfl⟩
  · rw [(modifyVelocities_noclamp g E).2 hr] at h
    cases h

theorem inRange_with {E : List Obj} {g h : Int → Int} (hr : InRange (E.map fun o => (o.1, withVelocity g o.2)) h) :
    InRange E (fun v => h (g v)) := by
  intro o ho p v fl d he
  exact hr _ (List.mem_map_of_mem ho) p (g v) fl d (by rw [he]; rfl)

/-- C146.  Two additions to the velocities are one of the sum, and two multiplications one by the product, if they raise
nothing. -/
theorem velocities_twice {E E1 E2 : List Obj} {a b : Int} :
    (addToNoteVelocities E a false = .ok E1 → addToNoteVelocities E1 b false = .ok E2 →
      addToNoteVelocities E (a + b) false = .ok E2) ∧
    (multiplyNoteVelocitiesBy E a false = .ok E1 → multiplyNoteVelocitiesBy E1 b false = .ok E2 →
      multiplyNoteVelocitiesBy E (a * b) false = .ok E2) := by
  have key : ∀ {g h k : Int → Int}, (∀ v, k v = h (g v)) → modifyVelocities E g false = .ok E1 →
      modifyVelocities E1 h false = .ok E2 → modifyVelocities E k false = .ok E2 := by
    intro g h k hk h1 h2
    obtain ⟨r1, rfl⟩ := modify_ok h1
    obtain ⟨r2, rfl⟩ := modify_ok h2
    have : k = fun v => h (g v) := funext hk
    rw [this, with_with]
    exact (modifyVelocities_noclamp _ E).1 (inRange_with r2)
  exact ⟨key fun v => by omega, key fun v => by rw [Int.mul_assoc]⟩

example : addToNoteVelocities (tune [.note 60 100 false 4, .rest 3, .note 60 5 false 4]) 20 false =
      .ok (tune [.note 60 120 false 4, .rest 3, .note 60 25 false 4]) ∧
    addToNoteVelocities (tune [.note 60 120 false 4, .rest 3, .note 60 25 false 4]) (-25) false =
      .ok (tune [.note 60 95 false 4, .rest 3, .note 60 0 false 4]) := by decide

/-- C146.  What was added can be taken away again, if the velocities were in range. -/
theorem velocities_undone {E E1 : List Obj} {a : Int} (hr : InRange E id) (h : addToNoteVelocities E a false = .ok E1) :
    addToNoteVelocities E1 (-a) false = .ok E := by
  obtain ⟨_, rfl⟩ := modify_ok h
  have e1 : (fun v : Int => v + a + -a) = id := funext fun v => by simp only [id]; omega
  have hr2 : InRange (E.map fun o => (o.1, withVelocity (fun v => v + a) o.2)) (fun v => v + -a) := by
    intro o ho p v fl d he
    obtain ⟨⟨i, x⟩, hx, rfl⟩ := List.mem_map.1 ho
    cases x with
    | note p' v' fl' d' =>
      cases he
      have := hr _ hx _ _ _ _ rfl
      simp only [id] at this
      dsimp only
      omega
    | _ => cases he
  unfold addToNoteVelocities
  rw [(modifyVelocities_noclamp _ _).1 hr2, with_with, e1]
  congr 1
  conv => rhs; rw [← List.map_id E]
  refine List.map_congr_left fun o _ => ?_
  obtain ⟨i, e⟩ := o
  cases e <;> rfl

/-- C146.  With clamping, two additions in one direction are one of the sum, if the velocities were in range. -/
theorem velocities_clamped_twice {E E1 E2 : List Obj} {a b : Int} (hr : InRange E id) (hab : 0 ≤ a ∧ 0 ≤ b ∨ a ≤ 0 ∧ b ≤ 0)
    (h1 : addToNoteVelocities E a true = .ok E1) (h2 : addToNoteVelocities E1 b true = .ok E2) :
    addToNoteVelocities E (a + b) true = .ok E2 := by
  unfold addToNoteVelocities at h1 h2 ⊢
  rw [modifyVelocities_clamp] at h1 h2 ⊢
  cases h1
  cases h2
  rw [with_with]
  congr 1
  refine List.map_congr_left fun o ho => ?_
  obtain ⟨i, e⟩ := o
  cases e with
  | note p v fl d =>
    have := hr _ ho _ _ _ _ rfl
    simp only [id] at this
    simp only [withVelocity, clampVelocity]
    congr 2
    omega
  | _ => rfl

/-- In opposite directions they are not. -/
example : (addToNoteVelocities (tune [.note 60 100 false 4]) 50 true).bind (fun E => addToNoteVelocities E (-50) true) =
    .ok (tune [.note 60 77 false 4]) := by decide

/-! ### Track numbers -/

/-- C146.  Collapsing the track numbers a second time changes nothing. -/
theorem collapse_twice (tracks : List (Nat × List Obj)) : collapseTrackIDs (collapseTrackIDs tracks) = collapseTrackIDs tracks := by
  unfold collapseTrackIDs
  generalize sortBy (fun t : Nat × List Obj => t.1) tracks = l
  rw [sortBy_of_sorted]
  · refine List.ext_getElem (by simp) (fun i h1 h2 => by simp)
  · rw [List.pairwise_iff_getElem]
    intro i j hi hj hij
    simp only [List.getElem_mapIdx]
    omega

example : collapseTrackIDs [(5, tune [.endTrack]), (2, tune [.rest 1])] = [(0, tune [.rest 1]), (1, tune [.endTrack])] := by
  decide +kernel

end Verif.Props.TrackLaws
