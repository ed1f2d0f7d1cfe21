import Verif.Spec.Music

/-! # Lemmas about tracks: velocities, initial values, conversion to and from sequences -/

namespace Verif.Proofs.MusicTracks

open Verif Verif.Model.SoundSequence Verif.Model.Music Verif.Spec.Music

/-! ## Initial values -/

theorem eventOf_value {c : Control} {v : Value} {e : Ev} (h : eventOf c v = some e) : valueOf c e = some v := by
  cases c <;> cases v <;> simp only [eventOf, Option.some.injEq, reduceCtorEq] at h <;> subst h <;> simp [valueOf]

theorem eventOf_untimed {c : Control} {v : Value} {e : Ev} (h : eventOf c v = some e) : isTimed e = false := by
  cases c <;> cases v <;> simp only [eventOf, Option.some.injEq, reduceCtorEq] at h <;> subst h <;> rfl

theorem valueOf_inj {c c' : Control} {e : Ev} {v v' : Value} (h : valueOf c e = some v) (h' : valueOf c' e = some v') :
    c = c' := by
  cases c <;> cases e <;> cases c' <;> simp_all [valueOf]

theorem valueOf_untimed {c : Control} {e : Ev} (h : (valueOf c e).isSome = true) : isTimed e = false := by
  cases c <;> cases e <;> simp_all [valueOf, isTimed]

/-- Where the event holding an initial value is. -/
theorem findControl_some {c : Control} : ∀ {events : List Obj} {o : Obj}, findControl c events = some o →
    ∃ p q, events = p ++ o :: q ∧ (∀ x ∈ p, valueOf c x.2 = none ∧ isTimed x.2 = false) ∧ (valueOf c o.2).isSome = true
  | [], _, h => by cases h
  | x :: xs, o, h => by
    unfold findControl at h
    split at h
    · rename_i hx
      cases h
      exact ⟨[], xs, rfl, (fun y hy => nomatch hy), hx⟩
    · rename_i hx
      split at h
      · cases h
      · rename_i ht
        obtain ⟨p, q, rfl, hp, ho⟩ := findControl_some h
        refine ⟨x :: p, q, rfl, fun y hy => ?_, ho⟩
        rcases List.mem_cons.1 hy with rfl | hy
        · exact ⟨Option.not_isSome_iff_eq_none.1 hx, Bool.eq_false_iff.2 ht⟩
        · exact hp y hy

theorem findControl_skip {c : Control} {q : List Obj} : ∀ {p : List Obj},
    (∀ x ∈ p, valueOf c x.2 = none ∧ isTimed x.2 = false) → findControl c (p ++ q) = findControl c q
  | [], _ => rfl
  | x :: p, h => by
    have hx := h x (by simp)
    rw [List.cons_append, findControl, if_neg (by rw [hx.1]; decide), if_neg (by rw [hx.2]; decide),
      findControl_skip (fun y hy => h y (by simp [hy]))]

/-- Replacing an event that takes no time by another such event, both without a value of the class, does not matter. -/
theorem findControl_congr {c : Control} {o o' : Obj} (ho : valueOf c o.2 = none) (ho' : valueOf c o'.2 = none)
    (ht : isTimed o.2 = false) (ht' : isTimed o'.2 = false) {q : List Obj} : ∀ (p : List Obj),
    (findControl c (p ++ o :: q)) = findControl c (p ++ o' :: q)
  | [] => by
    simp only [List.nil_append, findControl]
    rw [if_neg (by rw [ho]; decide), if_neg (by rw [ht]; decide), if_neg (by rw [ho']; decide),
      if_neg (by rw [ht']; decide)]
  | x :: p => by
    simp only [List.cons_append, findControl]
    rw [findControl_congr ho ho' ht ht' p]

theorem findControl_drop {c : Control} {o : Obj} (ho : valueOf c o.2 = none)
    (ht : isTimed o.2 = false) {q : List Obj} : ∀ (p : List Obj),
    (findControl c (p ++ o :: q)) = findControl c (p ++ q)
  | [] => by
    simp only [List.nil_append, findControl]
    rw [if_neg (by rw [ho]; decide), if_neg (by rw [ht]; decide)]
  | x :: p => by
    simp only [List.cons_append, findControl]
    rw [findControl_drop ho ht p]

theorem assign_other {id : Nat} {ev : Ev} : ∀ {l : List Obj}, id ∉ l.map (·.1) → assign l id ev = l
  | [], _ => rfl
  | o :: os, h => by
    simp only [List.map_cons, List.mem_cons, not_or] at h
    have := assign_other (ev := ev) h.2
    unfold assign at this ⊢
    rw [List.map_cons, this, if_neg (fun he => h.1 he.symm)]

theorem assign_mid {id : Nat} {ev ev' : Ev} {p q : List Obj} (h : ((p ++ (id, ev) :: q).map (·.1)).Nodup) :
    assign (p ++ (id, ev) :: q) id ev' = p ++ (id, ev') :: q := by
  rw [List.map_append, List.map_cons, List.nodup_append, List.nodup_cons] at h
  obtain ⟨_, ⟨h2, _⟩, h3⟩ := h
  have hp := assign_other (ev := ev') (l := p) (id := id) (fun hm => h3 id hm id (by simp) rfl)
  have hq := assign_other (ev := ev') (l := q) h2
  unfold assign at hp hq ⊢
  rw [List.map_append, List.map_cons, hp, hq, if_pos rfl]

theorem removeObj_mid {o : Obj} {q : List Obj} : ∀ {p : List Obj}, o.1 ∉ p.map (·.1) →
    removeObj o.1 (p ++ o :: q) = p ++ q
  | [], _ => by simp [removeObj]
  | x :: p, h => by
    simp only [List.map_cons, List.mem_cons, not_or] at h
    rw [List.cons_append, removeObj, if_neg (fun e => h.1 e.symm), removeObj_mid h.2]
    rfl

/-! ## Sequences -/

theorem trackInit_end (events : List Obj) (f : Nat) :
    trackInit (events ++ if ended events = true then [] else [(f, .endTrack)]) = trackInit events := by
  by_cases h : ended events = true
  · rw [if_pos h, List.append_nil]
  · rw [if_neg h]
    have h1 : trackInit (events ++ [(f, .endTrack)]) = events := by
      unfold trackInit
      simp
    rw [h1]
    unfold trackInit
    unfold ended at h
    cases hl : events.getLast? with
    | none => rfl
    | some o =>
      obtain ⟨i, e⟩ := o
      rw [hl] at h
      cases e <;> first | rfl | exact absurd rfl h

/-- What `save` writes for a track: its events and, unless it ends by itself, an end. -/
def body (ev : List Obj) (f : Nat) : List Obj := ev ++ if ended ev = true then [] else [(f, .endTrack)]

/-- The beginnings of tracks. -/
def pairs (ts : List (Nat × List Obj)) : List (Nat × Nat) :=
  ts.filterMap fun t => if t.1 ≠ 0 then t.2.head?.map fun o => (t.1, o.1) else none

theorem saveTracks_cons {n : Nat} {ev : List Obj} (ts : List (Nat × List Obj)) (f : Nat) (h : ev ≠ []) :
    (saveTracks ((n, ev) :: ts) f).2 = body ev (f + 1) ++ (saveTracks ts (f + 2)).2 := by
  rw [saveTracks.eq_def]
  dsimp only
  rw [if_neg h]
  rfl

theorem begins_save : ∀ (ts : List (Nat × List Obj)) (f : Nat), (∀ t ∈ ts, t.2 ≠ []) → ∀ (c : Obj) (cs : List Obj),
    (∀ n x, c.2 ≠ .beginTrack n x) → begins ((saveTracks ts f).1 ++ c :: cs) = .ok (pairs ts)
  | [], f, _, c, cs, hc => by
    obtain ⟨i, e⟩ := c
    cases e <;> first | rfl | exact absurd rfl (hc _ _)
  | (n, ev) :: ts, f, h, c, cs, hc => by
    have hev : ev ≠ [] := h (n, ev) (by simp)
    have ih := begins_save ts (f + 2) (fun t ht => h t (by simp [ht])) c cs hc
    cases ev with
    | nil => exact absurd rfl hev
    | cons o os =>
      unfold saveTracks
      dsimp only
      rw [if_neg hev]
      by_cases hn : n ≠ 0
      · rw [if_pos hn]
        simp only [List.head?_cons, List.cons_append, List.nil_append]
        rw [begins, ih]
        simp [pairs, hn]
        rfl
      · rw [if_neg hn, List.nil_append, ih]
        unfold pairs
        rw [List.filterMap_cons, if_neg (by simpa using hn)]

theorem saveTracks_begin_ids : ∀ (ts : List (Nat × List Obj)) (f : Nat), ∀ o ∈ (saveTracks ts f).1, f ≤ o.1
  | [], _, o, ho => by simp [saveTracks] at ho
  | (n, ev) :: ts, f, o, ho => by
    unfold saveTracks at ho
    dsimp only at ho
    split at ho
    · exact saveTracks_begin_ids ts f o ho
    · rcases List.mem_append.1 ho with h | h
      · split at h
        · split at h
          · simp only [List.mem_singleton] at h; subst h; exact Nat.le_refl _
          · cases h
        · cases h
      · have := saveTracks_begin_ids ts (f + 2) o h; omega

theorem begins_length : ∀ (ts : List (Nat × List Obj)) (f : Nat), (∀ t ∈ ts, t.2 ≠ []) →
    (saveTracks ts f).1.length = (pairs ts).length
  | [], _, _ => rfl
  | (n, ev) :: ts, f, h => by
    have hev : ev ≠ [] := h (n, ev) (by simp)
    have ih := begins_length ts (f + 2) (fun t ht => h t (by simp [ht]))
    cases ev with
    | nil => exact absurd rfl hev
    | cons o os =>
      unfold saveTracks
      dsimp only
      rw [if_neg hev]
      by_cases hn : n ≠ 0
      · rw [if_pos hn]
        simp [pairs, hn, ih]
      · rw [if_neg hn, List.nil_append, ih]
        unfold pairs
        rw [List.filterMap_cons, if_neg (by simpa using hn)]

theorem trackFrom_eq {S : List Nat} {o : Obj} {os X : List Obj} (h1 : ∀ p ∈ os, p.1 ∉ S)
    (h2 : X = [] ∨ ∃ x X', X = x :: X' ∧ x.1 ∈ S) : trackFrom S (o :: os ++ X) = o :: os := by
  have e : o :: os ++ X = o :: (os ++ X) := rfl
  rw [e, trackFrom, List.takeWhile_append_of_pos (fun p hp => by simpa using h1 p hp)]
  rcases h2 with rfl | ⟨x, X', rfl, hx⟩
  · simp
  · rw [List.takeWhile_cons_of_neg (by simpa using hx), List.append_nil]

theorem fromEvent_append {first : Nat} {e : Ev} {Q : List Obj} : ∀ {P : List Obj}, first ∉ P.map (·.1) →
    fromEvent first (P ++ (first, e) :: Q) = .ok ((first, e) :: Q)
  | [], _ => by simp [fromEvent]
  | x :: P, h => by
    simp only [List.map_cons, List.mem_cons, not_or] at h
    rw [List.cons_append, fromEvent, if_neg (fun e => h.1 e.symm), fromEvent_append h.2]

theorem body_cons (o : Obj) (os : List Obj) (f : Nat) :
    ∃ r, body (o :: os) f = o :: r ∧ ∀ p ∈ r, p ∈ os ∨ p.1 = f := by
  refine ⟨os ++ (if ended (o :: os) = true then [] else [(f, .endTrack)]), rfl, fun p hp => ?_⟩
  rcases List.mem_append.1 hp with h | h
  · exact .inl h
  · split at h
    · cases h
    · simp only [List.mem_singleton] at h; subst h; exact .inr rfl

/-- The start of the contents of later tracks is the first event of the next track. -/
theorem contents_head {ts : List (Nat × List Obj)} {f : Nat} (hne : ∀ t ∈ ts, t.2 ≠ []) (hz : ∀ t ∈ ts, t.1 ≠ 0)
    {S : List Nat} (hS : ∀ t ∈ ts, ∀ o os, t.2 = o :: os → t.1 ≠ 0 → o.1 ∈ S) :
    (saveTracks ts f).2 = [] ∨ ∃ x X', (saveTracks ts f).2 = x :: X' ∧ x.1 ∈ S := by
  cases ts with
  | nil => exact .inl rfl
  | cons t ts =>
    obtain ⟨n, ev⟩ := t
    cases ev with
    | nil => exact absurd rfl (hne (n, []) (by simp))
    | cons o os =>
      right
      rw [saveTracks_cons ts f (by simp)]
      obtain ⟨r, hr, _⟩ := body_cons o os (f + 1)
      rw [hr]
      exact ⟨o, _, rfl, hS (n, o :: os) (by simp) o os rfl (hz _ (by simp))⟩

theorem beginTracks_save {whole : List Obj} {S : List Nat} {f : Nat} (hSf : ∀ s ∈ S, s < f) :
    ∀ (ts : List (Nat × List Obj)) (done P : List Obj) (g : Nat) (acc : List (Nat × List Obj)),
    f ≤ g → whole = P ++ (saveTracks ts g).2 → (∀ p ∈ P, f ≤ p.1 ∨ p ∈ done) →
    ((done ++ ts.flatMap (·.2)).map (·.1)).Nodup → (∀ t ∈ ts, ∀ o ∈ t.2, o.1 < f) →
    (∀ t ∈ ts, t.2 ≠ []) → (∀ t ∈ ts, t.1 ≠ 0) → (ts.map (·.1)).Nodup → (∀ t ∈ ts, t.1 ∉ acc.map (·.1)) →
    (∀ t ∈ ts, ∀ o os, t.2 = o :: os → (o.1 ∈ S ∧ ∀ p ∈ os, p.1 ∉ S)) →
    beginTracks whole S (pairs ts) acc = .ok (acc ++ ts.map fun t => (t.1, trackInit t.2))
  | [], _, _, _, acc, _, _, _, _, _, _, _, _, _, _ => by simp [pairs, beginTracks]
  | (n, []) :: ts, _, _, _, _, _, _, _, _, _, hne, _, _, _, _ => absurd rfl (hne (n, []) (by simp))
  | (n, o :: os) :: ts, done, P, g, acc, hg, hw, hP, hN, hlt, hne, hz, hkeys, hacc, hS => by
    have hn0 : n ≠ 0 := hz _ (List.mem_cons_self ..)
    have hp : pairs ((n, o :: os) :: ts) = (n, o.1) :: pairs ts := by
      unfold pairs
      rw [List.filterMap_cons, if_pos hn0]
      rfl
    obtain ⟨r, hr, hrm⟩ := body_cons o os (g + 1)
    have hw' : whole = P ++ o :: (r ++ (saveTracks ts (g + 2)).2) := by
      rw [hw, saveTracks_cons ts g (by simp), hr]
      rfl
    obtain ⟨i, e⟩ := o
    have hoP : i ∉ P.map (·.1) := by
      intro hm
      obtain ⟨p, hp, hpi⟩ := List.mem_map.1 hm
      rcases hP p hp with h | h
      · have := hlt _ (List.mem_cons_self ..) (i, e) (by simp)
        dsimp only at this hpi
        omega
      · rw [List.map_append, List.nodup_append] at hN
        exact hN.2.2 i (List.mem_map.2 ⟨p, h, hpi⟩) i (by simp) rfl
    rw [hp, beginTracks, hw', fromEvent_append hoP, bind_ok]
    have hSt := hS _ (List.mem_cons_self ..) (i, e) os rfl
    have htf : trackFrom S ((i, e) :: (r ++ (saveTracks ts (g + 2)).2)) = body ((i, e) :: os) (g + 1) := by
      rw [hr, ← List.cons_append]
      refine trackFrom_eq (fun p hp => ?_) (contents_head (fun t ht => hne t (by simp [ht]))
        (fun t ht => hz t (by simp [ht])) (fun t ht o os h _ => (hS t (by simp [ht]) o os h).1))
      rcases hrm p hp with h | h
      · exact hSt.2 p h
      · intro hc
        have := hSf _ hc
        omega
    rw [htf]
    have hti : trackInit (body ((i, e) :: os) (g + 1)) = trackInit ((i, e) :: os) := trackInit_end _ _
    rw [hti, dictSet_new (hacc _ (List.mem_cons_self ..)), ← hw']
    rw [List.map_cons, List.nodup_cons] at hkeys
    rw [beginTracks_save hSf ts (done ++ ((i, e) :: os)) (P ++ (i, e) :: r) (g + 2) _ (by omega)
      (by rw [hw']; simp) ?_ ?_ (fun t ht => hlt t (by simp [ht])) (fun t ht => hne t (by simp [ht]))
      (fun t ht => hz t (by simp [ht])) hkeys.2 ?_ (fun t ht => hS t (by simp [ht]))]
    · simp
    · intro p hp
      rcases List.mem_append.1 hp with h | h
      · rcases hP p h with h | h
        · exact .inl h
        · exact .inr (by simp [h])
      · rcases List.mem_cons.1 h with rfl | h
        · exact .inr (by simp)
        · rcases hrm p h with h | h
          · exact .inr (by simp [h])
          · exact .inl (by omega)
    · rw [List.flatMap_cons] at hN
      rw [List.append_assoc]
      exact hN
    · intro t ht
      simp only [List.map_append, List.map_cons, List.map_nil, List.mem_append, List.mem_singleton, not_or]
      refine ⟨hacc t (by simp [ht]), fun h => hkeys.1 ?_⟩
      exact List.mem_map.2 ⟨t, ht, h⟩

/-- Opening what is saved, whatever numbers are listed in front: if 0 is listed though no track has this number, the first
track is there a second time. -/
theorem music_open_sorted {σ : Type} {ts : List (Nat × List Obj)} {f : Nat} (s : σ) (nums : List Nat)
    (hnum : ∀ t ∈ ts, t.1 = 0 → 0 ∈ nums)
    (hsort : ts.Pairwise fun a b => a.1 < b.1) (hne : ∀ t ∈ ts, t.2 ≠ [])
    (hids : ((ts.flatMap (·.2)).map (·.1)).Nodup) (hf : ∀ t ∈ ts, ∀ o ∈ t.2, o.1 < f)
    (c : Obj) (cs : List Obj) (hc : ts.flatMap (·.2) = c :: cs) (hb : ∀ n x, c.2 ≠ .beginTrack n x) :
    musicInit ((f, .defineTracks nums) :: (saveTracks ts (f + 1)).1 ++ (saveTracks ts (f + 1)).2) (some s) =
      .ok ((if 0 ∈ nums ∧ ∀ t ∈ ts, t.1 ≠ 0 then ts.head?.toList.map fun t => (0, trackInit t.2) else []) ++
        ts.map fun t => (t.1, trackInit t.2)) := by
  cases ts with
  | nil => simp at hc
  | cons t ts =>
    obtain ⟨n, ev⟩ := t
    cases ev with
    | nil => exact absurd rfl (hne (n, []) (by simp))
    | cons o os =>
      have hco : c = o := by
        rw [List.flatMap_cons] at hc
        simp only [List.cons_append, List.cons.injEq] at hc
        exact hc.1.symm
      subst hco
      obtain ⟨r, hr, hrm⟩ := body_cons c os (f + 2)
      have hC : (saveTracks ((n, c :: os) :: ts) (f + 1)).2 = c :: (r ++ (saveTracks ts (f + 3)).2) := by
        rw [saveTracks_cons ts (f + 1) (by simp), hr]
        rfl
      have hbeg := begins_save ((n, c :: os) :: ts) (f + 1) hne c (r ++ (saveTracks ts (f + 3)).2) hb
      rw [List.pairwise_cons] at hsort
      have hz : ∀ t ∈ ts, t.1 ≠ 0 := fun t ht => by have := hsort.1 t ht; omega
      have hkeys : (ts.map (·.1)).Nodup := by
        rw [List.Nodup, List.pairwise_map]
        exact hsort.2.imp (fun h => by omega)
      -- the first events of the tracks with a number other than 0
      have hS : ∀ x, x ∈ (pairs ((n, c :: os) :: ts)).map (·.2) ↔
          ∃ t ∈ (n, c :: os) :: ts, t.1 ≠ 0 ∧ ∃ o os, t.2 = o :: os ∧ o.1 = x := by
        intro x
        unfold pairs
        simp only [List.mem_map, List.mem_filterMap]
        constructor
        · rintro ⟨a, ⟨t, ht, hta⟩, rfl⟩
          split at hta
          · rename_i h0
            cases hx : t.2 with
            | nil => rw [hx] at hta; cases hta
            | cons o os =>
              rw [hx] at hta
              simp only [List.head?_cons, Option.map_some, Option.some.injEq] at hta
              subst hta
              exact ⟨t, ht, h0, o, os, hx, rfl⟩
          · cases hta
        · rintro ⟨t, ht, h0, o, os, hx, rfl⟩
          exact ⟨(t.1, o.1), ⟨t, ht, by rw [if_pos h0, hx]; rfl⟩, rfl⟩
      have hSf : ∀ x ∈ (pairs ((n, c :: os) :: ts)).map (·.2), x < f := by
        intro x hx
        obtain ⟨t, ht, _, o, os, h1, rfl⟩ := (hS x).1 hx
        exact hf t ht o (by rw [h1]; simp)
      -- later events of a track are not first events
      have htail : ∀ t ∈ (n, c :: os) :: ts, ∀ o os', t.2 = o :: os' → ∀ p ∈ os',
          p.1 ∉ (pairs ((n, c :: os) :: ts)).map (·.2) := by
        intro t ht o os' h1 p hp hc'
        obtain ⟨t', ht', _, o', os'', h2, h3⟩ := (hS _).1 hc'
        rw [List.map_flatMap] at hids
        obtain ⟨A, B, hAB⟩ := List.append_of_mem ht
        rw [hAB] at ht' hids
        rw [List.flatMap_append, List.flatMap_cons, List.nodup_append] at hids
        obtain ⟨_, hid2, hid3⟩ := hids
        rw [List.nodup_append] at hid2
        obtain ⟨hid4, hid5, hid6⟩ := hid2
        have hpt : p.1 ∈ t.2.map (·.1) := by rw [h1]; simp; exact .inr ⟨p.2, hp⟩
        have ho't' : p.1 ∈ t'.2.map (·.1) := by rw [h2, ← h3]; simp
        rcases List.mem_append.1 ht' with hA | hB
        · refine hid3 p.1 (List.mem_flatMap.2 ⟨t', hA, ho't'⟩) p.1 (List.mem_append.2 (.inl hpt)) rfl
        · rcases List.mem_cons.1 hB with rfl | hB
          · rw [h1] at h2
            simp only [List.cons.injEq] at h2
            obtain ⟨rfl, rfl⟩ := h2
            rw [h1, List.map_cons, List.nodup_cons] at hid4
            exact hid4.1 (by rw [h3]; exact List.mem_map.2 ⟨p, hp, rfl⟩)
          · exact hid6 p.1 hpt p.1 (List.mem_flatMap.2 ⟨t', hB, ho't'⟩) rfl
      have hwhole : (f, Ev.defineTracks nums) ::
          (saveTracks ((n, c :: os) :: ts) (f + 1)).1 ++ (saveTracks ((n, c :: os) :: ts) (f + 1)).2 =
          (f, Ev.defineTracks nums) ::
          ((saveTracks ((n, c :: os) :: ts) (f + 1)).1 ++ c :: (r ++ (saveTracks ts (f + 3)).2)) := by
        rw [hC]; rfl
      rw [hwhole]
      generalize hS0 : (pairs ((n, c :: os) :: ts)).map (·.2) = S at hS hSf htail
      unfold musicInit
      dsimp only
      rw [hbeg, bind_ok]
      rw [hS0, ← begins_length ((n, c :: os) :: ts) (f + 1) hne, List.drop_left]
      have hids' : (((c :: os) ++ ts.flatMap (·.2)).map (·.1)).Nodup := by
        rw [List.flatMap_cons] at hids; exact hids
      have htf : trackFrom S (c :: (r ++ (saveTracks ts (f + 3)).2)) = body (c :: os) (f + 2) := by
        rw [hr, ← List.cons_append]
        refine trackFrom_eq (fun p hp => ?_) (contents_head (fun t ht => hne t (by simp [ht])) hz
          (fun t ht o os h h0 => (hS o.1).2 ⟨t, by simp [ht], h0, o, os, h, rfl⟩))
        rcases hrm p hp with h | h
        · exact htail (n, c :: os) (by simp) c os rfl p h
        · intro hc
          have := hSf _ hc
          omega
      have hstart : ∀ t ∈ (n, c :: os) :: ts, t.1 ≠ 0 → ∀ o os', t.2 = o :: os' → (o.1 ∈ S ∧ ∀ p ∈ os', p.1 ∉ S) :=
        fun t ht h0 o os' h => ⟨(hS o.1).2 ⟨t, ht, h0, o, os', h, rfl⟩, htail t ht o os' h⟩
      by_cases h0 : n = 0
      · subst h0
        rw [if_pos (by simpa using hnum _ (List.mem_cons_self ..) rfl),
          if_neg (fun h => h.2 _ (List.mem_cons_self ..) rfl), List.nil_append]
        have hp : pairs ((0, c :: os) :: ts) = pairs ts := by
          unfold pairs
          rw [List.filterMap_cons, if_neg (by simp)]
        rw [hp, htf]
        have hti : trackInit (body (c :: os) (f + 2)) = trackInit (c :: os) := trackInit_end _ _
        rw [hti, beginTracks_save hSf ts (c :: os) ((f, Ev.defineTracks nums) ::
          ((saveTracks ((0, c :: os) :: ts) (f + 1)).1 ++ c :: r)) (f + 3) _ (by omega) (by simp) ?_ hids'
          (fun t ht => hf t (by simp [ht])) (fun t ht => hne t (by simp [ht])) hz hkeys
          (fun t ht => by simpa using hz t ht) (fun t ht => hstart t (by simp [ht]) (hz t ht))]
        · rfl
        · intro p hp
          rcases List.mem_cons.1 hp with rfl | hp
          · exact .inl (Nat.le_refl _)
          · rcases List.mem_append.1 hp with hp | hp
            · have := saveTracks_begin_ids _ _ p hp
              exact .inl (by omega)
            · rcases List.mem_cons.1 hp with rfl | hp
              · exact .inr (by simp)
              · rcases hrm p hp with h | h
                · exact .inr (by simp [h])
                · exact .inl (by omega)
      · have hall : ∀ t ∈ (n, c :: os) :: ts, t.1 ≠ 0 := by
          intro t ht
          rcases List.mem_cons.1 ht with rfl | ht
          · exact h0
          · exact hz t ht
        have hgen : ∀ acc : List (Nat × List Obj), (∀ x ∈ acc, x.1 = 0) →
            beginTracks ((f, Ev.defineTracks nums) :: ((saveTracks ((n, c :: os) :: ts) (f + 1)).1 ++
              c :: (r ++ (saveTracks ts (f + 3)).2))) S (pairs ((n, c :: os) :: ts)) acc =
              .ok (acc ++ ((n, c :: os) :: ts).map fun t => (t.1, trackInit t.2)) := by
          intro acc hacc
          rw [beginTracks_save hSf ((n, c :: os) :: ts) [] ((f, Ev.defineTracks nums) ::
            (saveTracks ((n, c :: os) :: ts) (f + 1)).1) (f + 1) acc (by omega) (by rw [hC]; rfl) ?_
            (by rw [List.nil_append]; exact hids) hf hne hall ?_ ?_ (fun t ht => hstart t ht (hall t ht))]
          · intro p hp
            rcases List.mem_cons.1 hp with rfl | hp
            · exact .inl (Nat.le_refl _)
            · have := saveTracks_begin_ids _ _ p hp
              exact .inl (by omega)
          · rw [List.map_cons, List.nodup_cons]
            refine ⟨fun h => ?_, hkeys⟩
            obtain ⟨t, ht, h⟩ := List.mem_map.1 h
            have := hsort.1 t ht
            dsimp only at this h
            omega
          · intro t ht hm
            obtain ⟨x, hx, e⟩ := List.mem_map.1 hm
            exact hall t ht (by rw [← e, hacc x hx])
        by_cases hn0 : 0 ∈ nums
        · rw [if_pos (by simpa using hn0), if_pos ⟨hn0, hall⟩, htf]
          have hti : trackInit (body (c :: os) (f + 2)) = trackInit (c :: os) := trackInit_end _ _
          rw [hti]
          exact hgen _ (fun x hx => by rw [List.mem_singleton.1 hx])
        · rw [if_neg (by simpa using hn0), if_neg (fun h => hn0 h.1)]
          exact hgen _ (fun x hx => nomatch hx)

theorem music_roundtrip_sorted {σ : Type} {ts : List (Nat × List Obj)} {f : Nat} (s : σ)
    (hsort : ts.Pairwise fun a b => a.1 < b.1) (hne : ∀ t ∈ ts, t.2 ≠ [])
    (hids : ((ts.flatMap (·.2)).map (·.1)).Nodup) (hf : ∀ t ∈ ts, ∀ o ∈ t.2, o.1 < f)
    (c : Obj) (cs : List Obj) (hc : ts.flatMap (·.2) = c :: cs) (hb : ∀ n x, c.2 ≠ .beginTrack n x) :
    musicInit ((f, .defineTracks (ts.map (·.1))) :: (saveTracks ts (f + 1)).1 ++ (saveTracks ts (f + 1)).2) (some s) =
      .ok (ts.map fun t => (t.1, trackInit t.2)) := by
  rw [music_open_sorted s (ts.map (·.1)) (fun t ht h => List.mem_map.2 ⟨t, ht, h⟩) hsort hne hids hf c cs hc hb, if_neg,
    List.nil_append]
  rintro ⟨h1, h2⟩
  obtain ⟨t, ht, h⟩ := List.mem_map.1 h1
  exact h2 t ht h

/-- Empty tracks leave nothing in what is saved. -/
theorem saveTracks_filter : ∀ (ts : List (Nat × List Obj)) (f : Nat),
    saveTracks ts f = saveTracks (ts.filter fun t => t.2 ≠ []) f
  | [], _ => rfl
  | (n, []) :: ts, f => by
    rw [List.filter_cons_of_neg (by simp), ← saveTracks_filter ts f, saveTracks.eq_def ((n, []) :: ts) f]
    dsimp only
    rw [if_pos rfl]
  | (n, o :: os) :: ts, f => by
    rw [List.filter_cons_of_pos (by simp)]
    rw [saveTracks.eq_def ((n, o :: os) :: ts) f, saveTracks.eq_def ((n, o :: os) :: _) f]
    dsimp only
    rw [saveTracks_filter ts (f + 2), saveTracks_filter ts f]

end Verif.Proofs.MusicTracks
