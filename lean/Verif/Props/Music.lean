import Verif.Proofs.Music

/-! # Music: durations, moving in time, loops (C51, C69, C70) -/

namespace Verif.Props.Music

open Verif Verif.Model.SoundSequence Verif.Model.SoundBank Verif.Model.Music Verif.Spec.Music Verif.Proofs.Music

/-! ### C51 -/

/-- **C51.** `durationOf` is the sum of the times the events take, each in the mode left by the events before it. -/
theorem duration_of (events : List Ev) (mode : Int) : durationOf events mode = total events mode :=
  durationOf_eq events mode

example : durationOf [.note 60 100 false 4, .monoPoly 0, .note 60 100 false 5, .rest 7, .monoPoly 1, .note 1 1 false 9] 1
    = 20 := by decide

/-- **C51.** Moving raises exactly for negative times and, unless the time is 0, for a start index beyond the end. -/
theorem move_raises (events : List Obj) (start : Nat) (time mode : Int) (cut append : Bool) (fresh : Nat) :
    (∃ e, moveInTime events start time mode cut append fresh = .error e) ↔
      time < 0 ∨ (time ≠ 0 ∧ events.length < start) := by
  unfold moveInTime
  by_cases h1 : time < 0
  · rw [if_pos h1]; exact ⟨fun _ => .inl h1, fun _ => ⟨_, rfl⟩⟩
  · rw [if_neg h1]
    by_cases h2 : time = 0
    · rw [if_pos h2]
      exact ⟨fun ⟨_, h⟩ => (nomatch h), by omega⟩
    · rw [if_neg h2]
      by_cases h3 : start > events.length
      · rw [if_pos h3]; exact ⟨fun _ => .inr ⟨h2, h3⟩, fun _ => ⟨_, rfl⟩⟩
      · rw [if_neg h3]
        exact ⟨fun ⟨_, h⟩ => (nomatch h), by omega⟩

/-- **C51.** The events from the start up to the index returned take exactly the time returned, which is at most the time
asked for, and leave the mode returned. -/
theorem move_spec {events : List Obj} {start : Nat} {time mode : Int} {cut append : Bool} {fresh : Nat}
    (hids : (events.map (·.1)).Nodup) (hs : start ≤ events.length) (ht : 0 ≤ time) :
    ∃ events' idx elapsed mode', moveInTime events start time mode cut append fresh = .ok (events', idx, elapsed, mode') ∧
      start ≤ idx ∧ idx ≤ events'.length ∧ elapsed ≤ time ∧
      total (((events'.take idx).drop start).map (·.2)) mode = elapsed ∧
      modeAfter (((events'.take idx).drop start).map (·.2)) mode = mode' := by
  by_cases h0 : time = 0
  · refine ⟨events, start, 0, mode, ?_, Nat.le_refl _, hs, by omega, ?_, ?_⟩
    · unfold moveInTime; rw [if_neg (by omega), if_pos h0]
    · have := seg_self events start
      unfold seg at this
      rw [this]; rfl
    · have := seg_self events start
      unfold seg at this
      rw [this]; rfl
  · obtain ⟨⟨E', idx, el, m'⟩, h1, h2, h3⟩ := moveInTime_outcome (m0 := mode) (cut := cut) (append := append)
      (fresh := fresh) hs (show 0 < time by omega)
    have := outcome_reach hids hs h2
    exact ⟨E', idx, el, m', h1, this⟩

/-- **C51.** If less time was moved than asked for, the list is unchanged, and either it is exhausted and nothing may be
appended, or the event at the index takes more time than is left and is not a rest that may be cut. -/
theorem move_short {events events' : List Obj} {start idx : Nat} {time mode elapsed mode' : Int} {cut append : Bool}
    {fresh : Nat} (h : moveInTime events start time mode cut append fresh = .ok (events', idx, elapsed, mode'))
    (hlt : elapsed < time) :
    events' = events ∧ ((idx = events.length ∧ append = false) ∨
      ∃ o, events[idx]? = some o ∧ time < elapsed + len mode' o.2 ∧ (isRest o.2 = true → cut = false)) := by
  have hr := move_raises events start time mode cut append fresh
  rw [h] at hr
  have hr' : ¬ (time < 0 ∨ (time ≠ 0 ∧ events.length < start)) := fun hc => nomatch (hr.2 hc).choose_spec
  have ht : 0 < time := by
    apply Int.lt_of_not_ge
    intro hle
    have h0 : time = 0 := by omega
    unfold moveInTime at h
    rw [if_neg (by omega), if_pos h0] at h
    cases h
    omega
  obtain ⟨r, h1, h2, _⟩ := moveInTime_outcome (m0 := mode) (cut := cut) (append := append)
    (fresh := fresh) (show start ≤ events.length by omega) ht
  rw [h] at h1
  cases h1
  cases h2 with
  | exact => omega
  | cut => omega
  | append => omega
  | ended ha hb => exact ⟨rfl, .inl ⟨rfl, ha⟩⟩
  | stop j o hs ho hc hb hd => exact ⟨rfl, .inr ⟨o, ho, hd, hc⟩⟩

/-- **C51.** Without negative durations the time moved is the largest one that an index of the list, from the start index
on, can reach without passing the time asked for. -/
theorem move_largest {events events' : List Obj} {start idx k : Nat} {time mode elapsed mode' : Int} {cut append : Bool}
    {fresh : Nat} (hn : ∀ o ∈ events, ∀ m, 0 ≤ len m o.2)
    (h : moveInTime events start time mode cut append fresh = .ok (events', idx, elapsed, mode'))
    (hids : (events.map (·.1)).Nodup) (hs : start ≤ events.length)
    (hk : k ≤ events.length) (hle : total (((events.take k).drop start).map (·.2)) mode ≤ time) :
    total (((events.take k).drop start).map (·.2)) mode ≤ elapsed := by
  by_cases hlt : elapsed < time
  · have ht : 0 ≤ time := by
      have hr := move_raises events start time mode cut append fresh
      rw [h] at hr
      have hr' : ¬ (time < 0 ∨ (time ≠ 0 ∧ events.length < start)) := fun hc => nomatch (hr.2 hc).choose_spec
      omega
    obtain ⟨E', i', el, m', h1, h2, h3, h4, h5, h6⟩ := move_spec (mode := mode) (cut := cut) (append := append)
      (fresh := fresh) hids hs ht
    rw [h] at h1
    cases h1
    obtain ⟨rfl, hc⟩ := move_short h hlt
    have hn' : NonNeg (events'.drop start) := fun o ho => hn o (List.mem_of_mem_drop ho)
    rw [List.drop_take] at h5 h6 hle ⊢
    by_cases hki : k ≤ idx
    · have := total_mono hn' mode (i := k - start) (j := idx - start) (by omega); omega
    · rcases hc with ⟨rfl, _⟩ | ⟨o, ho, ho2, _⟩
      · omega
      · have := total_mono hn' mode (i := idx - start + 1) (j := k - start) (by omega)
        rw [List.take_add_one, List.getElem?_drop, show start + (idx - start) = idx by omega, ho, Option.toList_some,
          List.map_append, total_append, h5, h6] at this
        simp only [List.map_cons, List.map_nil, total_cons, total_nil] at this
        omega
  · omega

/-- **C51.** With cutting and appending the time asked for is reached unless a note sounds across that moment. -/
theorem move_exact {events events' : List Obj} {start idx : Nat} {time mode elapsed mode' : Int}
    {fresh : Nat} (hn : ∀ o ∈ events, ∀ m, 0 ≤ len m o.2) (hs : start ≤ events.length) (ht : 0 < time)
    (h : moveInTime events start time mode true true fresh = .ok (events', idx, elapsed, mode')) :
    elapsed = time ↔ ¬ Across ((events.drop start).map (·.2)) mode time := by
  obtain ⟨r, h1, h2, _⟩ := moveInTime_outcome (m0 := mode) (cut := true) (append := true)
    (fresh := fresh) hs ht
  rw [h] at h1
  cases h1
  obtain ⟨r', h3, h4⟩ := outcome_drop hs h2
  rw [← outcome_exact_iff (fun o ho => hn o (List.mem_of_mem_drop ho)) h3, h4]

/-- **C51.** Moving changes the list in one of two ways at most.  If cutting is allowed, it may split a rest in two, both
longer than 0, and then returns the index of the second.  If appending is allowed, it may append a rest of exactly the
missing time, and then returns the end of the list. -/
theorem move_edits {events events' : List Obj} {start idx : Nat} {time mode elapsed mode' : Int} {cut append : Bool}
    {fresh : Nat} (hids : (events.map (·.1)).Nodup) (hs : start ≤ events.length)
    (h : moveInTime events start time mode cut append fresh = .ok (events', idx, elapsed, mode')) :
    events' = events ∨
    (cut = true ∧ elapsed = time ∧ ∃ p q id a b, events = p ++ (id, .rest (a + b)) :: q ∧
      events' = p ++ (id, .rest a) :: (fresh, .rest b) :: q ∧ 0 < a ∧ 0 < b ∧ idx = p.length + 1) ∨
    (append = true ∧ elapsed = time ∧ total ((events.drop start).map (·.2)) mode < time ∧
      events' = events ++ [(fresh, .rest (time - total ((events.drop start).map (·.2)) mode))] ∧
      idx = events'.length) := by
  by_cases h0 : time ≤ 0
  · left
    unfold moveInTime at h
    by_cases h1 : time < 0
    · rw [if_pos h1] at h; cases h
    · rw [if_neg h1, if_pos (by omega)] at h; cases h; rfl
  · obtain ⟨r, h1, h2, _⟩ := moveInTime_outcome (m0 := mode) (cut := cut) (append := append)
      (fresh := fresh) hs (show 0 < time by omega)
    rw [h] at h1
    cases h1
    cases h2 with
    | exact => exact .inl rfl
    | stop => exact .inl rfl
    | ended => exact .inl rfl
    | append ha hb =>
      rw [seg_all] at hb ⊢
      exact .inr (.inr ⟨ha, rfl, hb, rfl, by simp⟩)
    | cut j id full hj ho hc hb hd =>
      obtain ⟨p, q, he, hp, hr⟩ := cut_eq (a := .rest (time - total (seg events start j) mode))
        (b := .rest (full - (time - total (seg events start j) mode))) (f := fresh) hids ho
      refine .inr (.inl ⟨hc, rfl, p, q, id, _, _, ?_, hr, by omega, by omega, by omega⟩)
      rw [he]; congr 3; congr 1; omega

/-- **C51.** Moving never changes which events other than rests happen and when, from the beginning of the list and in any
mode. -/
theorem move_onsets {events events' : List Obj} {start idx : Nat} {time mode elapsed mode' : Int} {cut append : Bool}
    {fresh : Nat} (hids : (events.map (·.1)).Nodup) (hs : start ≤ events.length)
    (h : moveInTime events start time mode cut append fresh = .ok (events', idx, elapsed, mode')) (m : Int) :
    onsets events' m = onsets events m := by
  by_cases h0 : time ≤ 0
  · unfold moveInTime at h
    by_cases h1 : time < 0
    · rw [if_pos h1] at h; cases h
    · rw [if_neg h1, if_pos (by omega)] at h; cases h; rfl
  · obtain ⟨r, h1, h2, _⟩ := moveInTime_outcome (m0 := mode) (cut := cut) (append := append)
      (fresh := fresh) hs (show 0 < time by omega)
    rw [h] at h1
    cases h1
    exact (outcome_edited hids h2).onsets_eq m

/-- A note of 4, a control event, a rest of 10 and a note of 5. -/
def demo : List Obj := [(0, .note 60 100 false 4), (1, .simple .pan 9), (2, .rest 10), (3, .note 61 100 false 5)]

example : (demo.map (·.1)).Nodup ∧ (∀ o ∈ demo, ∀ m, 0 ≤ len m o.2) := by
  refine ⟨by decide, fun o ho m => ?_⟩
  simp only [demo, List.mem_cons, List.not_mem_nil, or_false] at ho
  rcases ho with rfl | rfl | rfl | rfl <;> simp only [len] <;> try split
  all_goals omega
example : moveInTime demo 0 7 1 true true 9 = .ok
    ([(0, .note 60 100 false 4), (1, .simple .pan 9), (2, .rest 3), (9, .rest 7), (3, .note 61 100 false 5)], 3, 7, 1) := by
  decide +kernel
example : moveInTime demo 0 7 1 false true 9 = .ok (demo, 2, 4, 1) := by decide +kernel
example : moveInTime demo 0 16 1 true true 9 = .ok (demo, 3, 14, 1) := by decide +kernel
example : moveInTime demo 1 20 1 true true 9 = .ok (demo ++ [(9, .rest 5)], 5, 20, 1) := by decide +kernel

/-! ### C70 -/

/-- **C70.** When the time asked for is reached, no earlier index reaches it: events taking no time that follow are not
consumed. -/
theorem move_first_partial {events events' : List Obj} {start idx k : Nat} {time mode elapsed mode' : Int}
    {cut append : Bool} {fresh : Nat} (hs : start ≤ events.length) (ht : 0 < time)
    (h : moveInTime events start time mode cut append fresh = .ok (events', idx, elapsed, mode'))
    (he : elapsed = time) (h1 : start ≤ k) (h2 : k < idx) :
    total (((events.take k).drop start).map (·.2)) mode ≠ elapsed := by
  obtain ⟨r, h3, _, h4⟩ := moveInTime_outcome (m0 := mode) (cut := cut) (append := append) (fresh := fresh) hs ht
  rw [h] at h3
  cases h3
  have := h4 k h1 h2
  unfold seg at this
  omega

/-- **C70.** When it is not reached, the index returned is instead the last one at the time that was moved: all events there
that take no time are consumed. -/
theorem move_last {events events' : List Obj} {start idx k : Nat} {time mode elapsed mode' : Int} {cut append : Bool}
    {fresh : Nat} (hn : ∀ o ∈ events, ∀ m, 0 ≤ len m o.2) (hids : (events.map (·.1)).Nodup) (hs : start ≤ events.length)
    (h : moveInTime events start time mode cut append fresh = .ok (events', idx, elapsed, mode'))
    (hlt : elapsed < time) (h1 : idx < k) (h2 : k ≤ events.length) :
    elapsed < total (((events.take k).drop start).map (·.2)) mode := by
  have ht : 0 ≤ time := by
    have hr := move_raises events start time mode cut append fresh
    rw [h] at hr
    have hr' : ¬ (time < 0 ∨ (time ≠ 0 ∧ events.length < start)) := fun hc => nomatch (hr.2 hc).choose_spec
    omega
  obtain ⟨E', i', el, m', h3, h4, h5, h6, h7, h8⟩ := move_spec (mode := mode) (cut := cut) (append := append)
    (fresh := fresh) hids hs ht
  rw [h] at h3
  cases h3
  obtain ⟨rfl, hc⟩ := move_short h hlt
  have hn' : NonNeg (events'.drop start) := fun o ho => hn o (List.mem_of_mem_drop ho)
  rw [List.drop_take] at h7 h8 ⊢
  rcases hc with ⟨rfl, _⟩ | ⟨o, ho, ho2, _⟩
  · omega
  · have := total_mono hn' mode (i := idx - start + 1) (j := k - start) (by omega)
    rw [List.take_add_one, List.getElem?_drop, show start + (idx - start) = idx by omega, ho, Option.toList_some,
      List.map_append, total_append, h7, h8] at this
    simp only [List.map_cons, List.map_nil, total_cons, total_nil] at this
    omega

/-- **C70.** When it is not reached, events taking no time are consumed, against the documentation: here the first event at
time 4 is the control event at index 1, but index 2 is returned. -/
theorem move_not_first : ∃ (events : List Obj) (idx : Nat) (elapsed : Int),
    moveInTime events 0 7 1 false false 9 = .ok (events, idx, elapsed, 1) ∧
      ∃ k, k < idx ∧ total ((events.take k).map (·.2)) 1 = elapsed :=
  ⟨demo, 2, 4, by decide +kernel, 1, by decide, by decide⟩

/-! ### C69 -/

theorem looped_iff (events : List Obj) : looped events = true ↔ ∃ o ∈ events, ∃ d, o.2 = .jump d := by
  unfold looped
  rw [List.any_eq_true]
  constructor
  · rintro ⟨o, ho, h⟩
    refine ⟨o, ho, ?_⟩
    cases hx : o.2 <;> rw [hx] at h <;> first | exact ⟨_, rfl⟩ | cases h
  · rintro ⟨o, ho, d, h⟩
    exact ⟨o, ho, by rw [h]⟩

/-- **C69.** A track that already contains a jump cannot be looped. -/
theorem loop_looped {events : List Obj} (start stop : Int) (clear : Bool) (f1 f2 f3 : Nat)
    (h : ∃ o ∈ events, ∃ d, o.2 = .jump d) : trackLoop events start stop clear f1 f2 f3 = .error .runtimeError := by
  unfold trackLoop
  rw [raiseIf_true ((looped_iff events).2 h)]
  rfl

/-- The first step of looping, for both the start and the end. -/
theorem move_step {E : List Obj} {t : Int} {f : Nat} (hids : (E.map (·.1)).Nodup) (hn : NonNeg E) (ht : 0 ≤ t) :
    ∃ r, moveInTime E 0 t MONO true true f = .ok r ∧ Edited E f r.1 ∧
      (r.2.2.1 = t ↔ ¬ Across (E.map (·.2)) 1 t) ∧
      (r.2.2.1 = t → r.2.1 ≤ r.1.length ∧ total ((r.1.take r.2.1).map (·.2)) 1 = t ∧
        ∀ i, i ≤ E.length → total ((E.take i).map (·.2)) 1 < t → r.1.take i = E.take i ∧ i < r.2.1) := by
  by_cases h0 : t = 0
  · subst h0
    refine ⟨(E, 0, 0, MONO), ?_, .same, ?_, ?_⟩
    · unfold moveInTime; rw [if_neg (by omega), if_pos rfl]
    · simp only [true_iff]
      rintro ⟨i, p, v, f, d, h1, h2, h3, h4⟩
      rw [take_snd] at h3
      have := total_nonneg (l := E.take i) (fun o ho => hn o (List.mem_of_mem_take ho)) 1
      omega
    · intro _
      refine ⟨Nat.zero_le _, rfl, fun i _ h => ?_⟩
      have := total_nonneg (l := E.take i) (fun o ho => hn o (List.mem_of_mem_take ho)) 1
      omega
  · obtain ⟨r, h1, h2, _⟩ := moveInTime_outcome (m0 := MONO) (cut := true) (append := true)
      (fresh := f) (Nat.zero_le E.length) (show 0 < t by omega)
    refine ⟨r, h1, outcome_edited hids h2, outcome_exact_iff hn h2, fun he => ?_⟩
    obtain ⟨_, h4, _, h6, _⟩ := outcome_reach hids (Nat.zero_le _) h2
    rw [seg_zero] at h6
    exact ⟨h4, by rw [← he]; exact h6, fun i hi hlt => outcome_prefix hids hn h2 he hi hlt⟩

/-- **C69.** Looping a track without jumps from `start` to a later `stop`: it raises `RuntimeError` exactly if a note sounds
across one of these moments.  Otherwise the track becomes a body that takes exactly `stop`, followed by a jump to an
event of the body before which exactly `start` passes, followed by what was left of the track unless trailing events
are cleared.  No event other than rests is moved in time, added or lost (apart from the cleared ones). -/
theorem loop_track {events : List Obj} {start stop : Int} {clear : Bool} {f1 f2 f3 : Nat}
    (hids : (events.map (·.1)).Nodup) (hf1 : f1 ∉ events.map (·.1))
    (hn : ∀ o ∈ events, ∀ m, 0 ≤ len m o.2) (hj : ¬ ∃ o ∈ events, ∃ d, o.2 = .jump d)
    (h0 : 0 ≤ start) (hlt : start < stop) :
    (Across (events.map (·.2)) 1 start ∨ Across (events.map (·.2)) 1 stop →
      trackLoop events start stop clear f1 f2 f3 = .error .runtimeError) ∧
    (¬ Across (events.map (·.2)) 1 start → ¬ Across (events.map (·.2)) 1 stop → ∃ before after tail target ev,
      trackLoop events start stop clear f1 f2 f3 =
        .ok (before ++ (target, ev) :: after ++ (f3, .jump target) :: (if clear = true then [] else tail)) ∧
      total (before.map (·.2)) 1 = start ∧ total ((before ++ (target, ev) :: after).map (·.2)) 1 = stop ∧
      onsets (before ++ (target, ev) :: after ++ tail) 1 = onsets events 1) := by
  have hl : looped events ≠ true := fun h => hj ((looped_iff events).1 h)
  obtain ⟨r, hr1, hr2, hr3, hr4⟩ := move_step (f := f1) hids hn h0
  have hids' := hr2.nodup hids hf1
  have hn' := hr2.nonNeg hn
  obtain ⟨s, hs1, hs2, hs3, hs4⟩ := move_step (f := f2) hids' hn' (show 0 ≤ stop by omega)
  rw [hr2.across] at hs3
  unfold trackLoop
  rw [raiseIf_false hl, bind_ok, hr1, bind_ok]
  by_cases ha : Across (events.map (·.2)) 1 start
  · rw [raiseIf_true (show r.2.2.1 ≠ start from fun h => (hr3.1 h) ha)]
    exact ⟨fun _ => rfl, fun h => absurd ha h⟩
  · have he := hr3.2 ha
    rw [raiseIf_false (show ¬ r.2.2.1 ≠ start from fun h => h he), bind_ok, hs1, bind_ok]
    by_cases hb : Across (events.map (·.2)) 1 stop
    · rw [raiseIf_true (show s.2.2.1 ≠ stop from fun h => (hs3.1 h) hb)]
      exact ⟨fun _ => rfl, fun _ h => absurd hb h⟩
    · have he2 := hs3.2 hb
      rw [raiseIf_false (show ¬ s.2.2.1 ≠ stop from fun h => h he2), bind_ok]
      refine ⟨fun h => by rcases h with h | h <;> contradiction, fun _ _ => ?_⟩
      obtain ⟨g1, g2, _⟩ := hr4 he
      obtain ⟨k1, k2, k3⟩ := hs4 he2
      obtain ⟨k4, k5⟩ := k3 r.2.1 g1 (by omega)
      have hlen : r.2.1 < s.1.length := by omega
      obtain ⟨before, q, hq, hbl⟩ := split_at (List.getElem?_eq_getElem hlen)
      generalize s.1[r.2.1] = o at hq
      obtain ⟨target, ev⟩ := o
      have hget : s.1[r.2.1]? = some (target, ev) := by
        rw [hq, List.getElem?_append_right (by omega), hbl, Nat.sub_self]; rfl
      rw [hget]
      have hbefore : before = s.1.take r.2.1 := by
        rw [hq, ← hbl, List.take_left]
      -- the part of `q` inside the loop
      have hsplit : s.1.take s.2.1 = before ++ (target, ev) :: q.take (s.2.1 - r.2.1 - 1) := by
        rw [hq, List.take_append, List.take_of_length_le (by omega), hbl]
        congr 1
        rw [show s.2.1 - r.2.1 = (s.2.1 - r.2.1 - 1) + 1 by omega, List.take_succ_cons]
        congr 2
      have htl : (s.1.take s.2.1).length = s.2.1 := by rw [List.length_take]; omega
      refine ⟨before, q.take (s.2.1 - r.2.1 - 1), s.1.drop s.2.1, target, ev, ?_, ?_, ?_, ?_⟩
      · rw [← hsplit]
        have hi : insertAt s.1 s.2.1 (f3, Ev.jump target) = s.1.take s.2.1 ++ (f3, Ev.jump target) :: s.1.drop s.2.1 := rfl
        dsimp only
        rw [hi]
        cases clear with
        | true =>
          rw [if_pos rfl, if_pos rfl]
          show Except.ok _ = Except.ok _
          congr 1
          have e : ∀ (a b : List Obj) (x : Obj), (a ++ x :: b).take (a.length + 1) = a ++ [x] := by
            intro a b x
            rw [List.take_append, List.take_of_length_le (by omega)]
            congr 1
            rw [show a.length + 1 - a.length = 1 by omega]
            rfl
          have := e (s.1.take s.2.1) (s.1.drop s.2.1) (f3, .jump target)
          rw [htl] at this
          exact this
        | false => rfl
      · rw [hbefore, k4, g2]
      · rw [← hsplit, k2]
      · rw [← hsplit, List.take_append_drop, hs2.onsets_eq, hr2.onsets_eq]

example : trackLoop demo 2 9 true 7 8 9 = .error .runtimeError := by decide +kernel
example : trackLoop demo 4 9 true 7 8 9 = .ok
    [(0, .note 60 100 false 4), (1, .simple .pan 9), (2, .rest 5), (9, .jump 1)] := by decide +kernel
example : 7 ∉ demo.map (·.1) ∧ ¬ ∃ o ∈ demo, ∃ d, o.2 = .jump d := by
  refine ⟨by decide, ?_⟩
  rintro ⟨o, ho, d, h⟩
  simp only [demo, List.mem_cons, List.not_mem_nil, or_false] at ho
  rcases ho with rfl | rfl | rfl | rfl <;> cases h

end Verif.Props.Music
