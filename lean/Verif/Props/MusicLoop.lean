import Verif.Props.Music

/-! # Looping whole songs (C130) -/

namespace Verif.Props.MusicLoop

open Verif Verif.Model.SoundSequence Verif.Model.SoundBank Verif.Model.Music Verif.Spec.Music Verif.Proofs.Music

theorem no_jump {events : List Obj} :
    (∀ o ∈ events, ∀ d, o.2 ≠ .jump d) ↔ ¬ ∃ o ∈ events, ∃ d, o.2 = .jump d :=
  ⟨fun h ⟨o, ho, d, e⟩ => h o ho d e, fun h o ho d e => h ⟨o, ho, d, e⟩⟩

/-- One track: looped if it can be. -/
theorem loop_ok {events : List Obj} {start stop : Int} (clear : Bool) {f1 f2 f3 : Nat}
    (hids : (events.map (·.1)).Nodup) (hf : ∀ o ∈ events, o.1 < f1)
    (hn : ∀ o ∈ events, ∀ m, 0 ≤ len m o.2) (h0 : 0 ≤ start) (hlt : start < stop) (h : Loopable events start stop) :
    ∃ events', trackLoop events start stop clear f1 f2 f3 = .ok events' ∧ Repeats events events' start stop clear := by
  have hf1 : f1 ∉ events.map (·.1) := by
    rw [List.mem_map]
    rintro ⟨o, ho, e⟩
    exact absurd (hf o ho) (by omega)
  obtain ⟨b, a, t, g, ev, h1, h2, h3, h4⟩ :=
    (Props.Music.loop_track (clear := clear) (f2 := f2) (f3 := f3) hids hf1 hn (no_jump.1 h.1) h0 hlt).2 h.2.1 h.2.2
  exact ⟨_, h1, b, a, t, g, ev, f3, rfl, h2, h3, h4⟩

/-- One track: refused otherwise, and what is left of it has everything but rests as before. -/
theorem loop_error {events : List Obj} {start stop : Int} (clear : Bool) {f1 f2 f3 : Nat}
    (hids : (events.map (·.1)).Nodup) (hf : ∀ o ∈ events, o.1 < f1)
    (hn : ∀ o ∈ events, ∀ m, 0 ≤ len m o.2) (h0 : 0 ≤ start) (hlt : start < stop) (h : ¬ Loopable events start stop) :
    trackLoop events start stop clear f1 f2 f3 = .error .runtimeError ∧
      onsets (loopLeft events start stop f1 f2) 1 = onsets events 1 := by
  have hf1 : f1 ∉ events.map (·.1) := by
    rw [List.mem_map]
    rintro ⟨o, ho, e⟩
    exact absurd (hf o ho) (by omega)
  by_cases hj : ∃ o ∈ events, ∃ d, o.2 = .jump d
  · refine ⟨Props.Music.loop_looped start stop clear f1 f2 f3 hj, ?_⟩
    unfold loopLeft
    rw [if_pos ((Props.Music.looped_iff events).2 hj)]
  · constructor
    · refine (Props.Music.loop_track (clear := clear) (f2 := f2) (f3 := f3) hids hf1 hn hj h0 hlt).1 ?_
      refine Classical.byContradiction fun hc => h ⟨no_jump.2 hj, fun ha => hc (.inl ha), fun ha => hc (.inr ha)⟩
    · have hl : looped events ≠ true := fun h => hj ((Props.Music.looped_iff events).1 h)
      obtain ⟨r, hr1, hr2, -⟩ := Props.Music.move_step (f := f1) hids hn h0
      obtain ⟨s, hs1, hs2, -⟩ := Props.Music.move_step (f := f2) (hr2.nodup hids hf1) (hr2.nonNeg hn)
        (show 0 ≤ stop by omega)
      unfold loopLeft
      rw [if_neg hl, hr1]
      dsimp only
      by_cases he : r.2.2.1 ≠ start
      · rw [if_pos he, hr2.onsets_eq]
      · rw [if_neg he, hs1]
        dsimp only
        rw [hs2.onsets_eq, hr2.onsets_eq]

/-- **C130.** A negative end is refused too, but only after the track was changed for the start: if no note sounds across it,
there is then an event boundary at the start, for which rests may have been cut or added. -/
theorem loop_negative_end {events : List Obj} {start stop : Int} (clear : Bool) {f1 f2 f3 : Nat}
    (hids : (events.map (·.1)).Nodup) (hn : ∀ o ∈ events, ∀ m, 0 ≤ len m o.2)
    (hj : ∀ o ∈ events, ∀ d, o.2 ≠ .jump d) (h0 : 0 ≤ start) (hlt : stop < 0) :
    (Across (events.map (·.2)) 1 start → trackLoop events start stop clear f1 f2 f3 = .error .runtimeError) ∧
    (¬ Across (events.map (·.2)) 1 start → trackLoop events start stop clear f1 f2 f3 = .error .valueError ∧
      ∃ before after, loopLeft events start stop f1 f2 = before ++ after ∧ total (before.map (·.2)) 1 = start) ∧
    onsets (loopLeft events start stop f1 f2) 1 = onsets events 1 := by
  have hl : looped events ≠ true := fun h => no_jump.1 hj ((Props.Music.looped_iff events).1 h)
  obtain ⟨r, hr1, hr2, hr3, hr4⟩ := Props.Music.move_step (f := f1) hids hn h0
  have hs : moveInTime r.1 0 stop MONO true true f2 = .error .valueError := by
    unfold moveInTime; rw [if_pos hlt]
  refine ⟨fun ha => ?_, fun ha => ⟨?_, ?_⟩, ?_⟩
  · unfold trackLoop
    rw [raiseIf_false hl, bind_ok, hr1, bind_ok, raiseIf_true (show r.2.2.1 ≠ start from fun h => (hr3.1 h) ha)]
    rfl
  · unfold trackLoop
    rw [raiseIf_false hl, bind_ok, hr1, bind_ok, raiseIf_false (fun h => h (hr3.2 ha)), bind_ok, hs]
    rfl
  · unfold loopLeft
    rw [if_neg hl, hr1]
    dsimp only
    rw [if_neg (fun h => h (hr3.2 ha)), hs]
    exact ⟨r.1.take r.2.1, r.1.drop r.2.1, (List.take_append_drop _ _).symm, (hr4 (hr3.2 ha)).2.1⟩
  · unfold loopLeft
    rw [if_neg hl, hr1]
    dsimp only
    split
    · exact hr2.onsets_eq ..
    · rw [hs]
      exact hr2.onsets_eq ..

/-- Here a rest is cut in two although the loop is refused. -/
example : loopLeft [(0, .rest 5)] 2 (-1) 1 2 = [(0, .rest 2), (1, .rest 3)] := by decide +kernel

theorem song_tail {t : Nat × List Obj} {ts : List (Nat × List Obj)} {fresh : Nat} (h : Song (t :: ts) fresh) :
    Song ts (fresh + 3) := fun u hu =>
  ⟨(h u (List.mem_cons_of_mem _ hu)).1,
    fun o ho => by have := (h u (List.mem_cons_of_mem _ hu)).2.1 o ho; omega,
    (h u (List.mem_cons_of_mem _ hu)).2.2⟩

/-- **C130.** If every track can be looped, looping the song succeeds, and every track, under its number and in its place,
repeats the section between exactly the same two moments. -/
theorem song_loop {tracks : List (Nat × List Obj)} {start stop : Int} {clear : Bool} {fresh : Nat}
    (hs : Song tracks fresh) (h0 : 0 ≤ start) (hlt : start < stop) (h : ∀ t ∈ tracks, Loopable t.2 start stop) :
    ∃ tracks', songLoop start stop clear tracks fresh = (.ok (), tracks') ∧
      tracks'.map (·.1) = tracks.map (·.1) ∧
      ∀ i (hi : i < tracks.length) (hi' : i < tracks'.length),
        Repeats tracks[i].2 tracks'[i].2 start stop clear := by
  induction tracks generalizing fresh with
  | nil => exact ⟨[], rfl, rfl, fun i hi => absurd hi (Nat.not_lt_zero i)⟩
  | cons t ts ih =>
    obtain ⟨n, events⟩ := t
    obtain ⟨g1, g2, g3⟩ := hs _ List.mem_cons_self
    obtain ⟨E', k1, k2⟩ := loop_ok (f2 := fresh + 1) (f3 := fresh + 2) clear g1 g2 g3 h0 hlt (h _ List.mem_cons_self)
    obtain ⟨ts', j1, j2, j3⟩ := ih (song_tail hs) fun u hu => h u (List.mem_cons_of_mem _ hu)
    refine ⟨(n, E') :: ts', ?_, ?_, ?_⟩
    · unfold songLoop
      rw [k1]
      dsimp only
      rw [j1]
    · rw [List.map_cons, List.map_cons, j2]
    · intro i hi hi'
      cases i with
      | zero => exact k2
      | succ i => exact j3 i (Nat.lt_of_succ_lt_succ hi) (Nat.lt_of_succ_lt_succ hi')

/-- **C130.** Otherwise it raises `RuntimeError`.  The song is then looped in part: the tracks before the first that cannot
be looped are, that one has all its events except rests as before, and the later ones are unchanged. -/
theorem song_loop_error {before after : List (Nat × List Obj)} {n : Nat} {events : List Obj} {start stop : Int}
    {clear : Bool} {fresh : Nat} (hs : Song (before ++ (n, events) :: after) fresh) (h0 : 0 ≤ start) (hlt : start < stop)
    (h : ∀ t ∈ before, Loopable t.2 start stop) (hn : ¬ Loopable events start stop) :
    ∃ before' events', songLoop start stop clear (before ++ (n, events) :: after) fresh =
        (.error .runtimeError, before' ++ (n, events') :: after) ∧
      before'.map (·.1) = before.map (·.1) ∧
      (∀ i (hi : i < before.length) (hi' : i < before'.length),
        Repeats before[i].2 before'[i].2 start stop clear) ∧
      onsets events' 1 = onsets events 1 := by
  induction before generalizing fresh with
  | nil =>
    obtain ⟨g1, g2, g3⟩ := hs _ List.mem_cons_self
    obtain ⟨k1, k2⟩ := loop_error (f2 := fresh + 1) (f3 := fresh + 2) clear g1 g2 g3 h0 hlt hn
    refine ⟨[], _, ?_, rfl, fun i hi => absurd hi (Nat.not_lt_zero i), k2⟩
    show songLoop start stop clear ((n, events) :: after) fresh = _
    unfold songLoop
    rw [k1]
    rfl
  | cons t ts ih =>
    obtain ⟨m, E⟩ := t
    obtain ⟨g1, g2, g3⟩ := hs _ List.mem_cons_self
    obtain ⟨E', k1, k2⟩ := loop_ok (f2 := fresh + 1) (f3 := fresh + 2) clear g1 g2 g3 h0 hlt (h _ List.mem_cons_self)
    obtain ⟨ts', ev', j1, j2, j3, j4⟩ := ih (song_tail hs) fun u hu => h u (List.mem_cons_of_mem _ hu)
    refine ⟨(m, E') :: ts', ev', ?_, ?_, ?_, j4⟩
    · show songLoop start stop clear ((m, E) :: (ts ++ (n, events) :: after)) fresh = _
      unfold songLoop
      rw [k1]
      dsimp only
      rw [j1]
      rfl
    · rw [List.map_cons, List.map_cons, j2]
    · intro i hi hi'
      cases i with
      | zero => exact k2
      | succ i => exact j3 i (Nat.lt_of_succ_lt_succ hi) (Nat.lt_of_succ_lt_succ hi')

/-- **C130.** It succeeds exactly if every track can be looped. -/
theorem song_loop_iff {tracks : List (Nat × List Obj)} {start stop : Int} {clear : Bool} {fresh : Nat}
    (hs : Song tracks fresh) (h0 : 0 ≤ start) (hlt : start < stop) :
    (songLoop start stop clear tracks fresh).1 = .ok () ↔ ∀ t ∈ tracks, Loopable t.2 start stop := by
  constructor
  · intro h
    induction tracks generalizing fresh with
    | nil => intro t ht; cases ht
    | cons t ts ih =>
      obtain ⟨g1, g2, g3⟩ := hs _ List.mem_cons_self
      obtain ⟨n, events⟩ := t
      by_cases hl : Loopable events start stop
      · obtain ⟨E', k1, -⟩ := loop_ok (f2 := fresh + 1) (f3 := fresh + 2) clear g1 g2 g3 h0 hlt hl
        unfold songLoop at h
        rw [k1] at h
        intro u hu
        rcases List.mem_cons.1 hu with rfl | hu
        · exact hl
        · exact ih (song_tail hs) h u hu
      · obtain ⟨_, _, k, -⟩ := song_loop_error (clear := clear) (before := []) (after := ts) hs h0 hlt (fun _ h => nomatch h) hl
        rw [List.nil_append] at k
        rw [k] at h
        cases h
  · intro h
    obtain ⟨_, k, -⟩ := song_loop (clear := clear) hs h0 hlt h
    rw [k]

/-- **C130.** A song with a track that jumps cannot be looped, whatever the times; so a song left looped in part cannot. -/
theorem song_loop_again {tracks : List (Nat × List Obj)} (start stop : Int) (clear : Bool) (fresh : Nat)
    (h : ∃ t ∈ tracks, ∃ o ∈ t.2, ∃ d, o.2 = .jump d) : (songLoop start stop clear tracks fresh).1 ≠ .ok () := by
  induction tracks generalizing fresh with
  | nil => obtain ⟨t, ht, -⟩ := h; cases ht
  | cons t ts ih =>
    obtain ⟨n, events⟩ := t
    unfold songLoop
    cases hl : trackLoop events start stop clear fresh (fresh + 1) (fresh + 2) with
    | error e => exact fun h => nomatch h
    | ok events' =>
      obtain ⟨u, hu, hj⟩ := h
      rcases List.mem_cons.1 hu with rfl | hu
      · rw [Props.Music.loop_looped start stop clear _ _ _ hj] at hl
        cases hl
      · exact ih (fresh + 3) ⟨u, hu, hj⟩

example : songLoop 0 4 true [(0, [(0, .note 60 100 false 4), (1, .rest 2), (12, .jump 1)]),
      (1, [(2, .rest 4), (3, .note 50 90 false 5)])] 20 =
    (.error .runtimeError, [(0, [(0, .note 60 100 false 4), (1, .rest 2), (12, .jump 1)]),
      (1, [(2, .rest 4), (3, .note 50 90 false 5)])]) := by rfl

/-- Two tracks: the first can be looped from 4 to 6, in the second a note sounds across the end. -/
def duo : List (Nat × List Obj) :=
  [(0, [(0, .note 60 100 false 4), (1, .rest 8)]), (1, [(2, .rest 4), (3, .note 50 90 false 5)])]

example : songLoop 4 6 true duo 10 =
    (.error .runtimeError, [(0, [(0, .note 60 100 false 4), (1, .rest 2), (12, .jump 1)]),
      (1, [(2, .rest 4), (3, .note 50 90 false 5)])]) := by rfl
example : songLoop 4 9 true duo 10 =
    (.ok (), [(0, [(0, .note 60 100 false 4), (1, .rest 5), (12, .jump 1)]),
      (1, [(2, .rest 4), (3, .note 50 90 false 5), (15, .jump 3)])]) := by rfl

/-- The songs of the example meet the requirements. -/
theorem duo_song : Song duo 10 := by
  intro t ht
  rcases List.mem_cons.1 ht with rfl | ht
  · refine ⟨by decide, by decide, fun o ho m => ?_⟩
    rcases List.mem_cons.1 ho with rfl | ho
    · show 0 ≤ if m = 1 then (4 : Int) else 0
      split <;> decide
    · rw [List.mem_singleton.1 ho]
      show (0 : Int) ≤ 8
      decide
  · rw [List.mem_singleton.1 ht]
    refine ⟨by decide, by decide, fun o ho m => ?_⟩
    rcases List.mem_cons.1 ho with rfl | ho
    · show (0 : Int) ≤ 4
      decide
    · rw [List.mem_singleton.1 ho]
      show 0 ≤ if m = 1 then (5 : Int) else 0
      split <;> decide

/-- **C130.** So a song is not left as it was when looping it raises. -/
theorem song_loop_not_undone : ¬ ∀ tracks start stop clear fresh, Song tracks fresh → 0 ≤ start → start < stop →
    (songLoop start stop clear tracks fresh).1 ≠ .ok () → (songLoop start stop clear tracks fresh).2 = tracks :=
  fun h => absurd (h duo 4 6 true 10 duo_song (by decide) (by decide) (fun h => nomatch h)) (by decide)

example : ∀ t ∈ duo, Loopable t.2 4 9 :=
  (song_loop_iff (clear := true) duo_song (by decide) (by decide)).1 rfl
example : ¬ ∀ t ∈ duo, Loopable t.2 4 6 := fun h =>
  nomatch (song_loop_iff (clear := true) duo_song (by decide) (by decide)).2 h

end Verif.Props.MusicLoop
