import Verif.Proofs.MusicInit

/-!
# C153: the tracks of a sequence that is opened as a song
-/

namespace Verif.Props.MusicInit

open Verif Verif.Model.SoundSequence Verif.Model.Music Verif.Spec.MusicInit Verif.Proofs.MusicInit

/-- C153: a sequence without events is not opened. -/
theorem song_empty {σ : Type} (s : σ) : musicInit [] (some s) = .error .indexError := rfl

/-- C153: a sequence whose first event does not define tracks is one track, number 0, with all events but a final end of track. -/
theorem song_single {σ : Type} (s : σ) (o : Obj) (os : List Obj) (h : ∀ ns, o.2 ≠ .defineTracks ns) :
    ∃ t, musicInit (o :: os) (some s) = .ok [(0, t)] ∧ NoEnd (o :: os) t := by
  refine ⟨trackInit (o :: os), ?_, noEnd_init _⟩
  obtain ⟨i, e⟩ := o
  cases e <;> first | rfl | exact absurd rfl (h _)

/-- C153: a sequence that has nothing behind the events that define and begin tracks is not opened. -/
theorem song_no_events {σ : Type} (s : σ) (d : Nat) (numbers : List Nat) (begins : List (Nat × Nat × Nat)) :
    musicInit (sequence d numbers begins []) (some s) = .error .indexError := by
  unfold sequence
  rw [List.cons_append, musicInit, begins_spec]
  rfl

theorem init_eq {σ : Type} (s : σ) (d : Nat) (numbers : List Nat) (begins : List (Nat × Nat × Nat)) (o : Obj) (os : List Obj)
    (ho : ∀ n x, o.2 ≠ .beginTrack n x) :
    musicInit (sequence d numbers begins (o :: os)) (some s) =
      beginTracks (sequence d numbers begins (o :: os)) (begins.map (·.2.2)) (begins.map (·.2))
        (if numbers.contains 0 = true then [(0, trackInit (trackFrom (begins.map (·.2.2)) (o :: os)))] else []) := by
  unfold sequence
  rw [List.cons_append, musicInit, begins_spec]
  dsimp only
  rw [begins_stop ho]
  show (Except.ok (begins.map (·.2) ++ [])).bind _ = _
  rw [List.append_nil]
  show beginTracks _ _ _ _ = _
  have e : (List.map (fun b : Nat × Nat × Nat => (b.1, Ev.beginTrack (b.2.1 : Int) b.2.2)) begins ++ o :: os).drop
      (begins.map (·.2)).length = o :: os := by
    rw [List.drop_left' (by simp)]
  rw [e, List.map_map]
  rfl

/-- C153: a sequence with a track that begins with an event that the sequence does not have is not opened. -/
theorem song_lost_event {σ : Type} (s : σ) (d : Nat) (numbers : List Nat) (begins : List (Nat × Nat × Nat)) (o : Obj)
    (os : List Obj) (ho : ∀ n x, o.2 ≠ .beginTrack n x)
    (h : ∃ b ∈ begins, b.2.2 ∉ (sequence d numbers begins (o :: os)).map Prod.fst) :
    musicInit (sequence d numbers begins (o :: os)) (some s) = .error .valueError := by
  rw [init_eq s d numbers begins o os ho]
  refine tracks_error _ _ _ _ ?_
  obtain ⟨b, hb, h⟩ := h
  exact ⟨b.2, List.mem_map_of_mem hb, h⟩

/-- C153: every other sequence is opened.  Its tracks have different numbers, those that are begun and 0 if it is defined.  A
track that is begun, last by `b`, has the events from the first event that `b` names up to the next event that begins a
track; otherwise it is track 0, with the events behind the beginnings up to the next event that begins a track; a final end of
track is left out. -/
theorem song_tracks {σ : Type} (s : σ) (d : Nat) (numbers : List Nat) (begins : List (Nat × Nat × Nat)) (o : Obj) (os : List Obj)
    (ho : ∀ n x, o.2 ≠ .beginTrack n x) (h : ∀ b ∈ begins, b.2.2 ∈ (sequence d numbers begins (o :: os)).map Prod.fst) :
    ∃ tracks, musicInit (sequence d numbers begins (o :: os)) (some s) = .ok tracks ∧ (tracks.map Prod.fst).Nodup ∧
      (∀ n, n ∈ tracks.map Prod.fst ↔ (∃ b ∈ begins, b.2.1 = n) ∨ (n = 0 ∧ 0 ∈ numbers)) ∧
      ∀ t ∈ tracks, ∃ part, NoEnd part t.2 ∧
        ((∃ b, LastOf begins t.1 b ∧ PartFrom (sequence d numbers begins (o :: os)) (begins.map (·.2.2)) b.2.2 part) ∨
          (t.1 = 0 ∧ (∀ b ∈ begins, b.2.1 ≠ 0) ∧ Run (begins.map (·.2.2)) (o :: os) part)) := by
  rw [init_eq s d numbers begins o os ho]
  have hn : ((if numbers.contains 0 = true then [(0, trackInit (trackFrom (begins.map (·.2.2)) (o :: os)))] else
      [] : List (Nat × List Obj)).map Prod.fst).Nodup := by
    by_cases hc : numbers.contains 0 = true
    · rw [if_pos hc]
      simp
    · rw [if_neg hc]
      simp
  obtain ⟨ts, h1, h2, h3, h4⟩ := tracks_ok (sequence d numbers begins (o :: os)) (begins.map (·.2.2)) (begins.map (·.2)) _ hn
    (fun b hb => by
      obtain ⟨c, hc, rfl⟩ := List.mem_map.1 hb
      exact h c hc)
  refine ⟨ts, h1, h2, ?_, ?_⟩
  · intro n
    rw [h3 n]
    have e1 : (∃ b ∈ begins.map (·.2), b.1 = n) ↔ ∃ b ∈ begins, b.2.1 = n := by
      simp only [List.mem_map]
      constructor
      · rintro ⟨_, ⟨c, hc, rfl⟩, e⟩
        exact ⟨c, hc, e⟩
      · rintro ⟨c, hc, e⟩
        exact ⟨c.2, ⟨c, hc, rfl⟩, e⟩
    rw [e1, or_comm]
    by_cases hc : numbers.contains 0 = true
    · rw [if_pos hc]
      have : 0 ∈ numbers := by simpa using hc
      simp [this]
    · rw [if_neg hc]
      have : 0 ∉ numbers := by simpa using hc
      simp [this]
  · intro t ht
    rcases h4 t ht with ⟨hm, hne⟩ | ⟨pre, b, post, part, e, hb1, hb2, hb3, hb4⟩
    · by_cases hc : numbers.contains 0 = true
      · rw [if_pos hc, List.mem_singleton] at hm
        subst hm
        refine ⟨_, noEnd_init _, .inr ⟨rfl, ?_, run_from _ _ _⟩⟩
        intro b hb
        exact hne b.2 (List.mem_map_of_mem hb)
      · rw [if_neg hc] at hm
        cases hm
    · refine ⟨part, hb4 ▸ noEnd_init part, .inl ?_⟩
      obtain ⟨l1, l2, rfl, g1, g2⟩ := List.map_eq_append_iff.1 e
      obtain ⟨c, l3, rfl, rfl, rfl⟩ := List.map_eq_cons_iff.1 g2
      refine ⟨c, ⟨l1, l3, rfl, hb1, ?_⟩, hb3⟩
      intro x hx
      exact hb2 x.2 (List.mem_map_of_mem hx)

/-- The part that begins with an event is the only one. -/
theorem part_unique {events : List Obj} {starts : List Nat} {first : Nat} {p q : List Obj} (hp : PartFrom events starts first p)
    (hq : PartFrom events starts first q) : p = q := by
  obtain ⟨pre, l, e, h1, h2, h3⟩ := hp
  obtain ⟨pre', l', e', h1', h2', h3'⟩ := hq
  have key : ∀ (a b c d : List Obj), a ++ b = c ++ d → first ∉ a.map Prod.fst → b.head?.map Prod.fst = some first →
      first ∉ c.map Prod.fst → d.head?.map Prod.fst = some first → b = d := by
    intro a
    induction a with
    | nil =>
      intro b c d e _ hb hc _
      cases c with
      | nil => exact e
      | cons x c =>
        rw [List.nil_append] at e
        rw [e] at hb
        simp only [List.cons_append, List.head?_cons, Option.map_some, Option.some.injEq] at hb
        exact absurd (by simp [hb]) hc
    | cons y a ih =>
      intro b c d e ha hb hc hd
      cases c with
      | nil =>
        rw [List.nil_append] at e
        rw [← e] at hd
        simp only [List.cons_append, List.head?_cons, Option.map_some, Option.some.injEq] at hd
        exact absurd (by simp [hd]) ha
      | cons x c =>
        rw [List.cons_append, List.cons_append, List.cons.injEq] at e
        rw [List.map_cons, List.mem_cons, not_or] at ha hc
        exact ih b c d e.2 ha.2 hb hc.2 hd
  have := key pre l pre' l' (e.symm.trans e') h1 h2 h1' h2'
  subst this
  rw [(run_unique h3).1, (run_unique h3').1]

theorem run_unique' {starts : List Nat} {l p q : List Obj} (hp : Run starts l p) (hq : Run starts l q) : p = q := by
  rw [(run_unique hp).1, (run_unique hq).1]

/-- C153: no event is lost: if track 0 is defined and not begun, no track is begun twice and no event occurs twice, then every event
behind the beginnings is in a track, except for ends of tracks. -/
theorem song_complete {σ : Type} (s : σ) (d : Nat) (numbers : List Nat) (begins : List (Nat × Nat × Nat)) (o : Obj) (os : List Obj)
    (ho : ∀ n x, o.2 ≠ .beginTrack n x) (h : ∀ b ∈ begins, b.2.2 ∈ (sequence d numbers begins (o :: os)).map Prod.fst)
    (h0 : 0 ∈ numbers) (hb0 : ∀ b ∈ begins, b.2.1 ≠ 0) (hn : (begins.map (·.2.1)).Nodup)
    (hi : ((sequence d numbers begins (o :: os)).map Prod.fst).Nodup) :
    ∃ tracks, musicInit (sequence d numbers begins (o :: os)) (some s) = .ok tracks ∧
      ∀ e ∈ o :: os, e.2 ≠ .endTrack → ∃ t ∈ tracks, e ∈ t.2 := by
  obtain ⟨ts, h1, _, h3, h4⟩ := song_tracks s d numbers begins o os ho h
  refine ⟨ts, h1, ?_⟩
  intro e he hend
  have keep : ∀ {part ev : List Obj}, NoEnd part ev → e ∈ part → e ∈ ev := by
    rintro part ev (⟨i, rfl⟩ | ⟨rfl, _⟩) hm
    · rcases List.mem_append.1 hm with hm | hm
      · exact hm
      · rw [List.mem_singleton] at hm
        exact absurd (congrArg Prod.snd hm) hend
    · exact hm
  rcases in_run (begins.map (·.2.2)) e (o :: os) he with ⟨part, hr, hm⟩ | ⟨pre, a, l', part, hl, _, ha, hr, hm⟩
  · have := (h3 0).2 (.inr ⟨rfl, h0⟩)
    obtain ⟨t, ht, ht0⟩ := List.mem_map.1 this
    refine ⟨t, ht, ?_⟩
    obtain ⟨part', hN, hor⟩ := h4 t ht
    rcases hor with ⟨b, ⟨p, q, hpq, hb1, _⟩, _⟩ | ⟨_, _, hrun⟩
    · exact absurd (hb1.trans ht0) (hb0 b (by rw [hpq]; simp))
    · exact keep hN (run_unique' hr hrun ▸ hm)
  · obtain ⟨b, hb, hba⟩ := List.mem_map.1 ha
    have := (h3 b.2.1).2 (.inl ⟨b, hb, rfl⟩)
    obtain ⟨t, ht, ht0⟩ := List.mem_map.1 this
    refine ⟨t, ht, ?_⟩
    obtain ⟨part', hN, hor⟩ := h4 t ht
    rcases hor with ⟨c, ⟨p, q, hpq, hc1, _⟩, hpart⟩ | ⟨ht0', _, _⟩
    · have hc : c ∈ begins := by rw [hpq]; simp
      have hcb : c = b := by
        have key : ∀ (l : List (Nat × Nat × Nat)), (l.map (·.2.1)).Nodup → c ∈ l → b ∈ l → c.2.1 = b.2.1 → c = b := by
          intro l
          induction l with
          | nil => intro _ h; cases h
          | cons x l ih =>
            intro hn hc hb e
            rw [List.map_cons, List.nodup_cons] at hn
            rcases List.mem_cons.1 hc with rfl | hc' <;> rcases List.mem_cons.1 hb with rfl | hb'
            · rfl
            · exact absurd (e ▸ List.mem_map_of_mem (f := fun x : Nat × Nat × Nat => x.2.1) hb') hn.1
            · exact absurd (e ▸ List.mem_map_of_mem (f := fun x : Nat × Nat × Nat => x.2.1) hc') hn.1
            · exact ih hn.2 hc' hb' e
        exact key begins hn hc hb (hc1.trans ht0)
      subst hcb
      have hpart' : PartFrom (sequence d numbers begins (o :: os)) (begins.map (·.2.2)) c.2.2 part := by
        refine ⟨(d, .defineTracks numbers) :: begins.map (fun b => (b.1, Ev.beginTrack (b.2.1 : Int) b.2.2)) ++ pre, a :: l', ?_, ?_,
          by simp [hba], hr⟩
        · rw [sequence, hl, List.append_assoc]
        · rw [sequence, hl, ← List.append_assoc, List.map_append, List.nodup_append] at hi
          intro hmem
          exact hi.2.2 _ hmem a.1 (by simp) hba
      exact keep hN (part_unique hpart' hpart ▸ hm)
    · exact absurd (ht0.symm.trans ht0') (hb0 b hb)

/-! ## Examples -/

/-- Three tracks, of which the last in the sequence is begun first. -/
def begun : List (Nat × Nat × Nat) := [(1, 5, 30), (2, 3, 20)]

def head : Obj := (10, .note 60 127 false 48)

def notes : List Obj := [(11, .endTrack), (20, .note 62 100 false 24), (21, .jump 20), (30, .note 64 90 false 12), (31, .rest 3),
  (32, .endTrack)]

example : (∀ n x, head.2 ≠ .beginTrack n x) ∧ (∀ b ∈ begun, b.2.2 ∈ (sequence 0 [0, 3, 5] begun (head :: notes)).map Prod.fst) ∧
    0 ∈ [0, 3, 5] ∧ (∀ b ∈ begun, b.2.1 ≠ 0) ∧ (begun.map (·.2.1)).Nodup ∧
    ((sequence 0 [0, 3, 5] begun (head :: notes)).map Prod.fst).Nodup := by
  refine ⟨?_, by decide, by decide, by decide, by decide, by decide⟩
  intro n x h
  cases h

example : musicInit (sequence 0 [0, 3, 5] begun (head :: notes)) (some ()) = .ok [(0, [head]),
    (5, [(30, .note 64 90 false 12), (31, .rest 3)]), (3, [(20, .note 62 100 false 24), (21, .jump 20)])] := by decide +kernel

example : ∃ b ∈ begun, b.2.2 ∉ (sequence 0 [0, 3, 5] begun (head :: notes.take 3)).map Prod.fst := by decide

example : ∀ ns, head.2 ≠ .defineTracks ns := by
  intro ns h
  cases h

end Verif.Props.MusicInit
