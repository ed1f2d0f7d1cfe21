import Verif.Proofs.MusicTracks

/-! # Tracks of a sequence: velocities, initial values, track numbers, conversion (C71–C74) -/

namespace Verif.Props.MusicTracks

open Verif Verif.Model.SoundSequence Verif.Model.Music Verif.Spec.Music Verif.Proofs.MusicTracks

/-! ### C71 -/

/-- The events of a track without a final end of track. -/
def withoutEnd (events : List Obj) : List Obj :=
  if (events.getLast?.map (·.2)) = some .endTrack then events.dropLast else events

theorem trackInit_spec (events : List Obj) : trackInit events = withoutEnd events := by
  unfold trackInit withoutEnd
  cases events.getLast? with
  | none => rfl
  | some o =>
    obtain ⟨i, e⟩ := o
    cases e <;> simp

/-- **C71.** Saving a song and opening the sequence again gives the same tracks, in the order of their numbers (a final end
of track belongs to the saved form, not to the track), if there is a track, no track is empty, no event occurs twice and
the first event of the song is not itself one that defines or begins tracks.  Partial: songs without tracks or with an empty
track are missing, for which it is false, see `music_no_events` and `music_empty_track`. -/
theorem music_roundtrip_partial {σ : Type} {tracks : List (Nat × List Obj)} {f : Nat} (s : σ) (h0 : tracks ≠ [])
    (hkeys : (tracks.map (·.1)).Nodup) (hne : ∀ t ∈ tracks, t.2 ≠ [])
    (hids : (((sortBy (·.1) tracks).flatMap (·.2)).map (·.1)).Nodup) (hf : ∀ t ∈ tracks, ∀ o ∈ t.2, o.1 < f)
    (hb : ∀ c, (((sortBy (·.1) tracks).flatMap (·.2)).head?) = some c →
      (∀ n x, c.2 ≠ .beginTrack n x) ∧ ∀ ns, c.2 ≠ .defineTracks ns) :
    ∃ events, musicSave tracks f = .ok events ∧
      musicInit events (some s) = .ok ((sortBy (·.1) tracks).map fun t => (t.1, withoutEnd t.2)) := by
  have hmem : ∀ t, t ∈ sortBy (·.1) tracks ↔ t ∈ tracks := fun t => (sortBy_perm _ tracks).mem_iff
  have hsort : (sortBy (·.1) tracks).Pairwise fun a b : Nat × List Obj => a.1 < b.1 := by
    have h1 := sortBy_sorted (fun t : Nat × List Obj => t.1) tracks
    have h2 : ((sortBy (·.1) tracks).map (·.1)).Nodup := ((sortBy_perm _ tracks).map _).nodup_iff.2 hkeys
    rw [List.Nodup, List.pairwise_map] at h2
    exact (h1.and h2).imp (fun h => by omega)
  have gen : ∃ c cs, (sortBy (·.1) tracks).flatMap (·.2) = c :: cs := by
    cases h : (sortBy (·.1) tracks).flatMap (·.2) with
    | cons c cs => exact ⟨c, cs, rfl⟩
    | nil =>
      exfalso
      rw [List.flatMap_eq_nil_iff] at h
      cases tracks with
      | nil => exact h0 rfl
      | cons t ts => exact hne t (by simp) (h t ((hmem t).2 (by simp)))
  obtain ⟨c, cs, hc⟩ := gen
  have hbc := hb c (by rw [hc]; rfl)
  have hmap : (sortBy (·.1) tracks).map (fun t => (t.1, withoutEnd t.2)) =
      (sortBy (·.1) tracks).map fun t : Nat × List Obj => (t.1, trackInit t.2) :=
    List.map_congr_left fun t _ => by rw [trackInit_spec]
  rw [hmap]
  have hmain := music_roundtrip_sorted s hsort (fun t ht => hne t ((hmem t).1 ht)) hids
    (fun t ht => hf t ((hmem t).1 ht)) c cs hc hbc.1
  unfold musicSave
  split
  · rename_i events
    have hev : events ≠ [] := hne (0, events) (by simp)
    rw [if_neg hev]
    refine ⟨_, rfl, ?_⟩
    have hs : sortBy (fun t : Nat × List Obj => t.1) [(0, events)] = [(0, events)] := rfl
    rw [hs] at hc ⊢
    cases events with
    | nil => exact absurd rfl hev
    | cons o os =>
      have hco : o = c := by simpa using congrArg List.head? hc
      subst hco
      obtain ⟨i, e⟩ := o
      have he := trackInit_end ((i, e) :: os) f
      cases e with
      | defineTracks ns => exact absurd rfl (hbc.2 ns)
      | _ =>
        show Except.ok [(0, trackInit _)] = _
        rw [he]
        rfl
  · exact ⟨_, rfl, hmain⟩

/-- Two tracks, the second of which ends with a jump. -/
def song : List (Nat × List Obj) :=
  [(3, [(4, .rest 5), (5, .jump 4)]), (0, [(1, .tempo 120), (2, .note 60 100 false 4)])]

example : musicSave song 10 = .ok [(10, .defineTracks [0, 3]), (13, .beginTrack 3 4), (1, .tempo 120),
    (2, .note 60 100 false 4), (12, .endTrack), (4, .rest 5), (5, .jump 4)] := by decide +kernel
example : musicInit [(10, .defineTracks [0, 3]), (13, .beginTrack 3 4), (1, .tempo 120), (2, .note 60 100 false 4),
    (12, .endTrack), (4, .rest 5), (5, .jump 4)] (some ()) = .ok song.reverse := by decide +kernel
example : song ≠ [] ∧ (song.map (·.1)).Nodup ∧ (∀ t ∈ song, t.2 ≠ []) ∧
    (((sortBy (·.1) song).flatMap (·.2)).map (·.1)).Nodup ∧ ∀ t ∈ song, ∀ o ∈ t.2, o.1 < 10 := by decide +kernel

/-- **C71.** What comes back of any song with an event: all tracks that are not empty; and if there is an empty track 0, it
has the events of the first of the others. -/
theorem music_open {σ : Type} {tracks : List (Nat × List Obj)} {f : Nat} (s : σ)
    (hkeys : (tracks.map (·.1)).Nodup) (hev : ∃ t ∈ tracks, t.2 ≠ [])
    (hids : (((sortBy (·.1) tracks).flatMap (·.2)).map (·.1)).Nodup) (hf : ∀ t ∈ tracks, ∀ o ∈ t.2, o.1 < f)
    (hb : ∀ c, (((sortBy (·.1) tracks).flatMap (·.2)).head?) = some c →
      (∀ n x, c.2 ≠ .beginTrack n x) ∧ ∀ ns, c.2 ≠ .defineTracks ns) :
    ∃ events kept, kept = (sortBy (·.1) tracks).filter (fun t => t.2 ≠ []) ∧ musicSave tracks f = .ok events ∧
      musicInit events (some s) =
        .ok ((if (0, []) ∈ tracks then kept.head?.toList.map fun t => (0, withoutEnd t.2) else []) ++
          kept.map fun t => (t.1, withoutEnd t.2)) := by
  by_cases hone : ∃ ev, tracks = [(0, ev)]
  · obtain ⟨ev, rfl⟩ := hone
    have hne : ev ≠ [] := by
      obtain ⟨t, ht, h⟩ := hev
      rw [List.mem_singleton.1 ht] at h
      exact h
    obtain ⟨events, h1, h2⟩ := music_roundtrip_partial s (by simp) hkeys
      (fun t ht => by rw [List.mem_singleton.1 ht]; exact hne) hids hf hb
    refine ⟨events, _, rfl, h1, ?_⟩
    have hs : sortBy (fun t : Nat × List Obj => t.1) [(0, ev)] = [(0, ev)] := rfl
    rw [h2, hs, List.filter_cons_of_pos (by simpa using hne), List.filter_nil, if_neg, List.nil_append]
    intro h
    rw [List.mem_singleton, Prod.mk.injEq] at h
    exact hne h.2.symm
  · have hmem : ∀ t, t ∈ sortBy (·.1) tracks ↔ t ∈ tracks := fun t => (sortBy_perm _ tracks).mem_iff
    have hsort : (sortBy (·.1) tracks).Pairwise fun a b : Nat × List Obj => a.1 < b.1 := by
      have h1 := sortBy_sorted (fun t : Nat × List Obj => t.1) tracks
      have h2 : ((sortBy (·.1) tracks).map (·.1)).Nodup := ((sortBy_perm _ tracks).map _).nodup_iff.2 hkeys
      rw [List.Nodup, List.pairwise_map] at h2
      exact (h1.and h2).imp (fun h => by omega)
    have hflat : ∀ l : List (Nat × List Obj), (l.filter fun t => t.2 ≠ []).flatMap (·.2) = l.flatMap (·.2) := by
      intro l
      induction l with
      | nil => rfl
      | cons t l ih =>
        obtain ⟨n, ev⟩ := t
        cases ev with
        | nil => rw [List.filter_cons_of_neg (by simp), ih]; rfl
        | cons o os => rw [List.filter_cons_of_pos (by simp), List.flatMap_cons, ih]; rfl
    have gen : ∃ c cs, (sortBy (·.1) tracks).flatMap (·.2) = c :: cs := by
      cases h : (sortBy (·.1) tracks).flatMap (·.2) with
      | cons c cs => exact ⟨c, cs, rfl⟩
      | nil =>
        exfalso
        rw [List.flatMap_eq_nil_iff] at h
        obtain ⟨t, ht, hn⟩ := hev
        exact hn (h t ((hmem t).2 ht))
    obtain ⟨c, cs, hc⟩ := gen
    have hbc := hb c (by rw [hc]; rfl)
    have hfm : ∀ t, t ∈ (sortBy (·.1) tracks).filter (fun t => t.2 ≠ []) ↔ t ∈ tracks ∧ t.2 ≠ [] := by
      intro t
      rw [List.mem_filter, hmem]
      simp
    have hsave : musicSave tracks f = .ok ((f, .defineTracks ((sortBy (·.1) tracks).map (·.1))) ::
        (saveTracks ((sortBy (·.1) tracks).filter fun t => t.2 ≠ []) (f + 1)).1 ++
        (saveTracks ((sortBy (·.1) tracks).filter fun t => t.2 ≠ []) (f + 1)).2) := by
      rw [← saveTracks_filter]
      unfold musicSave
      split
      · rename_i events
        exact absurd ⟨events, rfl⟩ hone
      · rfl
    refine ⟨_, _, rfl, hsave, ?_⟩
    rw [music_open_sorted s ((sortBy (·.1) tracks).map (·.1))
      (fun t ht h => List.mem_map.2 ⟨t, (List.mem_filter.1 ht).1, h⟩) (hsort.sublist List.filter_sublist)
      (fun t ht => ((hfm t).1 ht).2) (by rw [hflat]; exact hids) (fun t ht => hf t ((hfm t).1 ht).1) c cs
      (by rw [hflat]; exact hc) hbc.1]
    have hiff : (0 ∈ (sortBy (·.1) tracks).map (·.1) ∧
        ∀ t ∈ (sortBy (·.1) tracks).filter (fun t => t.2 ≠ []), t.1 ≠ 0) ↔ (0, []) ∈ tracks := by
      constructor
      · rintro ⟨h1, h2⟩
        obtain ⟨⟨n, ev⟩, ht, h⟩ := List.mem_map.1 h1
        dsimp only at h
        subst h
        rw [hmem] at ht
        by_cases he : ev = []
        · rw [he] at ht; exact ht
        · exact absurd rfl (h2 (0, ev) ((hfm _).2 ⟨ht, he⟩))
      · intro h
        refine ⟨List.mem_map.2 ⟨(0, []), (hmem _).2 h, rfl⟩, fun t ht h0 => ?_⟩
        obtain ⟨ht1, ht2⟩ := (hfm t).1 ht
        obtain ⟨A, B, hAB⟩ := List.append_of_mem h
        rw [hAB] at ht1 hkeys
        rw [List.map_append, List.map_cons, List.nodup_append, List.nodup_cons] at hkeys
        rcases List.mem_append.1 ht1 with hA | hB
        · exact hkeys.2.2 t.1 (List.mem_map.2 ⟨t, hA, rfl⟩) 0 (by simp) h0
        · rcases List.mem_cons.1 hB with rfl | hB
          · exact ht2 rfl
          · exact hkeys.2.1.1 (List.mem_map.2 ⟨t, hB, h0⟩)
    simp only [trackInit_spec, hiff]

/-- **C71.** A song without any event does not come back. -/
theorem music_no_events {σ : Type} {tracks : List (Nat × List Obj)} {f : Nat} (s : σ) (h : ∀ t ∈ tracks, t.2 = []) :
    musicSave tracks f = .error .indexError ∨
      ∃ events, musicSave tracks f = .ok events ∧ musicInit events (some s) = .error .indexError := by
  unfold musicSave
  split
  · rename_i events
    rw [if_pos (h (0, events) (by simp))]
    exact .inl rfl
  · refine .inr ⟨_, rfl, ?_⟩
    have hfil : (sortBy (·.1) tracks).filter (fun t => t.2 ≠ []) = [] := by
      rw [List.filter_eq_nil_iff]
      intro t ht
      simp [h t ((sortBy_perm _ tracks).mem_iff.1 ht)]
    rw [saveTracks_filter, hfil]
    rfl

example : musicSave [(0, []), (2, []), (3, [(1, .rest 5), (2, .endTrack)])] 10 =
    .ok [(10, .defineTracks [0, 2, 3]), (11, .beginTrack 3 1), (1, .rest 5), (2, .endTrack)] := by decide +kernel
example : musicInit [(10, .defineTracks [0, 2, 3]), (11, .beginTrack 3 1), (1, .rest 5), (2, .endTrack)] (some ()) =
    .ok [(0, [(1, .rest 5)]), (3, [(1, .rest 5)])] := by decide +kernel

/-- **C71.** An empty track 0 comes back with the events of another track. -/
theorem music_empty_track : ∃ events, musicSave [(0, []), (1, [(1, .rest 5)])] 10 = .ok events ∧
    musicInit events (some ()) = .ok [(0, [(1, .rest 5)]), (1, [(1, .rest 5)])] :=
  ⟨_, by rfl, by decide +kernel⟩

/-- **C71.** A song can never be made without a list of wave archives, although the documentation allows `None`. -/
theorem music_needs_archives (σ : Type) (events : List Obj) : musicInit events (none : Option σ) = .error .typeError := rfl

/-! ### C137 -/

/-- The list ends with an event after which nothing is played: the end of the track or a jump. -/
def Ends (events : List Obj) : Prop := ∃ o, events.getLast? = some o ∧ (o.2 = .endTrack ∨ ∃ d, o.2 = .jump d)

/-- What is written of a track: its events, and a new end of track if they do not end by themselves. -/
def Written (new : Nat → Prop) (events part : List Obj) : Prop :=
  (Ends events ∧ part = events) ∨ (¬ Ends events ∧ ∃ i, new i ∧ part = events ++ [(i, .endTrack)])

/-- A new event for every track but track 0, that begins it with its first event. -/
inductive Begun (new : Nat → Prop) : List (Nat × List Obj) → List Obj → Prop
  | nil : Begun new [] []
  | zero {ev ts bs} : Begun new ts bs → Begun new ((0, ev) :: ts) bs
  | cons {n i ev ts bs} {o : Obj} : n ≠ 0 → new i → Begun new ts bs →
      Begun new ((n, o :: ev) :: ts) ((i, .beginTrack (n : Int) o.1) :: bs)

/-- The tracks one after another. -/
inductive Contents (new : Nat → Prop) : List (Nat × List Obj) → List Obj → Prop
  | nil : Contents new [] []
  | cons {n ev part ts c} : Written new ev part → Contents new ts c → Contents new ((n, ev) :: ts) (part ++ c)

theorem ended_iff (events : List Obj) : ended events = true ↔ Ends events := by
  unfold ended Ends
  cases events.getLast? with
  | none => simp
  | some o =>
    obtain ⟨i, e⟩ := o
    cases e <;> simp

theorem written_of (events : List Obj) {f k : Nat} (h : f ≤ k) :
    Written (f ≤ ·) events (events ++ if ended events = true then [] else [(k, .endTrack)]) := by
  unfold Written
  by_cases he : ended events = true
  · rw [if_pos he, List.append_nil]
    exact .inl ⟨(ended_iff _).1 he, rfl⟩
  · rw [if_neg he]
    exact .inr ⟨fun h => he ((ended_iff _).2 h), k, h, rfl⟩

theorem saveTracks_spec : ∀ (ts : List (Nat × List Obj)) (f k : Nat), f ≤ k → (∀ t ∈ ts, t.2 ≠ []) →
    Begun (f ≤ ·) ts (saveTracks ts k).1 ∧ Contents (f ≤ ·) ts (saveTracks ts k).2
  | [], _, _, _, _ => ⟨.nil, .nil⟩
  | (n, []) :: ts, _, _, _, hne => absurd rfl (hne (n, []) (by simp))
  | (n, o :: ev) :: ts, f, k, hk, hne => by
    have ih := saveTracks_spec ts f (k + 2) (by omega) (fun t ht => hne t (by simp [ht]))
    unfold saveTracks
    rw [if_neg (by simp)]
    dsimp only
    constructor
    · by_cases hn : n = 0
      · subst hn
        exact .zero ih.1
      · rw [if_pos hn]
        exact .cons hn hk ih.1
    · exact .cons (written_of _ (by omega)) ih.2

theorem parts_perm (B R1 O E R2 : List Nat) : (B ++ R1 ++ (O ++ E ++ R2)).Perm (B ++ (E ++ (O ++ (R1 ++ R2)))) := by
  rw [List.perm_iff_count]
  intro a
  simp only [List.count_append]
  omega

/-- Every event written is one of the song or a new one, and none is written twice. -/
theorem saveTracks_ids : ∀ (ts : List (Nat × List Obj)) (f k : Nat), f ≤ k → (∀ t ∈ ts, ∀ o ∈ t.2, o.1 < f) →
    ((ts.flatMap (·.2)).map (·.1)).Nodup →
    (∀ i ∈ ((saveTracks ts k).1 ++ (saveTracks ts k).2).map (·.1), i ∈ (ts.flatMap (·.2)).map (·.1) ∨ k ≤ i) ∧
    (((saveTracks ts k).1 ++ (saveTracks ts k).2).map (·.1)).Nodup
  | [], _, _, _, _, _ => by simp [saveTracks]
  | (n, []) :: ts, f, k, hk, hf, hn => by
    unfold saveTracks
    rw [if_pos rfl]
    exact saveTracks_ids ts f k hk (fun t ht => hf t (by simp [ht])) hn
  | (n, o :: ev) :: ts, f, k, hk, hf, hn => by
    rw [List.flatMap_cons, List.map_append, List.nodup_append] at hn
    obtain ⟨hn1, hn2, hn3⟩ := hn
    obtain ⟨ih1, ih2⟩ := saveTracks_ids ts f (k + 2) (by omega) (fun t ht => hf t (by simp [ht])) hn2
    have hlo : ∀ i ∈ (o :: ev).map (·.1), i < f := by
      intro i hi
      obtain ⟨p, hp, rfl⟩ := List.mem_map.1 hi
      exact hf (n, o :: ev) (by simp) p hp
    have hlt : ∀ i ∈ (ts.flatMap (·.2)).map (·.1), i < f := by
      intro i hi
      obtain ⟨p, hp, rfl⟩ := List.mem_map.1 hi
      obtain ⟨t, ht, hp⟩ := List.mem_flatMap.1 hp
      exact hf t (by simp [ht]) p hp
    unfold saveTracks
    rw [if_neg (by simp)]
    dsimp only
    generalize hb : (if n ≠ 0 then _ else [] : List Obj) = b
    generalize he : (if ended (o :: ev) = true then [] else [(k + 1, Ev.endTrack)] : List Obj) = e
    have hb1 : b.map (·.1) = [] ∨ b.map (·.1) = [k] := by
      subst hb
      by_cases h : n = 0 <;> simp [h]
    have he1 : e.map (·.1) = [] ∨ e.map (·.1) = [k + 1] := by
      subst he
      by_cases h : ended (o :: ev) = true <;> simp [h]
    generalize saveTracks ts (k + 2) = r at ih1 ih2
    simp only [List.map_append] at ih1 ih2 ⊢
    generalize b.map (·.1) = B at hb1
    generalize e.map (·.1) = E at he1
    generalize r.1.map (·.1) = R1 at ih1 ih2
    generalize r.2.map (·.1) = R2 at ih1 ih2
    rw [List.flatMap_cons, List.map_append]
    generalize List.map (·.1) (o :: ev) = O at hn1 hn3 hlo ⊢
    generalize List.map (·.1) (ts.flatMap (·.2)) = T at hn2 hn3 hlt ih1 ⊢
    have hp := parts_perm B R1 O E R2
    constructor
    · intro i hi
      rw [hp.mem_iff] at hi
      simp only [List.mem_append] at hi ih1 ⊢
      rcases hi with hi | hi | hi | hi
      · rcases hb1 with rfl | rfl
        · cases hi
        · have := List.mem_singleton.1 hi
          omega
      · rcases he1 with rfl | rfl
        · cases hi
        · have := List.mem_singleton.1 hi
          omega
      · exact .inl (.inl hi)
      · rcases ih1 i hi with h | h
        · exact .inl (.inr h)
        · exact .inr (by omega)
    · rw [hp.nodup_iff]
      simp only [List.mem_append] at ih1
      have h1 : ∀ i ∈ O ++ (R1 ++ R2), i < f ∨ k + 2 ≤ i := by
        intro i hi
        simp only [List.mem_append] at hi
        rcases hi with hi | hi
        · exact .inl (hlo i hi)
        · rcases ih1 i hi with h | h
          · exact .inl (hlt i h)
          · exact .inr h
      have h2 : (O ++ (R1 ++ R2)).Nodup := by
        rw [List.nodup_append]
        refine ⟨hn1, ih2, fun a ha b hb hab => ?_⟩
        subst hab
        rcases ih1 a (List.mem_append.1 hb) with h | h
        · exact hn3 a ha a h rfl
        · have := hlo a ha
          omega
      rcases hb1 with rfl | rfl <;> rcases he1 with rfl | rfl
      · exact h2
      · refine List.nodup_cons.2 ⟨fun h => ?_, h2⟩
        have := h1 _ h
        omega
      · refine List.nodup_cons.2 ⟨fun h => ?_, h2⟩
        have := h1 _ h
        omega
      · refine List.nodup_cons.2 ⟨fun h => ?_, List.nodup_cons.2 ⟨fun h => ?_, h2⟩⟩
        · rcases List.mem_cons.1 h with h | h
          · omega
          · have := h1 _ h
            omega
        · have := h1 _ h
          omega

/-- **C137.** Saving a song raises just if its only track is track 0 and is empty. -/
theorem song_saves (tracks : List (Nat × List Obj)) (f : Nat) :
    musicSave tracks f = .error .indexError ∧ tracks = [(0, [])] ∨ tracks ≠ [(0, [])] ∧ ∃ events, musicSave tracks f = .ok events := by
  unfold musicSave
  split
  · rename_i events
    by_cases h : events = []
    · rw [if_pos h, h]
      exact .inl ⟨rfl, rfl⟩
    · rw [if_neg h]
      exact .inr ⟨by simpa using h, _, rfl⟩
  · rename_i h
    exact .inr ⟨fun e => h [] e, _, rfl⟩

/-- **C137.** What is written of a song whose only track is track 0: the track. -/
theorem song_single (ev events : List Obj) (f : Nat) (h : musicSave [(0, ev)] f = .ok events) :
    Written (f ≤ ·) ev events := by
  rw [show musicSave [(0, ev)] f = if ev = [] then .error .indexError
    else .ok (ev ++ if ended ev = true then [] else [(f, .endTrack)]) from rfl] at h
  split at h
  · cases h
  · cases h
    exact written_of _ (Nat.le_refl _)

/-- **C137.** What is written of any other song: an event with the numbers of all tracks, the beginnings of the tracks that
have events, and these tracks in the order of their numbers. -/
theorem song_several (tracks : List (Nat × List Obj)) (events : List Obj) (f : Nat) (hkeys : (tracks.map (·.1)).Nodup)
    (h1 : ∀ ev, tracks ≠ [(0, ev)]) (h : musicSave tracks f = .ok events) :
    ∃ i numbers kept begins contents, f ≤ i ∧ events = (i, .defineTracks numbers) :: begins ++ contents ∧
      numbers.Pairwise (· < ·) ∧ (∀ n, n ∈ numbers ↔ n ∈ tracks.map (·.1)) ∧
      (kept.map (·.1)).Pairwise (· < ·) ∧ (∀ t, t ∈ kept ↔ t ∈ tracks ∧ t.2 ≠ []) ∧
      Begun (f ≤ ·) kept begins ∧ Contents (f ≤ ·) kept contents := by
  have hp := sortBy_perm (fun t : Nat × List Obj => t.1) tracks
  have hsort : ((sortBy (·.1) tracks).map (·.1)).Pairwise (· < ·) := by
    have h1 := sortBy_sorted (fun t : Nat × List Obj => t.1) tracks
    have h2 : ((sortBy (·.1) tracks).map (·.1)).Nodup := (hp.map _).nodup_iff.2 hkeys
    rw [List.Nodup, List.pairwise_map] at h2
    rw [List.pairwise_map]
    exact (h1.and h2).imp (fun h => by omega)
  unfold musicSave at h
  split at h
  · exact absurd rfl (h1 _)
  · cases h
    have hk := saveTracks_spec ((sortBy (·.1) tracks).filter fun t => t.2 ≠ []) f (f + 1) (by omega) (by
      intro t ht
      simpa using (List.mem_filter.1 ht).2)
    rw [← saveTracks_filter] at hk
    refine ⟨f, _, (sortBy (·.1) tracks).filter (fun t => t.2 ≠ []), _, _, Nat.le_refl _, rfl, hsort, ?_, ?_, ?_, hk.1, hk.2⟩
    · intro n
      exact (hp.map _).mem_iff
    · exact hsort.sublist (List.filter_sublist.map _)
    · intro t
      rw [List.mem_filter, hp.mem_iff]
      simp

/-- **C137.** No event is written twice. -/
theorem song_ids (tracks : List (Nat × List Obj)) (events : List Obj) (f : Nat)
    (hids : ((tracks.flatMap (·.2)).map (·.1)).Nodup) (hf : ∀ t ∈ tracks, ∀ o ∈ t.2, o.1 < f)
    (h : musicSave tracks f = .ok events) : (events.map (·.1)).Nodup := by
  have hp := sortBy_perm (fun t : Nat × List Obj => t.1) tracks
  unfold musicSave at h
  split at h
  · rename_i ev
    split at h
    · cases h
    · cases h
      rw [List.map_append, List.nodup_append]
      refine ⟨by simpa using hids, by split <;> simp, ?_⟩
      intro a ha b hb hab
      obtain ⟨p, hp, rfl⟩ := List.mem_map.1 ha
      have := hf (0, ev) (by simp) p hp
      split at hb
      · cases hb
      · have := List.mem_singleton.1 hb
        dsimp only at this
        omega
  · cases h
    have hlt : ∀ t ∈ sortBy (·.1) tracks, ∀ o ∈ t.2, o.1 < f := fun t ht => hf t (hp.mem_iff.1 ht)
    obtain ⟨k1, k2⟩ := saveTracks_ids (sortBy (·.1) tracks) f (f + 1) (by omega) hlt
      (((hp.flatMap_right _).map _).nodup_iff.2 hids)
    rw [List.cons_append, List.map_cons, List.nodup_cons]
    refine ⟨fun h => ?_, k2⟩
    rcases k1 _ h with h | h
    · obtain ⟨p, hp, h⟩ := List.mem_map.1 h
      obtain ⟨t, ht, hp⟩ := List.mem_flatMap.1 hp
      have := hlt t ht p hp
      dsimp only at h
      omega
    · dsimp only at h
      omega

-- a track that ends by itself, one that does not, and an empty one
example : musicSave [(3, [(4, .rest 5), (5, .jump 4)]), (2, []), (0, [(1, .tempo 120)])] 10 =
    .ok [(10, .defineTracks [0, 2, 3]), (13, .beginTrack 3 4), (1, .tempo 120), (12, .endTrack), (4, .rest 5), (5, .jump 4)] := by
  decide +kernel
example : Ends [(4, .rest 5), (5, .jump 4)] ∧ ¬ Ends [(1, .tempo 120)] := by simp [Ends]

/-! ### C72 -/

/-- A velocity brought into the range from 0 to 127. -/
def clampVelocity (v : Int) : Int := if v < 0 then 0 else if v > 127 then 127 else v

/-- The event with the velocity changed if it is a note. -/
def withVelocity (f : Int → Int) : Ev → Ev
  | .note p v fl d => .note p (f v) fl d
  | e => e

theorem modifyVelocities_clamp (events : List Obj) (f : Int → Int) :
    modifyVelocities events f true = .ok (events.map fun o => (o.1, withVelocity (fun v => clampVelocity (f v)) o.2)) := by
  unfold modifyVelocities
  refine mapE_ok_of_forall fun o _ => ?_
  obtain ⟨i, e⟩ := o
  cases e with
  | note p v fl d =>
    dsimp only
    have : newVelocity (f v) true = .ok (clampVelocity (f v)) := by
      unfold newVelocity clampVelocity
      split
      · rw [if_neg (by omega), if_neg (by omega)]
      · rw [if_pos rfl]
        congr 1
        split
        · omega
        · omega
    rw [this]
    rfl
  | _ => rfl

/-- Does every note have a velocity that the function keeps in range? -/
def InRange (events : List Obj) (f : Int → Int) : Prop :=
  ∀ o ∈ events, ∀ p v fl d, o.2 = .note p v fl d → 0 ≤ f v ∧ f v ≤ 127

theorem modifyVelocities_noclamp (f : Int → Int) : ∀ (events : List Obj),
    (InRange events f → modifyVelocities events f false = .ok (events.map fun o => (o.1, withVelocity f o.2))) ∧
    (¬ InRange events f → modifyVelocities events f false = .error .valueError) := by
  intro events
  induction events with
  | nil => exact ⟨fun _ => rfl, fun h => absurd (fun o ho => nomatch ho) h⟩
  | cons o os ih =>
    obtain ⟨i, e⟩ := o
    have hother : (∀ p v fl d, e ≠ .note p v fl d) →
        (InRange ((i, e) :: os) f ↔ InRange os f) ∧ modifyVelocities ((i, e) :: os) f false =
          (modifyVelocities os f false >>= fun r => .ok ((i, e) :: r)) ∧ withVelocity f e = e := by
      intro h
      refine ⟨⟨fun hr o ho => hr o (by simp [ho]), fun hr o ho => ?_⟩, ?_, ?_⟩
      · rcases List.mem_cons.1 ho with rfl | ho
        · intro p v fl d he; exact absurd he (h p v fl d)
        · exact hr o ho
      · unfold modifyVelocities
        rw [mapE_cons]
        cases e <;> first | rfl | exact absurd rfl (h _ _ _ _)
      · cases e <;> first | rfl | exact absurd rfl (h _ _ _ _)
    by_cases hn : ∃ p v fl d, e = .note p v fl d
    · obtain ⟨p, v, fl, d, rfl⟩ := hn
      have hstep : modifyVelocities ((i, .note p v fl d) :: os) f false =
          (newVelocity (f v) false >>= fun w => modifyVelocities os f false >>= fun r =>
            .ok ((i, .note p w fl d) :: r)) := by
        unfold modifyVelocities
        rw [mapE_cons]
        dsimp only
        cases newVelocity (f v) false <;> rfl
      by_cases hv : 0 ≤ f v ∧ f v ≤ 127
      · have hiff : InRange ((i, .note p v fl d) :: os) f ↔ InRange os f := by
          refine ⟨fun hr o ho => hr o (by simp [ho]), fun hr o ho => ?_⟩
          rcases List.mem_cons.1 ho with rfl | ho
          · intro p' v' fl' d' he
            cases he
            exact hv
          · exact hr o ho
        rw [hiff, hstep]
        unfold newVelocity
        rw [if_pos hv, bind_ok]
        refine ⟨fun h => by rw [ih.1 h]; rfl, fun h => by rw [ih.2 h]; rfl⟩
      · rw [hstep]
        unfold newVelocity
        rw [if_neg hv, if_neg (by decide)]
        exact ⟨fun h => absurd (h (i, .note p v fl d) (by simp) p v fl d rfl) hv, fun _ => rfl⟩
    · obtain ⟨h1, h2, h3⟩ := hother (fun p v fl d h => hn ⟨p, v, fl, d, h⟩)
      rw [h1, h2]
      refine ⟨fun h => by rw [ih.1 h, bind_ok, List.map_cons, h3], fun h => by rw [ih.2 h]; rfl⟩

/-- **C72.** With clamping, adding to (or multiplying) the velocities gives every note the new velocity brought into the range
from 0 to 127 and changes nothing else. -/
theorem velocities_clamped (events : List Obj) (x : Int) :
    addToNoteVelocities events x true =
      .ok (events.map fun o => (o.1, withVelocity (fun v => clampVelocity (v + x)) o.2)) ∧
    multiplyNoteVelocitiesBy events x true =
      .ok (events.map fun o => (o.1, withVelocity (fun v => clampVelocity (v * x)) o.2)) :=
  ⟨modifyVelocities_clamp events _, modifyVelocities_clamp events _⟩

/-- **C72.** Without clamping, the same holds with the exact new velocities if all are in range, and `ValueError` is raised
otherwise. -/
theorem velocities_exact (events : List Obj) (x : Int) :
    (InRange events (fun v => v + x) → addToNoteVelocities events x false =
      .ok (events.map fun o => (o.1, withVelocity (fun v => v + x) o.2))) ∧
    (¬ InRange events (fun v => v + x) → addToNoteVelocities events x false = .error .valueError) ∧
    (InRange events (fun v => v * x) → multiplyNoteVelocitiesBy events x false =
      .ok (events.map fun o => (o.1, withVelocity (fun v => v * x) o.2))) ∧
    (¬ InRange events (fun v => v * x) → multiplyNoteVelocitiesBy events x false = .error .valueError) :=
  ⟨(modifyVelocities_noclamp _ events).1, (modifyVelocities_noclamp _ events).2, (modifyVelocities_noclamp _ events).1,
    (modifyVelocities_noclamp _ events).2⟩

example : addToNoteVelocities [(0, .note 60 100 false 4), (1, .tempo 100), (2, .note 60 20 true 4)] 40 true =
    .ok [(0, .note 60 127 false 4), (1, .tempo 100), (2, .note 60 60 true 4)] := by decide +kernel
example : multiplyNoteVelocitiesBy [(0, .note 60 100 false 4)] (-1) false = .error .valueError := by decide +kernel

/-! ### C73 -/

/-- The event sets the control to the value. -/
inductive Sets : Ev → Control → Value → Prop where
  | instrument (b i : Nat) : Sets (.instrumentSwitch b i) .instrument (.inst b i)
  | simple (k : Simple) (v : Int) : Sets (.simple k v) (.simple k) (.num v)
  | monoPoly (v : Int) : Sets (.monoPoly v) .monoPoly (.num v)
  | tempo (v : Int) : Sets (.tempo v) .tempo (.num v)

theorem valueOf_iff (c : Control) (e : Ev) (v : Value) : valueOf c e = some v ↔ Sets e c v := by
  constructor
  · intro h
    cases c <;> cases e <;> simp only [valueOf, reduceCtorEq] at h
    · cases h; exact .instrument _ _
    · split at h
      · rename_i hk
        cases h
        subst hk
        exact .simple _ _
      · exact nomatch h
    · cases h; exact .monoPoly _
    · cases h; exact .tempo _
  · intro h
    cases h <;> simp [valueOf]

/-- The event is neither a note nor a rest. -/
def Untimed (e : Ev) : Prop := (∀ d, e ≠ .rest d) ∧ ∀ p v f d, e ≠ .note p v f d

theorem isTimed_iff (e : Ev) : isTimed e = false ↔ Untimed e := by
  unfold Untimed
  constructor
  · intro h
    constructor
    · rintro d rfl; exact nomatch h
    · rintro p v f d rfl; exact nomatch h
  · rintro ⟨h1, h2⟩
    cases e with
    | rest d => exact absurd rfl (h1 d)
    | note p v f d => exact absurd rfl (h2 p v f d)
    | _ => rfl

theorem clear_iff (c : Control) (e : Ev) : (valueOf c e = none ∧ isTimed e = false) ↔ (∀ w, ¬ Sets e c w) ∧ Untimed e := by
  rw [isTimed_iff]
  refine and_congr_left fun _ => ⟨fun h w hw => ?_, fun h => ?_⟩
  · rw [(valueOf_iff _ _ _).2 hw] at h
    exact nomatch h
  · cases hw : valueOf c e with
    | none => rfl
    | some w => exact absurd ((valueOf_iff _ _ _).1 hw) (h w)

/-- The value a track starts with: that of the first event of the class, if no note or rest comes before it. -/
def StartsWith (c : Control) (events : List Obj) (v : Value) : Prop :=
  ∃ p o q, events = p ++ o :: q ∧ (∀ x ∈ p, (∀ w, ¬ Sets x.2 c w) ∧ Untimed x.2) ∧ Sets o.2 c v

/-- **C73.** The initial value of a track is that of the first event of its class, provided that no note or rest comes
earlier. -/
theorem initial_get (c : Control) (events : List Obj) (v : Value) :
    initialGet c events = some v ↔ StartsWith c events v := by
  unfold initialGet
  constructor
  · intro h
    cases hf : findControl c events with
    | none => rw [hf] at h; cases h
    | some o =>
      rw [hf] at h
      obtain ⟨p, q, he, hp, _⟩ := findControl_some hf
      refine ⟨p, o, q, he, fun x hx => ⟨fun w hw => ?_, (isTimed_iff _).1 (hp x hx).2⟩, (valueOf_iff _ _ _).1 h⟩
      have := (hp x hx).1
      rw [(valueOf_iff _ _ _).2 hw] at this
      exact nomatch this
  · rintro ⟨p, o, q, rfl, hp, hv⟩
    have hv := (valueOf_iff _ _ _).2 hv
    rw [findControl_skip (fun x hx => ⟨?_, (isTimed_iff _).2 (hp x hx).2⟩), findControl, if_pos (by rw [hv]; rfl)]
    · exact hv
    · cases hw : valueOf c x.2 with
      | none => rfl
      | some w => exact absurd ((valueOf_iff _ _ _).1 hw) ((hp x hx).1 w)

/-- **C73.** After setting an initial value it reads as set, and the other initial values and everything else are unchanged:
one event of the class was added at the front, or changed in place. -/
theorem initial_set {c : Control} {events events' : List Obj} {v : Value} {fresh : Nat}
    (hids : (events.map (·.1)).Nodup) (h : initialSet c events (some v) fresh = .ok events') :
    initialGet c events' = some v ∧ (∀ c', c' ≠ c → initialGet c' events' = initialGet c' events) ∧
    (∃ e, Sets e c v ∧ (events' = (fresh, e) :: events ∨
      ∃ p i e' q w, events = p ++ (i, e') :: q ∧ events' = p ++ (i, e) :: q ∧ Sets e' c w)) := by
  unfold initialSet at h
  cases hf : findControl c events with
  | none =>
    rw [hf] at h
    dsimp only at h
    cases he : eventOf c v with
    | none => rw [he] at h; cases h
    | some e =>
      rw [he] at h
      dsimp only at h
      split at h
      · cases h
      · cases h
        have hv := eventOf_value he
        have ht := eventOf_untimed he
        refine ⟨(initial_get c _ v).2 ⟨[], (fresh, e), events, rfl, (fun x hx => nomatch hx), (valueOf_iff _ _ _).1 hv⟩,
          fun c' hc' => ?_, e, (valueOf_iff _ _ _).1 hv, .inl rfl⟩
        unfold initialGet
        have hv' : valueOf c' e = none := by
          cases hx : valueOf c' e with
          | none => rfl
          | some w => exact absurd (valueOf_inj hx hv) hc'
        have := findControl_drop (c := c') (o := (fresh, e)) hv' ht (q := events) []
        rw [List.nil_append, List.nil_append] at this
        rw [this]
  | some o =>
    rw [hf] at h
    dsimp only at h
    cases he : eventOf c v with
    | none => rw [he] at h; cases h
    | some e =>
      rw [he] at h
      cases h
      obtain ⟨p, q, rfl, hp, ho⟩ := findControl_some hf
      obtain ⟨i, e'⟩ := o
      have hv := eventOf_value he
      have ht := eventOf_untimed he
      rw [assign_mid hids]
      obtain ⟨w, hw⟩ := Option.isSome_iff_exists.1 ho
      refine ⟨(initial_get c _ v).2 ⟨p, (i, e), q, rfl, fun x hx => (clear_iff _ _).1 (hp x hx), (valueOf_iff _ _ _).1 hv⟩,
        fun c' hc' => ?_, e, (valueOf_iff _ _ _).1 hv, .inr ⟨p, i, e', q, w, rfl, rfl, (valueOf_iff _ _ _).1 hw⟩⟩
      unfold initialGet
      have hnone : ∀ x w, valueOf c x = some w → valueOf c' x = none := by
        intro x w hw
        cases hx : valueOf c' x with
        | none => rfl
        | some w' => exact absurd (valueOf_inj hx hw) hc'
      rw [findControl_congr (c := c') (o := (i, e)) (o' := (i, e')) (hnone e v hv) (hnone e' w hw) ht
        (valueOf_untimed ho)]

/-- **C73.** Setting a value of the right kind succeeds, except that a new mono/poly event needs 0 or 1. -/
theorem initial_set_ok (c : Control) (events : List Obj) (v : Value) (fresh : Nat)
    (hk : (∃ b i, v = .inst b i) ↔ c = .instrument) (hm : c = .monoPoly → v = .num 0 ∨ v = .num 1) :
    ∃ events', initialSet c events (some v) fresh = .ok events' := by
  have he : ∃ e, eventOf c v = some e := by
    cases c <;> cases v <;> simp [eventOf] at hk ⊢
  obtain ⟨e, he⟩ := he
  unfold initialSet
  cases findControl c events with
  | none =>
    dsimp only
    rw [he]
    dsimp only
    rw [if_neg (by rintro ⟨h1, h2, h3⟩; rcases hm h1 with h | h <;> contradiction)]
    exact ⟨_, rfl⟩
  | some o =>
    dsimp only
    rw [he]
    exact ⟨_, rfl⟩

/-- **C73.** Setting an initial value to `None` removes the event that holds it, and nothing else; the other initial values
are unchanged. -/
theorem initial_delete {c : Control} {events : List Obj} (fresh : Nat) (hids : (events.map (·.1)).Nodup) :
    ∃ events', initialSet c events none fresh = .ok events' ∧
      (∀ c', c' ≠ c → initialGet c' events' = initialGet c' events) ∧
      ((initialGet c events = none ∧ events' = events) ∨
        ∃ p o q v, events = p ++ o :: q ∧ events' = p ++ q ∧ Sets o.2 c v ∧ initialGet c events = some v) := by
  unfold initialSet
  cases hf : findControl c events with
  | none =>
    refine ⟨events, rfl, fun _ _ => rfl, .inl ⟨?_, rfl⟩⟩
    unfold initialGet
    rw [hf]
  | some o =>
    obtain ⟨p, q, rfl, hp, ho⟩ := findControl_some hf
    have hnp : o.1 ∉ p.map (·.1) := by
      rw [List.map_append, List.map_cons, List.nodup_append] at hids
      exact fun h => hids.2.2 o.1 h o.1 (by simp) rfl
    obtain ⟨w, hw⟩ := Option.isSome_iff_exists.1 ho
    refine ⟨p ++ q, by dsimp only; rw [removeObj_mid hnp], fun c' hc' => ?_, .inr ⟨p, o, q, w, rfl, rfl, (valueOf_iff _ _ _).1 hw, ?_⟩⟩
    · unfold initialGet
      have hnone : valueOf c' o.2 = none := by
        cases hx : valueOf c' o.2 with
        | none => rfl
        | some w' => exact absurd (valueOf_inj hx hw) hc'
      rw [findControl_drop (c := c') (o := o) hnone (valueOf_untimed ho)]
    · unfold initialGet
      rw [hf]
      exact hw

/-- **C73.** It need not read as `None` then: a second event of the class may follow. -/
theorem initial_delete_again : initialSet .tempo [(0, .tempo 100), (1, .tempo 120)] none 9 = .ok [(1, .tempo 120)] ∧
    initialGet .tempo [(1, .tempo 120)] = some (.num 120) := by decide +kernel

example : initialSet (.simple .pan) [(0, .tempo 100), (1, .simple .pan 64), (2, .rest 3)] (some (.num 30)) 9 =
    .ok [(0, .tempo 100), (1, .simple .pan 30), (2, .rest 3)] := by decide +kernel
example : initialSet .instrument [(0, .tempo 100), (2, .rest 3), (3, .instrumentSwitch 0 4)] (some (.inst 1 5)) 9 =
    .ok [(9, .instrumentSwitch 1 5), (0, .tempo 100), (2, .rest 3), (3, .instrumentSwitch 0 4)] := by decide +kernel

/-! ### C74 -/

/-- **C74.** Collapsing the track numbers gives the tracks the numbers from 0 on in the order of their old numbers: every track
gets as its number the number of tracks with a smaller number. -/
theorem collapse_tracks {tracks : List (Nat × List Obj)} (hkeys : (tracks.map (·.1)).Nodup) :
    (collapseTrackIDs tracks).map (·.1) = List.range tracks.length ∧
    ∀ t ∈ tracks, (collapseTrackIDs tracks).lookup (tracks.filter fun u => u.1 < t.1).length = some t.2 := by
  have hperm := sortBy_perm (fun t : Nat × List Obj => t.1) tracks
  have hsort : (sortBy (·.1) tracks).Pairwise fun a b : Nat × List Obj => a.1 < b.1 := by
    have h1 := sortBy_sorted (fun t : Nat × List Obj => t.1) tracks
    have h2 : ((sortBy (·.1) tracks).map (·.1)).Nodup := (hperm.map _).nodup_iff.2 hkeys
    rw [List.Nodup, List.pairwise_map] at h2
    exact (h1.and h2).imp (fun h => by omega)
  have hlen : tracks.length = (sortBy (·.1) tracks).length := hperm.length_eq.symm
  unfold collapseTrackIDs
  refine ⟨?_, fun t ht => ?_⟩
  · rw [hlen]
    refine List.ext_getElem (by simp) (fun i h1 h2 => by simp)
  · rw [← (hperm.filter _).length_eq]
    have ht' := hperm.mem_iff.2 ht
    generalize sortBy (fun t : Nat × List Obj => t.1) tracks = l at hsort ht'
    obtain ⟨p, q, rfl⟩ := List.append_of_mem ht'
    rw [List.pairwise_append, List.pairwise_cons] at hsort
    obtain ⟨_, ⟨h2, _⟩, h3⟩ := hsort
    have hfp : p.filter (fun u => decide (u.1 < t.1)) = p := by
      rw [List.filter_eq_self]
      intro a ha
      have := h3 a ha t (by simp)
      simpa using this
    have hfq : q.filter (fun u => decide (u.1 < t.1)) = [] := by
      rw [List.filter_eq_nil_iff]
      intro a ha
      have := h2 a ha
      simp; omega
    rw [List.filter_append, List.filter_cons_of_neg (by simp), hfp, hfq, List.append_nil]
    have key : ∀ (p : List (Nat × List Obj)) (k : Nat),
        ((p ++ t :: q).mapIdx fun i u => (i + k, u.2)).lookup (p.length + k) = some t.2 := by
      intro p
      induction p with
      | nil => intro k; simp [List.mapIdx_cons]
      | cons a p ih =>
        intro k
        rw [List.cons_append, List.mapIdx_cons, List.lookup_cons]
        have hne : (a :: p).length + k ≠ 0 + k := by simp
        rw [beq_false_of_ne hne]
        have := ih (k + 1)
        rw [List.length_cons, Nat.add_right_comm]
        simpa [Nat.add_assoc, Nat.add_comm, Nat.add_left_comm] using this
    have := key p 0
    simpa using this

example : collapseTrackIDs [(5, [(0, .endTrack)]), (2, [(1, .rest 1)]), (9, [])] =
    [(0, [(1, .rest 1)]), (1, [(0, .endTrack)]), (2, [])] := by decide +kernel

end Verif.Props.MusicTracks
