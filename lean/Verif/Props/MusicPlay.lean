import Verif.Proofs.MusicPlay
import Verif.Props.MusicMinify
import Verif.Model.MusicSong

/-! # Minified music when played (C126) -/

namespace Verif.Props.MusicPlay

open Verif Verif.Model.SoundSequence Verif.Model.SoundBank Verif.Model.Music Verif.Model.SequenceObject
open Verif.Model.MusicSong Verif.Spec.Music Verif.Spec.MusicPlay Verif.Proofs.MusicMinify Verif.Proofs.MusicPlay
open Verif.Props.MusicMinify

/-- C126.  Minifying for a list of events that `E` is a part of (the only one, or one of several sequences or tracks): `E`
plays the same as before, if every note is played with an instrument that some note of that pitch is listed behind.  (Full
statement: without this condition.  That is false: `minify_default_instrument`, `minify_subroutine`,
`minify_random_duration`.) -/
theorem minify_played_partial {W : Type} {events : List Obj} {insts : List (Option Inst)} {swars : List (List W)}
    {events' : List Obj} {insts' : List (Option Inst)} {swars' : List (List W)}
    (h : minify events insts (some swars) = .ok (events', insts', swars')) (k : Nat)
    (hk : OneArchive k (events.map (·.2)) insts) (hp : MidiNotes (events.map (·.2)))
    (A E B : List Obj) (he : events = A ++ E ++ B) (hf : Fixed E) (hl : Listed E (events.map (·.2))) :
    PlaysSame E insts swars (slice events' A.length (A.length + E.length)) insts' swars' := by
  have hE : slice events' A.length (A.length + E.length) = renE (usedInsts events) E := by
    obtain ⟨_, _, _, _, rfl, _⟩ := minify_inv h
    have := chunk (used := usedInsts events) A E B
    rw [← he] at this
    exact this
  rw [hE]
  constructor
  · intro l hr
    exact ⟨_, run_forth hf hr, same_sounds h k hk hp hl hr⟩
  · intro l' hr
    obtain ⟨l, hr', rfl⟩ := run_back hf hr
    exact ⟨l, hr', same_sounds h k hk hp hl hr'⟩

/-- C126.  The condition can be read off the events: it is met by orderly sequences. -/
theorem minify_orderly {W : Type} {events : List Obj} {insts : List (Option Inst)} {swars : List (List W)}
    {events' : List Obj} {insts' : List (Option Inst)} {swars' : List (List W)}
    (h : minify events insts (some swars) = .ok (events', insts', swars')) (k : Nat)
    (hk : OneArchive k (events.map (·.2)) insts) (hp : MidiNotes (events.map (·.2)))
    (A E B : List Obj) (he : events = A ++ E ++ B) (ho : Orderly E) :
    PlaysSame E insts swars (slice events' A.length (A.length + E.length)) insts' swars' :=
  minify_played_partial h k hk hp A E B he ho.fixed (by rw [he]; exact orderly_listed ho)

theorem minify_length {W : Type} {events : List Obj} {insts : List (Option Inst)} {swars : Option (List (List W))}
    {r : List Obj × List (Option Inst) × List (List W)} (h : minify events insts swars = .ok r) :
    ∃ sw, swars = some sw ∧ r.1.length = events.length := by
  cases swars with
  | none => exact absurd h (minify_no_archives events insts r)
  | some sw =>
    obtain ⟨_, _, _, _, e, _⟩ := minify_inv h
    exact ⟨sw, rfl, by rw [e]; simp⟩

/-- What `minifyBySseqs` gathers. -/
theorem gather_spec (depth : Nat) : ∀ (os : List SSEQObj) (g : List Obj × List SSEQObj), gatherEvents depth os = .ok g →
    g.2 = os.map (fun o => (o.parse depth).2) ∧ g.1 = g.2.flatMap (·.events)
  | [], g, h => by
    cases h
    exact ⟨rfl, rfl⟩
  | o :: os, g, h => by
    unfold gatherEvents at h
    simp only [bind_eq_ok, pure_eq_ok] at h
    obtain ⟨_, h1, es, h2, r, h3, rfl⟩ := h
    obtain ⟨i1, i2⟩ := gather_spec depth os r h3
    refine ⟨by rw [i1]; rfl, ?_⟩
    unfold SSEQObj.getEvents at h2
    split at h2
    · cases h2
    · cases h2
      rw [List.flatMap_cons, ← i2]

theorem share_get : ∀ (os : List SSEQObj) (events : List Obj) (i : Nat) (o : SSEQObj), os[i]? = some o →
    (share os events)[i]? = some (SSEQObj.mk
      (slice events ((os.take i).flatMap (·.events)).length (((os.take i).flatMap (·.events)).length + o.events.length))
      o.eventsData o.parsed)
  | [], _, i, o, h => by simp at h
  | o' :: os, events, 0, o, h => by
    cases h
    simp [share, slice]
  | o' :: os, events, i + 1, o, h => by
    rw [share, List.getElem?_cons_succ, share_get os _ i o (by simpa using h)]
    simp only [slice, List.take_succ_cons, List.flatMap_cons, List.length_append, List.drop_drop, Nat.add_assoc,
      Nat.add_sub_cancel_left]
    congr 3
    congr 1
    omega

theorem flatMap_split {α β : Type} (f : α → List β) : ∀ (l : List α) (i : Nat) (a : α), l[i]? = some a →
    l.flatMap f = (l.take i).flatMap f ++ f a ++ (l.drop (i + 1)).flatMap f
  | [], i, a, h => by simp at h
  | b :: l, 0, a, h => by cases h; simp
  | b :: l, i + 1, a, h => by
    rw [List.flatMap_cons, flatMap_split f l i a (by simpa using h)]
    simp

/-- C126.  `minifyBySseqs` leaves every orderly sequence playing the same, with all of the sequences sharing the bank. -/
theorem sseqs_orderly {W : Type} {depth : Nat} {sseqs sseqs' : List SSEQObj} {insts insts' : List (Option Inst)}
    {swars swars' : List (List W)} (h : minifyBySseqs depth sseqs insts (some swars) = .ok (sseqs', insts', swars')) (k : Nat)
    (hk : ∀ o ∈ sseqs, OneArchive k ((o.parse depth).2.events.map (·.2)) insts)
    (hp : ∀ o ∈ sseqs, MidiNotes ((o.parse depth).2.events.map (·.2))) (i : Nat) (o : SSEQObj) (hi : sseqs[i]? = some o)
    (ho : Orderly (o.parse depth).2.events) :
    ∃ o', sseqs'[i]? = some o' ∧ PlaysSame (o.parse depth).2.events insts swars o'.events insts' swars' := by
  unfold minifyBySseqs at h
  simp only [bind_eq_ok, pure_eq_ok, Prod.mk.injEq] at h
  obtain ⟨g, hg, ⟨ev, ins, sw⟩, hr, rfl, rfl, rfl⟩ := h
  obtain ⟨g1, g2⟩ := gather_spec depth sseqs g hg
  have hgi : g.2[i]? = some (o.parse depth).2 := by rw [g1, List.getElem?_map, hi]; rfl
  refine ⟨_, share_get g.2 ev i _ hgi, ?_⟩
  have hmem : ∀ e ∈ g.1.map (·.2), ∃ o ∈ sseqs, e ∈ (o.parse depth).2.events.map (·.2) := by
    intro e he
    rw [g2, g1] at he
    simp only [List.mem_map, List.mem_flatMap] at he
    obtain ⟨x, ⟨_, ⟨o, ho, rfl⟩, hx⟩, rfl⟩ := he
    exact ⟨o, ho, List.mem_map.2 ⟨x, hx, rfl⟩⟩
  refine minify_orderly hr k ?_ ?_ _ _ _ (by rw [g2]; exact flatMap_split _ _ _ _ hgi) ho
  · intro n hn
    rw [List.mem_filterMap] at hn
    obtain ⟨e, he, hn⟩ := hn
    obtain ⟨o, ho, he⟩ := hmem e he
    exact hk o ho n (List.mem_filterMap.2 ⟨e, he, hn⟩)
  · intro e he
    obtain ⟨o, ho, he⟩ := hmem e he
    exact hp o ho e he

theorem shareTracks_get : ∀ (ts : List (Nat × List Obj)) (events : List Obj) (i : Nat) (t : Nat × List Obj),
    ts[i]? = some t → (shareTracks ts events)[i]? = some (t.1,
      slice events ((ts.take i).flatMap (·.2)).length (((ts.take i).flatMap (·.2)).length + t.2.length))
  | [], _, i, o, h => by simp at h
  | t' :: ts, events, 0, t, h => by
    cases h
    simp [shareTracks, slice]
  | t' :: ts, events, i + 1, t, h => by
    rw [shareTracks, List.getElem?_cons_succ, shareTracks_get ts _ i t (by simpa using h)]
    simp only [slice, List.take_succ_cons, List.flatMap_cons, List.length_append, List.drop_drop, Nat.add_assoc,
      Nat.add_sub_cancel_left]
    congr 3
    congr 1
    omega

/-- C126.  `SSEQMusic.minify()` leaves every orderly track playing the same. -/
theorem song_orderly {W : Type} {tracks tracks' : List (Nat × List Obj)} {insts insts' : List (Option Inst)}
    {swars swars' : List (List W)}
    (h : songMinify tracks (some insts) (some swars) = .ok (tracks', some insts', some swars')) (k : Nat)
    (hk : ∀ t ∈ tracks, OneArchive k (t.2.map (·.2)) insts) (hp : ∀ t ∈ tracks, MidiNotes (t.2.map (·.2)))
    (i : Nat) (t : Nat × List Obj) (hi : tracks[i]? = some t) (ho : Orderly t.2) :
    ∃ es', tracks'[i]? = some (t.1, es') ∧ PlaysSame t.2 insts swars es' insts' swars' := by
  unfold songMinify at h
  simp only [bind_eq_ok, pure_eq_ok, Prod.mk.injEq, Option.some.injEq] at h
  obtain ⟨⟨ev, ins, sw⟩, hr, rfl, rfl, rfl⟩ := h
  refine ⟨_, shareTracks_get tracks ev i _ hi, ?_⟩
  have hmem : ∀ e ∈ (tracks.flatMap (·.2)).map (·.2), ∃ o ∈ tracks, e ∈ o.2.map (·.2) := by
    intro e he
    simp only [List.mem_map, List.mem_flatMap] at he
    obtain ⟨x, ⟨o, ho, hx⟩, rfl⟩ := he
    exact ⟨o, ho, List.mem_map.2 ⟨x, hx, rfl⟩⟩
  refine minify_orderly hr k ?_ ?_ _ _ _ (flatMap_split _ _ _ _ hi) ho
  · intro n hn
    rw [List.mem_filterMap] at hn
    obtain ⟨e, he, hn⟩ := hn
    obtain ⟨o, ho, he⟩ := hmem e he
    exact hk o ho n (List.mem_filterMap.2 ⟨e, he, hn⟩)
  · intro e he
    obtain ⟨o, ho, he⟩ := hmem e he
    exact hp o ho e he

/-- C126.  A song without a bank is left alone. -/
theorem song_no_bank {W : Type} (tracks : List (Nat × List Obj)) (swars : Option (List (List W))) :
    songMinify tracks none swars = .ok (tracks, none, swars) := rfl

/-- C126.  `minifyBySseq(s)` is equivalent to `minifyBySseqs([s])`, as its documentation says, exactly if the sequence is
parsed; -/
theorem sseq_equivalent {W : Type} (depth : Nat) (o : SSEQObj) (hp : o.parsed = true) (insts : List (Option Inst))
    (swars : Option (List (List W))) :
    minifyBySseqs depth [o] insts swars = (minifyBySseq o insts swars).map fun r => ([r.1], r.2.1, r.2.2) := by
  unfold minifyBySseqs minifyBySseq gatherEvents gatherEvents
  have h1 : o.parse depth = (.ok (), o) := by unfold SSEQObj.parse; rw [hp]; rfl
  have h2 : o.getEvents = .ok o.events := by unfold SSEQObj.getEvents; rw [hp]; rfl
  rw [h1]
  dsimp only
  rw [bind_ok, h2, bind_ok, bind_ok, bind_ok]
  dsimp only [pure_def]
  rw [bind_ok, List.append_nil]
  cases hm : minify o.events insts swars with
  | error e => rfl
  | ok r =>
    obtain ⟨_, _, hl⟩ := minify_length hm
    rw [bind_ok, bind_ok]
    dsimp only [Except.map, pure_def, share]
    rw [List.take_of_length_le (by omega)]

/-- C126.  …otherwise it raises ValueError. -/
theorem sseq_unparsed {W : Type} (o : SSEQObj) (hp : o.parsed = false) (insts : List (Option Inst))
    (swars : Option (List (List W))) : minifyBySseq o insts swars = .error .valueError := by
  unfold minifyBySseq SSEQObj.getEvents
  rw [hp]
  rfl

/-! ## Where it fails -/

/-- Events after which the place tells what happened. -/
def Clear (events : List Obj) : Prop :=
  Fixed events ∧ ∀ o ∈ events, (∀ t d, o.2 ≠ .beginTrack t d) ∧ o.2 ≠ .endLoop

theorem step_clear {events : List Obj} (hc : Clear events) {s t t' : State} (h : Step events s t) (h' : Step events s t')
    (hp : t.pos = t'.pos) : t = t' := by
  have mem : ∀ {i o}, events[i]? = some o → o ∈ events := fun h => List.mem_of_getElem? h
  cases h with
  | switchRandom h1 _ _ => exact absurd rfl ((hc.1 _ (mem h1)).1 _ _ _)
  | switchVariable h1 => exact absurd rfl ((hc.1 _ (mem h1)).2 _ _)
  | again h1 h2 => exact absurd rfl (hc.2 _ (mem h1)).2
  | leave h1 => exact absurd rfl (hc.2 _ (mem h1)).2
  | track h1 h2 => exact absurd rfl ((hc.2 _ (mem h1)).1 _ _)
  | pass h1 h2 =>
    cases h' with
    | switchRandom h1 _ _ => exact absurd rfl ((hc.1 _ (mem h1)).1 _ _ _)
    | switchVariable h1 => exact absurd rfl ((hc.1 _ (mem h1)).2 _ _)
    | track h1 h2 => exact absurd rfl ((hc.2 _ (mem h1)).1 _ _)
    | pass h3 h4 => rfl
    | skip h3 => simp at hp
    | switch h3 => rw [h1] at h3; cases h3; cases h2
    | jump h3 _ => rw [h1] at h3; cases h3; cases h2
    | call h3 _ => rw [h1] at h3; cases h3; cases h2
    | ret h3 _ => rw [h1] at h3; cases h3; cases h2
    | loop h3 => rw [h1] at h3; cases h3; cases h2
    | again h3 _ => rw [h1] at h3; cases h3; cases h2
    | leave h3 => rw [h1] at h3; cases h3; cases h2
  | switch h1 => cases h' <;> simp_all [passes]
  | jump h1 h2 => cases h' <;> simp_all [passes]
  | call h1 h2 => cases h' <;> simp_all [passes]
  | ret h1 h2 => cases h' <;> simp_all [passes]
  | skip h1 => cases h' <;> simp_all [passes]
  | loop h1 => cases h' <;> simp_all [passes]

theorem run_clear {events : List Obj} (hc : Clear events) : ∀ {l l' : List State}, Run events l → Run events l' →
    l.map (·.pos) = l'.map (·.pos) → l = l' := by
  intro l l' h
  induction h generalizing l' with
  | start =>
    intro h' hp
    cases h' with
    | start => rfl
    | step h1 h2 => simp at hp
  | step h1 h2 ih =>
    intro h' hp
    cases h' with
    | start => simp at hp
    | step h3 h4 =>
      have hp1 := (List.cons.inj hp).1
      have e := List.cons.inj (ih h3 (List.cons.inj hp).2)
      obtain ⟨rfl, rfl⟩ := e
      rw [step_clear hc h2 h4 hp1]

/-- A run that sounds different shows that a sequence does not play the same. -/
theorem not_same {W : Type} {events : List Obj} {insts : List (Option Inst)} {swars : List (List W)}
    {events' : List Obj} {insts' : List (Option Inst)} {swars' : List (List W)} (hc : Clear events')
    {s s' : State} {l l' : List State} (h : Run events (s :: l)) (h' : Run events' (s' :: l'))
    (hp : (s :: l).map (·.pos) = (s' :: l').map (·.pos)) (x : Note × (Option W ⊕ Nat))
    (hx : soundAt events insts swars s = some (some x)) (hx' : soundAt events' insts' swars' s' ≠ some (some x)) :
    ¬ PlaysSame events insts swars events' insts' swars' := by
  intro hs
  obtain ⟨l2, h2, h3, h4⟩ := hs.1 _ h
  have := run_clear hc h2 h' (h3.trans hp)
  subst this
  exact hx' ((h4 0 s s' rfl rfl).2 x hx)

/-- The hypotheses of `minify_played_partial` except `Listed`, as can be checked by looking at the lists. -/
def plainEvents (events : List Obj) : Bool :=
  events.all (fun o => (match o.2 with
    | .random s _ _ _ => s ≠ 0x81
    | .fromVariable s _ _ => s ≠ 0x81
    | .beginTrack _ _ | .endLoop => false
    | _ => true) && match pitchOf o.2 with | some p => 0 ≤ p && p ≤ 127 | none => true)

theorem plain_clear {events : List Obj} (h : plainEvents events = true) : Clear events := by
  unfold plainEvents at h
  rw [List.all_eq_true] at h
  refine ⟨fun o ho => ?_, fun o ho => ?_⟩ <;> have := h o ho <;> rw [Bool.and_eq_true] at this <;> have := this.1
  · refine ⟨fun a l hi e => ?_, fun v u e => ?_⟩ <;> rw [e] at this <;> simp at this
  · refine ⟨fun t d e => ?_, fun e => ?_⟩ <;> rw [e] at this <;> simp at this

theorem plain_midi {events : List Obj} (h : plainEvents events = true) : MidiNotes (events.map (·.2)) := by
  unfold plainEvents at h
  rw [List.all_eq_true] at h
  intro e he p hp
  obtain ⟨o, ho, rfl⟩ := List.mem_map.1 he
  have := h o ho
  rw [Bool.and_eq_true, hp] at this
  simpa using this.2

theorem bank_archive (events : List Ev) (h : ∀ n ∈ events.filterMap switchedTo, n ∈ [0, 1, 2, 3]) :
    OneArchive 0 events bank := by
  intro n hn inst hi d hd
  have := h n hn
  simp at this
  rcases this with rfl | rfl | rfl | rfl
  · cases hi; simp [definitions] at hd; subst hd; exact ⟨rfl, rfl⟩
  · cases hi
  · cases hi; simp [definitions] at hd; rcases hd with rfl | rfl | rfl <;> exact ⟨rfl, rfl⟩
  · cases hi; simp [definitions] at hd; rcases hd with rfl | rfl | rfl <;> exact ⟨rfl, rfl⟩

/-- C126.  A track that plays a note before it switches to an instrument uses instrument 0; minifying does not see that. -/
theorem minify_default_instrument : ∃ (events events' : List Obj) (insts' : List (Option Inst)) (swars' : List (List Char)),
    minify events bank (some ["abcdefgh".toList]) = .ok (events', insts', swars') ∧
    OneArchive 0 (events.map (·.2)) bank ∧ MidiNotes (events.map (·.2)) ∧ Fixed events ∧
    ¬ PlaysSame events bank ["abcdefgh".toList] events' insts' swars' :=
  ⟨tune [.note 60 1 false 1, .instrumentSwitch 0 2, .note 62 90 true 2], _, _, _, rfl,
    bank_archive _ (by decide), plain_midi (by decide), (plain_clear (by decide)).1,
    not_same (plain_clear (by decide)) .start .start rfl (pcm 0 0, .inl (some 'd')) (by decide +kernel) (by decide +kernel)⟩

/-- C126.  A subroutine is played with the instrument of the place that calls it; minifying goes by the instrument
switched to before it in the list. -/
theorem minify_subroutine : ∃ (events events' : List Obj) (insts' : List (Option Inst)) (swars' : List (List Char)),
    minify events bank (some ["abcdefgh".toList]) = .ok (events', insts', swars') ∧
    OneArchive 0 (events.map (·.2)) bank ∧ MidiNotes (events.map (·.2)) ∧ Fixed events ∧
    ¬ PlaysSame events bank ["abcdefgh".toList] events' insts' swars' :=
  ⟨tune [.instrumentSwitch 0 3, .note 30 1 false 1, .call 5, .endTrack, .instrumentSwitch 0 0, .note 70 1 false 1, .ret],
    _, _, _, rfl, bank_archive _ (by decide), plain_midi (by decide), (plain_clear (by decide)).1,
    not_same (plain_clear (by decide))
      (.step (.step (.step .start (.switch rfl)) (.pass rfl rfl)) (.call (q := 5) rfl rfl))
      (.step (.step (.step .start (.switch rfl)) (.pass rfl rfl)) (.call (q := 5) rfl rfl))
      rfl (pcm 0 0, .inl (some 'c')) (by decide +kernel) (by decide +kernel)⟩

/-- C126.  A note whose duration is random (its status value is the pitch) is not seen either. -/
theorem minify_random_duration : ∃ (events events' : List Obj) (insts' : List (Option Inst)) (swars' : List (List Char)),
    minify events bank (some ["abcdefgh".toList]) = .ok (events', insts', swars') ∧
    OneArchive 0 (events.map (·.2)) bank ∧ MidiNotes (events.map (·.2)) ∧ Fixed events ∧
    ¬ PlaysSame events bank ["abcdefgh".toList] events' insts' swars' :=
  ⟨tune [.instrumentSwitch 0 3, .note 30 1 false 1, .random 70 [127] 10 20, .endTrack],
    _, _, _, rfl, bank_archive _ (by decide), plain_midi (by decide), (plain_clear (by decide)).1,
    not_same (plain_clear (by decide))
      (.step (.step .start (.switch rfl)) (.pass rfl rfl))
      (.step (.step .start (.switch rfl)) (.pass rfl rfl))
      rfl (pcm 0 0, .inl (some 'c')) (by decide +kernel) (by decide +kernel)⟩

/-! ## Examples -/

/-- An orderly track: a note played over and over, and then never-reached others. -/
def orderlyTune : List Obj :=
  tune [.simple .trackVolume 100, .instrumentSwitch 0 3, .note 50 100 false 3, .rest 2, .jump 2, .instrumentSwitch 0 2,
    .note 62 1 false 1, .endTrack]

theorem orderlyTune_orderly : Orderly orderlyTune where
  fixed := (plain_clear (by decide)).1
  notes := by decide
  plain := by
    intro o ho
    simp [orderlyTune, tune] at ho
    rcases ho with rfl | rfl | rfl | rfl | rfl | rfl | rfl | rfl <;> simp
  jumps := by
    intro i id d q e h1 h2
    rcases i with _ | _ | _ | _ | _ | _ | _ | _ | i <;> simp [orderlyTune, tune] at h1
    obtain ⟨rfl, rfl⟩ := h1
    rcases q with _ | _ | _ | _ | _ | _ | _ | _ | q <;> simp [orderlyTune, tune] at h2
    rfl
  ifs := by
    intro i id id' b n h1
    rcases i with _ | _ | _ | _ | _ | _ | _ | _ | i <;> simp [orderlyTune, tune] at h1
  first := ⟨1, by omega, fun j _ h => by
    obtain rfl : j = 0 := by omega
    exact ⟨_, rfl, rfl, rfl, by simp⟩, _, rfl, .inl rfl⟩
  tracks := by
    intro i id t d q e h1
    rcases i with _ | _ | _ | _ | _ | _ | _ | _ | i <;> simp [orderlyTune, tune] at h1

example : ∃ events' insts' swars', minify orderlyTune bank (some ["abcdefgh".toList]) = .ok (events', insts', swars') ∧
    insts' = [some ⟨.range 60 [pcm 0 1, pcm 0 0, pcm 0 1], 0, 0⟩, some ⟨.regional [(60, pcm 0 0), (127, pcm 0 1)], 0, 0⟩] ∧
    PlaysSame orderlyTune bank ["abcdefgh".toList] events' insts' swars' := by
  refine ⟨_, _, _, rfl, by decide +kernel, ?_⟩
  have := minify_orderly (events := orderlyTune) (insts := bank) (swars := ["abcdefgh".toList]) rfl 0
    (bank_archive _ (by decide)) (plain_midi (by decide)) [] orderlyTune [] (by simp) orderlyTune_orderly
  exact this

end Verif.Props.MusicPlay
