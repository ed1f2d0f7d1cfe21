import Verif.Proofs.MusicTracks
import Verif.Proofs.SeqSave
import Verif.Props.MusicTracks
import Verif.Spec.SongFile

/-! # Songs whose events get other identities, and which of their events are played (for C149) -/

namespace Verif.Proofs.SongFile

open Verif Verif.Model.SoundSequence Verif.Model.Music Verif.Spec.Sequence Verif.Spec.SongFile
open Verif.Props.MusicTracks (Ends Written Begun Contents)

/-! ## Opening -/

theorem begins_ren (g : Nat → Nat) : ∀ events : List Obj,
    begins (events.map (ren g)) = (begins events).map fun l => l.map fun p => (p.1, g p.2)
  | [] => rfl
  | (i, e) :: es => by
    cases e with
    | beginTrack n first =>
      have ih := begins_ren g es
      show (begins (es.map (ren g))).bind _ = _
      rw [ih]
      show _ = Except.map _ ((begins es).bind _)
      cases begins es <;> rfl
    | _ => rfl

theorem trackInit_ren (g : Nat → Nat) (events : List Obj) : trackInit (events.map (ren g)) = (trackInit events).map (ren g) := by
  unfold trackInit
  rw [List.getLast?_map]
  cases events.getLast? with
  | none => rfl
  | some o =>
    obtain ⟨i, e⟩ := o
    cases e <;> first
      | rfl
      | exact (List.map_dropLast ..).symm

theorem trackFrom_ren {g : Nat → Nat} {starts : List Nat} {l : List Obj}
    (h : ∀ o ∈ l, ∀ s ∈ starts, g o.1 = g s → o.1 = s) :
    trackFrom (starts.map g) (l.map (ren g)) = (trackFrom starts l).map (ren g) := by
  cases l with
  | nil => rfl
  | cons o os =>
    rw [List.map_cons, trackFrom, trackFrom, List.map_cons]
    congr 1
    have h' : ∀ p ∈ os, ∀ s ∈ starts, g p.1 = g s → p.1 = s := fun p hp => h p (List.mem_cons_of_mem _ hp)
    clear h
    induction os with
    | nil => rfl
    | cons p ps ih =>
      have e : (starts.map g).contains (ren g p).1 = starts.contains p.1 := by
        rw [Bool.eq_iff_iff]
        simp only [List.contains_iff_mem, List.mem_map]
        constructor
        · rintro ⟨s, hs, he⟩
          have := h' p (by simp) s hs he.symm
          rwa [this]
        · exact fun hm => ⟨_, hm, rfl⟩
      rw [List.map_cons, List.takeWhile_cons, List.takeWhile_cons, e]
      split
      · rw [List.map_cons, ih fun q hq => h' q (List.mem_cons_of_mem _ hq)]
      · rfl

theorem fromEvent_ren {g : Nat → Nat} {first : Nat} : ∀ {l : List Obj}, (∀ o ∈ l, g o.1 = g first → o.1 = first) →
    fromEvent (g first) (l.map (ren g)) = (fromEvent first l).map fun r => r.map (ren g)
  | [], _ => rfl
  | o :: os, h => by
    rw [List.map_cons, fromEvent, fromEvent]
    by_cases ho : o.1 = first
    · rw [if_pos ho, if_pos (show (ren g o).1 = g first by rw [← ho]; rfl)]
      rfl
    · rw [if_neg ho, if_neg (show ¬ (ren g o).1 = g first from fun hc => ho (h o (by simp) hc))]
      exact fromEvent_ren fun p hp => h p (List.mem_cons_of_mem _ hp)

theorem fromEvent_sub {first : Nat} : ∀ {l r : List Obj}, fromEvent first l = .ok r → ∀ o ∈ r, o ∈ l
  | [], _, h => nomatch h
  | o :: os, r, h => by
    rw [fromEvent] at h
    split at h
    · cases h; exact fun _ h => h
    · exact fun p hp => List.mem_cons_of_mem _ (fromEvent_sub h p hp)

theorem dictSet_ren (g : Nat → Nat) (n : Nat) (v : List Obj) : ∀ d : List (Nat × List Obj),
    dictSet (d.map fun t => (t.1, t.2.map (ren g))) n (v.map (ren g)) =
      (dictSet d n v).map fun t => (t.1, t.2.map (ren g))
  | [] => rfl
  | (m, w) :: d => by
    rw [List.map_cons, dictSet, dictSet]
    split
    · rfl
    · rw [List.map_cons, dictSet_ren g n v d]

theorem beginTracks_ren {g : Nat → Nat} {events : List Obj} {starts : List Nat}
    (h : ∀ o ∈ events, ∀ s ∈ starts, g o.1 = g s → o.1 = s) : ∀ (bs : List (Nat × Nat)) (tracks : List (Nat × List Obj)),
    (∀ b ∈ bs, b.2 ∈ starts) →
    beginTracks (events.map (ren g)) (starts.map g) (bs.map fun p => (p.1, g p.2))
      (tracks.map fun t => (t.1, t.2.map (ren g))) =
      (beginTracks events starts bs tracks).map fun r => r.map fun t => (t.1, t.2.map (ren g))
  | [], _, _ => rfl
  | (n, first) :: bs, tracks, hb => by
    have hfe := fromEvent_ren (g := g) (first := first) (l := events) fun o ho => h o ho first (hb (n, first) (by simp))
    show (fromEvent (g first) (events.map (ren g))).bind _ = Except.map _ ((fromEvent first events).bind _)
    rw [hfe]
    cases hr : fromEvent first events with
    | error e => rfl
    | ok rest =>
      show beginTracks _ _ _ (dictSet _ _ (trackInit (trackFrom _ (rest.map (ren g))))) =
        Except.map _ (beginTracks _ _ _ (dictSet _ _ (trackInit (trackFrom _ rest))))
      rw [trackFrom_ren fun o ho => h o (fromEvent_sub hr o ho), trackInit_ren, dictSet_ren]
      exact beginTracks_ren h bs _ fun b hb' => hb b (List.mem_cons_of_mem _ hb')

/-- Opening a sequence does not depend on the identities. -/
theorem musicInit_ren {σ : Type} {g : Nat → Nat} {events : List Obj} (s : σ)
    (h : ∀ o ∈ events, ∀ p ∈ events, ∀ x ∈ refs p.2, g o.1 = g x → o.1 = x) :
    musicInit (events.map (ren g)) (some s) =
      (musicInit events (some s)).map fun r => r.map fun t => (t.1, t.2.map (ren g)) := by
  cases events with
  | nil => rfl
  | cons o rest =>
    obtain ⟨i, e⟩ := o
    by_cases hd : ∃ ns, e = .defineTracks ns
    · obtain ⟨ns, rfl⟩ := hd
      show (begins (rest.map (ren g))).bind _ = Except.map _ ((begins rest).bind _)
      rw [begins_ren]
      cases hbs : begins rest with
      | error e => rfl
      | ok bs =>
        have hst : ∀ (l : List Obj) (bs : List (Nat × Nat)), begins l = .ok bs → ∀ b ∈ bs, ∃ p ∈ l, b.2 ∈ refs p.2 := by
          intro l
          induction l with
          | nil => intro bs h; cases h
          | cons p l ih =>
            intro bs h
            obtain ⟨j, e⟩ := p
            cases e with
            | beginTrack n first =>
              unfold begins at h
              simp only [bind_eq_ok, pure_eq_ok] at h
              obtain ⟨r, h1, rfl⟩ := h
              intro b hb
              rcases List.mem_cons.1 hb with rfl | hb
              · exact ⟨_, List.mem_cons_self .., by simp [refs]⟩
              · obtain ⟨p, hp, hx⟩ := ih r h1 b hb
                exact ⟨p, List.mem_cons_of_mem _ hp, hx⟩
            | _ => cases h; intro b hb; cases hb
        have hS : ∀ o ∈ (i, Ev.defineTracks ns) :: rest, ∀ x ∈ bs.map (·.2), g o.1 = g x → o.1 = x := by
          intro o ho x hx
          obtain ⟨b, hb, rfl⟩ := List.mem_map.1 hx
          obtain ⟨p, hp, hr⟩ := hst rest bs hbs b hb
          exact h o ho p (List.mem_cons_of_mem _ hp) _ hr
        have hm : (bs.map fun p => (p.1, g p.2)).map (·.2) = (bs.map (·.2)).map g := by
          rw [List.map_map, List.map_map]; rfl
        show beginTracks (((i, Ev.defineTracks ns) :: rest).map (ren g)) _ (bs.map fun p => (p.1, g p.2)) _ =
          Except.map _ (beginTracks ((i, Ev.defineTracks ns) :: rest) (bs.map (·.2)) bs _)
        rw [← beginTracks_ren hS bs _ fun b hb => List.mem_map_of_mem hb, hm]
        congr 1
        split
        · rw [List.length_map, ← List.map_drop, trackFrom_ren fun o ho => hS o (List.mem_cons_of_mem _ (List.mem_of_mem_drop ho)),
            trackInit_ren]
          rfl
        · rfl
    · have e1 : musicInit ((i, e) :: rest) (some s) = .ok [(0, trackInit ((i, e) :: rest))] := by
        cases e <;> first
          | rfl
          | exact absurd ⟨_, rfl⟩ hd
      have e2 : musicInit (((i, e) :: rest).map (ren g)) (some s) = .ok [(0, trackInit (((i, e) :: rest).map (ren g)))] := by
        cases e <;> first
          | rfl
          | exact absurd ⟨_, rfl⟩ hd
      rw [e1, e2, trackInit_ren]
      rfl

/-! ## Positions -/

theorem offset_inj : ∀ {events : List Obj}, (∀ o ∈ events, 0 < declared o.2) → ∀ {x y p : Nat},
    position events x = some p → position events y = some p → x = y
  | [], _, _, _, _, h, _ => nomatch h
  | e :: es, hp, x, y, p, hx, hy => by
    rw [position] at hx hy
    have h0 := hp e (by simp)
    by_cases h1 : e.1 = x
    · rw [if_pos h1] at hx
      by_cases h2 : e.1 = y
      · exact h1.symm.trans h2
      · rw [if_neg h2, Option.map_eq_some_iff] at hy
        obtain ⟨q, _, hq⟩ := hy
        cases hx
        omega
    · rw [if_neg h1, Option.map_eq_some_iff] at hx
      obtain ⟨q, hq, hqe⟩ := hx
      by_cases h2 : e.1 = y
      · rw [if_pos h2] at hy
        cases hy
        omega
      · rw [if_neg h2, Option.map_eq_some_iff] at hy
        obtain ⟨r, hr, hre⟩ := hy
        have : q = r := by omega
        subst this
        exact offset_inj (fun o ho => hp o (List.mem_cons_of_mem _ ho)) hq hr

theorem position_mem : ∀ {events : List Obj} {x : Nat}, x ∈ events.map (·.1) → ∃ p, position events x = some p
  | e :: es, x, h => by
    rw [position]
    by_cases h1 : e.1 = x
    · exact ⟨0, if_pos h1⟩
    · rw [if_neg h1]
      obtain ⟨p, hp⟩ := position_mem (events := es) ((List.mem_cons.1 h).resolve_left (Ne.symm h1))
      exact ⟨_, by rw [hp]; rfl⟩

theorem offsetIn_inj {events : List Obj} (hp : ∀ o ∈ events, 0 < declared o.2) {x y : Nat}
    (hx : ∃ p, position events x = some p) (hy : ∃ p, position events y = some p) (h : offsetIn events x = offsetIn events y) :
    x = y := by
  obtain ⟨p, hx⟩ := hx
  obtain ⟨q, hy⟩ := hy
  rw [offsetIn, offsetIn, hx, hy] at h
  simp only [Option.getD_some] at h
  subst h
  exact offset_inj hp hx hy

/-! ## What is played -/

/-- All events of a stretch whose first is played are played, if only the last of them may stop. -/
theorem reached_stretch {events : List Obj} {S : List Nat} : ∀ (seg P Q : List Obj), events = P ++ seg ++ Q →
    (∀ o, seg.head? = some o → Reached events S o.1) →
    (∀ pre e post, seg = pre ++ e :: post → post ≠ [] → flows e.2 = true) → ∀ o ∈ seg, Reached events S o.1
  | [], _, _, _, _, _ => fun _ h => nomatch h
  | [a], _, _, _, h1, _ => fun o ho => by
    rw [List.mem_singleton] at ho
    subst ho
    exact h1 o rfl
  | a :: b :: seg, P, Q, he, h1, h2 => fun o ho => by
    have ha := h1 a rfl
    rcases List.mem_cons.1 ho with rfl | ho
    · exact ha
    · refine reached_stretch (b :: seg) (P ++ [a]) Q (by rw [he]; simp) ?_ ?_ o ho
      · rintro c ⟨⟩
        exact .next P (seg ++ Q) a b ha (by rw [he]; simp) (h2 [] a (b :: seg) rfl (by simp))
      · intro pre e post hs hne
        exact h2 (a :: pre) e post (by rw [hs]; rfl) hne

/-- The event refers to another one. -/
def hasRef (o : Obj) : Bool := !(refs o.2).isEmpty

theorem flows_last {ev : List Obj} (h : Linear ev) (hn : ¬ Ends ev) {pre : List Obj} {e : Obj} (he : ev = pre ++ [e]) :
    flows e.2 = true := by
  have hk := h.kinds e (by rw [he]; simp)
  have hl : ev.getLast? = some e := by rw [he]; simp
  have h1 : e.2 ≠ .endTrack := fun hc => hn ⟨e, hl, .inl hc⟩
  have h2 : ∀ d, e.2 ≠ .jump d := fun d hc => hn ⟨e, hl, .inr ⟨d, hc⟩⟩
  obtain ⟨i, v⟩ := e
  cases v with
  | endTrack => exact absurd rfl h1
  | jump d => exact absurd rfl (h2 d)
  | call d => exact absurd rfl (hk.1 d)
  | ret => exact absurd rfl hk.2.1
  | _ => rfl

theorem written_goesOn {new : Nat → Prop} {ev part : List Obj} (h : Linear ev) (hw : Written new ev part) :
    ∀ pre e post, part = pre ++ e :: post → post ≠ [] → flows e.2 = true := by
  rcases hw with ⟨_, rfl⟩ | ⟨hn, i, _, rfl⟩
  · exact h.goesOn
  · intro pre e post he hp
    obtain ⟨post', z, rfl⟩ : ∃ p z, post = p ++ [z] := ⟨_, _, (List.dropLast_concat_getLast hp).symm⟩
    rw [show pre ++ e :: (post' ++ [z]) = (pre ++ e :: post') ++ [z] by simp] at he
    have he' := (List.append_inj' he rfl).1
    by_cases hq : post' = []
    · subst hq
      exact flows_last h hn he'
    · exact h.goesOn pre e post' he' hq

theorem written_last {new : Nat → Prop} {ev part : List Obj} (hw : Written new ev part) :
    ∀ pre e, part = pre ++ [e] → flows e.2 = false := by
  intro pre e he
  rcases hw with ⟨⟨o, ho, h⟩, rfl⟩ | ⟨hn, i, _, rfl⟩
  · rw [he] at ho
    simp only [List.getLast?_append, List.getLast?_singleton, Option.some_or, Option.some.injEq] at ho
    subst ho
    rcases h with h | ⟨d, h⟩ <;> rw [h] <;> rfl
  · have := (List.append_inj' he rfl).2
    cases this
    rfl

theorem written_head {new : Nat → Prop} {ev part : List Obj} (h : ev ≠ []) (hw : Written new ev part) :
    part.head? = ev.head? := by
  rcases hw with ⟨_, rfl⟩ | ⟨_, i, _, rfl⟩
  · rfl
  · cases ev with
    | nil => exact absurd rfl h
    | cons => rfl

theorem written_ne {new : Nat → Prop} {ev part : List Obj} (h : ev ≠ []) (hw : Written new ev part) : part ≠ [] := by
  rcases hw with ⟨_, rfl⟩ | ⟨_, i, _, rfl⟩
  · exact h
  · simp

theorem written_mem {new : Nat → Prop} {ev part : List Obj} (hw : Written new ev part) : ∀ o ∈ part, o ∈ ev ∨ o.2 = .endTrack := by
  rcases hw with ⟨_, rfl⟩ | ⟨_, i, _, rfl⟩
  · exact fun o ho => .inl ho
  · intro o ho
    rcases List.mem_append.1 ho with ho | ho
    · exact .inl ho
    · rw [List.mem_singleton.1 ho]
      exact .inr rfl

theorem written_count {new : Nat → Prop} {ev part : List Obj} (hw : Written new ev part) :
    (part.filter hasRef).length = (ev.filter hasRef).length := by
  rcases hw with ⟨_, rfl⟩ | ⟨_, i, _, rfl⟩
  · rfl
  · rw [List.filter_append, List.length_append]
    rfl

theorem contents_mem {new : Nat → Prop} {ts : List (Nat × List Obj)} {c : List Obj} (h : Contents new ts c) :
    ∀ o ∈ c, (∃ t ∈ ts, o ∈ t.2) ∨ o.2 = .endTrack := by
  induction h with
  | nil => exact fun _ h => nomatch h
  | cons hw _ ih =>
    intro o ho
    rcases List.mem_append.1 ho with ho | ho
    · exact (written_mem hw o ho).imp (fun h => ⟨_, List.mem_cons_self .., h⟩) id
    · exact (ih o ho).imp (fun ⟨t, ht, h⟩ => ⟨t, List.mem_cons_of_mem _ ht, h⟩) id

theorem contents_count {new : Nat → Prop} {ts : List (Nat × List Obj)} {c : List Obj} (h : Contents new ts c) :
    (c.filter hasRef).length = ((ts.flatMap (·.2)).filter hasRef).length := by
  induction h with
  | nil => rfl
  | cons hw _ ih =>
    rw [List.filter_append, List.length_append, List.flatMap_cons, List.filter_append, List.length_append, ih, written_count hw]

theorem contents_ne {new : Nat → Prop} {ts : List (Nat × List Obj)} {c : List Obj} (h : Contents new ts c)
    (hl : ∀ t ∈ ts, t.2 ≠ []) (hne : ts ≠ []) : c ≠ [] := by
  cases h with
  | nil => exact absurd rfl hne
  | cons hw _ =>
    have := written_ne (hl _ (List.mem_cons_self ..)) hw
    simp [this]

theorem contents_last {new : Nat → Prop} {ts : List (Nat × List Obj)} {c : List Obj} (h : Contents new ts c)
    (hl : ∀ t ∈ ts, t.2 ≠ []) : ∀ pre e, c = pre ++ [e] → flows e.2 = false := by
  induction h with
  | nil => intro pre e he; simp at he
  | @cons n ev part ts c hw hc ih =>
    intro pre e he
    by_cases ht : ts = []
    · subst ht
      cases hc
      rw [List.append_nil] at he
      exact written_last hw pre e he
    · have hne := contents_ne hc (fun t h => hl t (List.mem_cons_of_mem _ h)) ht
      obtain ⟨c', z, rfl⟩ : ∃ p z, c = p ++ [z] := ⟨_, _, (List.dropLast_concat_getLast hne).symm⟩
      rw [← List.append_assoc] at he
      have := (List.append_inj' he rfl).2
      cases this
      exact ih (fun t h => hl t (List.mem_cons_of_mem _ h)) c' e rfl

theorem contents_reached {new : Nat → Prop} {events : List Obj} {S : List Nat} {ts : List (Nat × List Obj)} {c : List Obj}
    (h : Contents new ts c) : ∀ (P : List Obj), events = P ++ c → (∀ t ∈ ts, Linear t.2) →
    (∀ t ∈ ts, ∀ o, t.2.head? = some o → Reached events S o.1) → ∀ o ∈ c, Reached events S o.1 := by
  induction h with
  | nil => exact fun _ _ _ _ _ h => nomatch h
  | @cons n ev part ts c hw hc ih =>
    intro P he hl hh o ho
    have hL := hl _ (List.mem_cons_self ..)
    rcases List.mem_append.1 ho with ho | ho
    · refine reached_stretch part P c (by rw [he]; simp) ?_ (written_goesOn hL hw) o ho
      intro z hz
      rw [written_head hL.nonempty hw] at hz
      exact hh _ (List.mem_cons_self ..) z hz
    · exact ih (P ++ part) (by rw [he]; simp) (fun t h => hl t (List.mem_cons_of_mem _ h))
        (fun t h => hh t (List.mem_cons_of_mem _ h)) o ho

theorem begun_mem {new : Nat → Prop} {ts : List (Nat × List Obj)} {b : List Obj} (h : Begun new ts b) :
    ∀ o ∈ b, ∃ (n x : Nat), n ∈ ts.map (·.1) ∧ o.2 = .beginTrack (n : Int) x := by
  induction h with
  | nil => exact fun _ h => nomatch h
  | zero _ ih =>
    intro o ho
    obtain ⟨n, x, h1, h2⟩ := ih o ho
    exact ⟨n, x, List.mem_cons_of_mem _ h1, h2⟩
  | cons _ _ _ ih =>
    intro o ho
    rcases List.mem_cons.1 ho with rfl | ho
    · exact ⟨_, _, List.mem_cons_self .., rfl⟩
    · obtain ⟨n, x, h1, h2⟩ := ih o ho
      exact ⟨n, x, List.mem_cons_of_mem _ h1, h2⟩

theorem begun_length {new : Nat → Prop} {ts : List (Nat × List Obj)} {b : List Obj} (h : Begun new ts b) :
    b.length ≤ ts.length := by
  induction h with
  | nil => exact Nat.le_refl _
  | zero _ ih => exact Nat.le_succ_of_le ih
  | cons _ _ _ ih => exact Nat.succ_le_succ ih

theorem begun_of {new : Nat → Prop} {ts : List (Nat × List Obj)} {b : List Obj} (h : Begun new ts b) :
    ∀ t ∈ ts, t.1 ≠ 0 → ∀ o, t.2.head? = some o → ∃ i, (i, Ev.beginTrack (t.1 : Int) o.1) ∈ b := by
  induction h with
  | nil => exact fun _ h => nomatch h
  | zero _ ih =>
    intro t ht hn o ho
    rcases List.mem_cons.1 ht with rfl | ht
    · exact absurd rfl hn
    · exact ih t ht hn o ho
  | @cons n i ev ts bs o' _ _ _ ih =>
    intro t ht hn o ho
    rcases List.mem_cons.1 ht with rfl | ht
    · cases ho
      exact ⟨i, List.mem_cons_self ..⟩
    · obtain ⟨j, hj⟩ := ih t ht hn o ho
      exact ⟨j, List.mem_cons_of_mem _ hj⟩

/-! ## What is written of a song -/

/-- All that reading back needs to know of the events written. -/
structure Readable (tracks : List (Nat × List Obj)) (events : List Obj) : Prop where
  nonempty : events ≠ []
  inRange : ∀ o ∈ events, InRange o.2
  fixed : ∀ o ∈ events, isFromVariable o.2 = false
  straight : Straight events
  reached : ∀ o ∈ events, Reached events (startIds events []) o.1
  count : (events.filter hasRef).length ≤ ((tracks.flatMap (·.2)).filter hasRef).length + tracks.length
  keeps : ∀ t ∈ tracks, ∀ o ∈ t.2, o ∈ events

theorem contents_keeps {new : Nat → Prop} {ts : List (Nat × List Obj)} {c : List Obj} (h : Contents new ts c) :
    ∀ t ∈ ts, ∀ o ∈ t.2, o ∈ c := by
  induction h with
  | nil => exact fun _ h => nomatch h
  | cons hw _ ih =>
    intro t ht o ho
    rcases List.mem_cons.1 ht with rfl | ht
    · refine List.mem_append_left _ ?_
      rcases hw with ⟨_, rfl⟩ | ⟨_, i, _, rfl⟩
      · exact ho
      · exact List.mem_append_left _ ho
    · exact List.mem_append_right _ (ih t ht o ho)

theorem readable_single {new : Nat → Prop} {ev events : List Obj} (h : Linear ev) (hw : Written new ev events) :
    Readable [(0, ev)] events := by
  have hmem := written_mem hw
  have hne := written_ne h.nonempty hw
  refine ⟨hne, ?_, ?_, ⟨?_, written_last hw⟩, ?_, ?_, ?_⟩
  · intro o ho
    rcases hmem o ho with h' | h'
    · exact h.inRange o h'
    · rw [h']; trivial
  · intro o ho
    rcases hmem o ho with h' | h'
    · exact h.fixed o h'
    · rw [h']; rfl
  · intro o ho
    rcases hmem o ho with h' | h'
    · exact h.kinds o h'
    · rw [h']; exact ⟨fun _ => nofun, nofun, nofun⟩
  · refine reached_stretch events [] [] (by simp) ?_ (written_goesOn h hw)
    intro o ho
    refine .start _ ?_
    cases events with
    | nil => cases ho
    | cons p ps =>
      cases ho
      simp [startIds]
  · rw [written_count hw]
    simp
  · intro t ht o ho
    rw [List.mem_singleton.1 ht] at ho
    rcases hw with ⟨_, rfl⟩ | ⟨_, i, _, rfl⟩
    · exact ho
    · exact List.mem_append_left _ ho

theorem readable_several {new : Nat → Prop} {ts : List (Nat × List Obj)} {i : Nat} {b c : List Obj}
    (hne : ts ≠ []) (hl : ∀ t ∈ ts, Linear t.2) (hsort : (ts.map (·.1)).Pairwise (· < ·)) (h16 : ∀ t ∈ ts, t.1 < 16)
    (hb : Begun new ts b) (hc : Contents new ts c) :
    Readable ts ((i, .defineTracks (ts.map (·.1))) :: b ++ c) := by
  have hl' : ∀ t ∈ ts, t.2 ≠ [] := fun t ht => (hl t ht).nonempty
  have hcne := contents_ne hc hl' hne
  have hmem : ∀ o ∈ (i, Ev.defineTracks (ts.map (·.1))) :: b ++ c, (∃ t ∈ ts, o ∈ t.2) ∨ o.2 = .endTrack ∨
      o.2 = .defineTracks (ts.map (·.1)) ∨ ∃ (n x : Nat), n ∈ ts.map (·.1) ∧ o.2 = .beginTrack (n : Int) x := by
    intro o ho
    rcases List.mem_append.1 ho with ho | ho
    · rcases List.mem_cons.1 ho with rfl | ho
      · exact .inr (.inr (.inl rfl))
      · exact .inr (.inr (.inr (begun_mem hb o ho)))
    · rcases contents_mem hc o ho with h | h
      · exact .inl h
      · exact .inr (.inl h)
  have hnum : ∀ n ∈ ts.map (·.1), n < 16 := by
    intro n hn
    obtain ⟨t, ht, rfl⟩ := List.mem_map.1 hn
    exact h16 t ht
  refine ⟨by simp, ?_, ?_, ⟨?_, ?_⟩, ?_, ?_, ?_⟩
  · intro o ho
    rcases hmem o ho with ⟨t, ht, h⟩ | h | h | ⟨n, x, hn, h⟩
    · exact (hl t ht).inRange o h
    · rw [h]; trivial
    · rw [h]; exact ⟨hsort, hnum⟩
    · rw [h]
      have := hnum n hn
      show UByte _
      unfold UByte
      omega
  · intro o ho
    rcases hmem o ho with ⟨t, ht, h⟩ | h | h | ⟨n, x, hn, h⟩
    · exact (hl t ht).fixed o h
    · rw [h]; rfl
    · rw [h]; rfl
    · rw [h]; rfl
  · intro o ho
    rcases hmem o ho with ⟨t, ht, h⟩ | h | h | ⟨n, x, hn, h⟩
    · exact (hl t ht).kinds o h
    all_goals rw [h]; exact ⟨fun _ => nofun, nofun, nofun⟩
  · intro pre e he
    obtain ⟨c', z, rfl⟩ : ∃ p z, c = p ++ [z] := ⟨_, _, (List.dropLast_concat_getLast hcne).symm⟩
    rw [← List.append_assoc] at he
    have := (List.append_inj' he rfl).2
    cases this
    exact contents_last hc hl' c' e rfl
  · obtain ⟨c0, cs, rfl⟩ : ∃ c0 cs, c = c0 :: cs := by
      cases c with
      | nil => exact absurd rfl hcne
      | cons c0 cs => exact ⟨c0, cs, rfl⟩
    generalize hE : (i, Ev.defineTracks (ts.map (·.1))) :: b ++ c0 :: cs = events
    have hfirst : ∀ o ∈ (i, Ev.defineTracks (ts.map (·.1))) :: b ++ [c0], Reached events (startIds events []) o.1 := by
      refine reached_stretch _ [] cs (by rw [← hE]; simp) ?_ ?_
      · rintro o ⟨⟩
        refine .start _ ?_
        rw [← hE]
        simp [startIds]
      · intro pre e post he hp
        obtain ⟨post', z, rfl⟩ : ∃ p z, post = p ++ [z] := ⟨_, _, (List.dropLast_concat_getLast hp).symm⟩
        rw [show pre ++ e :: (post' ++ [z]) = (pre ++ e :: post') ++ [z] by simp] at he
        have he' := (List.append_inj' he rfl).1
        have hm : e ∈ (i, Ev.defineTracks (ts.map (·.1))) :: b := by rw [he']; simp
        rcases List.mem_cons.1 hm with rfl | hm
        · rfl
        · obtain ⟨n, x, _, h⟩ := begun_mem hb e hm
          rw [h]; rfl
    have hstart : ∀ t ∈ ts, ∀ o, t.2.head? = some o → Reached events (startIds events []) o.1 := by
      intro t ht o ho
      by_cases hn : t.1 = 0
      · generalize hcc : c0 :: cs = cc at hc
        cases hc with
        | nil => cases hcc
        | @cons n ev part ts' c' hw hc' =>
          have : t = (n, ev) := by
            rcases List.mem_cons.1 ht with h | h
            · exact h
            · rw [List.map_cons, List.pairwise_cons] at hsort
              have := hsort.1 t.1 (List.mem_map_of_mem h)
              omega
          subst this
          have h1 := written_head (hl' _ ht) hw
          have h3 : (part ++ c').head? = some o := by
            rw [List.head?_append, h1, ho]; rfl
          rw [← hcc] at h3
          cases h3
          exact hfirst _ (by simp)
      · obtain ⟨j, hj⟩ := begun_of hb t ht hn o ho
        have hm : (j, Ev.beginTrack (t.1 : Int) o.1) ∈ (i, Ev.defineTracks (ts.map (·.1))) :: b ++ [c0] := by simp [hj]
        exact .ref j o.1 _ (hfirst _ hm) (by rw [← hE]; exact List.mem_append_left _ (List.mem_cons_of_mem _ hj))
          (List.mem_singleton.2 rfl)
    intro o ho
    rw [← hE] at ho
    rcases List.mem_append.1 ho with ho | ho
    · exact hfirst o (List.mem_append_left _ ho)
    · exact contents_reached hc _ hE.symm hl hstart o ho
  · rw [List.filter_append, List.length_append, contents_count hc, List.filter_cons_of_neg (by simp [hasRef, refs])]
    have h1 := List.length_filter_le hasRef b
    have h2 := begun_length hb
    omega
  · intro t ht o ho
    exact List.mem_append_right _ (contents_keeps hc t ht o ho)

/-- What is written of a song whose tracks are all played from beginning to end. -/
theorem readable {tracks : List (Nat × List Obj)} {events : List Obj} {f : Nat} (h0 : tracks ≠ [])
    (hkeys : (tracks.map (·.1)).Nodup) (hl : ∀ t ∈ tracks, Linear t.2) (h16 : ∀ t ∈ tracks, t.1 < 16)
    (h : musicSave tracks f = .ok events) : Readable tracks events := by
  by_cases h1 : ∃ ev, tracks = [(0, ev)]
  · obtain ⟨ev, rfl⟩ := h1
    exact readable_single (hl (0, ev) (by simp)) (Props.MusicTracks.song_single ev events f h)
  · have hp := sortBy_perm (fun t : Nat × List Obj => t.1) tracks
    have hsort : ((sortBy (·.1) tracks).map (·.1)).Pairwise (· < ·) := by
      have h1 := sortBy_sorted (fun t : Nat × List Obj => t.1) tracks
      have h2 : ((sortBy (·.1) tracks).map (·.1)).Nodup := (hp.map _).nodup_iff.2 hkeys
      rw [List.Nodup, List.pairwise_map] at h2
      rw [List.pairwise_map]
      exact (h1.and h2).imp (fun h => by omega)
    unfold musicSave at h
    split at h
    · exact absurd ⟨_, rfl⟩ h1
    · cases h
      have hs := Props.MusicTracks.saveTracks_spec (sortBy (·.1) tracks) f (f + 1) (by omega)
        fun t ht => (hl t (hp.mem_iff.1 ht)).nonempty
      have hr := readable_several (i := f) (by
          intro hc
          rw [hc] at hp
          exact h0 hp.nil_eq.symm) (fun t ht => hl t (hp.mem_iff.1 ht)) hsort (fun t ht => h16 t (hp.mem_iff.1 ht)) hs.1 hs.2
      refine ⟨hr.nonempty, hr.inRange, hr.fixed, hr.straight, hr.reached, ?_, fun t ht => hr.keeps t (hp.mem_iff.2 ht)⟩
      have hc := hr.count
      rwa [((hp.flatMap_right _).filter _).length_eq, hp.length_eq] at hc

/-! ## When it can be written -/

theorem begun_total {new : Nat → Prop} {ts : List (Nat × List Obj)} {b : List Obj} (h : Begun new ts b) :
    total b ≤ 5 * ts.length := by
  induction h with
  | nil => exact Nat.le_refl _
  | zero _ ih => rw [List.length_cons]; omega
  | cons _ _ _ ih =>
    rw [Proofs.SeqSave.total_cons, List.length_cons]
    show 5 + _ ≤ _
    omega

theorem begun_refs {new : Nat → Prop} {ts : List (Nat × List Obj)} {b : List Obj} (h : Begun new ts b) :
    ∀ o ∈ b, ∀ x ∈ refs o.2, ∃ t ∈ ts, x ∈ t.2.map (·.1) := by
  induction h with
  | nil => exact fun _ h => nomatch h
  | zero _ ih =>
    intro o ho x hx
    obtain ⟨t, ht, h⟩ := ih o ho x hx
    exact ⟨t, List.mem_cons_of_mem _ ht, h⟩
  | cons _ _ _ ih =>
    intro o ho x hx
    rcases List.mem_cons.1 ho with rfl | ho
    · refine ⟨_, List.mem_cons_self .., ?_⟩
      rw [List.mem_singleton.1 hx]
      exact List.mem_cons_self ..
    · obtain ⟨t, ht, h⟩ := ih o ho x hx
      exact ⟨t, List.mem_cons_of_mem _ ht, h⟩

theorem written_total {new : Nat → Prop} {ev part : List Obj} (hw : Written new ev part) : total part ≤ total ev + 1 := by
  rcases hw with ⟨_, rfl⟩ | ⟨_, i, _, rfl⟩
  · omega
  · rw [Proofs.SeqSave.total_append]
    exact Nat.le_refl _

theorem contents_total {new : Nat → Prop} {ts : List (Nat × List Obj)} {c : List Obj} (h : Contents new ts c) :
    total c ≤ total (ts.flatMap (·.2)) + ts.length := by
  induction h with
  | nil => exact Nat.le_refl _
  | cons hw _ ih =>
    rw [List.flatMap_cons, Proofs.SeqSave.total_append, Proofs.SeqSave.total_append, List.length_cons]
    have := written_total hw
    dsimp only
    omega

theorem total_perm {a b : List Obj} (h : a.Perm b) : total a = total b := by
  unfold total
  exact (h.map _).sum_nat

/-- How long a song gets, and what its events refer to. -/
theorem extent {tracks : List (Nat × List Obj)} {events : List Obj} {f : Nat} (hne : ∀ t ∈ tracks, t.2 ≠ [])
    (hr : ∀ t ∈ tracks, ∀ o ∈ t.2, ∀ x ∈ refs o.2, ∃ t ∈ tracks, x ∈ t.2.map (·.1))
    (h : musicSave tracks f = .ok events) :
    total events ≤ total (tracks.flatMap (·.2)) + 6 * tracks.length + 3 ∧
      ∀ o ∈ events, ∀ x ∈ refs o.2, ∃ t ∈ tracks, x ∈ t.2.map (·.1) := by
  by_cases h1 : ∃ ev, tracks = [(0, ev)]
  · obtain ⟨ev, rfl⟩ := h1
    have hw := Props.MusicTracks.song_single ev events f h
    constructor
    · have := written_total hw
      simp only [List.flatMap_cons, List.flatMap_nil, List.append_nil, List.length_singleton]
      omega
    · intro o ho
      rcases written_mem hw o ho with h' | h'
      · exact hr _ (List.mem_cons_self ..) o h'
      · rw [h']; exact fun _ h => nomatch h
  · have hp := sortBy_perm (fun t : Nat × List Obj => t.1) tracks
    unfold musicSave at h
    split at h
    · exact absurd ⟨_, rfl⟩ h1
    · cases h
      obtain ⟨hb, hc⟩ := Props.MusicTracks.saveTracks_spec (sortBy (·.1) tracks) f (f + 1) (by omega)
        fun t ht => hne t (hp.mem_iff.1 ht)
      constructor
      · have h2 := begun_total hb
        have h3 := contents_total hc
        rw [total_perm (hp.flatMap_right _), hp.length_eq] at h3
        rw [hp.length_eq] at h2
        rw [Proofs.SeqSave.total_append, Proofs.SeqSave.total_cons]
        show 3 + _ + _ ≤ _
        omega
      · intro o ho x hx
        rcases List.mem_append.1 ho with ho | ho
        · rcases List.mem_cons.1 ho with rfl | ho
          · cases hx
          · obtain ⟨t, ht, h⟩ := begun_refs hb o ho x hx
            exact ⟨t, hp.mem_iff.1 ht, h⟩
        · rcases contents_mem hc o ho with ⟨t, ht, h'⟩ | h'
          · exact hr t (hp.mem_iff.1 ht) o h' x hx
          · rw [h'] at hx; cases hx

end Verif.Proofs.SongFile
