import Verif.Proofs.EventText

/-!
# C129: the printed form of a sequence says all that is in it
-/

namespace Verif.Props.EventText

open Verif Verif.Model.EventText Verif.Spec.EventText
open Verif.Model.Repr (lit)
open Verif.Model.SoundSequence (Ev Simple saveSequenceEvents)

/-- C129: `print` of a sequence whose destinations are in its list of events shows the attributes and every event with its
number; jumps, calls and track starts show the number of their destination. -/
theorem sseq_str_partial (w : World) (f : Fields) (events : List Nat) (hd : Closed w.obj events)
    (hok : ∀ e ∈ events, EvOk (w.obj e)) (hc : ∀ e ∈ events, Clear (w.obj e)) :
    ∃ t, strSSEQ w f (some events) = .ok t ∧ readSSEQ t = some (f, some (numbered w.obj events)) :=
  Proofs.EventText.read_sseq w f events hd hok hc

/-- C129: a sequence that is not parsed shows its attributes. -/
theorem sseq_str_unparsed (w : World) (f : Fields) : ∃ t, strSSEQ w f none = .ok t ∧ readSSEQ t = some (f, none) :=
  Proofs.EventText.read_unparsed w f

/-- C129: a track prints its events as a sequence does. -/
theorem track_str_partial (w : World) (events : List Nat) (hd : Closed w.obj events)
    (hok : ∀ e ∈ events, EvOk (w.obj e)) (hc : ∀ e ∈ events, Clear (w.obj e)) :
    ∃ t, strTrack w events = .ok t ∧ readTrack t = some (numbered w.obj events) := by
  obtain ⟨t, h1, h2⟩ := sseq_str_partial w ⟨0, 0, 0, 0, 0⟩ events hd hok hc
  obtain ⟨u, hu, h1⟩ := bind_eq_ok.1 h1
  cases h1
  refine ⟨Model.Repr.join [10] [lit "<track", u, lit ">"], by unfold strTrack; rw [hu]; rfl, ?_⟩
  have e1 : Model.Repr.join [10] [lit "<track", u, lit ">"] = lit "<track" ++ (10 :: (u ++ 10 :: lit ">")) := by simp [Model.Repr.join]
  have e2 : Model.Repr.join [10] [lit "<sseq " ++ fieldsText ⟨0, 0, 0, 0, 0⟩, u, lit ">"] =
      chars "<sseq bankID=0 volume=0 channelPressure=0 polyphonicPressure=0 playerID=0" ++ (10 :: (u ++ 10 :: lit ">")) := by
    have : lit "<sseq " ++ fieldsText ⟨0, 0, 0, 0, 0⟩ =
        chars "<sseq bankID=0 volume=0 channelPressure=0 polyphonicPressure=0 playerID=0" := by decide +kernel
    rw [this]
    simp [Model.Repr.join]
  have ha : after (chars "<track") (lit "<track" ++ (10 :: (u ++ 10 :: lit ">"))) = some (10 :: (u ++ 10 :: lit ">")) :=
    Proofs.EventText.after_append _ _
  rw [e1, readTrack, ha, Option.bind_some, ← e2, h2]
  rfl

/-- C129: the events as they are printed, numbers in place of objects, save as the same bytes as the events themselves (or
raise the same exception). -/
theorem numbered_save (obj : Nat → Ev) (events : List Nat) (hn : events.Nodup) (hd : Closed obj events) :
    saveSequenceEvents (numbered obj events) [] = saveSequenceEvents (given obj events) [] :=
  Proofs.EventText.save_numbered ⟨id, obj, id, 0⟩ events hn hd

/-- C129: two sequences that print alike have the same attributes and save as the same bytes. -/
theorem same_str_partial (w w' : World) (f f' : Fields) (events events' : List Nat) (hd : Closed w.obj events)
    (hd' : Closed w'.obj events') (hn : events.Nodup) (hn' : events'.Nodup) (hok : ∀ e ∈ events, EvOk (w.obj e))
    (hc : ∀ e ∈ events, Clear (w.obj e)) (hok' : ∀ e ∈ events', EvOk (w'.obj e)) (hc' : ∀ e ∈ events', Clear (w'.obj e))
    (h : strSSEQ w f (some events) = strSSEQ w' f' (some events')) :
    f = f' ∧ saveSequenceEvents (given w.obj events) [] = saveSequenceEvents (given w'.obj events') [] := by
  obtain ⟨t, h1, h2⟩ := sseq_str_partial w f events hd hok hc
  obtain ⟨t', h1', h2'⟩ := sseq_str_partial w' f' events' hd' hok' hc'
  rw [h1, h1'] at h
  cases Except.ok.inj h
  rw [h2] at h2'
  simp only [Option.some.injEq, Prod.mk.injEq] at h2'
  refine ⟨h2'.1, ?_⟩
  rw [← numbered_save _ _ hn hd, ← numbered_save _ _ hn' hd', h2'.2]

theorem eventText_lost {w : World} {pre : Str} {events : List Nat} {e : Nat} {r : Str × List Str}
    (h : eventText w pre events e = .ok r) :
    (∀ d, dest (w.obj e) = some d → d ∉ events → (∃ a, r.1 = a ++ chars "@NOWHERE>") ∧ ∃ x y, w.repr d = .ok x ∧
      w.repr e = .ok y ∧
      r.2 = [pre ++ chars "(WARNING: " ++ x ++ chars " (target of " ++ y ++ chars ") not in events list!)"]) ∧
    ((∀ d, dest (w.obj e) = some d → d ∈ events) → r.2 = []) := by
  unfold eventText at h
  have key : ∀ (d : Nat), (destination w pre events e d >>= fun r => pure (evText (fun _ => r.1) (w.obj e), r.2)) = .ok r →
      (d ∉ events → r.1 = evText (fun _ => chars "@NOWHERE") (w.obj e) ∧ ∃ x y, w.repr d = .ok x ∧ w.repr e = .ok y ∧
        r.2 = [pre ++ chars "(WARNING: " ++ x ++ chars " (target of " ++ y ++ chars ") not in events list!)"]) ∧
      (d ∈ events → r.2 = []) := by
    intro d h
    obtain ⟨q, hq, h⟩ := bind_eq_ok.1 h
    cases h
    unfold destination indexIn at hq
    by_cases hd : d ∈ events
    · rw [if_pos hd] at hq
      cases hq
      exact ⟨fun h => absurd hd h, fun _ => rfl⟩
    · rw [if_neg hd] at hq
      obtain ⟨x, hx, hq⟩ := bind_eq_ok.1 hq
      obtain ⟨y, hy, hq⟩ := bind_eq_ok.1 hq
      cases hq
      exact ⟨fun _ => ⟨rfl, x, y, hx, hy, rfl⟩, fun h => absurd h hd⟩
  split at h
  · rename_i d he
    obtain ⟨h1, h2⟩ := key d h
    rw [he] at h1 ⊢
    refine ⟨?_, fun h => h2 (h d rfl)⟩
    rintro _ ⟨⟩ hd
    exact ⟨⟨chars "<jump ", by rw [(h1 hd).1]; simp [evText, chars, lit]⟩, (h1 hd).2⟩
  · rename_i d he
    obtain ⟨h1, h2⟩ := key d h
    rw [he] at h1 ⊢
    refine ⟨?_, fun h => h2 (h d rfl)⟩
    rintro _ ⟨⟩ hd
    exact ⟨⟨chars "<call ", by rw [(h1 hd).1]; simp [evText, chars, lit]⟩, (h1 hd).2⟩
  · rename_i n d he
    obtain ⟨h1, h2⟩ := key d h
    rw [he] at h1 ⊢
    refine ⟨?_, fun h => h2 (h d rfl)⟩
    rintro _ ⟨⟩ hd
    exact ⟨⟨chars "<begin track " ++ Model.Repr.reprInt n ++ chars " ", by rw [(h1 hd).1]; simp [evText, chars, lit]⟩, (h1 hd).2⟩
  · cases h
    refine ⟨fun d hd => ?_, fun _ => rfl⟩
    cases ho : w.obj e <;> rw [ho] at hd <;> cases hd <;> simp_all

/-- The line that warns of an event (the first) whose destination (the second) is not in the list. -/
def warning (w : World) (p : Nat × Nat) : Py Str := do
  let x ← w.repr p.2
  let y ← w.repr p.1
  return chars "  (WARNING: " ++ x ++ chars " (target of " ++ y ++ chars ") not in events list!)"

theorem eventLoop_lost {w : World} {events : List Nat} {names : List (Nat × Str)} {width numLen : Nat} :
    ∀ {rest : List Nat} {i : Nat} {r : List Str × List Str},
    eventLoop w (lit "  ") events names width numLen i rest = .ok r → r.1.length = rest.length ∧
      mapE (warning w) (rest.filterMap fun e => (dest (w.obj e)).bind fun d => if d ∈ events then none else some (e, d)) =
        .ok r.2 ∧
      ∀ (j e d : Nat), rest[j]? = some e → dest (w.obj e) = some d → d ∉ events →
        ∃ a, r.1[j]? = some (a ++ chars "@NOWHERE>" ++ [44])
  | [], _, _, h => by cases h; exact ⟨rfl, rfl, by simp⟩
  | e :: rest, i, _, h => by
    obtain ⟨t, ht, h⟩ := bind_eq_ok.1 h
    obtain ⟨r, hr, h⟩ := bind_eq_ok.1 h
    cases h
    obtain ⟨h1, h2, h3⟩ := eventLoop_lost hr
    obtain ⟨h4, h5⟩ := eventText_lost ht
    refine ⟨by simp [h1], ?_, ?_⟩
    · rw [List.filterMap_cons]
      cases hd : dest (w.obj e) with
      | none =>
        rw [h5 (by rw [hd]; exact nofun)]
        exact h2
      | some d =>
        by_cases hm : d ∈ events
        · rw [h5 (by rw [hd]; rintro _ ⟨⟩; exact hm)]
          simp only [Option.bind_some, if_pos hm]
          exact h2
        · obtain ⟨-, x, y, hx, hy, e2⟩ := h4 d hd hm
          simp only [Option.bind_some, if_neg hm]
          rw [mapE_cons_ok]
          refine ⟨chars "  (WARNING: " ++ x ++ chars " (target of " ++ y ++ chars ") not in events list!)", r.2, ?_, h2, ?_⟩
          · unfold warning
            rw [hx, bind_ok, hy, bind_ok]
            rfl
          · rw [e2]
            rfl
    · intro j e' d hj hd hm
      cases j with
      | zero =>
        cases hj
        obtain ⟨⟨a, ha⟩, -⟩ := h4 d hd hm
        exact ⟨_, by rw [List.getElem?_cons_zero, ha, ← List.append_assoc]; rfl⟩
      | succ j => exact h3 j e' d hj hd hm

/-- C129: an event whose destination is not in the list is printed with `@NOWHERE`, and a line above the events warns of
it, naming the event and its destination. -/
theorem sseq_str_lost (w : World) (f : Fields) (events : List Nat) (t : Str) (hne : events ≠ [])
    (h : strSSEQ w f (some events) = .ok t) : ∃ warnings lines,
      t = Model.Repr.join [10] ((lit "<sseq " ++ fieldsText f) :: (warnings ++ lines ++ [lit ">"])) ∧
      mapE (warning w) (lost w.obj events) = .ok warnings ∧ lines.length = events.length ∧
      ∀ (i e d : Nat), events[i]? = some e → dest (w.obj e) = some d → d ∉ events →
        ∃ a b, lines[i]? = some (a ++ chars "@NOWHERE>" ++ b) ∧ (b = [] ∨ b = [44]) := by
  unfold strSSEQ at h
  obtain ⟨u, hu, h⟩ := bind_eq_ok.1 h
  cases h
  unfold printList at hu
  rw [labelLoop, bind_ok] at hu
  obtain ⟨⟨ls, ws⟩, hr, hu⟩ := bind_eq_ok.1 hu
  dsimp only at hu
  rw [if_neg (by simpa using hne), List.nil_append, List.nil_append] at hu
  cases hu
  obtain ⟨h1, h2, h3⟩ := eventLoop_lost hr
  have hl : ls ≠ [] := by
    intro e
    rw [e] at h1
    exact hne (List.length_eq_zero_iff.1 h1.symm)
  obtain ⟨init, last, rfl⟩ : ∃ init last, ls = init ++ [last] := ⟨_, _, (List.dropLast_concat_getLast hl).symm⟩
  have hc : cutLast (init ++ [last]) = init ++ [last.dropLast] := by simp [cutLast]
  rw [hc]
  refine ⟨ws, init ++ [last.dropLast], ?_, h2, ?_, ?_⟩
  · rw [Proofs.EventText.join_lines _ _ (by simp)]
  · simpa using h1
  · intro i e d hi hd hm
    obtain ⟨a, ha⟩ := h3 i e d hi hd hm
    by_cases hlt : i < init.length
    · rw [List.getElem?_append_left hlt] at ha ⊢
      exact ⟨a, _, ha, .inr rfl⟩
    · rw [List.getElem?_append_right (by omega)] at ha ⊢
      have h0 : i - init.length = 0 := by
        rw [List.getElem?_eq_some_iff] at ha
        obtain ⟨h, -⟩ := ha
        simpa using h
      rw [h0] at ha ⊢
      refine ⟨a, [], ?_, .inl rfl⟩
      rw [List.getElem?_cons_zero] at ha ⊢
      cases ha
      rw [List.dropLast_concat, List.append_nil]

/-- C129 is false of a portamento on/off event with a value other than 0 and 1: it prints like a portamento event, which
saves as other bytes. -/
theorem portamento_str :
    strEvent id (.simple .portamento 5) = strEvent id (.simple .portamentoOnOff 5) ∧
      (∀ b b', (Ev.simple .portamento 5).save (fun _ => none) = .ok b →
        (Ev.simple .portamentoOnOff 5).save (fun _ => none) = .ok b' → b ≠ b') := by
  refine ⟨rfl, ?_⟩
  intro b b' h h'
  cases h
  cases h'
  decide

/-- C129 is false of sequence archives: sequences without names share one entry of the dictionary of labels, so the archive
prints as if it had only the last of them. -/
theorem ssar_unnamed (w : World) (a b : Nat) (events : Option (List Nat)) (h : events ≠ none) :
    strSSAR w [(none, some a), (none, some b)] events = strSSAR w [(none, some b)] events := by
  cases events with
  | none => exact absurd rfl h
  | some e => rfl

/-! ## Examples -/

/-- A tune that repeats. -/
def tune : World := ⟨id, fun i => match i with
  | 10 => .defineTracks [0, 3]
  | 20 => .beginTrack 3 60
  | 30 => .tempo 120
  | 40 => .note 60 127 false 48
  | 50 => .jump 40
  | 60 => .random 0xC1 [] (-3) 5
  | 70 => .raw [39, 10, 200]
  | _ => .endTrack, id, 5⟩

def list : List Nat := [10, 20, 30, 40, 50, 60, 70, 80]

example : Closed tune.obj list ∧ list.Nodup ∧ (∀ e ∈ list, EvOk (tune.obj e)) ∧ (∀ e ∈ list, Clear (tune.obj e)) := by
  refine ⟨?_, by decide, ?_, ?_⟩ <;> simp [list, tune, Closed, dest, EvOk, Clear]

example : strSSEQ tune ⟨1, 127, 64, 50, 2⟩ (some list) = .ok (lit "<sseq bankID=1 volume=127 channelPressure=64 polyphonicPressure=50 playerID=2
     [0] <define tracks 0 3>,
     [1] <begin track 3 @5>,
     [2] <tempo 120>,
     [3] <c' velocity=127 duration=48>,
     [4] <jump @3>,
     [5] <random 0xc1 (-3, 5)>,
     [6] <raw data b\"'\\n\\xc8\">,
     [7] <end track>
>") := by decide +kernel

-- the destination of the jump is missing
example : lost tune.obj [50, 80] = [(50, 40)] ∧ (strSSEQ tune ⟨1, 127, 64, 50, 2⟩ (some [50, 80])).isOk ∧
    (warning tune (50, 40)).isOk := by decide +kernel

example : strTrack tune [30, 80] = .ok (lit "<track
     [0] <tempo 120>,
     [1] <end track>
>") := by decide +kernel

example : numbered tune.obj list = [(0, .defineTracks [0, 3]), (1, .beginTrack 3 5), (2, .tempo 120), (3, .note 60 127 false 48),
    (4, .jump 3), (5, .random 0xC1 [] (-3) 5), (6, .raw [39, 10, 200]), (7, .endTrack)] := by decide +kernel

end Verif.Props.EventText
