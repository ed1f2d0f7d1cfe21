import Verif.Spec.SequenceObject
import Verif.Props.SequenceArchive

/-!
# Properties of `SSEQ` and `SSAR` objects over any run of operations (C114)
-/

namespace Verif.Props.SequenceObject

open Verif Verif.Model.SoundSequence Verif.Model.SoundSequenceArchive Verif.Model.SequenceObject
open Verif.Spec.SequenceObject

/-! ## SSEQ -/

/-- Every `parse` among the operations raises, with what `.eventsData` is at that point. -/
def ParsesFail (depth : Nat) (d : Bytes) (ops : List SSEQOp) : Prop :=
  ∀ pre post, ops = pre ++ .parse :: post → ∃ e, readSequenceEvents depth (lastData d pre) [] = .error e

theorem sseq_init (file : Bytes) (o : SSEQObj) (h : SSEQObj.init (some file) = .ok o) :
    ∃ d, o = ⟨[], some d, false⟩ ∧ SSEQ.load file = .ok (.unparsed d) := by
  unfold SSEQObj.init at h
  simp only [bind_eq_ok, pure_eq_ok] at h
  obtain ⟨_, h1, v, h2, n, h3, _, h4, f, h5, rfl⟩ := h
  refine ⟨_, rfl, ?_⟩
  unfold SSEQ.load
  simp only [bind_eq_ok, pure_eq_ok]
  exact ⟨_, h1, v, h2, n, h3, _, h4, f, h5, rfl⟩

theorem sseq_run_unparsed (depth : Nat) : ∀ (ops : List SSEQOp) (es : List (Nat × Ev)) (d : Bytes),
    ParsesFail depth d ops →
    ((SSEQObj.mk es (some d) false).run depth ops).2 = ⟨lastEvents es ops, some (lastData d ops), false⟩
  | [], _, _, _ => rfl
  | op :: ops, es, d, h => by
    have ht : ∀ d', lastData d' ops = lastData d (op :: ops) →
        (∀ pre, lastData d' pre = lastData d (op :: pre)) → ParsesFail depth d' ops := by
      intro d' _ h2 pre post e
      obtain ⟨x, hx⟩ := h (op :: pre) post (by rw [e]; rfl)
      exact ⟨x, by rw [h2]; exact hx⟩
    cases op with
    | parse =>
      obtain ⟨e, he⟩ := h [] ops rfl
      simp only [lastData] at he
      have := sseq_run_unparsed depth ops es d (ht d rfl fun _ => rfl)
      rw [SSEQObj.run]
      simp only [SSEQObj.step, SSEQObj.parse, Bool.false_eq_true, if_false, he]
      rw [this]; rfl
    | setEvents v => exact sseq_run_unparsed depth ops v d (ht d rfl fun _ => rfl)
    | setEventsData v => exact sseq_run_unparsed depth ops es v (ht v rfl fun _ => rfl)
    | getEvents => exact sseq_run_unparsed depth ops es d (ht d rfl fun _ => rfl)
    | getEventsData => exact sseq_run_unparsed depth ops es d (ht d rfl fun _ => rfl)
    | getParsed => exact sseq_run_unparsed depth ops es d (ht d rfl fun _ => rfl)
    | setParsed v => exact sseq_run_unparsed depth ops es d (ht d rfl fun _ => rfl)
    | save => exact sseq_run_unparsed depth ops es d (ht d rfl fun _ => rfl)

theorem sseq_run_parsed (depth : Nat) : ∀ (ops : List SSEQOp) (es : List (Nat × Ev)) (d : Option Bytes),
    ∃ d', ((SSEQObj.mk es d true).run depth ops).2 = ⟨lastEvents es ops, d', true⟩
  | [], _, d => ⟨d, rfl⟩
  | op :: ops, es, d => by
    cases op with
    | parse => exact sseq_run_parsed depth ops es d
    | setEvents v => exact sseq_run_parsed depth ops v d
    | setEventsData v => exact sseq_run_parsed depth ops es (some v)
    | getEvents => exact sseq_run_parsed depth ops es d
    | getEventsData => exact sseq_run_parsed depth ops es d
    | getParsed => exact sseq_run_parsed depth ops es d
    | setParsed v => exact sseq_run_parsed depth ops es d
    | save => exact sseq_run_parsed depth ops es d

theorem sseq_run_append (depth : Nat) : ∀ (a b : List SSEQOp) (o : SSEQObj),
    (o.run depth (a ++ b)).2 = ((o.run depth a).2.run depth b).2
  | [], _, _ => rfl
  | op :: a, b, o => sseq_run_append depth a b (o.step depth op).2

/-- C114: as long as no `parse()` has succeeded, an object loaded from a file holds the data last assigned to
`.eventsData`, and at first that of the file.  Saving writes just that, `.events` cannot be read, and failed attempts at
parsing and assignments to `.events` have no effect at all. -/
theorem sseq_before_parse (file d : Bytes) (o s : SSEQObj) (depth : Nat) (ops : List SSEQOp)
    (hl : SSEQ.load file = .ok (.unparsed d)) (ho : SSEQObj.init (some file) = .ok o) (hf : ParsesFail depth d ops)
    (hs : s = (o.run depth ops).2) :
    s.parsed = false ∧ s.getEventsData = .ok (lastData d ops) ∧ s.getEvents = .error .valueError ∧
    s.save = (SSEQ.unparsed (lastData d ops)).save := by
  obtain ⟨d', rfl, hd⟩ := sseq_init file o ho
  rw [hl] at hd
  cases hd
  rw [sseq_run_unparsed depth ops [] d hf] at hs
  subst hs
  exact ⟨rfl, rfl, rfl, rfl⟩

/-- C114: once `parse()` has succeeded, the object holds the events last assigned to `.events` since, and at first those
read from the data it held; saving writes just those, and nothing can be read from `.eventsData` any more.  It stays so
whatever is done. -/
theorem sseq_after_parse (file d : Bytes) (o s : SSEQObj) (depth : Nat) (pre post : List SSEQOp)
    (es : List (Nat × Ev)) (n : List Nat)
    (hl : SSEQ.load file = .ok (.unparsed d)) (ho : SSEQObj.init (some file) = .ok o) (hf : ParsesFail depth d pre)
    (hp : readSequenceEvents depth (lastData d pre) [] = .ok (es, n))
    (hs : s = (o.run depth (pre ++ .parse :: post)).2) :
    s.parsed = true ∧ s.getEvents = .ok (lastEvents es post) ∧ s.getEventsData = .error .valueError ∧
    s.save = (SSEQ.parsed (lastEvents es post)).save := by
  obtain ⟨d', rfl, hd⟩ := sseq_init file o ho
  rw [hl] at hd
  cases hd
  rw [sseq_run_append, sseq_run_unparsed depth pre [] d hf, SSEQObj.run] at hs
  simp only [SSEQObj.step, SSEQObj.parse, Bool.false_eq_true, if_false, hp] at hs
  obtain ⟨d', hr⟩ := sseq_run_parsed depth post es (some (lastData d pre))
  rw [hr] at hs
  subst hs
  exact ⟨rfl, rfl, rfl, rfl⟩

/-- C114: an object made from events holds the events last assigned to it, whatever else is done. -/
theorem sseq_from_events (es : List (Nat × Ev)) (o s : SSEQObj) (depth : Nat) (ops : List SSEQOp)
    (ho : SSEQObj.fromEvents es = .ok o) (hs : s = (o.run depth ops).2) :
    s.parsed = true ∧ s.getEvents = .ok (lastEvents es ops) ∧ s.getEventsData = .error .valueError ∧
    s.save = (SSEQ.parsed (lastEvents es ops)).save := by
  cases ho
  obtain ⟨d', hr⟩ := sseq_run_parsed depth ops es none
  rw [hs]
  dsimp only
  rw [hr]
  exact ⟨rfl, rfl, rfl, rfl⟩

/-- C114, the negative side: that saving writes what was assigned to `.events` is false.  With an object loaded from a
file, the assignment goes through without an exception, and is lost. -/
theorem sseq_assignment_lost (file : Bytes) (o : SSEQObj) (depth : Nat) (es : List (Nat × Ev))
    (ho : SSEQObj.init (some file) = .ok o) :
    (o.run depth [.setEvents es, .save]).1 = [.ok .none, (o.save).map .file] ∧
    (o.run depth [.setEvents es, .parse]).2 = { (o.run depth [.parse]).2 with
      events := if (o.run depth [.parse]).2.parsed then (o.run depth [.parse]).2.events else es } := by
  obtain ⟨d, rfl, -⟩ := sseq_init file o ho
  constructor
  · rfl
  · simp only [SSEQObj.run, SSEQObj.step, SSEQObj.parse, Bool.false_eq_true, if_false]
    cases readSequenceEvents depth d [] <;> rfl

/-- A file with a rest and the end of the track. -/
def exFile : Bytes :=
  [0x53, 0x53, 0x45, 0x51, 0xFF, 0xFE, 0, 1, 0x1F, 0, 0, 0, 0x10, 0, 1, 0, 0x44, 0x41, 0x54, 0x41, 0xF, 0, 0, 0,
   0x1C, 0, 0, 0, 0x80, 5, 0xFF]

example : SSEQ.load exFile = .ok (.unparsed [0x80, 5, 0xFF]) ∧
    SSEQObj.init (some exFile) = .ok ⟨[], some [0x80, 5, 0xFF], false⟩ := by decide +kernel
example : (SSEQObj.mk [] (some [0x80, 5, 0xFF]) false).run 9
      [.setEvents [(7, .endTrack)], .save, .setEventsData [0x80], .parse, .getEvents, .getEventsData,
       .setEventsData [0xFF], .parse, .getEvents, .getEventsData, .setParsed false, .getParsed] =
    ([.ok .none, .ok (.file exFile), .ok .none, .error .eofError, .error .valueError, .ok (.data [0x80]),
      .ok .none, .ok .none, .ok (.events [(0, .endTrack)]), .error .valueError, .error .runtimeError,
      .ok (.flag true)], ⟨[(0, .endTrack)], some [0xFF], true⟩) := by decide +kernel

/-! ## SSAR -/

/-- Every `parse` among the operations raises, with what `.eventsData` and `.sequences` are at that point. -/
def ArParsesFail (depth : Nat) (d : Bytes) (ss : List (Option Str × Sequence)) (ops : List SSAROp) : Prop :=
  ∀ pre post, ops = pre ++ .parse :: post → ∃ e,
    (startOffsets (arSequences ss pre) >>= fun offs => readSequenceEvents depth (arData d pre) offs) = .error e

theorem ssar_init (file : Bytes) (u : Nat) (names : List (Option Str)) (o : SSARObj)
    (h : SSARObj.init (some file) u names = .ok o) :
    ∃ d ss, o = ⟨u, ss, none, some d, false⟩ ∧ SSAR.load file u names = .ok ⟨u, ss, .unparsed d⟩ := by
  unfold SSARObj.init at h
  simp only [bind_eq_ok] at h
  obtain ⟨a, ha, h⟩ := h
  have hu : a.unk02 = u := by
    unfold SSAR.load at ha
    simp only [bind_eq_ok, pure_eq_ok] at ha
    obtain ⟨_, _, _, _, _, _, _, _, _, _, _, _, _, _, _, _, _, _, _, _, rfl⟩ := ha
    rfl
  obtain ⟨u', ss, ev⟩ := a
  cases hu
  cases ev with
  | parsed es => cases h
  | unparsed d =>
    cases h
    exact ⟨d, ss, rfl, ha⟩

theorem ssar_parse_fails {depth : Nat} {o : SSARObj} {d : Bytes} {e : PyErr} (hp : o.parsed = false)
    (hd : o.eventsData = some d)
    (he : (startOffsets o.sequences >>= fun offs => readSequenceEvents depth d offs) = .error e) :
    (o.parse depth).2 = o := by
  unfold SSARObj.parse
  rw [hp, hd]
  simp only [Bool.false_eq_true, if_false]
  cases h1 : startOffsets o.sequences with
  | error e => rfl
  | ok offs =>
    rw [h1, bind_ok] at he
    simp only [he]

theorem ssar_run_unparsed (depth u : Nat) : ∀ (ops : List SSAROp) (ss : List (Option Str × Sequence))
    (es : Option (List (Nat × Ev))) (d : Bytes), ArParsesFail depth d ss ops →
    ∃ es', ((SSARObj.mk u ss es (some d) false).run depth ops).2 =
      ⟨u, arSequences ss ops, es', some (arData d ops), false⟩
  | [], _, es, _, _ => ⟨es, rfl⟩
  | op :: ops, ss, es, d, h => by
    have ht : ∀ d' ss', (∀ pre, arData d' pre = arData d (op :: pre)) →
        (∀ pre, arSequences ss' pre = arSequences ss (op :: pre)) → ArParsesFail depth d' ss' ops := by
      intro d' ss' h1 h2 pre post e
      obtain ⟨x, hx⟩ := h (op :: pre) post (by rw [e]; rfl)
      exact ⟨x, by rw [h1, h2]; exact hx⟩
    cases op with
    | parse =>
      obtain ⟨e, he⟩ := h [] ops rfl
      simp only [arData, arSequences] at he
      rw [SSARObj.run]
      simp only [SSARObj.step]
      rw [ssar_parse_fails (o := ⟨u, ss, es, some d, false⟩) rfl rfl he]
      exact ssar_run_unparsed depth u ops ss es d (ht d ss (fun _ => rfl) fun _ => rfl)
    | setEvents v => exact ssar_run_unparsed depth u ops ss (some v) d (ht d ss (fun _ => rfl) fun _ => rfl)
    | setEventsData v => exact ssar_run_unparsed depth u ops ss es v (ht v ss (fun _ => rfl) fun _ => rfl)
    | setSequences v => exact ssar_run_unparsed depth u ops v es d (ht d v (fun _ => rfl) fun _ => rfl)
    | getEvents => exact ssar_run_unparsed depth u ops ss es d (ht d ss (fun _ => rfl) fun _ => rfl)
    | getEventsData => exact ssar_run_unparsed depth u ops ss es d (ht d ss (fun _ => rfl) fun _ => rfl)
    | getSequences => exact ssar_run_unparsed depth u ops ss es d (ht d ss (fun _ => rfl) fun _ => rfl)
    | save => exact ssar_run_unparsed depth u ops ss es d (ht d ss (fun _ => rfl) fun _ => rfl)

theorem ssar_run_parsed (depth u : Nat) : ∀ (ops : List SSAROp) (ss : List (Option Str × Sequence))
    (es : List (Nat × Ev)) (d : Option Bytes),
    ∃ d', ((SSARObj.mk u ss (some es) d true).run depth ops).2 =
      ⟨u, arSequences ss ops, some (arEvents es ops), d', true⟩
  | [], _, _, d => ⟨d, rfl⟩
  | op :: ops, ss, es, d => by
    cases op with
    | parse => exact ssar_run_parsed depth u ops ss es d
    | setEvents v => exact ssar_run_parsed depth u ops ss v d
    | setEventsData v => exact ssar_run_parsed depth u ops ss es (some v)
    | setSequences v => exact ssar_run_parsed depth u ops v es d
    | getEvents => exact ssar_run_parsed depth u ops ss es d
    | getEventsData => exact ssar_run_parsed depth u ops ss es d
    | getSequences => exact ssar_run_parsed depth u ops ss es d
    | save => exact ssar_run_parsed depth u ops ss es d

theorem ssar_run_append (depth : Nat) : ∀ (a b : List SSAROp) (o : SSARObj),
    (o.run depth (a ++ b)).2 = ((o.run depth a).2.run depth b).2
  | [], _, _ => rfl
  | op :: a, b, o => ssar_run_append depth a b (o.step depth op).2

/-- C114 for archives: as long as no `parse()` has succeeded, saving writes the sequences and the data last assigned, and
at first those of the file. -/
theorem ssar_before_parse (file d : Bytes) (u : Nat) (names : List (Option Str)) (ss : List (Option Str × Sequence))
    (o s : SSARObj) (depth : Nat) (ops : List SSAROp)
    (hl : SSAR.load file u names = .ok ⟨u, ss, .unparsed d⟩) (ho : SSARObj.init (some file) u names = .ok o)
    (hf : ArParsesFail depth d ss ops) (hs : s = (o.run depth ops).2) :
    s.parsed = false ∧ s.getEventsData = .ok (arData d ops) ∧ s.getEvents = .error .valueError ∧
    s.sequences = arSequences ss ops ∧ s.save = (SSAR.mk u (arSequences ss ops) (.unparsed (arData d ops))).save := by
  obtain ⟨d', ss', rfl, hd⟩ := ssar_init file u names o ho
  rw [hl] at hd
  cases hd
  obtain ⟨es', hr⟩ := ssar_run_unparsed depth u ops ss none d hf
  rw [hr] at hs
  subst hs
  exact ⟨rfl, rfl, rfl, rfl, rfl⟩

/-- C114 for archives: once `parse()` has succeeded, saving writes the sequences and the events last assigned since, and
at first those read, with the first events attached. -/
theorem ssar_after_parse (file d : Bytes) (u : Nat) (names : List (Option Str)) (ss : List (Option Str × Sequence))
    (o s : SSARObj) (depth : Nat) (pre post : List SSAROp) (a : SSAR) (es : List (Nat × Ev))
    (hl : SSAR.load file u names = .ok ⟨u, ss, .unparsed d⟩) (ho : SSARObj.init (some file) u names = .ok o)
    (hf : ArParsesFail depth d ss pre)
    (hp : (SSAR.mk u (arSequences ss pre) (.unparsed (arData d pre))).parse depth = .ok a) (he : a.events = .parsed es)
    (hs : s = (o.run depth (pre ++ .parse :: post)).2) :
    s.parsed = true ∧ s.getEvents = .ok (some (arEvents es post)) ∧ s.getEventsData = .error .valueError ∧
    s.sequences = arSequences a.sequences post ∧
    s.save = (SSAR.mk u (arSequences a.sequences post) (.parsed (arEvents es post))).save := by
  obtain ⟨d', ss', rfl, hd⟩ := ssar_init file u names o ho
  rw [hl] at hd
  cases hd
  obtain ⟨es', hr⟩ := ssar_run_unparsed depth u pre ss none d hf
  unfold SSAR.parse at hp
  simp only [bind_eq_ok, pure_eq_ok] at hp
  obtain ⟨offs, h1, r, h2, rfl⟩ := hp
  cases he
  rw [ssar_run_append, hr, SSARObj.run] at hs
  simp only [SSARObj.step, SSARObj.parse, Bool.false_eq_true, if_false, h1, h2] at hs
  obtain ⟨d', hr'⟩ := ssar_run_parsed depth u post
    ((arSequences ss pre).map fun s => (s.1, s.2.attach)) r.1 none
  rw [hr'] at hs
  subst hs
  exact ⟨rfl, rfl, rfl, rfl, rfl⟩

/-- C114 for archives made from events and sequences. -/
theorem ssar_from_events (es : List (Nat × Ev)) (ss : List (Option Str × Sequence)) (u : Nat) (o s : SSARObj)
    (depth : Nat) (ops : List SSAROp) (ho : SSARObj.fromEventsAndSequences es ss u = .ok o)
    (hs : s = (o.run depth ops).2) :
    s.parsed = true ∧ s.getEvents = .ok (some (arEvents es ops)) ∧ s.getEventsData = .error .valueError ∧
    s.sequences = arSequences ss ops ∧
    s.save = (SSAR.mk u (arSequences ss ops) (.parsed (arEvents es ops))).save := by
  cases ho
  obtain ⟨d', hr⟩ := ssar_run_parsed depth u ops ss es none
  rw [hs]
  dsimp only
  rw [hr]
  exact ⟨rfl, rfl, rfl, rfl, rfl⟩

/-- An archive with one sequence, at the beginning of the data. -/
def exArchive : Bytes :=
  [0x53, 0x53, 0x41, 0x52, 0xFF, 0xFE, 0, 1, 0x2F, 0, 0, 0, 0x10, 0, 1, 0, 0x44, 0x41, 0x54, 0x41, 0x1F, 0, 0, 0,
   0x2C, 0, 0, 0, 1, 0, 0, 0, 0, 0, 0, 0, 3, 0, 127, 64, 50, 1, 0, 0, 0x80, 5, 0xFF]

example : SSARObj.init (some exArchive) 0 [] =
      .ok ⟨0, [(none, ⟨.unparsed (some 0), 3, 127, 64, 50, 1⟩)], none, some [0x80, 5, 0xFF], false⟩ ∧
    (SSARObj.mk 0 [(none, ⟨.unparsed (some 0), 3, 127, 64, 50, 1⟩)] none (some [0x80, 5, 0xFF]) false).run 9
      [.setEvents [], .save, .parse, .save, .setSequences [], .setEvents [(4, .endTrack)], .save] =
    ([.ok .none, .ok (.saved (exArchive, 0, [none])), .ok .none, .ok (.saved (exArchive, 0, [none])), .ok .none,
      .ok .none, .ok (.saved (exArchive.take 8 ++ [0x21, 0, 0, 0, 0x10, 0, 1, 0, 0x44, 0x41, 0x54, 0x41, 0x11, 0, 0, 0,
        0x20, 0, 0, 0, 0, 0, 0, 0, 0xFF], 0, []))], ⟨0, [], some [(4, .endTrack)], none, true⟩) := by
  decide +kernel

end Verif.Props.SequenceObject
