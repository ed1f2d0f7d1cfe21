import Verif.Proofs.ReprArchive
import Verif.Proofs.EventText
import Verif.Props.SoundArchiveObjectSave

/-!
# C143: what `repr()` of sequence archives, sound archives, ROMs, tracks and songs evaluates to

`Evaluates s f x`: the text `s` is an expression, and evaluating it with the constructors of the class (`f`) gives an
object with the attributes of `x`.  Data with a quote in it are left out (C49).
-/

namespace Verif.Props.ReprArchive

open Verif Verif.Model Verif.Spec.PyExpr Verif.Spec.Repr Verif.Spec.ReprArchive Verif.Model.ReprArchive
open Verif.Proofs.ReprArchive Verif.Proofs.ReprSound Verif.Proofs.ReprClasses Verif.Model.SoundArchiveObject
open Verif.Model.SoundSequence (Ev)
open Verif.Model.SoundSequenceArchive (First Sequence)
open Verif.Model.SequenceObject (SSARObj)

/-! ## Sequences of an archive -/

/-- A sequence whose text can be made evaluates back if and only if it begins nowhere, at an offset other than -1, or with
an event that evaluates back; otherwise the text is no expression or that of another sequence. -/
theorem repr_sequence_partial (order : List Nat → List Nat) (ho : ∀ l, (order l).Perm l) (obj : Nat → Ev) (addr : Nat → Nat)
    (f : Nat) (s : Sequence) (hs : ∀ i l, s.first = .parsed (some i) → obj i = .defineTracks l → l.Pairwise (· < ·)) (t : Str)
    (h : reprSequence order obj addr f s = .ok t) :
    Evaluates t sequence (sequenceHeld obj s) ↔ FirstPrintable obj s.first := by
  rcases sequence_text h with ⟨hp, hr⟩ | ⟨hp, hb, _⟩
  · have hv := evaluates_of hr (sequence_eval order obj s hp)
    rw [← sequenceV_eq ho obj s hs hp]
    constructor
    · exact fun h' => evaluates_unique hv h'
    · intro e
      rwa [e] at hv
  · constructor
    · rintro ⟨x, hx, _⟩
      exact absurd hx (hb.not_parses x)
    · intro h'
      refine absurd ?_ hp
      cases hf : s.first with
      | unparsed o => trivial
      | parsed e =>
        cases e with
        | none => trivial
        | some i =>
          rw [hf] at h'
          exact (h' i rfl).1

/-- The text of a sequence that is not parsed can always be made, and of one without a first event. -/
theorem repr_sequence_ok (order : List Nat → List Nat) (obj : Nat → Ev) (addr : Nat → Nat) (f : Nat) (s : Sequence)
    (h : ∀ i, s.first ≠ .parsed (some i)) : ∃ t, reprSequence order obj addr f s = .ok t := by
  unfold reprSequence
  cases hf : s.first with
  | unparsed o => exact ⟨_, rfl⟩
  | parsed e =>
    cases e with
    | none => exact ⟨_, rfl⟩
    | some i => exact absurd hf (h i)

example : reprSequence id (fun _ => .rest 4) id 5 ⟨.unparsed (some 20), 1, 2, 3, 4, 5⟩ =
      .ok (str "SSARSequence(20, 1, 2, 3, 4, 5, parsed=False)") ∧
    reprSequence id (fun _ => .rest 4) id 5 ⟨.unparsed none, 1, 2, 3, 4, 5⟩ =
      .ok (str "SSARSequence(None, 1, 2, 3, 4, 5, parsed=False)") ∧
    reprSequence id (fun _ => .rest 4) id 5 ⟨.parsed (some 0), 1, 2, 3, 4, 5⟩ =
      .ok (str "SSARSequence(RestSequenceEvent(4), 1, 2, 3, 4, 5)") := by decide +kernel

/-! ## Parsed archives -/

/-- A parsed archive whose text can be made evaluates back, but for the identities of the events, if and only if its
unknown value is 0 and all its events and all its sequences evaluate back. -/
theorem repr_ssar_partial (printable : Nat → Bool) (order : List Nat → List Nat) (ho : ∀ l, (order l).Perm l) (obj : Nat → Ev)
    (addr : Nat → Nat) (f : Nat) (a : SSARObj) (hp : a.parsed = true) (events : List (Nat × Ev)) (he : a.events = some events)
    (hn : ∀ s ∈ a.sequences, ∀ n, s.1 = some n → ∀ c ∈ n, c < 0x110000)
    (hd : ∀ i l, (i, .defineTracks l) ∈ events → l.Pairwise (· < ·))
    (hs : ∀ s ∈ a.sequences, ∀ i l, s.2.first = .parsed (some i) → obj i = .defineTracks l → l.Pairwise (· < ·)) (t : Str)
    (h : reprSSAR printable order obj addr f a = .ok t) :
    Evaluates t ssarEvents ⟨events.map Prod.snd, a.sequences.map fun s => (s.1, sequenceHeld obj s.2), a.unk02⟩ ↔
      a.unk02 = 0 ∧ (∀ i e, (i, e) ∈ events → Printable e) ∧ ∀ s ∈ a.sequences, FirstPrintable obj s.2.first := by
  have plain_of : ∀ x, FirstPrintable obj x → plainFirst obj x := by
    intro x hx
    cases x with
    | unparsed o => trivial
    | parsed e =>
      cases e with
      | none => trivial
      | some i => exact (hx i rfl).1
  rcases ssar_text hp he hn h with ⟨⟨g1, g2⟩, hr⟩ | ⟨hg, hb⟩
  · have hv := evaluates_of hr (ssar_eval order obj _ _ g1 g2)
    have e1 : (events.map Prod.snd).map (eventV order) = events.map Prod.snd ↔ ∀ i e, (i, e) ∈ events → Printable e := by
      rw [List.map_map]
      constructor
      · intro h' i e hm
        have := List.map_inj_left.1 h' (i, e) hm
        exact ⟨g1 e (List.mem_map_of_mem hm), (eventV_eq ho e (fun l el => hd i l (el ▸ hm))).1 this⟩
      · intro h'
        refine List.map_congr_left fun x hx => ?_
        exact (eventV_eq ho x.2 (fun l el => hd x.1 l (by rw [← el]; exact hx))).2 (h' x.1 x.2 hx).2
    have e2 : (a.sequences.map fun s => (s.1, sequenceV order obj s.2)) = (a.sequences.map fun s => (s.1, sequenceHeld obj s.2)) ↔
        ∀ s ∈ a.sequences, FirstPrintable obj s.2.first := by
      rw [List.map_inj_left]
      constructor
      · intro h' s hm
        exact (sequenceV_eq ho obj s.2 (hs s hm) (g2 s hm)).1 (Prod.mk.inj (h' s hm)).2
      · intro h' s hm
        rw [(sequenceV_eq ho obj s.2 (hs s hm) (g2 s hm)).2 (h' s hm)]
    rw [← e1, ← e2]
    constructor
    · intro h'
      have := evaluates_unique hv h'
      rw [SSARValue.mk.injEq] at this
      exact ⟨this.2.2.symm, this.1, this.2.1⟩
    · rintro ⟨hu, h1, h2⟩
      rw [h1, h2] at hv
      rw [hu]
      exact hv
  · constructor
    · rintro ⟨x, hx, _⟩
      exact absurd hx (hb.not_parses x)
    · rintro ⟨_, h1, h2⟩
      refine absurd ⟨fun e hm => ?_, fun s hm => plain_of _ (h2 s hm)⟩ hg
      obtain ⟨⟨i, e⟩, hm', rfl⟩ := List.mem_map.1 hm
      exact (h1 i e hm').1

example : reprSSAR (fun _ => true) id (fun _ => .rest 4) id 5 ⟨0, [(some (str "A"), ⟨.parsed (some 0), 1, 2, 3, 4, 5⟩)],
      some [(0, .rest 4)], none, true⟩ =
    .ok (str "SSAR.fromEventsAndSequences([RestSequenceEvent(4)], [('A', SSARSequence(RestSequenceEvent(4), 1, 2, 3, 4, 5))])") := by
  decide +kernel

theorem numberFrom_ids {α : Type} : ∀ (l : List α) (n : Nat), ∀ x ∈ numberFrom n l, n ≤ x.1 ∧ x.1 < n + l.length
  | [], _, _, hx => nomatch hx
  | a :: l, n, x, hx => by
    rcases List.mem_cons.1 hx with rfl | hx
    · simp
    · have := numberFrom_ids l (n + 1) x hx
      simp only [List.length_cons]
      omega

theorem numberFrom_mem {α : Type} : ∀ (l : List α) (n : Nat) (a : α), a ∈ l → ∃ i, (i, a) ∈ numberFrom n l
  | b :: l, n, a, h => by
    rcases List.mem_cons.1 h with rfl | h
    · exact ⟨n, List.mem_cons_self ..⟩
    · obtain ⟨i, hi⟩ := numberFrom_mem l (n + 1) a h
      exact ⟨i, List.mem_cons_of_mem _ hi⟩

theorem startEvents_mem : ∀ {l : List (Option Str × Sequence)} {r : List Nat}, SoundSequenceArchive.startEvents l = .ok r →
    ∀ {s : Option Str × Sequence} {i : Nat}, s ∈ l → s.2.first = .parsed (some i) → i ∈ r
  | x :: l, r, h, s, i, hm, hf => by
    rw [SoundSequenceArchive.startEvents] at h
    cases hx : x.2.first with
    | unparsed o => rw [hx] at h; cases h
    | parsed e =>
      rw [hx] at h
      cases e with
      | none =>
        rcases List.mem_cons.1 hm with rfl | hm
        · rw [hx] at hf; cases hf
        · exact startEvents_mem h hm hf
      | some j =>
        obtain ⟨r', h1, h2⟩ := bind_eq_ok.1 h
        cases h2
        rcases List.mem_cons.1 hm with rfl | hm
        · rw [hx] at hf
          cases hf
          exact List.mem_cons_self ..
        · exact List.mem_cons_of_mem _ (startEvents_mem h1 hm hf)

theorem mapE_error_of {α β : Type} {g : α → Py β} {x : α} {e : PyErr} (hx : g x = .error e) : ∀ {l : List α}, x ∈ l →
    ∀ r, mapE g l ≠ .ok r
  | a :: l, hm, r, h => by
    obtain ⟨b, h1, h⟩ := bind_eq_ok.1 h
    obtain ⟨bs, h2, _⟩ := bind_eq_ok.1 h
    rcases List.mem_cons.1 hm with rfl | hm
    · rw [hx] at h1; cases h1
    · exact mapE_error_of hx hm _ h2

/-- Even then the archive that comes out cannot be saved if a sequence has a first event: that is a new object, and not
one of the events of the archive. -/
theorem repr_ssar_unsavable (v : SSARValue) (n : Option Str) (s : SequenceValue) (hm : (n, s) ∈ v.sequences) (e : Ev)
    (he : s.first = .event (some e)) (r : Bytes × Nat × List (Option Str)) : v.object.save ≠ .ok r := by
  intro h
  unfold SSARObj.save at h
  obtain ⟨p, hp, _⟩ := bind_eq_ok.1 h
  unfold SSARObj.parts SSARValue.object at hp
  rw [if_pos rfl] at hp
  obtain ⟨starts, h1, hp⟩ := bind_eq_ok.1 hp
  obtain ⟨ev, h2, hp⟩ := bind_eq_ok.1 hp
  cases h2
  obtain ⟨r, h3, _⟩ := bind_eq_ok.1 hp
  obtain ⟨i, hi⟩ := numberFrom_mem v.sequences v.events.length (n, s) hm
  have hi' := numberFrom_ids _ _ _ hi
  have hs : i ∈ starts := by
    refine startEvents_mem h1 (s := (n, s.object i)) (List.mem_map.2 ⟨_, hi, rfl⟩) ?_
    unfold SequenceValue.object
    rw [he]
    rfl
  unfold SoundSequence.saveSequenceEvents at h3
  obtain ⟨q, h4, h3⟩ := bind_eq_ok.1 h3
  obtain ⟨d, h5, h3⟩ := bind_eq_ok.1 h3
  obtain ⟨o, h6, h3⟩ := bind_eq_ok.1 h3
  refine mapE_error_of (e := .keyError) ?_ hs o h6
  have hk := Proofs.EventText.place_keys (S := (numberFrom 0 v.events).map Prod.fst) (P := fun _ => True) _ _ _
    (fun e he => ⟨List.mem_map_of_mem he, trivial⟩) (by simp) h4
  have hl : q.1.lookup i = none := by
    rw [List.lookup_eq_none_iff]
    intro x hx
    obtain ⟨y, hy, hy'⟩ := List.mem_map.1 (hk x hx).1
    have := numberFrom_ids _ _ _ hy
    simp only [beq_eq_false_iff_ne, ne_eq, bne_iff_ne]
    omega
  unfold SoundSequence.offsetOf
  dsimp only
  rw [hl]
  rfl

example : let v : SSARValue := ⟨[.rest 4], [(none, ⟨.event (some (.rest 4)), 1, 2, 3, 4, 5⟩)], 0⟩
    v.object.save = .error .keyError ∧
      SSARObj.save ⟨0, [(none, ⟨.parsed (some 0), 1, 2, 3, 4, 5⟩)], some [(0, .rest 4)], none, true⟩ ≠ .error .keyError := by
  decide +kernel

/-! ## Archives that are not parsed -/

/-- The text of an archive that is not parsed is a call with its event data in the place of a file. It evaluates back if
and only if these are at most 32 bytes that are themselves an archive, namely this one. -/
theorem repr_ssar_unparsed_partial (printable : Nat → Bool) (order : List Nat → List Nat) (obj : Nat → Ev) (addr : Nat → Nat)
    (f : Nat) (a : SSARObj) (d : Bytes) (hp : a.parsed = false) (hd : a.eventsData = some d) (hq : 0x27 ∉ d)
    (hn : ∀ s ∈ a.sequences, ∀ n, s.1 = some n → ∀ c ∈ n, c < 0x110000) : ∃ t,
    reprSSAR printable order obj addr f a = .ok t ∧
    (Evaluates t ssarFile a ↔ d.length ≤ 32 ∧ SSARObj.init (some d) 0 (a.sequences.map fun s => some (strName s.1)) = .ok a) := by
  have hn' : ∀ n ∈ a.sequences.map (fun s => strName s.1), ∀ c ∈ n, c < 0x110000 := by
    intro n hm c hc
    obtain ⟨⟨m, s⟩, hs, rfl⟩ := List.mem_map.1 hm
    cases m with
    | none =>
      have : ∀ c ∈ Repr.lit "None", c < 0x110000 := by decide +kernel
      exact this c hc
    | some m => exact hn _ hs m rfl c hc
  refine ⟨Repr.callText "SSAR" [Util.shortBytesRepr d, Repr.kw "names" (Repr.reprList (Repr.reprStr printable)
    (a.sequences.map fun s => strName s.1))], ?_, ?_⟩
  · unfold reprSSAR SSARObj.getEventsData
    rw [hp, hd]
    rfl
  · by_cases hl : d.length ≤ 32
    · have hr := reads_ssarFile printable d _ hl hq hn'
      have he := ssarFile_eval d (a.sequences.map fun s => strName s.1)
      rw [List.map_map] at he
      change _ = (SSARObj.init (some d) 0 (a.sequences.map fun s => some (strName s.1))).toOption at he
      cases hi : SSARObj.init (some d) 0 (a.sequences.map fun s => some (strName s.1)) with
      | error x =>
        rw [hi] at he
        exact ⟨fun h' => absurd h' (not_evaluates hr he a), fun h' => absurd h'.2 (by simp)⟩
      | ok o =>
        rw [hi] at he
        have hv := evaluates_of hr he
        constructor
        · intro h'
          rw [evaluates_unique h' hv]
          exact ⟨hl, rfl⟩
        · rintro ⟨_, h1⟩
          cases h1
          exact hv
    · constructor
      · rintro ⟨x, hpx, _⟩
        exact absurd hpx ((bad_ssarFile d _ (by omega) hq).not_parses x)
      · exact fun h' => absurd h'.1 hl

/-- So no archive with a sequence evaluates back while it is not parsed. -/
theorem repr_ssar_unparsed (printable : Nat → Bool) (order : List Nat → List Nat) (obj : Nat → Ev) (addr : Nat → Nat)
    (f : Nat) (a : SSARObj) (d : Bytes) (hp : a.parsed = false) (hd : a.eventsData = some d) (hq : 0x27 ∉ d)
    (hn : ∀ s ∈ a.sequences, ∀ n, s.1 = some n → ∀ c ∈ n, c < 0x110000) (hs : a.sequences ≠ []) (t : Str)
    (h : reprSSAR printable order obj addr f a = .ok t) : ¬ Evaluates t ssarFile a := by
  obtain ⟨t', h1, h2⟩ := repr_ssar_unparsed_partial printable order obj addr f a d hp hd hq hn
  rw [h1] at h
  cases h
  rw [h2]
  rintro ⟨hl, hi⟩
  unfold SSARObj.init at hi
  obtain ⟨x, hx, hi⟩ := bind_eq_ok.1 hi
  have hxs : x.sequences = a.sequences := by
    cases he : x.events with
    | parsed l => rw [he] at hi; cases hi
    | unparsed d' => rw [he] at hi; cases hi; rfl
  unfold SoundSequenceArchive.SSAR.load at hx
  simp only [bind_eq_ok, pure_eq_ok] at hx
  obtain ⟨_, _, _, _, _, _, _, _, _, _, _, _, _, _, count, _, _, _, seqs, hm, rfl⟩ := hx
  cases count with
  | zero =>
    rw [← hxs] at hs
    exact hs rfl
  | succ n =>
    rw [List.range_succ_eq_map] at hm
    obtain ⟨y, hy, _⟩ := bind_eq_ok.1 hm
    unfold SoundSequenceArchive.loadSequence at hy
    obtain ⟨o, ho, _⟩ := bind_eq_ok.1 hy
    unfold unpackS at ho
    obtain ⟨w, hw, _⟩ := bind_eq_ok.1 ho
    have := (unpackU_eq_ok.1 hw).1
    omega

example : reprSSAR (fun _ => true) id (fun _ => .rest 4) id 5 ⟨0, [(some (str "A"), ⟨.unparsed (some 0), 1, 2, 3, 4, 5⟩),
      (none, ⟨.unparsed none, 1, 2, 3, 4, 5⟩)], none, some [0xFF], false⟩ = .ok (str "SSAR(b'\\xff', names=['A', 'None'])") := by
  decide +kernel

/-! ## Sound archives and ROMs -/

/-- No sound archive evaluates to anything: if it can be saved, the text is no expression, and otherwise it is a call with
`...` in the place of the data. -/
theorem repr_sdat_never (o : Archive) (hq : ∀ d, o.save = .ok d → 0x27 ∉ d.take 32) (x : Option Bytes) :
    ¬ Evaluates (reprSDAT o) sdat x := by
  unfold reprSDAT
  cases h : o.save with
  | error e =>
    refine not_evaluates (reads_call1 (name := "SDAT") (by decide +kernel) [(_, none, .ellipsis)] (by
      simp only [List.mem_cons, List.not_mem_nil, or_false, forall_eq]
      exact reads_ellipsis)) rfl x
  | ok d =>
    have hl : 32 < d.length := by
      obtain ⟨s, _, hs⟩ := Props.SoundArchiveObject.save_items h
      unfold SoundArchive.SDAT.save at hs
      simp only [bind_eq_ok, pure_eq_ok] at hs
      obtain ⟨_, _, _, _, _, _, b, hb, hd, _, rfl⟩ := hs
      have hb := (packUs_eq_ok.1 hb).2
      have : b.length = 0x20 := by rw [hb]; simp [structBytes]
      simp only [List.length_append, zeros_length]
      omega
    rintro ⟨e, he, _⟩
    exact (bad_callText (name := "SDAT") (by decide +kernel) (badItems_join (badItems_long _ hl (hq d h)) [])).not_parses e he

example : reprSDAT Props.SoundArchiveObject.exObjects = str ("SDAT(b'SDAT\\xff\\xfe\\0\\1 \\4\\0\\0@\\0\\4\\0@\\0\\0\\0\\x9e\\0\\0\\0" ++
    "\\xe0\\0\\0\\0\\xec\\0\\0\\0'...)") := by
  unfold reprSDAT
  rw [Props.SoundArchiveObject.exObjects_save]
  decide +kernel

/-- What calls of `SDAT` evaluate to: no argument is an empty archive, and the data can be given by place or by name. -/
theorem sdat_eval (d : Bytes) (e : Expr) : sdat (.call [str "SDAT"] []) = some none ∧
    sdat (.call [str "SDAT"] [(none, .bytes (d.map UInt8.toNat))]) = some (some d) ∧
    sdat (.call [str "SDAT"] [(some (str "data"), .bytes (d.map UInt8.toNat))]) = some (some d) ∧
    sdat (.call [str "SDAT"] [(none, .bytes (d.map UInt8.toNat)), (none, e)]) = none := by
  have h := asBytes_bytes d
  refine ⟨rfl, ?_, ?_, rfl⟩
  · show Expr.asOption Expr.asBytes (.bytes (d.map UInt8.toNat)) = _
    unfold Expr.asOption
    rw [h]
    rfl
  · show Expr.asOption Expr.asBytes (.bytes (d.map UInt8.toNat)) = _
    unfold Expr.asOption
    rw [h]
    rfl

/-- No ROM is printed as an expression. -/
theorem repr_rom_never (name idCode : Bytes) (e : Expr) : ¬ Parses (reprRom name idCode) e := by
  have hx : ∃ t, Summary.strRom name idCode = 60 :: t := ⟨_, by
    unfold Summary.strRom
    rw [show Repr.lit "<rom \"" = 60 :: Repr.lit "rom \"" by decide +kernel]
    simp only [List.append_assoc, List.cons_append]
    rfl⟩
  obtain ⟨t, ht⟩ := hx
  unfold reprRom
  rw [ht]
  have hb := badItems_of_bad (bad_lt t) rfl (by decide) (by unfold Proofs.PyExpr.Close; decide) []
  rw [List.append_nil] at hb
  exact (bad_callText (name := "NintendoDSRom") (by decide +kernel) (badItems_join hb [])).not_parses e

example : reprRom [0x41] [0x42] = str "NintendoDSRom(<rom \"A\" (B)>)" := by decide +kernel

/-! ## Tracks and songs -/

/-- No track evaluates to one: its class is known as `SSEQMusic.Track` only. -/
theorem repr_track_never (order : List Nat → List Nat) (obj : Nat → Ev) (addr : Nat → Nat) (f : Nat) (events : List Ev) (t : Str)
    (h : reprTrack order obj addr f events = .ok t) (x : List Ev) : ¬ Evaluates t track x := by
  obtain ⟨es, h1, h⟩ := bind_eq_ok.1 h
  cases h
  rcases list_text (E := eventE order) (good := fun e => plainEvent e = true) h1 (fun e _ t h => event_item h) with
    ⟨_, hr⟩ | ⟨_, hb⟩
  · refine not_evaluates (reads_call1 (name := "Track") (by decide +kernel) [(_, none, _)] (by
      simp only [List.mem_cons, List.not_mem_nil, or_false, forall_eq]
      exact hr)) ?_ x
    rfl
  · rintro ⟨e, he, _⟩
    exact (bad_callText (name := "Track") (by decide +kernel) (badItems_join hb [])).not_parses e he

theorem music_eval (e : Expr) : music (.call [str "SSEQMusic"] [(none, e)]) = none := rfl

/-- No song evaluates to one: the constructor raises TypeError if it is called without wave archives. -/
theorem repr_music_never (order : List Nat → List Nat) (obj : Nat → Ev) (addr : Nat → Nat) (f : Nat) (s : Seq)
    (hq : ∀ d, s.obj.eventsData = some d → 0x27 ∉ d) (t : Str) (h : reprMusic order obj addr f s = .ok t)
    (x : Expr × Expr × List Expr) : ¬ Evaluates t music x := by
  obtain ⟨u, h1, h⟩ := bind_eq_ok.1 h
  cases h
  have good : ∀ e, Proofs.PyExpr.Reads u e → ¬ Evaluates (Repr.callText "SSEQMusic" [u]) music x := fun e hr =>
    not_evaluates (reads_call1 (name := "SSEQMusic") (by decide +kernel) [(_, none, e)] (by
      simp only [List.mem_cons, List.not_mem_nil, or_false, forall_eq]
      exact hr)) (music_eval e) x
  have bad : Bad u → (∃ l name, u = Repr.callText name l ∧ (name = "SSEQ" ∨ name = "SSEQ.fromEvents")) →
      ¬ Evaluates (Repr.callText "SSEQMusic" [u]) music x := by
    rintro hb ⟨l, name, rfl, hn⟩ ⟨e, he, _⟩
    have hs : ∃ c v, Repr.lit name = c :: v ∧ c ≠ 32 ∧ ¬ Proofs.PyExpr.Close c := by
      rcases hn with rfl | rfl <;> exact startsOk _ 83 _ rfl (by decide)
    exact (bad_callText (name := "SSEQMusic") (by decide +kernel) (badItems_join (badItems_callText hb hs) [])).not_parses e he
  cases hp : s.obj.parsed with
  | true =>
    rcases sseq_text h1 hp with ⟨_, hr⟩ | ⟨_, hb⟩
    · exact good _ hr
    · obtain ⟨ts, _, rfl⟩ := reprSSEQ_parsed h1 hp
      exact bad hb ⟨_, _, rfl, .inr rfl⟩
  | false =>
    unfold ReprSound.reprSSEQ SequenceObject.SSEQObj.getEventsData at h1
    rw [hp] at h1
    cases hd : s.obj.eventsData with
    | none => rw [hd] at h1; cases h1
    | some d =>
      rw [hd] at h1
      cases h1
      by_cases hl : d.length ≤ 32
      · exact good _ (reads_sseqFile d hl (hq d hd))
      · exact bad (bad_sseqFile d (by omega) (hq d hd)) ⟨_, _, rfl, .inl rfl⟩

example : reprMusic id (fun _ => .ret) id 5 ⟨⟨[(0, .rest 4), (1, .ret)], none, true⟩, 0, 1, 2, 3, 4, 5, 6⟩ =
      .ok (str "SSEQMusic(SSEQ.fromEvents([RestSequenceEvent(4), ReturnSequenceEvent()], 1, 2, 3, 4, 5, 6))") ∧
    reprTrack id (fun _ => .ret) id 5 [.rest 4, .ret] = .ok (str "Track([RestSequenceEvent(4), ReturnSequenceEvent()])") := by
  decide +kernel

end Verif.Props.ReprArchive
