import Verif.Proofs.ReprSound
import Verif.Props.Texture

/-!
# C136: what `repr()` of waves, streams, banks, sequences and textures evaluates to

`Evaluates s f x`: the text `s` is an expression, and evaluating it with the constructors of the class (`f`) gives an
object with the attributes of `x`.  None of these classes has it for all objects; the theorems say which objects have it.
Data with a quote in it are left out (C49).
-/

namespace Verif.Props.ReprSound

open Verif Verif.Model Verif.Spec.PyExpr Verif.Spec.Repr Verif.Spec.ReprSound Verif.Model.ReprSound
open Verif.Proofs.ReprSound Verif.Proofs.ReprClasses Verif.Model.SoundArchiveObject
open Verif.Model.SoundSequence (Ev)

/-! ## Waves -/

/-- A wave evaluates back if and only if its type is a plain number and there are at most 32 bytes of data; otherwise its
text is no expression. -/
theorem repr_swav_partial (member : Bool) (w : SoundWave.SWAV) (hq : 0x27 ∉ w.data) :
    (Evaluates (reprSWAV member w) swav w ↔ member = false ∧ w.data.length ≤ 32) ∧
    (¬ (member = false ∧ w.data.length ≤ 32) → ∀ e, ¬ Parses (reprSWAV member w) e) := by
  have hb : ¬ (member = false ∧ w.data.length ≤ 32) → ∀ e, ¬ Parses (reprSWAV member w) e :=
    fun h => (bad_swav member w hq h).1.not_parses
  refine ⟨⟨?_, ?_⟩, hb⟩
  · rintro ⟨e, hp, _⟩
    exact Classical.byContradiction fun h => hb h e hp
  · rintro ⟨rfl, h⟩
    exact evaluates_of (reads_swav w h hq) (swav_eval w)

example : (0x27 : UInt8) ∉ ([1, 2] : Bytes) ∧
    reprSWAV false ⟨1, true, 16000, 5, 6, 7, [1, 2]⟩ = str
      "SWAV.fromData(b'\\1\\2', waveType=1, isLooped=True, sampleRate=16000, time=5, loopOffset=6, totalLength=7)" ∧
    reprSWAV true ⟨1, true, 16000, 5, 6, 7, [1, 2]⟩ = str
      "SWAV.fromData(b'\\1\\2', waveType=<WaveType.PCM16: 1>, isLooped=True, sampleRate=16000, time=5, loopOffset=6, totalLength=7)" := by
  decide +kernel

/-- The type of a wave that was loaded, and that of a wave that was made without naming a type, is a member of the
enumeration and is printed with its name. -/
theorem repr_waveType : reprWaveType true 0 = str "<WaveType.PCM8: 0>" ∧ reprWaveType true 1 = str "<WaveType.PCM16: 1>" ∧
    reprWaveType true 2 = str "<WaveType.ADPCM: 2>" := by decide +kernel

/-- A wave archive evaluates back if and only if all of its waves do, and the number `unk02` and the merge ID, which are
not printed, are 0. -/
theorem repr_swar_partial (x : Swar) (waves : List (Bool × SoundWave.SWAV)) (hx : waves.map Prod.snd = x.waves)
    (hq : ∀ w ∈ x.waves, 0x27 ∉ w.data) :
    Evaluates (reprSWAR waves) swar x ↔
      (∀ w ∈ waves, w.1 = false ∧ w.2.data.length ≤ 32) ∧ x.unk02 = 0 ∧ x.mergeID = 0 := by
  have hq' : ∀ w ∈ waves, 0x27 ∉ w.2.data := fun w hw => hq _ (hx ▸ List.mem_map_of_mem hw)
  have e : waves.map (fun w => swavE w.2) = x.waves.map swavE := by rw [← hx, List.map_map]; rfl
  rcases waves_text waves hq' with ⟨h, hr⟩ | ⟨h, hb⟩
  · rw [e] at hr
    have he := evaluates_of hr (swar_eval x.waves)
    constructor
    · intro h'
      have := evaluates_unique h' he
      rw [this]
      exact ⟨h, rfl, rfl⟩
    · rintro ⟨_, h1, h2⟩
      obtain ⟨w, m, u⟩ := x
      cases h1
      cases h2
      exact he
  · constructor
    · rintro ⟨e, hp, _⟩
      exact absurd hp (hb.not_parses e)
    · rintro ⟨h', _⟩
      exact absurd h' h

/-- Whatever it was made from, the value has these two numbers 0. -/
theorem repr_swar_value (waves : List (Bool × SoundWave.SWAV)) (hq : ∀ w ∈ waves, 0x27 ∉ w.2.data) (y : Swar) :
    Evaluates (reprSWAR waves) swar y ↔
      (∀ w ∈ waves, w.1 = false ∧ w.2.data.length ≤ 32) ∧ y = ⟨waves.map Prod.snd, 0, 0⟩ := by
  have e : waves.map (fun w => swavE w.2) = (waves.map Prod.snd).map swavE := by rw [List.map_map]; rfl
  rcases waves_text waves hq with ⟨h, hr⟩ | ⟨h, hb⟩
  · rw [e] at hr
    have he := evaluates_of hr (swar_eval (waves.map Prod.snd))
    exact ⟨fun h' => ⟨h, evaluates_unique h' he⟩, fun h' => h'.2 ▸ he⟩
  · constructor
    · rintro ⟨e, hp, _⟩
      exact absurd hp (hb.not_parses e)
    · rintro ⟨h', _⟩
      exact absurd h' h

example : reprSWAR [] = str "SWAR.fromWaves([])" ∧ reprSWAR [(false, ⟨0, false, 1, 2, 3, 4, []⟩)] = str
    "SWAR.fromWaves([SWAV.fromData(b'', waveType=0, isLooped=False, sampleRate=1, time=2, loopOffset=3, totalLength=4)])" := by
  decide +kernel

/-! ## Streams -/

/-- A stream evaluates back if and only if it has at most one channel of at most one block of at most 32 bytes, and all
attributes but the five that are printed have their defaults. -/
theorem repr_strm_partial (s : Strm) (hq : ∀ c ∈ s.obj.channels, ∀ b ∈ c, 0x27 ∉ b) :
    Evaluates (reprSTRM s) strm s ↔
      s.obj.channels.length ≤ 1 ∧ (∀ c ∈ s.obj.channels, c.length ≤ 1 ∧ ∀ b ∈ c, b.length ≤ 32) ∧
      s.obj = ⟨0, false, s.obj.channels, 0, 8000, 0, 0, 0, 0, 0, 0, 0, 0, 0, 0, 0, 0⟩ ∧ s.mergeID = 0 := by
  have hq' : 0x27 ∉ firstBlock s.obj.channels := by
    revert hq
    match s.obj.channels with
    | [] => simp [firstBlock]
    | [] :: _ => simp [firstBlock]
    | (b :: bs) :: cs => exact fun h => h (b :: bs) List.mem_cons_self b List.mem_cons_self
  have hfirst : s.obj.channels.length ≤ 1 → (∀ c ∈ s.obj.channels, c.length ≤ 1) →
      ((firstBlock s.obj.channels).length ≤ 32 ↔ ∀ c ∈ s.obj.channels, ∀ b ∈ c, b.length ≤ 32) := by
    match s.obj.channels with
    | [] => simp [firstBlock]
    | [[]] => simp [firstBlock]
    | [[b]] => simp [firstBlock]
    | [b :: b' :: bs] => intro _ h; have := h _ (List.mem_singleton_self _); simp at this
    | _ :: _ :: _ => intro h; simp at h
  by_cases hl : (firstBlock s.obj.channels).length ≤ 32
  · have hr := reads_strm s hl hq'
    have he := strm_eval s
    by_cases hc : s.obj.channels.length ≤ 1 ∧ ∀ c ∈ s.obj.channels, c.length ≤ 1
    · rw [if_pos hc] at he
      have hv := evaluates_of hr he
      constructor
      · intro h'
        have := evaluates_unique h' hv
        exact ⟨hc.1, fun c hcm => ⟨hc.2 c hcm, (hfirst hc.1 hc.2).1 hl c hcm⟩, (congrArg (·.obj) this), (congrArg (·.mergeID) this)⟩
      · rintro ⟨_, _, h1, h2⟩
        have : Build.strm s.obj.channels s.unk02 s.volume s.priority s.playerID s.unk07 = s := by
          obtain ⟨o, m, a, b, c, d, e⟩ := s
          cases h2
          dsimp only at h1
          generalize o.channels = ch at h1
          subst h1
          rfl
        rwa [this] at hv
    · rw [if_neg hc] at he
      refine ⟨fun h' => absurd h' (not_evaluates hr he s), fun h' => absurd ⟨h'.1, fun c hcm => (h'.2.1 c hcm).1⟩ hc⟩
  · constructor
    · rintro ⟨e, hp, _⟩
      exact absurd hp ((bad_strm s (by omega) hq').not_parses e)
    · rintro ⟨h1, h2, _⟩
      exact absurd ((hfirst h1 (fun c hc => (h2 c hc).1)).2 (fun c hc => (h2 c hc).2)) hl

example : reprSTRM (Build.strm [[[1], [2]], [[3], [4]]]) = str "STRM.fromChannels([[b'\\1', ...], ...], 0, 127, 64, 0, 0)" ∧
    reprSTRM (Build.strm [[[1]]] 1 2 3 4 5) = str "STRM.fromChannels([[b'\\1']], 1, 2, 3, 4, 5)" ∧
    reprSTRM (Build.strm []) = str "STRM.fromChannels([], 0, 127, 64, 0, 0)" := by decide +kernel

/-! ## Banks -/

/-- An instrument evaluates back if and only if none of its notes is of a type of `NoteType`, it is not a regional
instrument with regions (whose class is printed without the class it is in), and the order key and merge ID, which are not
printed, are 0. -/
theorem repr_instrument_partial (i : SoundBank.Inst) :
    (Evaluates (reprKind i.kind) instrument i ↔
      (∀ n ∈ notesOf i.kind, Plain n) ∧ (∀ l, i.kind = .regional l → l = []) ∧ i.orderKey = 0 ∧ i.mergeID = 0) ∧
    ((∃ n ∈ notesOf i.kind, ¬ Plain n) → ∀ e, ¬ Parses (reprKind i.kind) e) := by
  have hbad : (∃ n ∈ notesOf i.kind, ¬ Plain n) → ∀ e, ¬ Parses (reprKind i.kind) e := by
    rintro ⟨n, hn, hp⟩
    exact (bad_kind i.kind (fun h => hp (h n hn))).1.not_parses
  refine ⟨?_, hbad⟩
  by_cases h : ∀ n ∈ notesOf i.kind, Plain n
  · have hr := reads_kind i.kind h
    have he := kind_eval i.kind
    by_cases hreg : ∃ r l, i.kind = .regional (r :: l)
    · rw [if_pos hreg] at he
      obtain ⟨r, l, e⟩ := hreg
      exact ⟨fun h' => absurd h' (not_evaluates hr he i), fun h' => absurd (h'.2.1 _ e) (by simp)⟩
    · rw [if_neg hreg] at he
      have hv := evaluates_of hr he
      constructor
      · intro h'
        have := evaluates_unique h' hv
        refine ⟨h, fun l e => ?_, congrArg (·.orderKey) this, congrArg (·.mergeID) this⟩
        cases l with
        | nil => rfl
        | cons r l => exact absurd ⟨r, l, e⟩ hreg
      · rintro ⟨_, _, h1, h2⟩
        obtain ⟨k, a, b⟩ := i
        cases h1
        cases h2
        exact hv
  · refine ⟨?_, fun h' => absurd h'.1 h⟩
    rintro ⟨e, hp, _⟩
    simp only [Classical.not_forall] at h
    obtain ⟨n, hn, hx⟩ := h
    exact absurd hp (hbad ⟨n, hn, hx⟩ e)

example : reprKind (.range 5 [⟨0, 1, 60, 127, 127, 127, 127, 64, 4⟩]) =
      str "RangeInstrument(5, [NoteDefinition(0, 1, 60, 127, 127, 127, 127, 64, 4)])" ∧
    reprKind (.single ⟨0, 1, 60, 127, 127, 127, 127, 64, 5⟩) =
      str "SingleNoteInstrument(NoteDefinition(0, 1, 60, 127, 127, 127, 127, 64, 5))" ∧
    reprKind (.regional [(9, ⟨0, 1, 60, 127, 127, 127, 127, 64, 4⟩)]) =
      str "RegionalInstrument([Region(9, NoteDefinition(0, 1, 60, 127, 127, 127, 127, 64, 4))])" := by decide +kernel

example : Plain ⟨0, 1, 60, 127, 127, 127, 127, 64, 4⟩ ∧ ¬ Plain ⟨0, 1, 60, 127, 127, 127, 127, 64, 1⟩ := by
  unfold Plain
  decide

theorem dropNones_eq (l : List (Option Int)) : SoundBank.dropNones l = l ↔ l.getLast? ≠ some none := by
  unfold SoundBank.dropNones
  rw [List.getLast?_eq_head?_reverse, List.reverse_eq_iff]
  cases l.reverse with
  | nil => simp
  | cons o r =>
    cases o with
    | none =>
      refine ⟨fun h => ?_, fun h => absurd rfl h⟩
      have h1 : (List.dropWhile Option.isNone (none :: r : List (Option Int))).length ≤ r.length := by
        rw [List.dropWhile_cons_of_pos rfl]
        exact (List.dropWhile_suffix _).length_le
      rw [h, List.length_cons] at h1
      omega
    | some x => simp

/-- A bank evaluates back if and only if all of its instruments do (empty places always do), the number `unk02` and the
merge ID are 0, it has no inaccessible instruments, and its list of wave archives does not end with `None`. -/
theorem repr_sbnk_partial (b : Bank) :
    Evaluates (reprSBNK b) sbnk b ↔
      (∀ i, some i ∈ b.obj.instruments → (∀ n ∈ notesOf i.kind, Plain n) ∧ (∀ l, i.kind = .regional l → l = []) ∧
        i.orderKey = 0 ∧ i.mergeID = 0) ∧
      b.obj.unk02 = 0 ∧ b.mergeID = 0 ∧ b.obj.inaccessible = [] ∧ b.obj.waveArchiveIDs.getLast? ≠ some none := by
  by_cases h : PlainBank b
  · have hr := reads_sbnk b h
    have he := sbnk_eval b
    by_cases hreg : ∃ i r m, some i ∈ b.obj.instruments ∧ i.kind = .regional (r :: m)
    · rw [if_pos hreg] at he
      obtain ⟨i, r, l, hi, e⟩ := hreg
      exact ⟨fun h' => absurd h' (not_evaluates hr he b), fun h' => absurd ((h'.1 i hi).2.1 _ e) (by simp)⟩
    · rw [if_neg hreg] at he
      have hv := evaluates_of hr he
      constructor
      · intro h'
        have := evaluates_unique h' hv
        have hi := congrArg (fun b => b.obj.instruments) this
        dsimp only at hi
        refine ⟨fun i him => ⟨h i him, fun l e => ?_, ?_⟩, congrArg (fun b => b.obj.unk02) this, congrArg (·.mergeID) this,
          congrArg (fun b => b.obj.inaccessible) this, (dropNones_eq _).1 (congrArg (fun b => b.obj.waveArchiveIDs) this).symm⟩
        · cases l with
          | nil => rfl
          | cons r l => exact absurd ⟨i, r, l, him, e⟩ hreg
        · rw [hi] at him
          obtain ⟨o, _, ho⟩ := List.mem_map.1 him
          obtain ⟨j, _, rfl⟩ := Option.map_eq_some_iff.1 ho
          exact ⟨rfl, rfl⟩
      · rintro ⟨h1, h2, h3, h4, h5⟩
        have e : b.obj.instruments.map (Option.map fun i => (⟨i.kind, 0, 0⟩ : SoundBank.Inst)) = b.obj.instruments := by
          refine (List.map_congr_left (g := id) fun o ho => ?_).trans (List.map_id _)
          cases o with
          | none => rfl
          | some i =>
            obtain ⟨_, _, h6, h7⟩ := h1 i ho
            obtain ⟨k, x, y⟩ := i
            cases h6
            cases h7
            rfl
        rw [e, (dropNones_eq _).2 h5] at hv
        obtain ⟨⟨u, w, l, q⟩, m⟩ := b
        cases h2
        cases h3
        cases h4
        exact hv
  · refine ⟨?_, fun h' => absurd (fun i hi => (h'.1 i hi).1) h⟩
    rintro ⟨e, hp, _⟩
    exact absurd hp ((bad_sbnk b h).not_parses e)

example : reprSBNK (Build.sbnk [none, some ⟨.range 5 [], 0, 0⟩] 0 (some [some 3, none, some (-1)])) =
    str "SBNK.fromInstruments([None, RangeInstrument(5, [])], waveArchiveIDs=[3, None, -1])" := by decide +kernel

/-- So no bank with a note of one of the three types the console knows is printed as an expression. -/
theorem repr_sbnk_usual (b : Bank) {i : SoundBank.Inst} {n : SoundBank.Note} (hi : some i ∈ b.obj.instruments)
    (hn : n ∈ notesOf i.kind) (ht : n.type = 1 ∨ n.type = 2 ∨ n.type = 3) (e : Expr) : ¬ Parses (reprSBNK b) e :=
  (bad_sbnk b fun h => h i hi n hn ht).not_parses e

/-! ## Sequences -/

/-- A parsed sequence whose text can be made evaluates back, but for the identities of the events, if and only if it has at
most 8 events, of which none holds another event or a member of an `enum` or is a note with a velocity outside of 0 to
127. -/
theorem repr_sseq_partial (order : List Nat → List Nat) (ho : ∀ l, (order l).Perm l) (obj : Nat → Ev) (addr : Nat → Nat) (f : Nat)
    (s : Seq) (hp : s.obj.parsed = true) (hs : ∀ i l, (i, .defineTracks l) ∈ s.obj.events → l.Pairwise (· < ·)) (t : Str)
    (h : reprSSEQ order obj addr f s = .ok t) :
    Evaluates t sseqEvents ⟨s.obj.events.map Prod.snd, s.unk02, s.bankID, s.volume, s.channelPressure, s.polyphonicPressure,
        s.playerID⟩ ↔
      s.obj.events.length ≤ 8 ∧ ∀ i e, (i, e) ∈ s.obj.events →
        plainEvent e = true ∧ ∀ p v flag d, e = .note p v flag d → 0 ≤ v ∧ v < 128 := by
  have shown_mem : ∀ e, e ∈ shown s → ∃ i, (i, e) ∈ s.obj.events := by
    intro e he
    obtain ⟨⟨i, e'⟩, hx, rfl⟩ := List.mem_map.1 he
    exact ⟨i, List.mem_of_mem_take hx⟩
  rcases sseq_text h hp with ⟨hx, hr⟩ | ⟨⟨e, hx, hf⟩, hb⟩
  · have he := sseq_eval order s hx
    by_cases h8 : 8 < s.obj.events.length
    · rw [if_pos h8] at he
      exact ⟨fun h' => absurd h' (not_evaluates hr he _), fun h' => absurd h'.1 (by omega)⟩
    · rw [if_neg h8] at he
      have hv := evaluates_of hr he
      have hall : ∀ i e, (i, e) ∈ s.obj.events → plainEvent e = true := by
        intro i e hm
        refine hx e ?_
        unfold shown
        rw [List.take_of_length_le (by omega)]
        exact List.mem_map_of_mem hm
      constructor
      · intro h'
        have := congrArg SeqValue.events (evaluates_unique h' hv)
        dsimp only at this
        refine ⟨by omega, fun i e hm => ⟨hall i e hm, ?_⟩⟩
        rw [← eventV_eq ho e (fun l el => hs i l (el ▸ hm))]
        have hmem : e ∈ s.obj.events.map Prod.snd := List.mem_map_of_mem hm
        have hmap : ∀ (l : List Ev), l = l.map (eventV order) → ∀ e ∈ l, eventV order e = e := by
          intro l
          induction l with
          | nil => intro _ e he; cases he
          | cons a l ih =>
            intro hl e he
            rw [List.map_cons, List.cons.injEq] at hl
            rcases List.mem_cons.1 he with rfl | he
            · exact hl.1.symm
            · exact ih hl.2 e he
        exact hmap _ this e hmem
      · rintro ⟨_, h'⟩
        have e : (s.obj.events.map Prod.snd).map (eventV order) = s.obj.events.map Prod.snd := by
          refine (List.map_congr_left (g := id) fun e he => ?_).trans (List.map_id _)
          obtain ⟨⟨i, e⟩, hm, rfl⟩ := List.mem_map.1 he
          exact (eventV_eq ho e (fun l el => hs i l (el ▸ hm))).2 (h' i e hm).2
        rwa [e] at hv
  · constructor
    · rintro ⟨x, hpx, _⟩
      exact absurd hpx (hb.not_parses x)
    · rintro ⟨_, h'⟩
      obtain ⟨i, hm⟩ := shown_mem e hx
      rw [(h' i e hm).1] at hf
      cases hf

example : reprSSEQ id (fun _ => .ret) id 5 ⟨⟨[(0, .rest 4), (1, .ret)], none, true⟩, 0, 1, 2, 3, 4, 5, 6⟩ =
      .ok (str "SSEQ.fromEvents([RestSequenceEvent(4), ReturnSequenceEvent()], 1, 2, 3, 4, 5, 6)") ∧
    reprSSEQ id (fun _ => .ret) id 5 ⟨⟨List.replicate 9 (0, .ret), none, true⟩, 0, 1, 2, 3, 4, 5, 6⟩ =
      .ok (str ("SSEQ.fromEvents([ReturnSequenceEvent(), ReturnSequenceEvent(), ReturnSequenceEvent(), ReturnSequenceEvent(), " ++
        "ReturnSequenceEvent(), ReturnSequenceEvent(), ReturnSequenceEvent(), ReturnSequenceEvent(), ...], 1, 2, 3, 4, 5, 6)")) := by
  decide +kernel

/-- The text of an unparsed sequence is a call with its event data in the place of a file: it evaluates back if and only if
these are at most 32 bytes that are themselves a sequence file whose event data are the whole file, and all other
attributes have their defaults. -/
theorem repr_sseq_unparsed_partial (order : List Nat → List Nat) (obj : Nat → Ev) (addr : Nat → Nat) (f : Nat) (s : Seq) (d : Bytes)
    (hp : s.obj.parsed = false) (hd : s.obj.eventsData = some d) (hq : 0x27 ∉ d) : ∃ t,
    reprSSEQ order obj addr f s = .ok t ∧
    (Evaluates t sseqFile s ↔ d.length ≤ 32 ∧ SequenceObject.SSEQObj.init (some d) = .ok s.obj ∧
      s = ⟨s.obj, 0, 0, 0, 127, 64, 50, 0⟩) := by
  refine ⟨Repr.callText "SSEQ" [Util.shortBytesRepr d], ?_, ?_⟩
  · unfold reprSSEQ SequenceObject.SSEQObj.getEventsData
    rw [hp, hd]
    rfl
  · by_cases hl : d.length ≤ 32
    · have hr := reads_sseqFile d hl hq
      have he := sseqFile_eval d
      cases hi : SequenceObject.SSEQObj.init (some d) with
      | error x =>
        rw [hi] at he
        exact ⟨fun h' => absurd h' (not_evaluates hr he s), fun h' => absurd h'.2.1 (by simp)⟩
      | ok o =>
        rw [hi] at he
        have hv := evaluates_of hr he
        constructor
        · intro h'
          have := evaluates_unique h' hv
          rw [this]
          exact ⟨hl, rfl, rfl⟩
        · rintro ⟨_, h1, h2⟩
          cases h1
          rw [h2]
          exact hv
    · constructor
      · rintro ⟨x, hpx, _⟩
        exact absurd hpx ((bad_sseqFile d (by omega) hq).not_parses x)
      · exact fun h' => absurd h'.1 hl

example : let d : Bytes := [0x53, 0x53, 0x45, 0x51, 0, 0, 0, 1, 0x1C, 0, 0, 0, 0, 0, 0, 0, 0, 0, 0, 0, 0, 0, 0, 0, 0, 0, 0, 0]
    SequenceObject.SSEQObj.init (some d) = .ok ⟨[], some d, false⟩ := by decide +kernel

/-- In all other cases evaluating raises an exception or gives another sequence; for event data that do not begin like a
sequence file there is no value at all. -/
theorem repr_sseq_unparsed (order : List Nat → List Nat) (obj : Nat → Ev) (addr : Nat → Nat) (f : Nat) (s : Seq) (d : Bytes)
    (hp : s.obj.parsed = false) (hd : s.obj.eventsData = some d) (hq : 0x27 ∉ d) (hm : d.take 4 ≠ [0x53, 0x53, 0x45, 0x51])
    (t : Str) (h : reprSSEQ order obj addr f s = .ok t) (x : Seq) : ¬ Evaluates t sseqFile x := by
  have e : reprSSEQ order obj addr f s = .ok (Repr.callText "SSEQ" [Util.shortBytesRepr d]) := by
    unfold reprSSEQ SequenceObject.SSEQObj.getEventsData
    rw [hp, hd]
    rfl
  rw [e] at h
  cases h
  by_cases hl : d.length ≤ 32
  · refine not_evaluates (reads_sseqFile d hl hq) ?_ x
    rw [sseqFile_eval]
    have : SequenceObject.SSEQObj.init (some d) = .error .valueError := by
      unfold SequenceObject.SSEQObj.init
      dsimp only
      rw [raiseIf_true (show d.take 4 ≠ SoundSequence.magicSSEQ from hm)]
      rfl
    rw [this]
    rfl
  · rintro ⟨x, hpx, _⟩
    exact (bad_sseqFile d (by omega) hq).not_parses x hpx

example : reprSSEQ id (fun _ => .ret) id 5 ⟨⟨[], some [0xFF], false⟩, 0, 1, 2, 3, 4, 5, 6⟩ = .ok (str "SSEQ(b'\\xff')") := by
  decide +kernel

/-! ## Textures -/

open Verif.Props.Texture (AllowedSize) in
/-- A texture evaluates back if and only if its width and height can be saved, both of its data are at most 32 bytes, and
format and coordinate transformation mode are those of a member of their `enum`s. -/
theorem repr_texture_partial (t : Texture.Texture) (q1 : 0x27 ∉ t.data1) (q2 : 0x27 ∉ t.data2) :
    Evaluates (reprTexture t) texture t ↔ (AllowedSize t.width ∧ AllowedSize t.height) ∧
      (t.data1.length ≤ 32 ∧ t.data2.length ≤ 32) ∧ t.format < 8 ∧ t.coordsTransformationMode < 4 := by
  by_cases ha : AllowedSize t.width ∧ AllowedSize t.height
  · obtain ⟨p, hp⟩ := (Props.Texture.word_iff t).2 ha
    by_cases hl : t.data1.length ≤ 32 ∧ t.data2.length ≤ 32
    · have hv := evaluates_of (reads_texture hp hl.1 hl.2 q1 q2) (texture_eval t p)
      constructor
      · intro h'
        have := evaluates_unique h' hv
        refine ⟨ha, hl, ?_, ?_⟩
        · rw [this]
          show (p >>> 10) &&& 7 < 8
          exact Nat.lt_succ_of_le Nat.and_le_right
        · rw [this]
          show (p >>> 14) &&& 3 < 4
          exact Nat.lt_succ_of_le Nat.and_le_right
      · rintro ⟨_, _, h1, h2⟩
        rwa [Props.Texture.fields_roundtrip hp h1 h2] at hv
    · refine ⟨?_, fun h' => absurd h'.2.1 hl⟩
      rintro ⟨x, hpx, _⟩
      exact absurd hpx ((bad_texture hp hl q1 q2).not_parses x)
  · refine ⟨?_, fun h' => absurd h'.1 ha⟩
    have e : reprTexture t = Repr.callText "Texture" [Repr.lit "..."] := by
      unfold reprTexture Build.textureSave
      rw [Props.Texture.word_error ha]
      rfl
    have hr : Proofs.PyExpr.Reads (reprTexture t) (.call [str "Texture"] [(none, .ellipsis)]) := by
      rw [e]
      exact reads_call1 (name := "Texture") (by decide +kernel) [(_, none, _)] (by
        simp only [List.mem_cons, List.not_mem_nil, or_false, forall_eq]
        exact reads_ellipsis)
    intro h'
    refine absurd h' (not_evaluates hr ?_ t)
    rfl

example : reprTexture ⟨1, 2, true, false, false, true, 16, 32, 5, true, 3, 7, [1], [2]⟩ =
      str "Texture(1, 2, 0xf519, 7, b'\\1', b'\\2')" ∧
    reprTexture ⟨1, 2, true, false, false, true, 17, 32, 5, true, 3, 7, [1], [2]⟩ = str "Texture(...)" := by decide +kernel

/-! ## None of these for all objects -/

/-- Witnesses that the full statement is false of the code, for objects as they are loaded or made with defaults. -/
theorem repr_sound_false :
    (∀ w : SoundWave.SWAV, 0x27 ∉ w.data → ∀ e, ¬ Parses (reprSWAV true w) e) ∧
    (∃ b : Bank, b.mergeID = 0 ∧ ¬ Evaluates (reprSBNK b) sbnk b) ∧
    (∃ s : Strm, ¬ Evaluates (reprSTRM s) strm s) ∧
    (∃ x : Swar, x.waves = [] ∧ ¬ Evaluates (reprSWAR []) swar x) := by
  refine ⟨fun w hq => (repr_swav_partial true w hq).2 (by simp), ⟨⟨⟨1, [], [], []⟩, 0⟩, rfl, ?_⟩,
    ⟨Build.strm [[], []], ?_⟩, ⟨⟨[], 0, 1⟩, rfl, ?_⟩⟩
  · rw [repr_sbnk_partial]
    simp
  · rw [repr_strm_partial _ (by simp [Build.strm])]
    simp [Build.strm]
  · rw [repr_swar_partial ⟨[], 0, 1⟩ [] rfl (by simp)]
    simp

end Verif.Props.ReprSound
