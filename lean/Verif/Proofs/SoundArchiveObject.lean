import Verif.Spec.SoundArchiveObject
import Verif.Props.SequenceObject
import Verif.Props.Sequence
import Verif.Props.SequenceArchive
import Verif.Props.SoundBank
import Verif.Props.SoundWave
import Verif.Props.SoundStream
import Verif.Props.SoundArchive

/-!
# Items of a sound archive: saved, followed by anything, and loaded
-/

namespace Verif.Proofs.SoundArchiveObject

open Verif Verif.Model.SoundArchive Verif.Model.SequenceObject Verif.Model.SoundSequence
open Verif.Model.SoundSequenceArchive Verif.Model.SoundArchiveObject Verif.Model.Common
open Verif.Spec.SoundArchiveObject Verif.Spec.Sequence Verif.Proofs.SoundSequenceArchive

/-! ## Sequences -/

theorem sseq_init_of {file d : Bytes} (h : SSEQ.load file = .ok (.unparsed d)) :
    SSEQObj.init (some file) = .ok ⟨[], some d, false⟩ := by
  unfold SSEQ.load at h
  simp only [bind_eq_ok, pure_eq_ok] at h
  obtain ⟨_, h1, v, h2, n, h3, _, h4, f, h5, h6⟩ := h
  cases h6
  unfold SSEQObj.init
  simp only [bind_eq_ok, pure_eq_ok]
  exact ⟨_, h1, v, h2, n, h3, _, h4, f, h5, rfl⟩

theorem sseq_back {o : SSEQObj} {b : Bytes} (h : o.save = .ok b) : ∃ d, o.seqEv = .ok d ∧
    (SSEQObj.mk [] (some d) false).save = .ok b ∧
    ∀ extra, SSEQObj.init (some (b ++ extra)) = .ok ⟨[], some d, false⟩ := by
  have h' := h
  unfold SSEQObj.save at h'
  simp only [bind_eq_ok] at h'
  obtain ⟨d, hd, h'⟩ := h'
  have e : (SSEQObj.mk [] (some d) false).save = .ok b := by
    rw [← h]
    conv => rhs; unfold SSEQObj.save; rw [hd]
    rfl
  have e' : SSEQ.save (.unparsed d) = .ok b := e
  refine ⟨d, hd, e, fun extra => sseq_init_of ?_⟩
  by_cases hl : d.length + 0x1C < 2 ^ 32
  · obtain ⟨b', h1, _, h2⟩ := (Props.Sequence.sseq_roundtrip d).1 hl
    rw [e'] at h1
    cases h1
    exact h2 extra
  · have := (Props.Sequence.sseq_roundtrip d).2 (by omega)
    rw [e'] at this
    cases this

theorem seq_item {x : Seq} {i : SeqItem} (h : x.save = .ok i) (extra : Bytes) (m : Int) :
    ∃ y, Seq.load { i with file := i.file ++ extra, mergeID := m } = .ok y ∧ SeqBack x y ∧
      y.save = .ok { i with mergeID := m } := by
  unfold Seq.save at h
  simp only [bind_eq_ok, pure_eq_ok] at h
  obtain ⟨b, hb, rfl⟩ := h
  obtain ⟨d, hd, hs, hi⟩ := sseq_back hb
  refine ⟨⟨⟨[], some d, false⟩, m, x.unk02, x.bankID, x.volume, x.channelPressure, x.polyphonicPressure, x.playerID⟩,
    ?_, ⟨rfl, rfl, rfl, rfl, rfl, rfl, rfl, ?_, ?_⟩, ?_⟩
  · unfold Seq.load
    rw [hi extra, bind_ok]
    rfl
  · intro hp
    unfold SSEQObj.seqEv at hd
    rw [hp] at hd
    dsimp only
    cases he : x.obj.eventsData with
    | none => rw [he] at hd; cases hd
    | some d' => rw [he] at hd; cases hd; rfl
  · intro hp
    unfold SSEQObj.seqEv SSEQObj.getEvents at hd
    rw [if_pos hp, hp, if_neg (by simp), bind_ok] at hd
    simp only [bind_eq_ok, pure_eq_ok] at hd
    obtain ⟨⟨d', offs⟩, h1, rfl⟩ := hd
    exact ⟨d', offs, h1, rfl⟩
  · unfold Seq.save
    rw [hs, bind_ok]
    rfl

/-! ## Sequence archives -/

theorem load_names {file : Bytes} {u : Nat} {n n' : List (Option Str)} (h : ∀ i, n'.getD i none = n.getD i none) :
    SSAR.load file u n' = SSAR.load file u n := by
  unfold SSAR.load
  simp only [h]

/-- The value stored for a sequence. -/
theorem ssar_parts {o : SSARObj} {p : Bytes × Bytes} (h : o.parts = .ok p) : ∃ off : Sequence → Py Int,
    (∀ s ∈ o.sequences, off s.2 = .ok (valueOf off s.2) ∧ I32 (valueOf off s.2) ∧ SeqFits s.2) ∧
    p.2 = (o.sequences.map fun s => recBytes (valueOf off s.2) s.2).flatten ∧
    (o.parsed = false → off = unparsedOffset ∧ o.eventsData = some p.1) ∧
    (o.parsed = true → ∃ starts es offs, startEvents o.sequences = .ok starts ∧ o.events = some es ∧
      saveSequenceEvents es starts = .ok (p.1, offs) ∧ off = parsedOffset starts offs) := by
  unfold SSARObj.parts at h
  cases hp : o.parsed with
  | false =>
    rw [hp, if_neg (by simp)] at h
    unfold SSARObj.getEventsData at h
    rw [hp, if_neg (by simp)] at h
    cases he : o.eventsData with
    | none => rw [he] at h; cases h
    | some d =>
      rw [he] at h
      dsimp only at h
      rw [bind_ok] at h
      simp only [bind_eq_ok, pure_eq_ok] at h
      obtain ⟨table, ht, rfl⟩ := h
      obtain ⟨h1, rfl⟩ := (mapE_eq_map (f := record unparsedOffset) (record_ok (off := unparsedOffset)) _ _).1 ht
      exact ⟨unparsedOffset, h1, rfl, fun _ => ⟨rfl, rfl⟩, fun h => nomatch h⟩
  | true =>
    rw [hp, if_pos rfl] at h
    unfold SSARObj.getEvents at h
    rw [hp, if_neg (by simp)] at h
    simp only [bind_eq_ok] at h
    obtain ⟨starts, h0, es', h1, h⟩ := h
    cases h1
    cases he : o.events with
    | none => rw [he] at h; cases h
    | some es =>
      rw [he] at h
      dsimp only at h
      simp only [bind_eq_ok, pure_eq_ok] at h
      obtain ⟨⟨d, offs⟩, h2, table, ht, rfl⟩ := h
      obtain ⟨h3, rfl⟩ := (mapE_eq_map (f := record (parsedOffset starts offs))
        (record_ok (off := parsedOffset starts offs)) _ _).1 ht
      exact ⟨_, h3, rfl, (fun h => nomatch h), fun _ => ⟨starts, es, offs, h0, rfl, h2, rfl⟩⟩

theorem value_firstOf {z : Int} (s : Sequence) :
    valueOf unparsedOffset { s with first := firstOf z } = z := by
  unfold valueOf unparsedOffset firstOf
  by_cases h : z = -1
  · rw [if_pos h, h]
  · rw [if_neg h]

theorem ssar_back {o : SSARObj} {b : Bytes} {u : Nat} {names : List (Option Str)} (h : o.save = .ok (b, u, names)) :
    u = o.unk02 ∧ names = o.sequences.map Prod.fst ∧ ∃ p off, o.parts = .ok p ∧
    (∀ s ∈ o.sequences, off s.2 = .ok (valueOf off s.2) ∧ I32 (valueOf off s.2) ∧ SeqFits s.2) ∧
    (o.parsed = false → off = unparsedOffset ∧ o.eventsData = some p.1) ∧
    (o.parsed = true → ∃ starts es offs, startEvents o.sequences = .ok starts ∧ o.events = some es ∧
      saveSequenceEvents es starts = .ok (p.1, offs) ∧ off = parsedOffset starts offs) ∧
    (∀ extra names', (∀ i, names'.getD i none = names.getD i none) → SSARObj.init (some (b ++ extra)) u names' =
      .ok ⟨u, o.sequences.map fun s => (s.1, { s.2 with first := firstOf (valueOf off s.2) }), none, some p.1, false⟩) ∧
    (SSARObj.mk u (o.sequences.map fun s => (s.1, { s.2 with first := firstOf (valueOf off s.2) })) none (some p.1)
      false).save = .ok (b, u, names) := by
  have h0 := h
  unfold SSARObj.save at h
  simp only [bind_eq_ok] at h
  obtain ⟨p, hp, h⟩ := h
  obtain ⟨off, h1, h2, h3, h4⟩ := ssar_parts hp
  -- the archive with the same bytes
  let a : SSAR := ⟨o.unk02, o.sequences.map fun s => (s.1, { s.2 with first := firstOf (valueOf off s.2) }), .unparsed p.1⟩
  have hrec : ∀ s ∈ o.sequences, recBytes (valueOf unparsedOffset { s.2 with first := firstOf (valueOf off s.2) })
      { s.2 with first := firstOf (valueOf off s.2) } = recBytes (valueOf off s.2) s.2 := by
    intro s hs
    rw [value_firstOf]
    rfl
  have hap : a.parts = .ok (p.1, (o.sequences.map fun s => recBytes (valueOf off s.2) s.2).flatten) := by
    unfold SSAR.parts
    dsimp only [a]
    have : mapE (record unparsedOffset) (o.sequences.map fun s => (s.1, { s.2 with first := firstOf (valueOf off s.2) })) =
        .ok (o.sequences.map fun s => recBytes (valueOf off s.2) s.2) := by
      refine (mapE_eq_map (f := record unparsedOffset) (record_ok (off := unparsedOffset)) _ _).2 ⟨?_, ?_⟩
      · intro t ht
        obtain ⟨s, hs, rfl⟩ := List.mem_map.1 ht
        dsimp only
        rw [value_firstOf]
        refine ⟨?_, (h1 s hs).2.1, (h1 s hs).2.2⟩
        unfold unparsedOffset firstOf
        by_cases h : valueOf off s.2 = -1
        · rw [if_pos h, h]
        · rw [if_neg h]
      · rw [List.map_map]
        exact List.map_congr_left fun s hs => (hrec s hs).symm
    rw [this, bind_ok]
    rfl
  have hpe : p = (p.1, p.2) := rfl
  have has : a.save = o.save := by
    unfold SSAR.save SSARObj.save
    rw [hap, hp, bind_ok, bind_ok, h2]
    dsimp only [a]
    rw [List.length_map, List.map_map]
    rfl
  have hsv := has.trans h0
  obtain ⟨hlen, e⟩ := (save_of_parts hap (by simp [a])).1 hsv
  cases e
  have hnm : a.sequences.map Prod.fst = o.sequences.map Prod.fst := by
    dsimp only [a]; rw [List.map_map]; rfl
  refine ⟨rfl, hnm, p, off, hp, h1, h3, h4, ?_, ?_⟩
  · intro extra names' hn
    unfold SSARObj.init
    dsimp only
    rw [load_names hn, hnm, load_named (val := valueOf off) (by simpa [a] using hlen) (fun s hs => (h1 s hs).2), bind_ok]
    rfl
  · exact hsv

theorem whereIn_eq {es : List (Nat × Ev)} {starts noffs : List Nat} {data : Bytes} {seqs : List (Option Str × Sequence)}
    (hst : startEvents seqs = .ok starts) (hsv : saveSequenceEvents es starts = .ok (data, noffs))
    (hn : (es.map Prod.fst).Nodup) (hin : ∀ e ∈ es, InRange e.2 ∨ ∃ b, e.2 = .raw b) :
    ∀ s ∈ seqs, firstOf (valueOf (parsedOffset starts noffs) s.2) = whereIn es s.2.first := by
  intro s hs
  obtain ⟨f, hf, hx⟩ := Props.SequenceArchive.startEvents_ok hst s hs
  rw [hf]
  have hmap := Proofs.SeqReread.notable_offsets
    (Proofs.SeqSave.save_ok hn (fun e he => Proofs.SeqSave.declared_le _ (hin e he)) hsv).2.2.2.2.2
  cases f with
  | none =>
    unfold valueOf parsedOffset firstOf whereIn
    rw [hf]
    rfl
  | some x =>
    have hxm := hx x rfl
    have hi := List.idxOf_lt_length_of_mem hxm
    have hlen' : noffs.length = starts.length := by
      have := congrArg List.length hmap
      simpa using this.symm
    have hget : (starts.map (position es))[starts.idxOf x]? = (noffs.map some)[starts.idxOf x]? := by rw [hmap]
    rw [List.getElem?_map, List.getElem?_map, List.getElem?_eq_getElem hi, List.getElem_idxOf,
      List.getElem?_eq_getElem (by omega), Option.map_some, Option.map_some, Option.some.injEq] at hget
    have hpy : pyIdx noffs (starts.idxOf x) = .ok (noffs[starts.idxOf x]'(by omega)) := by
      rw [pyIdx_eq_ok, List.getElem?_eq_getElem]
    have hv : valueOf (parsedOffset starts noffs) s.2 = ((noffs[starts.idxOf x]'(by omega) : Nat) : Int) := by
      unfold valueOf parsedOffset
      rw [hf]
      dsimp only
      rw [hpy]
      rfl
    rw [hv]
    unfold firstOf whereIn offsetIn
    rw [if_neg (by omega)]
    dsimp only
    rw [hget]
    rfl

theorem ssar_item {x : Ssar} {i : SsarItem} (h : x.save = .ok i) (extra : Bytes) (m : Int) (names : List (Option Str))
    (hn : ∀ k, names.getD k none = i.names.getD k none) :
    ∃ y, Ssar.load { i with file := i.file ++ extra, mergeID := m, names := names } = .ok y ∧ SsarBack x y ∧
      y.save = .ok { i with mergeID := m } := by
  unfold Ssar.save at h
  simp only [bind_eq_ok, pure_eq_ok] at h
  obtain ⟨⟨b, u, nm⟩, hb, rfl⟩ := h
  obtain ⟨rfl, rfl, p, off, hp, h1, h3, h4, h5, h6⟩ := ssar_back hb
  refine ⟨⟨⟨x.obj.unk02, x.obj.sequences.map fun s => (s.1, { s.2 with first := firstOf (valueOf off s.2) }), none,
    some p.1, false⟩, m⟩, ?_, ⟨rfl, rfl, by dsimp only; rw [List.map_map]; rfl, ?_, ?_⟩, ?_⟩
  · unfold Ssar.load
    dsimp only
    rw [h5 extra names hn, bind_ok]
    rfl
  · intro hpf
    obtain ⟨rfl, hd⟩ := h3 hpf
    refine ⟨hd.symm, List.map_congr_left fun s hs => ?_⟩
    congr 2
    obtain ⟨h7, _⟩ := h1 s hs
    generalize valueOf unparsedOffset s.2 = v at h7
    unfold unparsedOffset at h7
    unfold nowhere firstOf
    cases hf : s.2.first with
    | parsed e => rw [hf] at h7; cases h7
    | unparsed o =>
      rw [hf] at h7
      cases o with
      | none => cases h7; rfl
      | some z => cases h7; rfl
  · intro hpt
    obtain ⟨starts, es, offs, h7, h8, h9, rfl⟩ := h4 hpt
    refine ⟨es, starts, p.1, offs, h8, h9, rfl, fun hn hin => List.map_congr_left fun s hs => ?_⟩
    rw [whereIn_eq h7 h9 hn hin s hs]
  · unfold Ssar.save
    dsimp only
    rw [h6, bind_ok]
    rfl

/-! ## Wave archives and streams -/

theorem swar_item {x : Swar} {i : SwarItem} (h : x.save = .ok i) (ht : ∀ w ∈ x.waves, w.waveType ≤ 2) (extra : Bytes)
    (m : Int) : ∃ y, Swar.load { i with file := i.file ++ extra, mergeID := m } = .ok y ∧ SwarBack x y ∧
      y.save = .ok { i with mergeID := m } := by
  unfold Swar.save at h
  simp only [bind_eq_ok, pure_eq_ok] at h
  obtain ⟨b, hb, rfl⟩ := h
  refine ⟨⟨x.waves, m, x.unk02⟩, ?_, ⟨rfl, rfl⟩, ?_⟩
  · unfold Swar.load
    rw [Props.SoundWave.swar_roundtrip _ _ extra ht hb, bind_ok]
    rfl
  · unfold Swar.save
    rw [hb, bind_ok]
    rfl

theorem strm_item {x : Strm} {i : StrmItem} (h : x.save = .ok i) (ht : x.obj.waveType ≤ 2) (extra : Bytes)
    (m : Int) : ∃ y, Strm.load { i with file := i.file ++ extra, mergeID := m } = .ok y ∧ StrmBack x y ∧
      y.save = .ok { i with mergeID := m } := by
  unfold Strm.save at h
  simp only [bind_eq_ok, pure_eq_ok] at h
  obtain ⟨b, hb, rfl⟩ := h
  refine ⟨{ x with mergeID := m }, ?_, ⟨rfl, rfl, rfl, rfl, rfl, rfl⟩, ?_⟩
  · unfold Strm.load
    rw [Props.SoundStream.strm_roundtrip _ _ extra ht hb, bind_ok]
    rfl
  · unfold Strm.save
    rw [hb, bind_ok]
    rfl

/-! ## Banks -/

theorem dropNones_spec (l : List (Option Int)) : ∃ k, l = Model.SoundBank.dropNones l ++ List.replicate k none ∧
    (Model.SoundBank.dropNones l).getLast? ≠ some none := by
  have key : ∀ l : List (Option Int), ∃ k, l = List.replicate k none ++ l.dropWhile Option.isNone ∧
      (l.dropWhile Option.isNone).head? ≠ some none := by
    intro l
    induction l with
    | nil => exact ⟨0, rfl, by simp⟩
    | cons x l ih =>
      cases x with
      | some z => exact ⟨0, rfl, by simp⟩
      | none =>
        obtain ⟨k, h1, h2⟩ := ih
        refine ⟨k + 1, ?_, by simpa using h2⟩
        rw [List.replicate_succ, List.cons_append]
        simp only [List.dropWhile_cons, Option.isNone_none, if_true]
        rw [← h1]
  obtain ⟨k, h1, h2⟩ := key l.reverse
  refine ⟨k, ?_, ?_⟩
  · have := congrArg List.reverse h1
    rw [List.reverse_reverse, List.reverse_append, List.reverse_replicate] at this
    exact this
  · unfold Model.SoundBank.dropNones
    rw [List.getLast?_reverse]
    exact h2

theorem dropNones_get (l : List (Option Int)) (i : Nat) (z : Int) :
    (Model.SoundBank.dropNones l)[i]? = some (some z) ↔ l[i]? = some (some z) := by
  obtain ⟨k, h, _⟩ := dropNones_spec l
  constructor
  · intro h'
    rw [h]
    exact List.getElem?_append_left (by
      have := (List.getElem?_eq_some_iff.1 h').1
      exact this) ▸ h'
  · intro h'
    rw [h] at h'
    by_cases hi : i < (Model.SoundBank.dropNones l).length
    · rwa [List.getElem?_append_left hi] at h'
    · rw [List.getElem?_append_right (by omega), List.getElem?_replicate] at h'
      split at h' <;> cases h'

theorem fourSlots_get (l : List (Option Int)) (i : Nat) (z : Int) :
    (Props.SoundArchive.fourSlots l)[i]? = some (some z) ↔ l[i]? = some (some z) ∧ z ≠ -1 := by
  unfold Props.SoundArchive.fourSlots
  by_cases hi : i < l.length
  · rw [List.getElem?_append_left (by simpa using hi), List.getElem?_map, List.getElem?_eq_getElem hi, Option.map_some,
      Option.some.injEq, Option.some.injEq]
    split
    · rename_i h
      rw [h]
      simp only [Option.some.injEq, false_iff, reduceCtorEq]
      rintro ⟨h1, h2⟩
      exact h2 h1.symm
    · rename_i h
      constructor
      · intro h'
        exact ⟨h', fun hz => h (by rw [h', hz])⟩
      · exact fun h' => h'.1
  · rw [List.getElem?_append_right (by simpa using Nat.le_of_not_lt hi), List.getElem?_replicate,
      List.getElem?_eq_none (Nat.le_of_not_lt hi)]
    simp

theorem bank_item {x : Bank} {i : BankItem} (choose : List Nat → Nat) (h : x.save = .ok i)
    (hl : ∀ i, some i ∈ x.obj.instruments → Spec.SoundBank.Loadable i.kind) (extra : Bytes) (m : Int) :
    ∃ y, Bank.load choose { i with
        file := i.file ++ extra, mergeID := m, waveArchiveIDs := Props.SoundArchive.fourSlots i.waveArchiveIDs } = .ok y ∧
      BankBack x y ∧ (x.obj.inaccessible = [] → y.save = .ok { i with
        mergeID := m, waveArchiveIDs := Model.SoundBank.dropNones (Props.SoundArchive.fourSlots i.waveArchiveIDs) }) := by
  unfold Bank.save at h
  simp only [bind_eq_ok, pure_eq_ok] at h
  obtain ⟨r, hb, rfl⟩ := h
  obtain ⟨hs, he⟩ := Proofs.SoundBank.save_ok.1 hb
  cases he
  obtain ⟨inacc, h1, h2⟩ := Proofs.SoundBank.load_file_any (d := Proofs.SoundBank.fileOf x.obj ++ extra)
    (At.first _ _) choose x.obj.unk02 (Props.SoundArchive.fourSlots x.obj.waveArchiveIDs) hs hl
  refine ⟨⟨⟨x.obj.unk02, Model.SoundBank.dropNones (Props.SoundArchive.fourSlots x.obj.waveArchiveIDs),
    Proofs.SoundBank.reloaded x.obj, inacc⟩, m⟩, ?_, ⟨?_, ?_, ?_, ?_, ?_⟩, ?_⟩
  · unfold Bank.load
    dsimp only
    rw [h1, bind_ok]
    rfl
  · rfl
  · exact Proofs.SoundBank.reloaded_kinds x.obj
  · intro k z
    dsimp only
    rw [dropNones_get, fourSlots_get]
  · exact (dropNones_spec _).choose_spec.2
  · exact h2
  · intro hi
    have := h2 hi
    subst this
    obtain ⟨h3, h4⟩ := Proofs.SoundBank.resave x.obj.unk02 (Props.SoundArchive.fourSlots x.obj.waveArchiveIDs) hi hs hl
    unfold Bank.save
    have h5 := Proofs.SoundBank.save_ok.2 ⟨h3, rfl⟩
    unfold Proofs.SoundBank.reload at h5 h4
    dsimp only
    rw [h5, bind_ok, h4]
    rfl

end Verif.Proofs.SoundArchiveObject
