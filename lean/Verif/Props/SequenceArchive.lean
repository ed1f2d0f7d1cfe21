import Verif.Proofs.SoundSequenceArchive

/-!
# Properties of sequence archives (SSAR)
-/

namespace Verif.Props.SequenceArchive

open Verif Verif.Model.SoundSequenceArchive Verif.Model.SoundSequence Verif.Model.Common Verif.Spec.Sequence
open Verif.Proofs.SoundSequenceArchive

/-! ## C52 -/

/-- What an unparsed sequence must satisfy to be storable: it was not parsed, its offset (if it has one) is a signed
32-bit number, and its attributes fit 16 bits and 8 bits. -/
structure Storable (s : Sequence) : Prop where
  unparsed : ∃ o, s.first = .unparsed o ∧ ∀ z, o = some z → -2 ^ 31 ≤ z ∧ z < 2 ^ 31
  bank : s.bankID < 2 ^ 16
  volume : s.volume < 2 ^ 8
  channelPressure : s.channelPressure < 2 ^ 8
  polyphonicPressure : s.polyphonicPressure < 2 ^ 8
  player : s.playerID < 2 ^ 8

theorem storable_iff (s : Sequence) : Storable s ↔
    unparsedOffset s = .ok (valueOf unparsedOffset s) ∧ I32 (valueOf unparsedOffset s) ∧ SeqFits s := by
  unfold I32 SeqFits valueOf unparsedOffset
  constructor
  · rintro ⟨⟨o, h1, h2⟩, h3, h4, h5, h6, h7⟩
    rw [h1]
    cases o with
    | none => exact ⟨rfl, ⟨by decide, by decide⟩, h3, h4, h5, h6, h7⟩
    | some z => exact ⟨rfl, h2 z rfl, h3, h4, h5, h6, h7⟩
  · rintro ⟨h1, h2, h3, h4, h5, h6, h7⟩
    refine ⟨?_, h3, h4, h5, h6, h7⟩
    cases hf : s.first with
    | parsed e => rw [hf] at h1; cases h1
    | unparsed o =>
      refine ⟨o, rfl, ?_⟩
      rintro z rfl
      rw [hf] at h2
      exact h2

theorem unparsed_parts {a : SSAR} {d : Bytes} (hd : a.events = .unparsed d) {p : Bytes × Bytes} :
    a.parts = .ok p ↔ (∀ s ∈ a.sequences, Storable s.2) ∧
      p = (d, (a.sequences.map fun s => recBytes (valueOf unparsedOffset s.2) s.2).flatten) := by
  unfold SSAR.parts
  rw [hd]
  simp only [bind_eq_ok, pure_eq_ok]
  have h := mapE_eq_map (f := record unparsedOffset) (record_ok (off := unparsedOffset)) a.sequences
  constructor
  · rintro ⟨t, ht, rfl⟩
    obtain ⟨h1, rfl⟩ := (h t).1 ht
    exact ⟨fun s hs => (storable_iff s.2).2 (h1 s hs), rfl⟩
  · rintro ⟨h1, rfl⟩
    exact ⟨_, (h _).2 ⟨fun s hs => (storable_iff s.2).1 (h1 s hs), rfl⟩, rfl⟩

/-- C52: an archive that was not parsed can be saved exactly when all its sequences are storable and the file is
shorter than 4 GiB. -/
theorem ssar_save_iff (a : SSAR) (d : Bytes) (hd : a.events = .unparsed d) :
    (∃ r, a.save = .ok r) ↔
      (∀ s ∈ a.sequences, Storable s.2) ∧ 0x20 + a.sequences.length * 0xC + d.length < 2 ^ 32 := by
  constructor
  · rintro ⟨r, hr⟩
    have h := hr
    unfold SSAR.save at h
    simp only [bind_eq_ok] at h
    obtain ⟨p, hp, _⟩ := h
    obtain ⟨h1, rfl⟩ := (unparsed_parts hd).1 hp
    exact ⟨h1, ((save_of_parts hp (by simp)).1 hr).1⟩
  · rintro ⟨h1, h2⟩
    exact ⟨_, (save_of_parts ((unparsed_parts hd).2 ⟨h1, rfl⟩) (by simp)).2 ⟨h2, rfl⟩⟩

/-- C52: an archive that was not parsed comes back from its saved form (file, `unk02` and names), whatever follows
the file.  (An offset of -1 comes back as None, which means the same.) -/
theorem ssar_roundtrip (a : SSAR) (d : Bytes) (hd : a.events = .unparsed d)
    (hm : ∀ s ∈ a.sequences, s.2.first ≠ .unparsed (some (-1)))
    (b : Bytes) (u : Nat) (names : List (Option Str)) (h : a.save = .ok (b, u, names)) (extra : Bytes) :
    SSAR.load (b ++ extra) u names = .ok a := by
  obtain ⟨h1, h2⟩ := (ssar_save_iff a d hd).1 ⟨_, h⟩
  have hp := (unparsed_parts hd).2 ⟨h1, rfl⟩
  obtain ⟨_, e⟩ := (save_of_parts hp (by simp)).1 h
  cases e
  rw [load_named h2 (fun s hs => ⟨((storable_iff s.2).1 (h1 s hs)).2.1, ((storable_iff s.2).1 (h1 s hs)).2.2⟩)]
  obtain ⟨u, seqs, ev⟩ := a
  dsimp only at hd hm h1
  rw [hd]
  congr 2
  conv => rhs; rw [← List.map_id seqs]
  apply List.map_congr_left
  intro s hs
  obtain ⟨o, ho, _⟩ := (h1 s hs).unparsed
  have hm' := hm s hs
  obtain ⟨nm, f, b1, b2, b3, b4, b5⟩ := s
  dsimp only at ho hm'
  subst ho
  simp only [id_eq, Prod.mk.injEq, true_and, Sequence.mk.injEq, and_true]
  unfold valueOf unparsedOffset firstOf
  cases o with
  | none => simp
  | some z => simp at hm'; simp [hm']

def smallArchive : SSAR where
  unk02 := 7
  sequences := [(some [0x61], ⟨.unparsed (some 0), 3, 127, 64, 50, 1⟩), (none, ⟨.unparsed none, 0, 0, 0, 0, 0⟩),
    (some [], ⟨.unparsed (some 2), 0xFFFF, 0xFF, 0xFF, 0xFF, 0xFF⟩)]
  events := .unparsed [0xC0, 0x40, 0xFF]

example : (smallArchive.save).toOption.map (fun r => r.1.length) = some 71 ∧
    (∀ s ∈ smallArchive.sequences, s.2.first ≠ .unparsed (some (-1))) := by decide +kernel

example : ∀ s ∈ smallArchive.sequences, Storable s.2 := by
  intro s hs
  simp only [smallArchive, List.mem_cons, List.not_mem_nil, or_false] at hs
  rcases hs with rfl | rfl | rfl
  · exact ⟨⟨_, rfl, by intro z hz; cases hz; decide⟩, by decide, by decide, by decide, by decide, by decide⟩
  · exact ⟨⟨_, rfl, by intro z hz; cases hz⟩, by decide, by decide, by decide, by decide, by decide⟩
  · exact ⟨⟨_, rfl, by intro z hz; cases hz; decide⟩, by decide, by decide, by decide, by decide, by decide⟩

/-! ## C60 -/

theorem startOffsets_eq {seqs : List (Option Str × Sequence)} : ∀ {offs : List Nat}, startOffsets seqs = .ok offs →
    (∀ s ∈ seqs, ∃ z : Int, s.2.first = .unparsed (some z) ∧ z ≠ -1) →
    seqs.map (fun s => s.2.first) = offs.map (fun o : Nat => First.unparsed (some (o : Int))) := by
  induction seqs with
  | nil => intro offs h _; cases h; rfl
  | cons s ss ih =>
    intro offs h hs
    rw [startOffsets] at h
    simp only [bind_eq_ok] at h
    obtain ⟨r, hr, h⟩ := h
    obtain ⟨z, hz, hz1⟩ := hs s (by simp)
    rw [hz] at h
    dsimp only at h
    rw [if_neg hz1] at h
    split at h
    · cases h
    · rename_i hz0
      rw [pure_eq_ok] at h
      subst h
      rw [List.map_cons, List.map_cons, ih hr (fun x hx => hs x (by simp [hx])), hz]
      have : ((z.toNat : Nat) : Int) = z := by omega
      rw [this]

theorem startEvents_eq : ∀ {seqs : List (Option Str × Sequence)} {offs : List Nat},
    seqs.map (fun s => s.2.first) = offs.map (fun o => First.parsed (some o)) → startEvents seqs = .ok offs
  | [], [], _ => rfl
  | [], _ :: _, h => by cases h
  | _ :: _, [], h => by cases h
  | s :: ss, o :: os, h => by
    rw [List.map_cons, List.map_cons, List.cons.injEq] at h
    rw [startEvents, h.1]
    dsimp only
    rw [startEvents_eq h.2, bind_ok]
    rfl

/-- The stored offset of a sequence of a parsed archive, when the offsets are the identities. -/
theorem parsedOffset_self {offs : List Nat} {s : Sequence} {o : Nat} (hs : s.first = .parsed (some o))
    (ho : o ∈ offs) : parsedOffset offs offs s = .ok (o : Int) := by
  unfold parsedOffset
  rw [hs]
  dsimp only
  have hlt := List.idxOf_lt_length_of_mem ho
  have : pyIdx offs (offs.idxOf o) = .ok o := by
    rw [pyIdx_eq_ok, List.getElem?_eq_getElem hlt, List.getElem_idxOf]
  rw [this, bind_ok]
  rfl

/-- The first events of the sequences after parsing. -/
theorem attached_starts {a : SSAR} {n : List Nat}
    (hs : ∀ s ∈ a.sequences, ∃ z : Int, s.2.first = .unparsed (some z) ∧ z ≠ -1)
    (ho : startOffsets a.sequences = .ok n) : startEvents (a.sequences.map fun s => (s.1, s.2.attach)) = .ok n := by
  have he := startOffsets_eq ho hs
  have hfst : (a.sequences.map fun s => (s.1, s.2.attach)).map (fun s => s.2.first) =
      n.map (fun o => First.parsed (some o)) := by
    have : ∀ s ∈ a.sequences, s.2.attach.first = (match s.2.first with
        | .unparsed (some z) => First.parsed (some z.toNat)
        | f => f) := by
      intro s hs'
      obtain ⟨z, hz, hz1⟩ := hs s hs'
      unfold Sequence.attach
      rw [hz]
      dsimp only
      rw [if_neg hz1]
    rw [List.map_map]
    have e : a.sequences.map ((fun s : Option Str × Sequence => s.2.first) ∘ fun s => (s.1, s.2.attach)) =
        (a.sequences.map fun s => s.2.first).map (fun f => match f with
        | .unparsed (some z) => First.parsed (some z.toNat)
        | f => f) := by
      rw [List.map_map]
      exact List.map_congr_left this
    rw [e, he, List.map_map]
    apply List.map_congr_left
    intro o _
    simp
  exact startEvents_eq hfst

/-- A parsed archive whose events are saved at the offsets that they have is saved like the archive with the data. -/
theorem attached_save {a : SSAR} {d : Bytes} {l : List (Nat × Ev)} {n : List Nat} (hd : a.events = .unparsed d)
    (hs : ∀ s ∈ a.sequences, ∃ z : Int, s.2.first = .unparsed (some z) ∧ z ≠ -1)
    (ho : startOffsets a.sequences = .ok n) (hsave : saveSequenceEvents l n = .ok (d, n)) :
    SSAR.save { a with sequences := a.sequences.map (fun s => (s.1, s.2.attach)), events := .parsed l } = a.save := by
  have he := startOffsets_eq ho hs
  have hstart := attached_starts hs ho
  have hparts : SSAR.parts { a with sequences := a.sequences.map (fun s => (s.1, s.2.attach)), events := .parsed l } =
      a.parts := by
    unfold SSAR.parts
    rw [hd]
    dsimp only
    rw [hstart, bind_ok, hsave, bind_ok]
    dsimp only
    congr 1
    have hrec : ∀ s ∈ a.sequences, record (parsedOffset n n) (s.1, s.2.attach) = record unparsedOffset s := by
      intro s hs'
      obtain ⟨z, hz, hz1⟩ := hs s hs'
      have hzm : First.unparsed (some z) ∈ n.map (fun o : Nat => First.unparsed (some (o : Int))) := by
        rw [← he]; exact List.mem_map.2 ⟨s, hs', hz⟩
      obtain ⟨o, hon, hoz⟩ := List.mem_map.1 hzm
      cases hoz
      have ha : s.2.attach = { s.2 with first := .parsed (some o) } := by
        unfold Sequence.attach
        rw [hz]
        dsimp only
        rw [if_neg hz1, Int.toNat_natCast]
      unfold record
      dsimp only
      rw [parsedOffset_self (o := o) (by rw [ha]) hon, bind_ok, ha]
      unfold unparsedOffset
      rw [hz]
      dsimp only
      rw [bind_ok]
      simp only [packSequence]
    have hmap : ∀ l : List (Option Str × Sequence), (∀ s ∈ l, s ∈ a.sequences) →
        mapE (record (parsedOffset n n)) (l.map fun s => (s.1, s.2.attach)) = mapE (record unparsedOffset) l := by
      intro l
      induction l with
      | nil => intro _; rfl
      | cons s ss ih =>
        intro hl
        rw [List.map_cons, mapE, mapE, hrec s (hl s (by simp)), ih (fun x hx => hl x (by simp [hx]))]
    exact hmap _ (fun s hs => hs)
  unfold SSAR.save
  rw [hparts]
  dsimp only
  rw [List.length_map, List.map_map]
  rfl

/-- C60: parsing an archive all of whose sequences have a first event does not change what is saved, under the
conditions of C57 on the event data (shortest variable-length integers, no event beyond the end, no reference and no
first event in the middle of another event).  Missing: archives with empty sequences, which cannot be saved any more, see
`ssar_parse_unsavable`. -/
theorem ssar_parse_save_partial (depth : Nat) (a a' : SSAR) (d : Bytes) (l : List (Nat × Ev)) (hd : a.events = .unparsed d)
    (hs : ∀ s ∈ a.sequences, ∃ z : Int, s.2.first = .unparsed (some z) ∧ z ≠ -1)
    (hp : a.parse depth = .ok a') (hl : a'.events = .parsed l)
    (hshort : ∀ x ∈ l, Shortest d x.1 x.2) (hend : ∀ x ∈ l, x.1 + written x.2 ≤ d.length)
    (hrefs : ∀ x ∈ l, ∀ y ∈ refs x.2, y ∈ l.map Prod.fst)
    (hfirst : ∀ s ∈ a.sequences, ∀ z : Int, s.2.first = .unparsed (some z) → z.toNat ∈ l.map Prod.fst) :
    a'.save = a.save := by
  unfold SSAR.parse at hp
  rw [hd] at hp
  simp only [bind_eq_ok, pure_eq_ok] at hp
  obtain ⟨offs, ho, ⟨l', n⟩, hr, rfl⟩ := hp
  dsimp only at hl
  cases hl
  have he := startOffsets_eq ho hs
  have hno : ∀ y ∈ offs, y ∈ l.map Prod.fst := by
    intro y hy
    have : First.unparsed (some (y : Int)) ∈ a.sequences.map (fun s => s.2.first) := by
      rw [he]; exact List.mem_map.2 ⟨y, hy, rfl⟩
    obtain ⟨s, hs', hs''⟩ := List.mem_map.1 this
    have := hfirst s hs' y hs''
    simpa using this
  obtain ⟨hn, _⟩ := Proofs.SeqResave.read_ok (P := fun _ => True)
    (fun _ _ _ _ _ => ⟨fun _ _ => trivial, trivial⟩) (fun _ _ => trivial) hr
  subst hn
  have hsave := Proofs.SeqResave.resave hr hshort hend hrefs hno
  exact attached_save hd hs ho hsave

example : ∃ a', SSAR.parse 1000 { smallArchive with sequences := smallArchive.sequences.take 1 } = .ok a' ∧
    a'.events = .parsed [(0, .simple .pan 0x40), (2, .endTrack)] ∧
    a'.save = SSAR.save { smallArchive with sequences := smallArchive.sequences.take 1 } :=
  ⟨_, rfl, rfl, by decide +kernel⟩

theorem startEvents_error : ∀ {seqs : List (Option Str × Sequence)},
    (∃ s ∈ seqs, ∃ o, s.2.first = .unparsed o) → startEvents seqs = .error .valueError
  | [], h => by obtain ⟨s, hs, _⟩ := h; cases hs
  | s :: ss, ⟨t, ht, o, ho⟩ => by
    rw [startEvents]
    rcases List.mem_cons.1 ht with rfl | ht
    · rw [ho]
    · have ih := startEvents_error ⟨t, ht, o, ho⟩
      cases s.2.first with
      | unparsed _ => rfl
      | parsed e =>
        cases e with
        | none => exact ih
        | some e => dsimp only; rw [ih, bind_error]

/-- C60 is false for archives with a sequence that has no first event: once such an archive is parsed, it can no
longer be saved. -/
theorem ssar_parse_unsavable (depth : Nat) (a a' : SSAR) (d : Bytes) (hd : a.events = .unparsed d)
    (hs : ∃ s ∈ a.sequences, s.2.first = .unparsed none) (hp : a.parse depth = .ok a') :
    a'.save = .error .valueError := by
  unfold SSAR.parse at hp
  rw [hd] at hp
  simp only [bind_eq_ok, pure_eq_ok] at hp
  obtain ⟨offs, ho, ⟨l', n⟩, hr, rfl⟩ := hp
  obtain ⟨s, hs, hf⟩ := hs
  have : startEvents (a.sequences.map fun s => (s.1, s.2.attach)) = .error .valueError := by
    refine startEvents_error ⟨_, List.mem_map.2 ⟨s, hs, rfl⟩, none, ?_⟩
    unfold Sequence.attach
    rw [hf]
    exact hf
  unfold SSAR.save SSAR.parts
  dsimp only
  rw [this, bind_error, bind_error]

example : ∃ a', SSAR.parse 1000 smallArchive = .ok a' ∧ a'.save = .error .valueError := ⟨_, rfl, by decide +kernel⟩

/-- An archive without sequences and without data (such as a new one, saved and loaded) cannot be parsed. -/
theorem ssar_empty_parse (depth unk02 : Nat) :
    SSAR.parse depth ⟨unk02, [], .unparsed []⟩ = .error .eofError := rfl

/-! ## C61 -/

theorem startEvents_ok : ∀ {seqs : List (Option Str × Sequence)} {l : List Nat}, startEvents seqs = .ok l →
    ∀ s ∈ seqs, ∃ e, s.2.first = .parsed e ∧ ∀ x, e = some x → x ∈ l
  | [], _, _ => fun s hs => by cases hs
  | s :: ss, l, h => by
    rw [startEvents] at h
    intro t ht
    cases hf : s.2.first with
    | unparsed o => rw [hf] at h; cases h
    | parsed e =>
      rw [hf] at h
      cases e with
      | none =>
        dsimp only at h
        rcases List.mem_cons.1 ht with rfl | ht
        · exact ⟨none, hf, by simp⟩
        · exact startEvents_ok h t ht
      | some e =>
        dsimp only at h
        simp only [bind_eq_ok, pure_eq_ok] at h
        obtain ⟨r, hr, rfl⟩ := h
        rcases List.mem_cons.1 ht with rfl | ht
        · exact ⟨some e, hf, by simp⟩
        · obtain ⟨e', h1, h2⟩ := startEvents_ok hr t ht
          exact ⟨e', h1, fun x hx => List.mem_cons_of_mem _ (h2 x hx)⟩

/-- Where a sequence of a parsed archive begins in the saved data. -/
def firstIn (events : List (Nat × Ev)) : First → First
  | .parsed (some e) => .unparsed (some (offsetIn events e : Int))
  | _ => .unparsed none

/-- C61: a parsed archive, saved and loaded, has the same sequences with the same names and attributes; the first
event offset of a sequence is the offset at which its first event was written, and sequences without first event
stay without; the event data is what `saveSequenceEvents` produced. -/
theorem ssar_parsed_save (a : SSAR) (events : List (Nat × Ev)) (he : a.events = .parsed events)
    (hn : (events.map Prod.fst).Nodup) (hin : ∀ e ∈ events, InRange e.2 ∨ ∃ b, e.2 = .raw b)
    (b : Bytes) (u : Nat) (names : List (Option Str)) (h : a.save = .ok (b, u, names)) (extra : Bytes) :
    ∃ starts data noffs, startEvents a.sequences = .ok starts ∧ saveSequenceEvents events starts = .ok (data, noffs) ∧
      SSAR.load (b ++ extra) u names = .ok ⟨a.unk02,
        a.sequences.map fun s => (s.1, { s.2 with first := firstIn events s.2.first }), .unparsed data⟩ := by
  have h' := h
  unfold SSAR.save SSAR.parts at h'
  rw [he] at h'
  simp only [bind_eq_ok, pure_eq_ok] at h'
  obtain ⟨p, ⟨starts, hst, ⟨data, noffs⟩, hsv, table, htab, rfl⟩, _⟩ := h'
  refine ⟨starts, data, noffs, hst, hsv, ?_⟩
  obtain ⟨h1, rfl⟩ := (mapE_eq_map (f := record (parsedOffset starts noffs))
    (record_ok (off := parsedOffset starts noffs)) a.sequences table).1 htab
  have hparts : a.parts = .ok (data, (a.sequences.map fun s =>
      recBytes (valueOf (parsedOffset starts noffs) s.2) s.2).flatten) := by
    unfold SSAR.parts
    rw [he]
    dsimp only
    rw [hst, bind_ok, hsv, bind_ok]
    dsimp only
    rw [htab, bind_ok]
    rfl
  obtain ⟨hlen, e⟩ := (save_of_parts hparts (by simp)).1 h
  cases e
  rw [load_named (val := valueOf (parsedOffset starts noffs)) hlen (fun s hs => (h1 s hs).2)]
  congr 2
  apply List.map_congr_left
  intro s hs
  congr 2
  obtain ⟨f, hf, hx⟩ := startEvents_ok hst s hs
  rw [hf]
  have hmap := Proofs.SeqReread.notable_offsets
    (Proofs.SeqSave.save_ok hn (fun e he => Proofs.SeqSave.declared_le _ (hin e he)) hsv).2.2.2.2.2
  cases f with
  | none =>
    unfold valueOf parsedOffset firstOf firstIn
    rw [hf]
    rfl
  | some x =>
    have hxm := hx x rfl
    have hi := List.idxOf_lt_length_of_mem hxm
    have hlen' : noffs.length = starts.length := by
      have := congrArg List.length hmap
      simpa using this.symm
    have hget : (starts.map (position events))[starts.idxOf x]? = (noffs.map some)[starts.idxOf x]? := by rw [hmap]
    rw [List.getElem?_map, List.getElem?_map, List.getElem?_eq_getElem hi, List.getElem_idxOf,
      List.getElem?_eq_getElem (by omega), Option.map_some, Option.map_some, Option.some.injEq] at hget
    have hpy : pyIdx noffs (starts.idxOf x) = .ok (noffs[starts.idxOf x]'(by omega)) := by
      rw [pyIdx_eq_ok, List.getElem?_eq_getElem]
    have hv : valueOf (parsedOffset starts noffs) s.2 = ((noffs[starts.idxOf x]'(by omega) : Nat) : Int) := by
      unfold valueOf parsedOffset
      rw [hf]
      dsimp only
      rw [hpy]
      rfl
    rw [hv]
    unfold firstOf firstIn offsetIn
    rw [if_neg (by omega)]
    dsimp only
    rw [hget]
    rfl

def smallParsed : SSAR where
  unk02 := 0
  sequences := [(none, ⟨.parsed (some 9), 3, 127, 64, 50, 1⟩), (none, ⟨.parsed none, 3, 127, 64, 50, 1⟩)]
  events := .parsed [(4, .simple .pan 1), (9, .endTrack)]

example : (SSAR.save smallParsed).toOption.isSome ∧
    (do let r ← SSAR.save smallParsed; SSAR.load r.1 r.2.1 r.2.2) = .ok ⟨0, [(none, ⟨.unparsed (some 2), 3, 127, 64, 50, 1⟩),
      (none, ⟨.unparsed none, 3, 127, 64, 50, 1⟩)], .unparsed [0xC0, 1, 0xFF]⟩ := by decide +kernel

/-- C61: the positions and sizes in a saved archive are consistent: the header's size is the length of the file, the
block's size is what follows the header, the number of sequences is given, and the data follows the table. -/
theorem ssar_header (a : SSAR) (b : Bytes) (u : Nat) (names : List (Option Str)) (h : a.save = .ok (b, u, names)) :
    b.take 4 = magicSSAR ∧ unpackU .little 4 b 8 = .ok b.length ∧ slice b 0x10 0x14 = magicDATA ∧
    unpackU .little 4 b 0x14 = .ok (b.length - 0x10) ∧
    unpackU .little 4 b 0x18 = .ok (0x20 + 12 * a.sequences.length) ∧
    unpackU .little 4 b 0x1C = .ok a.sequences.length ∧ u = a.unk02 ∧ names = a.sequences.map Prod.fst := by
  unfold SSAR.save at h
  simp only [bind_eq_ok, pure_eq_ok, packStdHeader_eq_ok, packU_eq_ok, Prod.mk.injEq] at h
  obtain ⟨⟨data, table⟩, hp, _, ⟨hok, rfl⟩, _, ⟨h1, rfl⟩, _, ⟨h2, rfl⟩, _, ⟨h3, rfl⟩, hb, rfl, rfl⟩ := h
  have hsz := hok.2.2.1
  dsimp only at hsz hb
  have htl : table.length = a.sequences.length * 0xC := by
    have key : ∀ (off : Sequence → Py Int) (t : List Bytes), mapE (record off) a.sequences = .ok t →
        t.flatten.length = a.sequences.length * 0xC := by
      intro off t ht
      obtain ⟨_, rfl⟩ := (mapE_eq_map (f := record off) (record_ok (off := off)) a.sequences t).1 ht
      rw [flatten_length_const (n := 12) (by
        intro p hp
        obtain ⟨r, _, rfl⟩ := List.mem_map.1 hp
        simp)]
      simp
    unfold SSAR.parts at hp
    split at hp
    · simp only [bind_eq_ok, pure_eq_ok, Prod.mk.injEq] at hp
      obtain ⟨_, _, _, _, t, ht, rfl, rfl⟩ := hp
      exact key _ t ht
    · simp only [bind_eq_ok, pure_eq_ok, Prod.mk.injEq] at hp
      obtain ⟨t, ht, rfl, rfl⟩ := hp
      exact key _ t ht
  have ml : magicDATA.length = 4 := rfl
  have hlen : b.length = 0x20 + a.sequences.length * 0xC + data.length := by
    rw [← hb]
    simp only [List.length_append, stdHeaderBytes_length, enBytes_length, ml, htl]
  have hat := At.refl b
  conv at hat => arg 3; rw [← hb]
  unfold stdHeaderBytes at hat
  simp only [At.split, packStr_length, enBytes_length, List.length_append, ml] at hat
  obtain ⟨⟨⟨⟨⟨⟨⟨⟨a1, a2⟩, a3⟩, a4⟩, a5⟩, a6⟩, ⟨⟨a7, a8⟩, a9⟩, a10⟩, a11⟩, a12⟩ := hat
  have m : b.take 4 = magicSSAR := by
    have := a1.slice_eq (b := 4) (by simp)
    rw [slice_zero] at this
    rw [this]; decide
  refine ⟨m, ?_, a7.slice_eq (by rw [ml]), ?_, ?_, ?_, rfl, rfl⟩
  · rw [a4.unpackU (by omega), hlen]
  · rw [At.unpackU (e := .little) (k := 4) a8 (by omega), hlen]
  · rw [At.unpackU (e := .little) (k := 4) a9 (by omega), Nat.mul_comm 12]
  · exact At.unpackU (e := .little) (k := 4) a10 (by omega)

theorem startEvents_all : ∀ {seqs : List (Option Str × Sequence)} {l : List Nat}, startEvents seqs = .ok l →
    (∀ s ∈ seqs, ∃ e, s.2.first = .parsed (some e)) → seqs.map (fun s => s.2.first) = l.map (fun e => First.parsed (some e))
  | [], _, h, _ => by cases h; rfl
  | s :: ss, l, h, hs => by
    rw [startEvents] at h
    obtain ⟨e, he⟩ := hs s (by simp)
    rw [he] at h
    dsimp only at h
    simp only [bind_eq_ok, pure_eq_ok] at h
    obtain ⟨r, hr, rfl⟩ := h
    rw [List.map_cons, List.map_cons, startEvents_all hr (fun x hx => hs x (by simp [hx])), he]

theorem startOffsets_mk : ∀ {seqs : List (Option Str × Sequence)} {offs : List Nat},
    seqs.map (fun s => s.2.first) = offs.map (fun o : Nat => First.unparsed (some (o : Int))) →
    startOffsets seqs = .ok offs
  | [], [], _ => rfl
  | [], _ :: _, h => by cases h
  | _ :: _, [], h => by cases h
  | s :: ss, o :: os, h => by
    rw [List.map_cons, List.map_cons, List.cons.injEq] at h
    rw [startOffsets, startOffsets_mk h.2, bind_ok, h.1]
    dsimp only
    rw [if_neg (by omega), if_neg (by omega)]
    rfl

/-- C61: saving, loading and parsing a parsed archive gives back its events (with identities replaced by offsets) and
its sequences with the corresponding first events, for archives without calls, returns, ifs and from-variable events
all of whose events are reached from the first events of the sequences. -/
theorem ssar_reparse (a : SSAR) (events : List (Nat × Ev)) (he : a.events = .parsed events)
    (hn : (events.map Prod.fst).Nodup) (hin : ∀ e ∈ events, InRange e.2)
    (hf : ∀ e ∈ events, isFromVariable e.2 = false) (hst : Straight events)
    (hs : ∀ s ∈ a.sequences, ∃ e, s.2.first = .parsed (some e)) (hne : a.sequences ≠ [])
    (hreach : ∀ e ∈ events, Reached events
      (a.sequences.filterMap fun s => match s.2.first with | .parsed e => e | .unparsed _ => none) e.1)
    (depth : Nat) (hdepth : (events.filter fun e => !(refs e.2).isEmpty).length ≤ depth)
    (b : Bytes) (u : Nat) (names : List (Option Str)) (h : a.save = .ok (b, u, names)) :
    (SSAR.load b u names >>= SSAR.parse depth) = .ok ⟨a.unk02,
      a.sequences.map fun s => (s.1, { s.2 with first := match s.2.first with
        | .parsed (some e) => .parsed (some (offsetIn events e))
        | f => f }), .parsed (renamed events)⟩ := by
  obtain ⟨starts, data, noffs, h1, h2, h3⟩ := ssar_parsed_save a events he hn (fun e he => .inl (hin e he)) b u names h []
  rw [List.append_nil] at h3
  rw [h3, bind_ok]
  have hall := startEvents_all h1 hs
  have hstarts : (a.sequences.filterMap fun s => match s.2.first with | .parsed e => e | .unparsed _ => none) = starts := by
    have e : (a.sequences.filterMap fun s => match s.2.first with | .parsed e => e | .unparsed _ => none) =
        (a.sequences.map fun s => s.2.first).filterMap
          (fun f => match f with | .parsed e => e | .unparsed _ => none) := by
      rw [List.filterMap_map]; rfl
    rw [e, hall, List.filterMap_map]
    simp [Function.comp_def]
  have hsn : starts ≠ [] := by
    rintro rfl
    have := congrArg List.length hall
    simp at this
    exact hne this
  have hmap := Proofs.SeqReread.notable_offsets
    (Proofs.SeqSave.save_ok hn (fun e he => Proofs.SeqSave.declared_le _ (.inl (hin e he))) h2).2.2.2.2.2
  have hnoffs : noffs = starts.map (offsetIn events) := by
    have e := congrArg (List.map fun o : Option Nat => o.getD 0) hmap
    rw [List.map_map, List.map_map] at e
    simp [Function.comp_def] at e
    rw [← e]; rfl
  have hevn : events ≠ [] := by
    rintro rfl
    cases starts with
    | nil => exact hsn rfl
    | cons x xs =>
      cases noffs with
      | nil => cases hmap
      | cons y ys => rw [List.map_cons, List.map_cons] at hmap; cases hmap
  have hread := Proofs.SeqReread.reread_complete hn hin hf hst hevn h2
    (by rw [startIds, if_neg hsn, ← hstarts]; exact hreach) hdepth
  unfold SSAR.parse
  dsimp only
  rw [startOffsets_mk (offs := noffs), bind_ok, hread, bind_ok]
  · rw [pure_eq_ok]
    congr 1
    rw [List.map_map]
    apply List.map_congr_left
    intro s hs'
    obtain ⟨e, hse⟩ := hs s hs'
    dsimp only [Function.comp]
    unfold Sequence.attach firstIn
    rw [hse]
    dsimp only
    rw [if_neg (by omega), Int.toNat_natCast]
  · rw [List.map_map, hnoffs, List.map_map]
    have e : a.sequences.map ((fun s : Option Str × Sequence => s.2.first) ∘ fun s =>
        (s.1, ({ s.2 with first := firstIn events s.2.first } : Sequence))) =
        (a.sequences.map fun s => s.2.first).map (firstIn events) := by
      rw [List.map_map]; rfl
    rw [e, hall, List.map_map]
    rfl

def smallSong : SSAR where
  unk02 := 0
  sequences := [(none, ⟨.parsed (some 9), 3, 127, 64, 50, 1⟩), (none, ⟨.parsed (some 4), 3, 127, 64, 50, 1⟩)]
  events := .parsed [(4, .simple .pan 1), (8, .jump 4), (9, .endTrack)]

example : (SSAR.save smallSong).toOption.isSome ∧
    (do let r ← SSAR.save smallSong; let a ← SSAR.load r.1 r.2.1 r.2.2; a.parse 1000) =
      .ok ⟨0, [(none, ⟨.parsed (some 6), 3, 127, 64, 50, 1⟩), (none, ⟨.parsed (some 0), 3, 127, 64, 50, 1⟩)],
        .parsed [(0, .simple .pan 1), (2, .jump 0), (6, .endTrack)]⟩ := by decide +kernel

end Verif.Props.SequenceArchive
