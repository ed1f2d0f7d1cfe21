import Verif.Proofs.SeqEdit
import Verif.Props.SequenceRead
import Verif.Props.SequenceArchive

/-!
# C155: changing the values of events of a parsed sequence
-/

namespace Verif.Props.SequenceEdit

open Verif Verif.Model.SoundSequence Verif.Model.SoundSequenceArchive Verif.Spec.Sequence Verif.Spec.SequenceEdit
open Verif.Proofs.SeqEdit

/-- C155: events that were read, of which some are replaced by others of the same length, can be saved, to data of the same
length; reading it gives the replaced events at the same offsets.  Assumed is that every event that is referred to is in the
list and that the last event is complete. -/
theorem events_edit_partial (depth : Nat) (d : Bytes) (notable : List Nat) (l : List (Nat × Ev)) (n : List Nat)
    (h : readSequenceEvents depth d notable = .ok (l, n)) (hv : ∀ x ∈ l, isFromVariable x.2 = false)
    (hend : ∀ x ∈ l, x.1 + declared x.2 ≤ d.length) (hrefs : ∀ x ∈ l, ∀ y ∈ refs x.2, y ∈ l.map Prod.fst)
    (hno : ∀ y ∈ notable, y ∈ l.map Prod.fst) (f : Nat → Ev → Ev) (hf : ∀ x ∈ l, Alike x.2 (f x.1 x.2)) :
    ∃ d', saveSequenceEvents (l.map fun x => (x.1, f x.1 x.2)) notable = .ok (d', notable) ∧ d'.length = d.length ∧
      readSequenceEvents depth d' notable = .ok (l.map fun x => (x.1, f x.1 x.2), notable) :=
  edit_read_entries h hv hend hrefs hno hf

theorem sseq_of_data {l : List (Nat × Ev)} {data : Bytes} {n : List Nat} (h : saveSequenceEvents l [] = .ok (data, n)) :
    SSEQ.save (.parsed l) = SSEQ.save (.unparsed data) := by
  have e : SSEQ.data (.parsed l) = SSEQ.data (.unparsed data) := by
    simp only [SSEQ.data]; rw [h]; rfl
  unfold SSEQ.save
  rw [e]

/-- C155, for a sequence: if the parsed sequence can be saved as it is, with the size that it had, then it can be saved
after the changes; the file has the same size, and loaded and parsed it has the changed events.  Missing: sequences with
from-variable events, see `sseq_edit_from_variable`. -/
theorem sseq_edit_partial (depth : Nat) (d : Bytes) (l : List (Nat × Ev))
    (h : SSEQ.parse depth (.unparsed d) = .ok (.parsed l)) (hv : ∀ x ∈ l, isFromVariable x.2 = false)
    (b : Bytes) (hb : SSEQ.save (.parsed l) = .ok b) (hlen : b.length = 0x1C + d.length)
    (f : Nat → Ev → Ev) (hf : ∀ x ∈ l, Alike x.2 (f x.1 x.2)) :
    ∃ b' d', SSEQ.save (.parsed (l.map fun x => (x.1, f x.1 x.2))) = .ok b' ∧ b'.length = b.length ∧
      ∀ extra, SSEQ.load (b' ++ extra) = .ok (.unparsed d') ∧
        SSEQ.parse depth (.unparsed d') = .ok (.parsed (l.map fun x => (x.1, f x.1 x.2))) := by
  unfold SSEQ.parse at h
  simp only [bind_eq_ok, pure_eq_ok] at h
  obtain ⟨⟨l', n⟩, hr, hl⟩ := h
  cases hl
  dsimp only at hv hb hf ⊢
  obtain ⟨d1, hs, _⟩ := Props.Sequence.sseq_parsed_save l' b [] hb
  rw [sseq_of_data hs] at hb
  have hfit : d1.length + 0x1C < 2 ^ 32 := by
    apply Nat.lt_of_not_le
    intro hn
    rw [(Props.Sequence.sseq_roundtrip d1).2 hn] at hb
    cases hb
  obtain ⟨b1, hb1, hlen1, _⟩ := (Props.Sequence.sseq_roundtrip d1).1 hfit
  rw [hb] at hb1
  cases hb1
  obtain ⟨hrefs, hno, _, hend⟩ := saved_conds hr hv hs
  obtain ⟨d', k1, k2, k3⟩ := edit_read_entries hr hv (hend (by omega)) hrefs hno hf
  obtain ⟨b', hb', hlen', hload⟩ := (Props.Sequence.sseq_roundtrip d').1 (by omega)
  refine ⟨b', d', ?_, by omega, fun extra => ⟨hload extra, ?_⟩⟩
  · rw [← hb']
    exact sseq_of_data k1
  · show (readSequenceEvents depth d' []).bind _ = _
    rw [k3]
    rfl

/-- C155: all notes of a sequence get the same pitch (middle C is 60), as on the first page of the documentation.  The file
that is saved, loaded and parsed again, has the same events at the same offsets, apart from the pitch of the notes. -/
theorem sseq_pitch_partial (depth : Nat) (d : Bytes) (l : List (Nat × Ev))
    (h : SSEQ.parse depth (.unparsed d) = .ok (.parsed l)) (hv : ∀ x ∈ l, isFromVariable x.2 = false)
    (b : Bytes) (hb : SSEQ.save (.parsed l) = .ok b) (hlen : b.length = 0x1C + d.length)
    (p : Int) (hp : 0 ≤ p ∧ p ≤ 127) :
    ∃ b' d', SSEQ.save (.parsed (l.map fun x => (x.1, withPitch p x.2))) = .ok b' ∧ b'.length = b.length ∧
      ∀ extra, SSEQ.load (b' ++ extra) = .ok (.unparsed d') ∧
        SSEQ.parse depth (.unparsed d') = .ok (.parsed (l.map fun x => (x.1, withPitch p x.2))) := by
  refine sseq_edit_partial depth d l h hv b hb hlen (fun _ e => withPitch p e) ?_
  intro x hx
  unfold SSEQ.parse at h
  simp only [bind_eq_ok, pure_eq_ok] at h
  obtain ⟨⟨l', n⟩, hr, hl⟩ := h
  cases hl
  obtain ⟨_, _, k⟩ := Props.SequenceRead.read_tiles depth d [] l' n hr
  rcases k x hx with k | k
  · exact pitch_alike hp (.inr k)
  · exact pitch_alike hp (.inl k.2)

/-- C155: with a pitch that is not from 0 to 127, saving raises ValueError if there is a note. -/
theorem sseq_pitch_refused (depth : Nat) (d : Bytes) (l : List (Nat × Ev))
    (h : SSEQ.parse depth (.unparsed d) = .ok (.parsed l)) (b : Bytes) (hb : SSEQ.save (.parsed l) = .ok b)
    (p : Int) (hp : p < 0 ∨ 127 < p) (hnote : ∃ o q v fl dur, (o, Ev.note q v fl dur) ∈ l) :
    SSEQ.save (.parsed (l.map fun x => (x.1, withPitch p x.2))) = .error .valueError := by
  unfold SSEQ.parse at h
  simp only [bind_eq_ok, pure_eq_ok] at h
  obtain ⟨⟨l', n⟩, hr, hl⟩ := h
  cases hl
  obtain ⟨d1, hs, _⟩ := Props.Sequence.sseq_parsed_save l' b [] hb
  have k := pitch_refused hr hs hp hnote
  unfold SSEQ.save SSEQ.data
  dsimp only
  rw [show saveSequenceEvents (l'.map fun x => (x.1, withPitch p x.2)) [] = _ from k]
  rfl

/-- C155: saved after parsing, loaded and parsed, a sequence has the events that it had, and saving it again gives the same
file.  (The file itself may be another than the one that was loaded at first, see C57.) -/
theorem sseq_settled_partial (depth : Nat) (d : Bytes) (l : List (Nat × Ev))
    (h : SSEQ.parse depth (.unparsed d) = .ok (.parsed l)) (hv : ∀ x ∈ l, isFromVariable x.2 = false)
    (b : Bytes) (hb : SSEQ.save (.parsed l) = .ok b) (hlen : b.length = 0x1C + d.length) :
    ∃ d', ∀ extra, SSEQ.load (b ++ extra) = .ok (.unparsed d') ∧ SSEQ.parse depth (.unparsed d') = .ok (.parsed l) := by
  obtain ⟨b', d', k1, _, k3⟩ := sseq_edit_partial depth d l h hv b hb hlen (fun _ e => e) (fun _ _ => .inl rfl)
  have he : (l.map fun x => (x.1, x.2)) = l := List.map_id' l
  rw [he] at k1 k3
  rw [hb] at k1
  cases k1
  exact ⟨d', k3⟩

/-- C155, for a sequence archive whose sequences all have a first event. -/
theorem ssar_edit_partial (depth : Nat) (a a' : SSAR) (d : Bytes) (l : List (Nat × Ev)) (hd : a.events = .unparsed d)
    (hs : ∀ s ∈ a.sequences, ∃ z : Int, s.2.first = .unparsed (some z) ∧ z ≠ -1)
    (h : a.parse depth = .ok a') (hl : a'.events = .parsed l) (hv : ∀ x ∈ l, isFromVariable x.2 = false)
    (r : Bytes × Nat × List (Option Str)) (hb : a'.save = .ok r)
    (hlen : r.1.length = 0x20 + a.sequences.length * 0xC + d.length)
    (f : Nat → Ev → Ev) (hf : ∀ x ∈ l, Alike x.2 (f x.1 x.2)) :
    ∃ r' a1, SSAR.save { a' with events := .parsed (l.map fun x => (x.1, f x.1 x.2)) } = .ok r' ∧
      r'.1.length = r.1.length ∧ ∀ extra, SSAR.load (r'.1 ++ extra) r'.2.1 r'.2.2 = .ok a1 ∧
        a1.parse depth = .ok { a' with events := .parsed (l.map fun x => (x.1, f x.1 x.2)) } := by
  unfold SSAR.parse at h
  rw [hd] at h
  simp only [bind_eq_ok, pure_eq_ok] at h
  obtain ⟨offs, ho, ⟨l', n⟩, hr, rfl⟩ := h
  dsimp only at hl
  cases hl
  have hstart := Props.SequenceArchive.attached_starts hs ho
  have hsave : ∃ d1 n1, saveSequenceEvents l offs = .ok (d1, n1) := by
    have hb' := hb
    unfold SSAR.save SSAR.parts at hb'
    simp only [bind_eq_ok] at hb'
    obtain ⟨_, ⟨st, h1, ⟨d1, n1⟩, h2, _⟩, _⟩ := hb'
    rw [hstart] at h1
    cases h1
    exact ⟨d1, n1, h2⟩
  obtain ⟨d1, n1, hsave⟩ := hsave
  obtain ⟨hrefs, hno, rfl, hend⟩ := saved_conds hr hv hsave
  have key : ∀ (d2 : Bytes) (l2 : List (Nat × Ev)), saveSequenceEvents l2 n1 = .ok (d2, n1) →
      SSAR.save ⟨a.unk02, a.sequences.map (fun s => (s.1, s.2.attach)), .parsed l2⟩ =
        SSAR.save { a with events := .unparsed d2 } := fun d2 l2 h =>
    Props.SequenceArchive.attached_save (a := { a with events := .unparsed d2 }) rfl hs ho h
  have size : ∀ (d2 : Bytes) (r : Bytes × Nat × List (Option Str)), SSAR.save { a with events := .unparsed d2 } = .ok r →
      r.1.length = 0x20 + a.sequences.length * 0xC + d2.length := by
    intro d2 r h
    obtain ⟨h1, _⟩ := (Props.SequenceArchive.ssar_save_iff { a with events := .unparsed d2 } d2 rfl).1 ⟨r, h⟩
    have hp := (Props.SequenceArchive.unparsed_parts (a := { a with events := .unparsed d2 }) rfl).2 ⟨h1, rfl⟩
    obtain ⟨_, rfl⟩ := (Proofs.SoundSequenceArchive.save_of_parts hp (by simp)).1 h
    have hflat := flatten_length_const (n := 12)
      (parts := a.sequences.map fun s => Proofs.SoundSequenceArchive.recBytes (Proofs.SoundSequenceArchive.valueOf unparsedOffset s.2) s.2)
      (by
        intro p hp
        obtain ⟨s, _, rfl⟩ := List.mem_map.1 hp
        exact Proofs.SoundSequenceArchive.recBytes_length _ _)
    rw [List.length_map] at hflat
    unfold Proofs.SoundSequenceArchive.fileBytes
    dsimp only
    rw [List.length_append, List.length_append, hflat]
    simp [magicDATA]
  have hb1 := hb
  rw [key d1 l hsave] at hb1
  have hd1 := size d1 r hb1
  obtain ⟨d', k1, k2, k3⟩ := edit_read_entries hr hv (hend (by omega)) hrefs hno hf
  have hst := (Props.SequenceArchive.ssar_save_iff { a with events := .unparsed d1 } d1 rfl).1 ⟨r, hb1⟩
  obtain ⟨r', hr'⟩ := (Props.SequenceArchive.ssar_save_iff { a with events := .unparsed d' } d' rfl).2
    ⟨hst.1, by
      have := hst.2
      dsimp only at this ⊢
      omega⟩
  refine ⟨r', { a with events := .unparsed d' }, ?_, ?_, fun extra => ⟨?_, ?_⟩⟩
  · rw [← hr']
    exact key d' _ k1
  · rw [size d' r' hr', hlen, k2]
  · refine Props.SequenceArchive.ssar_roundtrip { a with events := .unparsed d' } d' rfl ?_ r'.1 r'.2.1 r'.2.2 hr' extra
    intro s hm he
    obtain ⟨z, hz, hz1⟩ := hs s hm
    rw [hz] at he
    cases he
    exact hz1 rfl
  · unfold SSAR.parse
    dsimp only
    rw [ho, bind_ok, k3, bind_ok]
    rfl

/-! ## Examples -/

/-- A song with two tracks, a call, a loop and a byte that nothing leads to. -/
def song : Bytes := Props.SequenceRead.looped

def songEvents : List (Nat × Ev) := Props.SequenceRead.loopedEvents

example : SSEQ.parse 1000 (.unparsed song) = .ok (.parsed songEvents) ∧
    (∀ x ∈ songEvents, isFromVariable x.2 = false) ∧
    (SSEQ.save (.parsed songEvents)).toOption.map List.length = some (0x1C + song.length) := by decide +kernel

/-- The song in a higher key. -/
example : ∃ b, SSEQ.save (.parsed (songEvents.map fun x => (x.1, withPitch 72 x.2))) = .ok b ∧
    b.drop 0x1C = song.set 5 72 := ⟨_, rfl, by decide +kernel⟩

example : SSEQ.save (.parsed (songEvents.map fun x => (x.1, withPitch 128 x.2))) = .error .valueError := by decide +kernel

/-- A rest with a superfluous byte: the file that is saved is another one, but settled. -/
example : SSEQ.parse 1000 (.unparsed [0x80, 0x80, 0x05, 0x10, 0x20, 0xFF]) =
      .ok (.parsed [(0, .rest 5), (2, .note 5 0x10 false 0x20), (5, .endTrack)]) ∧
    (SSEQ.save (.parsed [(0, .rest 5), (2, .note 5 0x10 false 0x20), (5, .endTrack)])).toOption.map List.length =
      some (0x1C + 6) := by decide +kernel

/-- An archive with two sequences, and another volume for the first. -/
example : ∃ a', SSAR.parse 1000 ⟨0, [(none, ⟨.unparsed (some 0), 1, 2, 3, 4, 5⟩), (none, ⟨.unparsed (some 3), 1, 2, 3, 4, 5⟩)],
      .unparsed [0xC1, 0x40, 0xFF, 0xC0, 0x10, 0xFF]⟩ = .ok a' ∧
    a'.events = .parsed [(0, .simple .trackVolume 0x40), (2, .endTrack), (3, .simple .pan 0x10), (5, .endTrack)] ∧
    a'.save.toOption.map (fun r => r.1.length) = some (0x20 + 2 * 0xC + 6) := ⟨_, rfl, rfl, by decide +kernel⟩

example : Alike (.simple .trackVolume 0x40) (.simple .trackVolume 0x7F) :=
  .inr ⟨rfl, rfl, by simp [InRange, UByte], rfl, rfl⟩

/-! ## From-variable events -/

/-- C155 is false with from-variable events: they claim one byte too few, so the first byte of the event after them is
part of their value.  Here, a volume from a variable is followed by a note; when the pitch of the note is changed to
middle C, the event has another variable. -/
theorem sseq_edit_from_variable :
    SSEQ.parse 1000 (.unparsed [0xA1, 0xC1, 0x05, 0x00, 0x7F, 0x30, 0xFF]) =
      .ok (.parsed [(0, .fromVariable 0xC1 5 none), (3, .note 0 0x7F false 0x30), (6, .endTrack)]) ∧
    ∃ b d', SSEQ.save (.parsed [(0, .fromVariable 0xC1 5 none), (3, .note 60 0x7F false 0x30), (6, .endTrack)]) = .ok b ∧
      SSEQ.load b = .ok (.unparsed d') ∧ SSEQ.parse 1000 (.unparsed d') =
        .ok (.parsed [(0, .fromVariable 0xC1 0x3C05 none), (3, .note 60 0x7F false 0x30), (6, .endTrack)]) := by
  refine ⟨by decide +kernel, _, _, rfl, rfl, by decide +kernel⟩

end Verif.Props.SequenceEdit
