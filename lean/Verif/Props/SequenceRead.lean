import Verif.Proofs.SeqReread
import Verif.Props.Sequence

/-!
# Properties of reading sequence data (`readSequenceEvents`)
-/

namespace Verif.Props.SequenceRead

open Verif Verif.Model.SoundSequence Verif.Spec.Sequence Verif.Proofs.SeqDecode Verif.Proofs.SeqRead
open Verif.Proofs.SeqResave Verif.Proofs.SeqReread

/-! ## C56 -/

/-- C56: reading any data, with any notable offsets, comes to an end (it never runs out of fuel), and raises
nothing but EOFError, ValueError, KeyError, RecursionError and AssertionError. -/
theorem read_total (depth : Nat) (d : Bytes) (notable : List Nat) :
    (∃ r, readSequenceEvents depth d notable = .ok r) ∨
    ∃ e, readSequenceEvents depth d notable = .error e ∧
      e ∈ [PyErr.eofError, .valueError, .keyError, .recursionError, .assertionError] := by
  cases h : readSequenceEvents depth d notable with
  | ok r => exact .inl ⟨r, rfl⟩
  | error e =>
    refine .inr ⟨e, rfl, ?_⟩
    rcases read_errs depth d notable e h with (rfl | rfl | rfl | rfl) | rfl <;> decide

/-- Looping data is read as well: a jump to itself, even a truncated one; and some of the exceptions. -/
example : readSequenceEvents 1000 [0x94, 0, 0, 0] [] = .ok ([(0, .jump 0)], []) := by decide +kernel
example : readSequenceEvents 1000 [0x94, 0, 0] [] = .ok ([(0, .jump 0)], []) := by decide +kernel
example : readSequenceEvents 1000 [0x3C, 0x7F] [] = .error .eofError := by decide +kernel
example : readSequenceEvents 1000 [] [] = .error .eofError := by decide +kernel
example : readSequenceEvents 0 [0x94, 4, 0, 0, 0xFF] [] = .error .recursionError := by decide +kernel
example : readSequenceEvents 1000 [0xFF] [5] = .error .eofError := by decide +kernel

/-! ## C57 -/

theorem covers_tiles {d : Bytes} {ev : Nat → Option Ev} (hin : ∀ o e, ev o = some e → InRange e) :
    ∀ {l : List (Nat × Ev)} {i : Nat}, Covers d ev l i → Tiles d i l
  | [], _, h => h
  | (o, e) :: l, i, h => by
    obtain ⟨rfl, h1, h2, h3⟩ := h
    refine ⟨rfl, h1, ?_, covers_tiles hin h3⟩
    intro b hb
    dsimp only at hb
    subst hb
    rcases h2 with h2 | ⟨j, hj1, hj2, _, _, h2⟩
    · exact absurd (hin _ _ h2) id
    · cases h2
      have hl : (slice d o j).length = j - o := by rw [slice_length]; omega
      refine ⟨?_, ?_⟩
      · intro hn
        rw [hn] at hl
        simp at hl
        omega
      · rw [hl]; congr 1; omega

/-- C57: the events that are read tile the data: they start at offset 0, each starts where the one before it ends,
there are no gaps, and bytes that belong to no event are kept verbatim as raw data.  Every notable offset is the
identity of the event that is returned for it. -/
theorem read_tiles (depth : Nat) (d : Bytes) (notable : List Nat) (l : List (Nat × Ev)) (n : List Nat)
    (h : readSequenceEvents depth d notable = .ok (l, n)) :
    Tiles d 0 l ∧ n = notable ∧ ∀ x ∈ l, (∃ b, x.2 = .raw b) ∨ decode d x.1 = .ok x.2 ∧ InRange x.2 := by
  obtain ⟨rfl, ev, g, s, hc⟩ := read_ok (P := fun _ => True) (fun _ _ _ _ _ => ⟨fun _ _ => trivial, trivial⟩)
    (fun _ _ => trivial) h
  have hdec : ∀ o e, ev o = some e → decode d o = .ok e := fun o e he => (g.new o e he rfl).1.2.1
  have hin : ∀ o e, ev o = some e → InRange e := fun o e he => (decode_inv (hdec o e he)).1
  refine ⟨covers_tiles hin hc, rfl, ?_⟩
  have key : ∀ {l : List (Nat × Ev)} {i : Nat}, Covers d ev l i →
      ∀ x ∈ l, (∃ b, x.2 = .raw b) ∨ ev x.1 = some x.2 := by
    intro l
    induction l with
    | nil => intro _ _ x hx; cases hx
    | cons y l ih =>
      intro i h x hx
      obtain ⟨o, e⟩ := y
      obtain ⟨rfl, _, h2, h3⟩ := h
      rcases List.mem_cons.1 hx with rfl | hx
      · rcases h2 with h2 | ⟨j, _, _, _, _, h2⟩
        · exact .inr h2
        · exact .inl ⟨_, h2⟩
      · exact ih h3 x hx
  intro x hx
  rcases key hc x hx with h | h
  · exact .inl h
  · exact .inr ⟨hdec _ _ h, hin _ _ h⟩

/-- C57: saving the events that were read gives back the data and the notable offsets, provided that variable-length
integers are encoded without superfluous zero groups, the saved events do not reach past the end, and every
reference and every notable offset leads to an entry of the list (which fails only for events that overlap). -/
theorem read_save (depth : Nat) (d : Bytes) (notable : List Nat) (l : List (Nat × Ev)) (n : List Nat)
    (h : readSequenceEvents depth d notable = .ok (l, n))
    (hshort : ∀ x ∈ l, Shortest d x.1 x.2) (hend : ∀ x ∈ l, x.1 + written x.2 ≤ d.length)
    (hrefs : ∀ x ∈ l, ∀ y ∈ refs x.2, y ∈ l.map Prod.fst) (hno : ∀ y ∈ notable, y ∈ l.map Prod.fst) :
    saveSequenceEvents l n = .ok (d, notable) :=
  resave h hshort hend hrefs hno

/-- Data with a jump backwards, a call, and bytes that nothing leads to. -/
def looped : Bytes := [0x93, 1, 12, 0, 0, 0x3C, 0x7F, 0x60, 0x94, 5, 0, 0, 0x95, 18, 0, 0, 0xFF, 0xEE, 0xC0, 0x40, 0xFD]

def loopedEvents : List (Nat × Ev) :=
  [(0, .beginTrack 1 12), (5, .note 0x3C 0x7F false 0x60), (8, .jump 5), (12, .call 18), (16, .endTrack),
    (17, .raw [0xEE]), (18, .simple .pan 0x40), (20, .ret)]

example : readSequenceEvents 1000 looped [5] = .ok ([(0, .raw (looped.take 5)), (5, .note 0x3C 0x7F false 0x60),
    (8, .jump 5), (12, .raw (looped.drop 12))], [5]) := by decide +kernel

example : readSequenceEvents 1000 looped [0] = .ok (loopedEvents, [0]) ∧
    (∀ x ∈ loopedEvents, x.1 + written x.2 ≤ looped.length) ∧
    (∀ x ∈ loopedEvents, ∀ y ∈ refs x.2, y ∈ loopedEvents.map Prod.fst) ∧
    saveSequenceEvents loopedEvents [0] = .ok (looped, [0]) := by decide +kernel

example : ∀ x ∈ loopedEvents, Shortest looped x.1 x.2 := by
  intro x hx
  simp only [loopedEvents, List.mem_cons, List.not_mem_nil, or_false] at hx
  rcases hx with rfl | rfl | rfl | rfl | rfl | rfl | rfl | rfl <;> simp [Shortest, looped]

/-- The condition on variable-length integers is needed: a rest of 5 ticks written in two bytes is read with a
length of 2 bytes, so the second byte of the integer is taken for a note. -/
theorem read_save_padded :
    readSequenceEvents 1000 [0x80, 0x80, 0x05, 0x10, 0x20, 0xFF] [] =
      .ok ([(0, .rest 5), (2, .note 5 0x10 false 0x20), (5, .endTrack)], []) ∧
    saveSequenceEvents [(0, .rest 5), (2, .note 5 0x10 false 0x20), (5, .endTrack)] [] =
      .ok ([0x80, 0x05, 0x05, 0x10, 0x20, 0xFF], []) := by decide +kernel

/-! ## C58 -/

/-- C58: if reading saved events succeeds, the result consists of the events that were saved, in the same order, at
their offsets and with references to the corresponding events, except that runs of events that cannot be reached
come back as raw data with the bytes they were saved to; and the notable events are the same.  (From-variable events
are excluded, see C26.) -/
theorem save_read (events : List (Nat × Ev)) (notable : List Nat) (data : Bytes) (noffs : List Nat)
    (hn : (events.map Prod.fst).Nodup) (hin : ∀ e ∈ events, InRange e.2)
    (hf : ∀ e ∈ events, isFromVariable e.2 = false) (h : saveSequenceEvents events notable = .ok (data, noffs))
    (depth : Nat) (l : List (Nat × Ev)) (n : List Nat) (hr : readSequenceEvents depth data noffs = .ok (l, n)) :
    n = noffs ∧ Regroup data (offsetIn events) 0 events l ∧
      ((∀ x ∈ l, ∀ b, x.2 ≠ .raw b) → l = renamed events) :=
  reread hn hin hf h hr

/-- C58: events without calls, returns and ifs, all of which are reached from the notable events (or from the
first one, if there are no notable events), and whose last event is a jump or the end of the track, are read back
completely, if the recursion limit allows for the number of references. -/
theorem save_read_complete (events : List (Nat × Ev)) (notable : List Nat) (data : Bytes) (noffs : List Nat)
    (hn : (events.map Prod.fst).Nodup) (hin : ∀ e ∈ events, InRange e.2)
    (hf : ∀ e ∈ events, isFromVariable e.2 = false) (hst : Straight events) (hne : events ≠ [])
    (h : saveSequenceEvents events notable = .ok (data, noffs))
    (hreach : ∀ e ∈ events, Reached events (startIds events notable) e.1)
    (depth : Nat) (hdepth : (events.filter fun e => !(refs e.2).isEmpty).length ≤ depth) :
    readSequenceEvents depth data noffs = .ok (renamed events, noffs) :=
  reread_complete hn hin hf hst hne h hreach hdepth

/-- A song with two tracks, the second of which is a loop. -/
def song : List (Nat × Ev) :=
  [(10, .beginTrack 1 50), (20, .note 60 100 false 200), (30, .rest 200), (40, .endTrack), (50, .simple .pan 0),
    (60, .rest 96), (70, .jump 60)]

example : (song.map Prod.fst).Nodup ∧ (∀ e ∈ song, isFromVariable e.2 = false) ∧ song ≠ [] ∧
    saveSequenceEvents song [] = .ok ([0x93, 1, 13, 0, 0, 60, 100, 0x81, 0x48, 0x80, 0x81, 0x48, 0xFF, 0xC0, 0,
      0x80, 0x60, 0x94, 15, 0, 0], []) ∧
    (song.filter fun e => !(refs e.2).isEmpty).length ≤ 1000 ∧
    renamed song = [(0, .beginTrack 1 13), (5, .note 60 100 false 200), (9, .rest 200), (12, .endTrack),
      (13, .simple .pan 0), (15, .rest 96), (17, .jump 15)] := by decide +kernel

example : ∀ e ∈ song, InRange e.2 := by
  intro e he
  simp only [song, List.mem_cons, List.not_mem_nil, or_false] at he
  rcases he with rfl | rfl | rfl | rfl | rfl | rfl | rfl <;> simp [InRange, UByte]

example : Straight song := by
  refine ⟨?_, ?_⟩
  · intro e he
    simp only [song, List.mem_cons, List.not_mem_nil, or_false] at he
    rcases he with rfl | rfl | rfl | rfl | rfl | rfl | rfl <;> simp
  · intro pre e h
    have : song.getLast? = some e := by rw [h]; simp
    simp [song] at this
    rw [← this]; rfl

example : ∀ e ∈ song, Reached song (startIds song []) e.1 := by
  have h1 : Reached song (startIds song []) 10 := .start _ (by decide)
  have h2 : Reached song (startIds song []) 20 := .next [] (song.drop 2) _ _ h1 rfl rfl
  have h3 : Reached song (startIds song []) 30 := .next (song.take 1) (song.drop 3) _ _ h2 rfl rfl
  have h4 : Reached song (startIds song []) 40 := .next (song.take 2) (song.drop 4) _ _ h3 rfl rfl
  have h5 : Reached song (startIds song []) 50 := .ref 10 50 (.beginTrack 1 50) h1 (by decide) (by decide)
  have h6 : Reached song (startIds song []) 60 := .next (song.take 4) (song.drop 6) _ _ h5 rfl rfl
  have h7 : Reached song (startIds song []) 70 := .next (song.take 5) [] _ _ h6 rfl rfl
  intro e he
  simp only [song, List.mem_cons, List.not_mem_nil, or_false] at he
  rcases he with rfl | rfl | rfl | rfl | rfl | rfl | rfl <;> assumption

end Verif.Props.SequenceRead
