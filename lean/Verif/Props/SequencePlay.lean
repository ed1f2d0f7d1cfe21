import Verif.Proofs.SeqPlay

/-!
# C107: which bytes of sequence data become events

Reading sequence data has to find out which of its bytes are events, by following what playback does.  The places that playback can get to
are `Spec.FormatSseq.Reachable`.
-/

namespace Verif.Props.SequencePlay

open Verif Verif.Model.SoundSequence Verif.Spec.FormatSseq Verif.Spec.Sequence Verif.Proofs.SeqPlay Verif.Proofs.SeqRead
open Verif.Props.FormatSseq

/-- Where reading starts. -/
def starts (notable : List Nat) : List Nat := if notable = [] then [0] else notable

/-- C107, soundness: everything that is read as an event is at a place that playback can get to. -/
theorem parsed_reachable (depth : Nat) (d : Bytes) (notable : List Nat) (l : List (Nat × Ev)) (ids : List Nat)
    (hs : Sane d (starts notable)) (h : readSequenceEvents depth d notable = .ok (l, ids)) (o : Nat) (e : Ev) (hm : (o, e) ∈ l)
    (hr : ∀ b, e ≠ .raw b) : Reachable d (starts notable) o := by
  obtain ⟨ev, hc, -, -, h1, -, -⟩ := read_play hs h
  obtain ⟨-, -, h2⟩ := Proofs.SeqResave.covers_mem hc _ hm
  rcases h2 with h2 | ⟨j, -, -, -, -, h2⟩
  · exact h1 o e h2
  · exact absurd h2 (hr _)

/-- C107, completeness: every place that playback gets to directly is read as an event, or lies inside one.
`Direct` leaves out skipping events behind if-events (other than jumps that are only got to from there), and returning from subroutines
that jump or start tracks. -/
theorem direct_parsed (depth : Nat) (d : Bytes) (notable : List Nat) (l : List (Nat × Ev)) (ids : List Nat)
    (hs : Sane d (starts notable)) (h : readSequenceEvents depth d notable = .ok (l, ids)) (o : Nat)
    (hd : Direct d (starts notable) o) :
    ∃ n e, EventAt d o n e ∧ ((o, e) ∈ l ∨ ∃ x ∈ l, (∀ b, x.2 ≠ .raw b) ∧ x.1 < o ∧ o < x.1 + declared x.2) := by
  obtain ⟨ev, hc, g, h0, h1, h2, h3⟩ := read_play hs h
  obtain ⟨e, he⟩ := Option.isSome_iff_exists.1 (direct_event hs g h0 h1 h2 h3 hd)
  obtain ⟨⟨ho, hdec, -⟩, -⟩ := g.new o e he rfl
  obtain ⟨n, hn⟩ := (event_iff d o e).1 hdec
  refine ⟨n, e, hn, covers_events (fun o e h b hb => ?_) hc o e (Nat.zero_le _) ho he⟩
  obtain ⟨⟨-, hdec, -⟩, -⟩ := g.new o e h rfl
  obtain ⟨m, hm⟩ := (event_iff d o e).1 hdec
  subst hb
  exact hm

/-- C107: so no byte of what is kept as raw data is a place that playback gets to directly. -/
theorem raw_not_direct (depth : Nat) (d : Bytes) (notable : List Nat) (l : List (Nat × Ev)) (ids : List Nat)
    (hs : Sane d (starts notable)) (h : readSequenceEvents depth d notable = .ok (l, ids)) (p : Nat) (b : Bytes)
    (hm : (p, .raw b) ∈ l) (o : Nat) (h1 : p ≤ o) (h2 : o < p + b.length) : ¬ Direct d (starts notable) o := by
  intro hd
  obtain ⟨ev, hc, g, g0, g1, g2, g3⟩ := read_play hs h
  have he := direct_event hs g g0 g1 g2 g3 hd
  obtain ⟨-, -, h3⟩ := Proofs.SeqResave.covers_mem hc _ hm
  rcases h3 with h3 | ⟨j, -, hj, h3, -, h4⟩
  · obtain ⟨⟨-, hdec, -⟩, -⟩ := g.new _ _ h3 rfl
    obtain ⟨m, hm⟩ := (event_iff _ _ _).1 hdec
    exact hm
  · injection h4 with h4
    have := slice_length_of_le (a := p) hj
    rw [h3 o h1 (by rw [h4] at h2; dsimp only at *; omega)] at he
    cases he

/-- C107: what `Direct` stands for: playback does get there, and the subroutines in question do return. -/
theorem direct_reachable (d : Bytes) (start : List Nat) (o : Nat) (h : Direct d start o) : Reachable d start o := direct_reach h

/-- C107: playing a subroutine without jumps and started tracks can get back to the caller. -/
theorem sub_back (d : Bytes) (o r : Nat) (s : List Nat) (h : Sub d o) : Steps d (o, r :: s) (r, s) := (sub_returns h).back r s

/-! ## Examples -/

instance (d : Bytes) (o : Nat) (e : Ev) : Decidable (Plain d o e) := by unfold Plain; cases e <;> infer_instance

/-- A check for sane data. -/
def saneB (d : Bytes) : Bool := (List.range d.length).all fun o => match decode d o with
  | .ok e => decide (Plain d o e)
  | .error _ => true

theorem sane_of {d : Bytes} (h : saneB d = true) (start : List Nat) : Sane d start := by
  intro o n e _ he
  have hd := (event_iff d o e).2 ⟨n, he⟩
  have ho : o < d.length := by
    unfold decode at hd
    rw [bind_eq_ok] at hd
    obtain ⟨b, hb, -⟩ := hd
    exact (idx_iff.1 hb).1
  have := List.all_eq_true.1 h o (List.mem_range.2 ho)
  rw [hd] at this
  exact of_decide_eq_true this

/-- Two calls of a subroutine, a volume, the end, two bytes that are never played, and the subroutine. -/
def song : Bytes := [0x95, 13, 0, 0, 0x95, 13, 0, 0, 0xC1, 0x30, 0xFF, 7, 7, 0x3C, 0x7F, 0x60, 0xFD]

theorem song_sane : Sane song (starts []) := sane_of (by decide) _

example : readSequenceEvents 1000 song [] = .ok ([(0, .call 13), (4, .call 13), (8, .simple .trackVolume 0x30), (10, .endTrack), (11, .raw [7, 7]),
    (13, .note 0x3C 0x7F false 0x60), (16, .ret)], []) := by decide +kernel

theorem song_sub : Sub song 13 := by
  have h1 : EventAt song 13 3 (.note 0x3C 0x7F false 0x60) :=
    ⟨by decide, by decide, by decide, by decide, by decide, by decide, 1, 0x60,
      ⟨by decide, by decide, by decide, fun i hi => by omega, by decide, by decide⟩, rfl, rfl⟩
  have h2 : EventAt song 16 1 .ret := ⟨by decide, rfl⟩
  exact .next h1 trivial (by simp) (.ret h2)

/-- The event behind the calls is got to directly. -/
example : Direct song (starts []) 8 := by
  have h0 : EventAt song 0 4 (.call 13) := ⟨by decide, by decide, rfl⟩
  have h4 : EventAt song 4 4 (.call 13) := ⟨by decide, by decide, rfl⟩
  exact .back (.back (.start (by decide)) h0 song_sub) h4 song_sub

/-- If, jump to 6, end of track, end of track. -/
def branch : Bytes := [0xA2, 0x94, 6, 0, 0, 0xFF, 0xFF]

example : readSequenceEvents 1000 branch [] = .ok ([(0, .ifE), (1, .jump 6), (5, .endTrack), (6, .endTrack)], []) := by decide +kernel

/-- The place behind the conditional jump is got to directly, by skipping the jump. -/
example : Sane branch (starts []) ∧ Direct branch (starts []) 5 := by
  have h0 : EventAt branch 0 1 .ifE := ⟨by decide, rfl⟩
  have h1 : EventAt branch 1 4 (.jump 6) := ⟨by decide, by decide, rfl⟩
  have h5 : EventAt branch 5 1 .endTrack := ⟨by decide, rfl⟩
  have h6 : EventAt branch 6 1 .endTrack := ⟨by decide, rfl⟩
  have step : ∀ a s b s', a ∈ [0, 1, 5, 6] → Step branch (a, s) (b, s') → b ∈ [0, 1, 5, 6] ∧ (b = 1 → a = 0) := by
    intro a s b s' ha h
    simp only [List.mem_cons, List.not_mem_nil, or_false] at ha
    rcases ha with rfl | rfl | rfl | rfl <;> cases h <;> rename_i he
    all_goals first
      | exact absurd he.1 (by decide)
      | (cases event_unique he h1; decide)
      | (cases event_unique he h1; cases width_unique he h1; decide)
      | (cases event_unique he h0; cases width_unique he h0; decide)
      | (rename_i hg; cases event_unique he h1; exact hg.elim)
      | (rename_i hg; cases event_unique he h5; exact hg.elim)
      | (rename_i hg; cases event_unique he h6; exact hg.elim)
      | (rename_i he'; exact absurd he'.1 (by decide))
  have reach : ∀ x y, Steps branch x y → x.1 ∈ [0, 1, 5, 6] → y.1 ∈ [0, 1, 5, 6] := by
    intro x y h
    induction h with
    | refl => exact id
    | tail _ h ih => exact fun hx => (step _ _ _ _ (ih hx) h).1
  refine ⟨sane_of (by decide) _, .skip (.start (by decide)) h0 h1 ⟨by decide, ?_⟩⟩
  intro p hp a s s' hs h
  have hp : p = 0 := by simpa [starts] using hp
  subst hp
  exact (step _ _ _ _ (reach _ _ hs (by simp)) h).2 rfl

/-! ## What is missing

Completeness does not hold for all places that playback can get to. -/

/-- If, end of track, rest, end of track: what is behind a conditional end is not found, though playback gets there whenever the condition
is false. -/
theorem conditional_end_lost : ∃ d l, Sane d [0] ∧ readSequenceEvents 1000 d [] = .ok (l, []) ∧ Reachable d [0] 2 ∧
    (2, .raw [0x80, 1, 0xFF]) ∈ l := by
  refine ⟨[0xA2, 0xFF, 0x80, 1, 0xFF], [(0, .ifE), (1, .endTrack), (2, .raw [0x80, 1, 0xFF])], sane_of (by decide) _, by decide +kernel, ?_,
    by decide⟩
  have h0 : EventAt [0xA2, 0xFF, 0x80, 1, 0xFF] 0 1 .ifE := ⟨by decide, rfl⟩
  have h1 : EventAt [0xA2, 0xFF, 0x80, 1, 0xFF] 1 1 .endTrack := ⟨by decide, rfl⟩
  exact ⟨0, by simp, [], .tail (.tail (.refl _) (.next h0 trivial)) (.skip h0 h1)⟩

/-- Two calls of a subroutine that begins with a jump: the second call is taken for an endless loop, and what is behind it is not found. -/
theorem jumping_subroutine_lost : ∃ d l, Sane d [0] ∧ readSequenceEvents 1000 d [] = .ok (l, []) ∧ Reachable d [0] 8 ∧
    (8, .raw [0xC1, 1, 0xFF]) ∈ l := by
  let d : Bytes := [0x95, 11, 0, 0, 0x95, 11, 0, 0, 0xC1, 1, 0xFF, 0x94, 15, 0, 0, 0xFD]
  refine ⟨d, [(0, .call 11), (4, .call 11), (8, .raw [0xC1, 1, 0xFF]), (11, .jump 15), (15, .ret)], sane_of (by decide) _, by decide +kernel, ?_,
    by decide⟩
  have h0 : EventAt d 0 4 (.call 11) := ⟨by decide, by decide, rfl⟩
  have h4 : EventAt d 4 4 (.call 11) := ⟨by decide, by decide, rfl⟩
  have h11 : EventAt d 11 4 (.jump 15) := ⟨by decide, by decide, rfl⟩
  have h15 : EventAt d 15 1 .ret := ⟨by decide, rfl⟩
  exact ⟨0, by simp, [], .tail (.tail (.tail (.tail (.tail (.tail (.refl _) (.call h0)) (.jump h11)) (.ret h15)) (.call h4)) (.jump h11)) (.ret h15)⟩

end Verif.Props.SequencePlay
