import Verif.Spec.Sequence

/-! # Songs in files (C149): the words of the claims -/

namespace Verif.Spec.SongFile

open Verif Verif.Model.SoundSequence Verif.Spec.Sequence

/-- An event object with other identities: the same event under another identity, which refers to the events by their other
identities. -/
def ren (g : Nat → Nat) (o : Nat × Ev) : Nat × Ev := (g o.1, mapRefs g o.2)

/-- What is asked of a track: the events are saved as they are, there are no subroutines and conditions, and only the last
event may be one after which nothing is played. -/
structure Linear (ev : List (Nat × Ev)) : Prop where
  nonempty : ev ≠ []
  inRange : ∀ o ∈ ev, InRange o.2
  fixed : ∀ o ∈ ev, isFromVariable o.2 = false
  kinds : ∀ o ∈ ev, (∀ x, o.2 ≠ .call x) ∧ o.2 ≠ .ret ∧ o.2 ≠ .ifE
  goesOn : ∀ pre e post, ev = pre ++ e :: post → post ≠ [] → flows e.2 = true

/-- What a song calls by name: its events, and what they refer to. -/
def Named (tracks : List (Nat × List (Nat × Ev))) (x : Nat) : Prop :=
  ∃ t ∈ tracks, ∃ o ∈ t.2, x = o.1 ∨ x ∈ refs o.2

/-- The number of events of a song that refer to another one. -/
def references (tracks : List (Nat × List (Nat × Ev))) : Nat :=
  ((tracks.flatMap (·.2)).filter fun o => !(refs o.2).isEmpty).length

/-- A song that is not empty, has at most the track numbers 0 to 15, each once, no event twice, whose first event does not
itself define or begin tracks, and whose tracks are all played from beginning to end. -/
structure Playable (tracks : List (Nat × List (Nat × Ev))) : Prop where
  nonempty : tracks ≠ []
  numbers : (tracks.map (·.1)).Nodup ∧ ∀ t ∈ tracks, t.1 < 16
  objects : ((tracks.flatMap (·.2)).map (·.1)).Nodup
  linear : ∀ t ∈ tracks, Linear t.2
  first : ∀ t ∈ tracks, (∀ u ∈ tracks, t.1 ≤ u.1) → ∀ c, t.2.head? = some c →
    (∀ n x, c.2 ≠ .beginTrack n x) ∧ ∀ ns, c.2 ≠ .defineTracks ns

end Verif.Spec.SongFile
