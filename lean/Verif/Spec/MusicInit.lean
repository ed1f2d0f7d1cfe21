import Verif.Model.Music

/-!
# Which events of a sequence belong to a track

Said with lists and identities of events only.
-/

namespace Verif.Spec.MusicInit

open Verif.Model.SoundSequence Verif.Model.Music

/-- `part` is the part of the list from its first event up to, but not including, the next one that begins a track. -/
def Run (starts : List Nat) (l part : List Obj) : Prop :=
  ∃ post, l = part ++ post ∧ part ≠ [] ∧ (∀ o ∈ part.tail, o.1 ∉ starts) ∧ ∀ p, post.head? = some p → p.1 ∈ starts

/-- `part` is the part of the sequence that begins with the event `first`, where it is found first. -/
def PartFrom (events : List Obj) (starts : List Nat) (first : Nat) (part : List Obj) : Prop :=
  ∃ pre l, events = pre ++ l ∧ first ∉ pre.map Prod.fst ∧ l.head?.map Prod.fst = some first ∧ Run starts l part

/-- The events of a track without a final end of track. -/
def NoEnd (part events : List Obj) : Prop :=
  (∃ i, part = events ++ [(i, .endTrack)]) ∨ (part = events ∧ ∀ o, part.getLast? = some o → o.2 ≠ .endTrack)

/-- A sequence that defines tracks: an event that says which, events that begin tracks (identity, number of the track, first
event), and what follows, which does not begin with another one that begins a track. -/
def sequence (d : Nat) (numbers : List Nat) (begins : List (Nat × Nat × Nat)) (rest : List Obj) : List Obj :=
  (d, .defineTracks numbers) :: begins.map (fun b => (b.1, Ev.beginTrack (b.2.1 : Int) b.2.2)) ++ rest

/-- `b` is the last of the beginnings of the track `n`. -/
def LastOf (begins : List (Nat × Nat × Nat)) (n : Nat) (b : Nat × Nat × Nat) : Prop :=
  ∃ pre post, begins = pre ++ b :: post ∧ b.2.1 = n ∧ ∀ c ∈ post, c.2.1 ≠ n

end Verif.Spec.MusicInit
