import Verif.Spec.MusicPlay
import Verif.Spec.Sequence
import Verif.Model.SoundArchiveObject

/-! # Minified sequences in a sound archive (C151): the words of the claims -/

namespace Verif.Spec.MinifyArchive

open Verif Verif.Model.SoundSequence Verif.Model.SoundArchiveObject Verif.Spec.Sequence

/-- The waves that a bank of an archive refers to: those of the wave archives whose numbers it has. -/
def wavesOf (a : Archive) (b : Bank) : List (List Model.SoundWave.SWAV) :=
  b.obj.waveArchiveIDs.map fun
    | some z => if z < 0 then [] else (((a.waveArchives[z.toNat]?).bind (·.2)).map (·.waves)).getD []
    | none => []

/-- Events that are read back from their data as events (C58): no event is twice in the list, all are in range and none
takes its parameter from a variable; there are no subroutines and conditions; and every event is played. -/
structure ReadsBack (events : List (Nat × Ev)) : Prop where
  objects : (events.map Prod.fst).Nodup
  inRange : ∀ e ∈ events, InRange e.2
  fixed : ∀ e ∈ events, isFromVariable e.2 = false
  straight : Straight events
  nonempty : events ≠ []
  played : ∀ e ∈ events, Reached events (startIds events []) e.1

end Verif.Spec.MinifyArchive
