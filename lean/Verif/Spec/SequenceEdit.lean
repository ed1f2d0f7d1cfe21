import Verif.Spec.Sequence

/-!
# Changing the values of events
-/

namespace Verif.Spec.SequenceEdit

open Verif Verif.Model.SoundSequence Verif.Spec.Sequence

/-- The events that decide what is played next, and raw data. -/
def steers : Ev → Bool
  | .beginTrack _ _ => true
  | .jump _ => true
  | .call _ => true
  | .ret => true
  | .ifE => true
  | .endTrack => true
  | .raw _ => true
  | _ => false

/-- The event is left as it is, or it is replaced by one that a file can hold, that is not longer or shorter and after which
playback goes on, as after the one that it replaces. -/
def Alike (e e' : Ev) : Prop :=
  e' = e ∨ steers e = false ∧ steers e' = false ∧ InRange e' ∧ isFromVariable e' = false ∧ declared e' = declared e

/-- Every note gets another pitch. -/
def withPitch (p : Int) : Ev → Ev
  | .note _ velocity flag duration => .note p velocity flag duration
  | e => e

end Verif.Spec.SequenceEdit
