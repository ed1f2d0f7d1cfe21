import Verif.Model.SoundBank

/-!
# Which instruments are printed as expressions
-/

namespace Verif.Spec.ReprSound

open Verif.Model.SoundBank

/-- The note definitions of an instrument. -/
def notesOf : Kind → List Note
  | .single n => [n]
  | .range _ l => l
  | .regional l => l.map Prod.snd

/-- Of a type that is no member of `NoteType` (PCM, PSG square wave, PSG white noise). -/
def Plain (n : Note) : Prop := ¬ (n.type = 1 ∨ n.type = 2 ∨ n.type = 3)

end Verif.Spec.ReprSound
