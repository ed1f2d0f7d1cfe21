import Verif.Model.ReprArchive
import Verif.Spec.Repr

/-!
# What sequences and sequence archives hold

Event objects are compared by what they hold, since evaluating an expression makes new ones.
-/

namespace Verif.Spec.ReprArchive

open Verif Verif.Model.ReprArchive Verif.Spec.Repr
open Verif.Model.SoundSequence (Ev)
open Verif.Model.SoundSequenceArchive (First Sequence)

/-- Where the sequence begins: at an offset, or with an event. -/
def firstHeld (obj : Nat → Ev) : First → FirstValue
  | .unparsed o => .offset o
  | .parsed e => .event (e.map obj)

def sequenceHeld (obj : Nat → Ev) (s : Sequence) : SequenceValue :=
  ⟨firstHeld obj s.first, s.bankID, s.volume, s.channelPressure, s.polyphonicPressure, s.playerID⟩

/-- The event holds neither another event nor a member of an `enum`, and is no note with a velocity outside of 0 to 127. -/
def Printable (e : Ev) : Prop := plainEvent e = true ∧ ∀ p v flag d, e = .note p v flag d → 0 ≤ v ∧ v < 128

/-- The sequence begins nowhere, at an offset other than -1, or with such an event. -/
def FirstPrintable (obj : Nat → Ev) : First → Prop
  | .unparsed o => o ≠ some (-1)
  | .parsed e => ∀ i, e = some i → Printable (obj i)

end Verif.Spec.ReprArchive
