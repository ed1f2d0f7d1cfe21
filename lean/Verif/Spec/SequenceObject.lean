import Verif.Model.SequenceObject

/-!
# Histories of `SSEQ` and `SSAR` objects

The value last assigned to an attribute in a list of operations, or the one it had before.
-/

namespace Verif.Spec.SequenceObject

open Verif Verif.Model.SoundSequence Verif.Model.SoundSequenceArchive Verif.Model.SequenceObject

/-- The last assignment to `.eventsData`. -/
def lastData (d : Bytes) : List SSEQOp → Bytes
  | [] => d
  | .setEventsData v :: ops => lastData v ops
  | _ :: ops => lastData d ops

/-- The last assignment to `.events`. -/
def lastEvents (es : List (Nat × Ev)) : List SSEQOp → List (Nat × Ev)
  | [] => es
  | .setEvents v :: ops => lastEvents v ops
  | _ :: ops => lastEvents es ops

/-- The last assignment to `.eventsData`, for archives. -/
def arData (d : Bytes) : List SSAROp → Bytes
  | [] => d
  | .setEventsData v :: ops => arData v ops
  | _ :: ops => arData d ops

/-- The last assignment to `.events`, for archives. -/
def arEvents (es : List (Nat × Ev)) : List SSAROp → List (Nat × Ev)
  | [] => es
  | .setEvents v :: ops => arEvents v ops
  | _ :: ops => arEvents es ops

/-- The last assignment to `.sequences`. -/
def arSequences (ss : List (Option Str × Sequence)) : List SSAROp → List (Option Str × Sequence)
  | [] => ss
  | .setSequences v :: ops => arSequences v ops
  | _ :: ops => arSequences ss ops

end Verif.Spec.SequenceObject
