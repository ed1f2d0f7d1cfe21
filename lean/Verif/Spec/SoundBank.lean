import Verif.Model.SoundBank

/-!
# Which instruments a bank file can hold
-/

namespace Verif.Spec.SoundBank

open Verif.Model.SoundBank

/-- Instruments that the file format can tell apart from others: single notes of a type between 1 and 15, range
instruments, and regional instruments with at least one region in which no region but the first ends at pitch 0. -/
def Loadable : Kind → Prop
  | .single n => 0 < n.type ∧ n.type < 16
  | .range _ _ => True
  | .regional rs => rs ≠ [] ∧ ∀ r ∈ rs.tail, r.1 ≠ 0

end Verif.Spec.SoundBank
