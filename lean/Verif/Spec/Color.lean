import Verif.Model.Color

/-!
# Specification of colour formats
-/

namespace Verif.Spec.Color

open Verif Verif.Model.Color

/-- The values that belong to a format. -/
def Valid : Fmt → Val → Prop
  | .int16, .int n => n < 2 ^ 16
  | .bytes2, .bytes b => b.length = 2
  | .rgb5a1, .tup c => c.r < 32 ∧ c.g < 32 ∧ c.b < 32 ∧ c.a < 2
  | .rgb5a5, .tup c => c.r < 32 ∧ c.g < 32 ∧ c.b < 32 ∧ c.a < 32
  | .rgba255, .tup c => c.r < 256 ∧ c.g < 256 ∧ c.b < 256 ∧ c.a < 256
  | _, _ => False

/-- How much a format can express. -/
def level : Fmt → Nat
  | .int16 => 0
  | .bytes2 => 0
  | .rgb5a1 => 0
  | .rgb5a5 => 1
  | .rgba255 => 2

end Verif.Spec.Color
