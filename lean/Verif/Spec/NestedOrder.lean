import Verif.Spec.Nested

/-!
# Replacing files in different places of nested archives (C163)
-/

namespace Verif.Spec.NestedOrder

open Verif Verif.Model
open Verif.Spec.Nested (Layer)

/-- A way through archives and compressed files only, not through ROMs. -/
def Plain (path : List Layer) : Prop := ∀ name, Layer.rom name ∉ path

/-- Two images hold the same files under the same names. -/
def SameFiles (limit : Nat) (d e : Bytes) : Prop :=
  ∃ r r', Rom.load limit d = .ok r ∧ Rom.load limit e = .ok r' ∧ r.filenames = r'.filenames ∧ r.files = r'.files

end Verif.Spec.NestedOrder
