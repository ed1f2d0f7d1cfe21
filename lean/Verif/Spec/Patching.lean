import Verif.Model.Code

/-!
# C167: code as it stands in memory, and patches to it
-/

namespace Verif.Spec.Patching

open Verif Verif.Model.Code

/-- One of the sections has the byte `v` at RAM address `a`. -/
def Shows (f : MainCodeFile) (a : Nat) (v : UInt8) : Prop :=
  ∃ s ∈ f.sections, s.ramAddress ≤ a ∧ s.data[a - s.ramAddress]? = some v

/-- `section.data[o : o + len(new)] = new`. -/
def patchSection (o : Nat) (new : Bytes) (s : Section) : Section :=
  { s with data := s.data.take o ++ new ++ s.data.drop (o + new.length) }

/-- The same with `f.sections[i]`. -/
def patchCode (i o : Nat) (new : Bytes) (f : MainCodeFile) : MainCodeFile :=
  { f with sections := f.sections.modify i (patchSection o new) }

/-- Where a section is, how long it is, and how much zeroed memory follows it. -/
def place (s : Section) : Nat × Nat × Nat := (s.ramAddress, s.data.length, s.bssSize)

/-- Two files have sections of the same sizes at the same places, in some order. -/
def SamePlaces (f g : MainCodeFile) : Prop := (f.sections.map place).Perm (g.sections.map place)

end Verif.Spec.Patching
