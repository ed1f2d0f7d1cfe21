import Verif.Base.Bytes

/-!
# Specification vocabulary for sound archives

Nothing here refers to the model of `soundArchive.py`.
-/

namespace Verif.Spec.SoundArchive

open Verif

/-- The elements of a list without those that occur earlier in it. -/
def firstUses {α : Type} [DecidableEq α] (l : List α) : List α :=
  (l.zipIdx.filter fun p => p.1 ∉ l.take p.2).map Prod.fst

/-- The smallest multiple of `a` that is not below `n`. -/
def ceilTo (a n : Nat) : Nat := (n + a - 1) / a * a

/-- The places of files one behind the other, each at the next multiple of `a`. -/
def places (a : Nat) : (pos : Nat) → List Bytes → List Nat
  | _, [] => []
  | pos, f :: fs => ceilTo a pos :: places a (ceilTo a pos + f.length) fs

/-- `a` is the largest power of two up to 0x200 that divides all the numbers. -/
def GreatestAlignment (a : Nat) (l : List Nat) : Prop :=
  a ∣ 0x200 ∧ (∀ o ∈ l, a ∣ o) ∧ ∀ b, b ∣ 0x200 → (∀ o ∈ l, b ∣ o) → b ∣ a

/-- A file with zeros up to a multiple of `a`, if wanted. -/
def padFile (a : Nat) (pad : Bool) (f : Bytes) : Bytes := if pad then f ++ zeros (ceilTo a f.length - f.length) else f

/-- Files with zeros up to a multiple of `a`; whether the last one gets zeros is a matter of its own. -/
def padFiles (a : Nat) (pad padLast : Bool) : List Bytes → List Bytes
  | [] => []
  | [f] => [padFile a padLast f]
  | f :: g :: fs => padFile a pad f :: padFiles a pad padLast (g :: fs)

end Verif.Spec.SoundArchive
