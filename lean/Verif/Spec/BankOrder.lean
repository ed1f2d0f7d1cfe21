import Verif.Spec.FormatSbnk

/-!
# The order of the data in an instrument bank

Only the data structures of instruments and banks are used from the model.
-/

namespace Verif.Spec.BankOrder

open Verif Verif.Spec.Reader Verif.Spec.FormatSbnk Verif.Model.SoundBank

/-- The instruments that the table does not mention, by the slot they follow. -/
def hiddenOf (s : SBNK) (key : Option Nat) : List Inst := (s.inaccessible.lookup key).getD []

/-- Where an instrument of a bank is kept: in a slot, or in a list of instruments that the table does not mention. -/
inductive Place where
  | slot (k : Nat)
  | hidden (key : Option Nat) (j : Nat)

def instOf (s : SBNK) : Place → Option Inst
  | .slot k => s.instruments[k]?.join
  | .hidden key j => (hiddenOf s key)[j]?

/-- Instruments kept at different places have different merge IDs, so that no data is shared. -/
def Unshared (s : SBNK) : Prop :=
  ∀ p q x y, instOf s p = some x → instOf s q = some y → x.mergeID = y.mergeID → p = q

/-- One slot comes before another one: single notes before range instruments before regional ones, then by the order keys, then by
the numbers of the slots. -/
def Earlier (k : Nat) (x : Inst) (l : Nat) (y : Inst) : Prop :=
  rank x.kind.type < rank y.kind.type ∨ rank x.kind.type = rank y.kind.type ∧
    (x.orderKey < y.orderKey ∨ x.orderKey = y.orderKey ∧ k < l)

/-- These are the data of the instruments of a list. -/
def DataOf : List Inst → List Bytes → Prop
  | [], [] => True
  | x :: xs, d :: ds => x.kind.save = .ok d ∧ DataOf xs ds
  | _, _ => False

end Verif.Spec.BankOrder
