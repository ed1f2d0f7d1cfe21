import Verif.Model.Bn
import Verif.Spec.Nested
import Verif.Spec.Util

/-!
# Changing the buttons and pictures of a screen layout (C168)
-/

namespace Verif.Spec.Layouts

open Verif Verif.Model Verif.Model.Bn
open Verif.Spec.Nested (Layer)
open Verif.Spec.Util (ProperAlignment)

/-! ## The programs -/

/-- A change of an element of a list: its index, and what becomes of it (some attributes are set, or it is replaced). -/
abbrev Change (α : Type) := Int × (α → α)

/-- `l[i].x = …` or `l[i] = …`, several times. -/
def changeAll {α : Type} (l : List α) : List (Change α) → Py (List α)
  | [] => .ok l
  | (i, f) :: rest => do
    let t ← pyIdxI l i
    let l ← pySetI l i (f t)
    changeAll l rest

/-- `b = BNBL(data)`, changes of `b.touchAreas`, `b.save()`. -/
def moveAreas (cs : List (Change TouchArea)) (data : Bytes) : Py Bytes := do
  let b ← BNBL.load data
  let l ← changeAll b.touchAreas cs
  BNBL.save { b with touchAreas := l }

/-- `b = BNCL(data)`, changes of `b.imagePositions`, `b.save()`. -/
def moveImages (cs : List (Change ImagePosition)) (data : Bytes) : Py Bytes := do
  let b ← BNCL.load data
  let l ← changeAll b.imagePositions cs
  BNCL.save { b with imagePositions := l }

/-- A program on a file that is in archives, compressed files and ROMs. -/
def inGame (limit : Nat) (u : Bool) (path : List Layer) (p : Bytes → Py Bytes) (d : Bytes) : Py Bytes := do
  let f ← Nested.read limit path d
  let g ← p f
  Nested.write limit u path d g

/-! ## What they are to do -/

/-- What becomes of element `k` of a list of `n`: the changes of it, one after another. -/
def becomes {α : Type} (n k : Nat) (cs : List (Change α)) (t : α) : α :=
  ((cs.filter fun c => pyPos n c.1 = some k).map Prod.snd).foldl (fun t f => f t) t

/-- Each element of `l'` is what becomes of that of `l`. -/
def Changed {α : Type} (cs : List (Change α)) (l l' : List α) : Prop :=
  l'.length = l.length ∧ ∀ (k : Nat) t, l[k]? = some t → l'[k]? = some (becomes l.length k cs t)

/-- A touch area that a file can hold. -/
def AreaFits (t : TouchArea) : Prop :=
  (0 ≤ t.x ∧ t.x < 4096) ∧ (0 ≤ t.y ∧ t.y < 4096) ∧ ProperAlignment t.alignment

/-- An image position that a file can hold. -/
def PositionFits (t : ImagePosition) : Prop :=
  (0 ≤ t.x ∧ t.x < 4096) ∧ (0 ≤ t.y ∧ t.y < 4096) ∧ ProperAlignment t.alignment

end Verif.Spec.Layouts
