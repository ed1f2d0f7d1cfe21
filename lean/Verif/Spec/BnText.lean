import Verif.Model.BnText
import Verif.Spec.EventText

/-!
# Reading printed touch areas and image positions

A reader for what `print` shows, and which cells of the drawing a touch area touches, in terms of pixels.
-/

namespace Verif.Spec.BnText

open Verif Verif.Spec.EventText
open Verif.Model.Bn (TouchArea ImagePosition BNBL BNCL)

/-! ## Reading -/

/-- The alignment that a name stands for; the values are those of `Alignment`. -/
def readAlignment (w : Str) : Option Nat :=
  if w = chars "top-left" then some 0x11
  else if w = chars "top-right" then some 0x12
  else if w = chars "top-center" then some 0x14
  else if w = chars "bottom-left" then some 0x21
  else if w = chars "bottom-right" then some 0x22
  else if w = chars "bottom-center" then some 0x24
  else if w = chars "center-left" then some 0x41
  else if w = chars "center-right" then some 0x42
  else if w = chars "center" then some 0x44
  else none

/-- What is between the first `a` and the next `b`. -/
def between (a b : Nat) (s : Str) : Str := ((s.dropWhile (· ≠ a)).drop 1).takeWhile (· ≠ b)

/-- `(1,`. -/
def openInt (w : Str) : Option Int :=
  (after [40] w).bind fun w => if w.getLast? = some 44 then int? w.dropLast else none

/-- An integer and what comes after it. -/
def endInt (e w : Str) : Option Int :=
  if w.drop (w.length - e.length) = e then int? (w.take (w.length - e.length)) else none

/-- A touch area from its text. -/
def readArea (t : Str) : Option TouchArea :=
  match splitOn 32 t with
  | [a, b, c, al, at_, x, y, s, wh] =>
    if a = chars "bnbl" ∧ b = chars "touch" ∧ c = chars "area:" ∧ at_ = chars "at" ∧ s = chars "size" then
      (readAlignment al).bind fun al => (openInt x).bind fun x => (endInt (chars "),") y).bind fun y =>
        match splitOn 120 wh with
        | [w, h] => (int? w).bind fun w => (int? h).map fun h => ⟨x, y, w, h, al⟩
        | _ => none
    else none
  | _ => none

/-- An image position from its text. -/
def readPosition (t : Str) : Option ImagePosition :=
  match splitOn 32 t with
  | [a, b, c, al, o, i, n, at_, x, y] =>
    if a = chars "bncl" ∧ b = chars "image" ∧ c = chars "position:" ∧ o = chars "of" ∧ i = chars "image" ∧ at_ = chars "at" then
      (readAlignment al).bind fun al => (int? n).bind fun n => (openInt x).bind fun x =>
        (endInt (chars ")") y).map fun y => ⟨x, y, al, n⟩
    else none
  | _ => none

/-- A line of the list: the number in brackets and the item. -/
def readItem {α : Type} (read : Str → Option α) (l : Str) : Option (Nat × α) :=
  (nat? ((between 91 93 l).dropWhile (· = 32))).bind fun i => (read (between 60 62 l)).map fun x => (i, x)

/-- The first line: the unknown number is 0 unless it is shown. -/
def readFirst (name : String) (l : Str) : Option Int :=
  match splitOn 32 l with
  | a :: rest =>
    if a = chars name then
      match rest with
      | b :: _ => if b = [] then some 0 else field "unk04" b
      | [] => some 0
    else none
  | [] => none

/-- What is printed: the unknown number, and the items with their numbers.  Lines without `<` belong to the drawing. -/
def readText {α : Type} (name : String) (read : Str → Option α) (s : Str) : Option (Int × List (Nat × α)) :=
  match splitOn 10 s with
  | first :: rest => (readFirst name first).bind fun u =>
      (all? (readItem read) (rest.filter (·.contains 60))).map fun l => (u, l)
  | [] => none

def readBNBL (s : Str) : Option (Int × List (Nat × TouchArea)) := readText "<bnbl" readArea s
def readBNCL (s : Str) : Option (Int × List (Nat × ImagePosition)) := readText "<bncl" readPosition s

/-- The proper alignment that works like a given one. -/
def likeAlignment (a : Nat) : Nat :=
  (if a.testBit 2 then 4 else if a.testBit 1 then 2 else 1) + (if a.testBit 6 then 64 else if a.testBit 5 then 32 else 16)

/-- The items with their numbers. -/
def numberedFrom {α : Type} : Nat → List α → List (Nat × α)
  | _, [] => []
  | i, x :: l => (i, x) :: numberedFrom (i + 1) l

/-! ## The drawing

The screen has 256 by 192 pixels, and a cell of the drawing stands for 8 by 16 pixels. -/

/-- The pixel is in the cell. -/
def InCell (px py cx cy : Int) : Prop := 8 * cx ≤ px ∧ px < 8 * cx + 8 ∧ 16 * cy ≤ py ∧ py < 16 * cy + 16

/-- The pixel is on the border of the rectangle. -/
def OnBorder (x y w h px py : Int) : Prop :=
  x ≤ px ∧ px ≤ x + w ∧ y ≤ py ∧ py ≤ y + h ∧ (px = x ∨ px = x + w ∨ py = y ∨ py = y + h)

/-- The cell has a pixel of the border of the area in it. -/
def Border (t : TouchArea) (cx cy : Int) : Prop :=
  ∃ px py, OnBorder t.getTopLeft.1 t.getTopLeft.2 t.width t.height px py ∧ InCell px py cx cy

/-- The cells in the middle between those at the edges. -/
def Middle (t : TouchArea) (cx cy : Int) : Prop :=
  cx = (t.getTopLeft.1 / 8 + (t.getTopLeft.1 + t.width) / 8) / 2 ∧
  cy = (t.getTopLeft.2 / 16 + (t.getTopLeft.2 + t.height) / 16) / 2

/-- What an area is shown by in a cell it touches. -/
inductive Mark (i : Nat) (t : TouchArea) (cx cy : Int) : Str → Prop
  | number : Middle t cx cy → Mark i t cx cy (Model.Repr.reprNat i)
  | side : ¬ Middle t cx cy → t.getTopLeft.2 / 16 < cy → cy < (t.getTopLeft.2 + t.height) / 16 → Mark i t cx cy [124]
  | flat : ¬ Middle t cx cy → t.getTopLeft.1 / 8 < cx → cx < (t.getTopLeft.1 + t.width) / 8 →
      (cy = t.getTopLeft.2 / 16 ∨ cy = (t.getTopLeft.2 + t.height) / 16) → Mark i t cx cy [45]
  | lower : ¬ Middle t cx cy → (cx = t.getTopLeft.1 / 8 ∨ cx = (t.getTopLeft.1 + t.width) / 8) →
      cy = (t.getTopLeft.2 + t.height) / 16 → Mark i t cx cy [39]
  | upper : ¬ Middle t cx cy → (cx = t.getTopLeft.1 / 8 ∨ cx = (t.getTopLeft.1 + t.width) / 8) →
      cy = t.getTopLeft.2 / 16 → cy ≠ (t.getTopLeft.2 + t.height) / 16 → Mark i t cx cy [46]

/-- What the drawing of the areas, numbered from `i` on, shows in a cell: the mark of the last area that touches it, or
what was there before. -/
inductive Shows : List Nat → Nat → List TouchArea → Int → Int → List Nat → Prop
  | none {s i cx cy} : Shows s i [] cx cy s
  | over {s i t ts cx cy m r} : (Border t cx cy ∨ Middle t cx cy) → Mark i t cx cy m → Shows m (i + 1) ts cx cy r →
      Shows s i (t :: ts) cx cy r
  | past {s i t ts cx cy r} : ¬ (Border t cx cy ∨ Middle t cx cy) → Shows s (i + 1) ts cx cy r → Shows s i (t :: ts) cx cy r

end Verif.Spec.BnText
