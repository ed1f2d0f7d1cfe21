import Verif.Model.Bn
import Verif.Model.EventText

/-!
# Printed touch areas and image positions

`__str__` of the classes in `ndspy/bnbl.py` and `ndspy/bncl.py`, with the drawing of the touch areas.
-/

namespace Verif.Model.BnText

open Verif Verif.Model.Util Verif.Model.Repr Verif.Model.Bn
open Verif.Model.EventText (padLeft)

/-- `getAlignmentName` (_common.py 296–319). -/
def alignmentName (alignment : Nat) : Str :=
  let x := if alignment &&& H_CENTER ≠ 0 then lit "center" else if alignment &&& RIGHT ≠ 0 then lit "right" else lit "left"
  let y := if alignment &&& V_CENTER ≠ 0 then lit "center" else if alignment &&& BOTTOM ≠ 0 then lit "bottom" else lit "top"
  let a := y ++ lit "-" ++ x
  if a = lit "center-center" then lit "center" else a

/-- `enumeratedListOfStrs(items, indent)` (_common.py 322–333), from the item with the number `i`; `n` is `maxNumLen`. -/
def enumeratedFrom (n indent : Nat) : Nat → List Str → List Str
  | _, [] => []
  | i, t :: ts => (List.replicate indent 32 ++ lit "[" ++ padLeft n i ++ lit "] " ++ t) :: enumeratedFrom n indent (i + 1) ts

/-- `enumeratedListOfStrs(items, indent)` (_common.py 322–333). -/
def enumerated (items : List Str) (indent : Nat := 4) : List Str :=
  enumeratedFrom (reprInt ((items.length : Int) - 1)).length indent 0 items

/-- `BNBLTouchArea.__str__` (bnbl.py 45–49). -/
def strTouchArea (t : TouchArea) : Str :=
  lit "<bnbl touch area: " ++ alignmentName t.alignment ++ lit " at (" ++ reprInt t.x ++ lit ", " ++ reprInt t.y ++
    lit "), size " ++ reprInt t.width ++ lit "x" ++ reprInt t.height ++ lit ">"

/-- `BNCLImagePosition.__str__` (bncl.py 38–42). -/
def strImagePosition (t : ImagePosition) : Str :=
  lit "<bncl image position: " ++ alignmentName t.alignment ++ lit " of image " ++ reprInt t.imageID ++ lit " at (" ++
    reprInt t.x ++ lit ", " ++ reprInt t.y ++ lit ")>"

/-! ## The drawing -/

/-- `range(a, b)`. -/
def pyRange (a b : Int) : List Int := (List.range (b - a).toNat).map fun (n : Nat) => a + (n : Int)

/-- `setAt(x, y, char)` (bnbl.py 119–122).  The canvas is the list of the texts in its cells, row by row. -/
def setAt (canvas : List Str) (x y : Int) (char : Str) : List Str :=
  if x < 0 ∨ y < 0 then canvas
  else if x ≥ 32 ∨ y ≥ 12 then canvas
  else canvas.set (y * 32 + x).toNat char

/-- Drawing one touch area (bnbl.py 124–143). -/
def drawArea (canvas : List Str) (i : Nat) (t : TouchArea) : List Str :=
  let p := t.getTopLeft
  let left := p.1 / 8
  let right := (p.1 + t.width) / 8
  let top := p.2 / 16
  let bottom := (p.2 + t.height) / 16
  let c := setAt canvas left top (lit ".")
  let c := setAt c right top (lit ".")
  let c := setAt c left bottom (lit "'")
  let c := setAt c right bottom (lit "'")
  let c := (pyRange (left + 1) right).foldl (fun c j => setAt (setAt c j top (lit "-")) j bottom (lit "-")) c
  let c := (pyRange (top + 1) bottom).foldl (fun c j => setAt (setAt c left j (lit "|")) right j (lit "|")) c
  setAt c ((left + right) / 2) ((top + bottom) / 2) (reprNat i)

/-- The loop over the touch areas (bnbl.py 124–143). -/
def drawAreas (canvas : List Str) : Nat → List TouchArea → List Str
  | _, [] => canvas
  | i, t :: ts => drawAreas (drawArea canvas i t) (i + 1) ts

/-- The canvas when all is drawn (bnbl.py 117–143). -/
def canvasOf (areas : List TouchArea) : List Str := drawAreas (List.replicate (32 * 12) (lit " ")) 0 areas

/-- `BNBL._draw()` (bnbl.py 116–152). -/
def draw (areas : List TouchArea) : List Str :=
  (lit "." ++ List.replicate 34 61 ++ lit ".") ::
    ((List.range 12).map fun i => lit "| " ++ (slice (canvasOf areas) (i * 32) (i * 32 + 32)).flatten ++ lit " |") ++
    [lit "'" ++ List.replicate 34 61 ++ lit "'"]

/-! ## The files -/

/-- The loop that puts the drawing beside the list (bnbl.py 166–171). -/
def beside (col : Nat) : List Str → List Str → List Str
  | ls, [] => ls
  | [], d :: ds => (List.replicate col 32 ++ d) :: beside col [] ds
  | l :: ls, d :: ds => (l ++ List.replicate (col - l.length) 32 ++ d) :: beside col ls ds

/-- The first line (bnbl.py 157–160, bncl.py 110–113). -/
def firstLine (name : String) (unk04 : Int) : Str :=
  if unk04 = 0 then lit "<" ++ lit name else lit "<" ++ lit name ++ lit " unk04=" ++ reprInt unk04

/-- `BNBL.__str__` (bnbl.py 155–174). -/
def strBNBL (b : BNBL) : Str :=
  let lines := firstLine "bnbl" b.unk04 :: enumerated (b.touchAreas.map strTouchArea)
  let drawingCol := (lines.map List.length).foldr max 0 + 4
  join [10] (beside drawingCol lines (draw b.touchAreas) ++ [lit ">"])

/-- `BNCL.__str__` (bncl.py 109–116). -/
def strBNCL (b : BNCL) : Str :=
  join [10] (firstLine "bncl" b.unk04 :: enumerated (b.imagePositions.map strImagePosition) ++ [lit ">"])

end Verif.Model.BnText
