import Verif.Model.Graphics2D
import Verif.Spec.Nested

/-!
# Drawing in the graphics of a game (C160)

What a program does with the calls of the library to change pixels of tile graphics and colours of palettes that are files in
archives, perhaps compressed, in archives or in ROMs (docs/source/tutorials/narc-editing.rst: "the NCL and NCG files can be edited
using the `ndspy.lz10` and `ndspy.graphics2D` modules"), and what that is to do.
-/

namespace Verif.Spec.Drawing

open Verif Verif.Model Verif.Model.Graphics2D
open Verif.Model.Color (Color)
open Verif.Spec.Nested (Layer)

/-! ## The programs -/

/-- `tiles[k].pixels[i] = v`.  A list in which one `ImageTile` object is twice is outside the model; `loadImageTiles` makes no
such list. -/
def setPixel (ts : List ImageTile) (k i : Int) (v : Nat) : Py (List ImageTile) := do
  let t ← pyIdxI ts k
  let px ← pySetI t.pixels i v
  pySetI ts k { t with pixels := px }

/-- A change of a pixel: the tile, the pixel of the tile, the value. -/
abbrev Dot := Int × Int × Nat

/-- Several of them, one after another. -/
def setPixels (ts : List ImageTile) : List Dot → Py (List ImageTile)
  | [] => .ok ts
  | (k, i, v) :: rest => do
    let ts ← setPixel ts k i v
    setPixels ts rest

/-- `tiles = loadImageTiles(data, format)`, the changes, `saveImageTiles(tiles)`. -/
def redraw (format : ImageFormat) (dots : List Dot) (data : Bytes) : Py Bytes := do
  let ts ← loadImageTiles data format
  let ts ← setPixels ts dots
  saveImageTiles ts

/-- The same with a file that is in archives, compressed files and ROMs. -/
def draw (limit : Nat) (u : Bool) (path : List Layer) (format : ImageFormat) (dots : List Dot) (d : Bytes) : Py Bytes := do
  let f ← Nested.read limit path d
  let g ← redraw format dots f
  Nested.write limit u path d g

/-- `palette[i] = (r, g, b, a)`, several times. -/
def setColors (p : List Color) : List (Int × Color) → Py (List Color)
  | [] => .ok p
  | (i, c) :: rest => do
    let p ← pySetI p i c
    setColors p rest

/-- `palette = loadPalette(data)`, the changes, `savePalette(palette)`. -/
def recolor (edits : List (Int × Color)) (data : Bytes) : Py Bytes := do
  let p ← Color.loadPalette data
  let p ← setColors p edits
  Color.savePalette p

/-- The same with a file that is in archives, compressed files and ROMs. -/
def paint (limit : Nat) (u : Bool) (path : List Layer) (edits : List (Int × Color)) (d : Bytes) : Py Bytes := do
  let f ← Nested.read limit path d
  let g ← recolor edits f
  Nested.write limit u path d g

/-! ## What they are to do -/

/-- The pixel that a change is for, in a list of so many tiles. -/
def Hits (count : Nat) (e : Dot) (k i : Nat) : Prop := pyPos count e.1 = some k ∧ pyPos 64 e.2.1 = some i

/-- The last change of that pixel. -/
def LastDot (count : Nat) (dots : List Dot) (k i v : Nat) : Prop :=
  ∃ before e after, dots = before ++ e :: after ∧ Hits count e k i ∧ e.2.2 = v ∧ ∀ e' ∈ after, ¬ Hits count e' k i

/-- The pixel of that tile. -/
def pixel (ts : List ImageTile) (k i : Nat) : Option Nat := ts[k]?.bind fun t => t.pixels[i]?

/-- How many values a pixel can have. -/
def depth (format : ImageFormat) : Nat := if format = .i4 then 16 else 256

/-- The picture after the changes. -/
structure Drawn (format : ImageFormat) (dots : List Dot) (ts ts' : List ImageTile) : Prop where
  length : ts'.length = ts.length
  shape : ∀ t ∈ ts', t.format = format ∧ t.pixels.length = 64
  same : ∀ k i, (∀ e ∈ dots, ¬ Hits ts.length e k i) → pixel ts' k i = pixel ts k i
  new : ∀ k i v, LastDot ts.length dots k i v → pixel ts' k i = some (v % depth format)

/-- The last change of that colour. -/
def LastColor (count : Nat) (edits : List (Int × Color)) (k : Nat) (c : Color) : Prop :=
  ∃ before i after, edits = before ++ (i, c) :: after ∧ pyPos count i = some k ∧ ∀ e ∈ after, pyPos count e.1 ≠ some k

/-- The colour that is stored: the low bits of the components. -/
def stored (c : Color) : Color := ⟨c.r % 32, c.g % 32, c.b % 32, c.a % 2⟩

/-- The palette after the changes. -/
structure Painted (edits : List (Int × Color)) (p p' : List Color) : Prop where
  length : p'.length = p.length
  same : ∀ k, (∀ e ∈ edits, pyPos p.length e.1 ≠ some k) → p'[k]? = p[k]?
  new : ∀ k c, LastColor p.length edits k c → p'[k]? = some (stored c)

end Verif.Spec.Drawing
