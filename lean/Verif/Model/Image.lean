import Verif.Model.Texture
import Verif.Model.Graphics2D

/-!
# Model of the functions that make images: `ndspy/_common.py`, `ndspy/graphics2D.py`, `ndspy/texture.py`

An image of Pillow is its size and the bytes it was made from, as in `PIL.Image.frombytes('RGBA', size, data)`; nothing else about
Pillow is modelled (some versions refuse a width or a height of zero).  Whether Pillow is installed is the parameter `havePIL`
(_common.py 21–25).  Components of colours are natural numbers.
-/

namespace Verif.Model.Image

open Verif Verif.Model.Color Verif.Model.Texture Verif.Model.Graphics2D

/-- An image made by `PIL.Image.frombytes('RGBA', (width, height), data)`. -/
structure Image where
  width : Nat
  height : Nat
  data : Bytes
  deriving DecidableEq, Repr

/-- `rgba` of one colour (_common.py 363–370). -/
def word (aBits : Nat) (c : Color) : Nat :=
  let r255 := c.r <<< 3 ||| c.r >>> 2
  let g255 := c.g <<< 3 ||| c.g >>> 2
  let b255 := c.b <<< 3 ||| c.b >>> 2
  let a255 := if aBits = 1 then (if c.a ≠ 0 then 255 else 0) else c.a <<< 3 ||| c.a >>> 2
  (a255 <<< 24) ||| (b255 <<< 16) ||| (g255 <<< 8) ||| r255

/-- The loops (_common.py 360–371) over the pairs of `y` and `x`, with the iterator over the colours.  `none` among the colours
stands for the number 0, which a list from `renderTextureData` can hold and which cannot be unpacked. -/
def fill (aBits width : Nat) : List (Nat × Nat) → List (Option Color) → List Nat → Py (List Nat)
  | [], _, dest => .ok dest
  | _ :: _, [], _ => .error .stopIteration
  | _ :: _, none :: _, _ => .error .typeError
  | (y, x) :: cells, some c :: it, dest => do
    let dest ← pySet dest (y * width + x) (word aBits c)
    fill aBits width cells it dest

/-- `colorsToImage(colors, width, height, aBits=aBits)` (_common.py 344–375), with `ensurePIL` (336–341). -/
def colorsToImage (havePIL : Bool) (colors : List (Option Color)) (width height aBits : Nat) : Py Image := do
  raiseIf (havePIL = false) .runtimeError
  raiseIf (aBits ≠ 1 ∧ aBits ≠ 5) .valueError
  let dest ← fill aBits width ((List.range height).flatMap fun y => (List.range width).map fun x => (y, x)) colors
    (List.replicate (width * height) 0)
  let data ← mapE (packU .little 4) dest
  return ⟨width, height, data.flatten⟩

/-- `ImageTile.renderAsImage` (graphics2D.py 138–144). -/
def tileAsImage (havePIL : Bool) (t : ImageTile) (colors : List Color) (paletteNum : Nat) : Py Image := do
  let px ← t.render colors paletteNum
  colorsToImage havePIL (px.map some) 8 8 1

/-- `TilemapTile.renderSingleAsImage` (graphics2D.py 306–313). -/
def singleAsImage (havePIL : Bool) (t : TilemapTile) (imageTile : ImageTile) (colors : List Color) : Py Image := do
  let px ← t.renderSingle imageTile colors
  colorsToImage havePIL (px.map some) 8 8 1

/-- `TilemapTile.renderAsImage` (graphics2D.py 328–337). -/
def entryAsImage (havePIL : Bool) (t : TilemapTile) (imageTiles : List ImageTile) (colors : List Color) (tileNumOffset : Nat) :
    Py Image := do
  raiseIf (t.tileNum < tileNumOffset) .valueError
  let it ← pyIdx imageTiles (t.tileNum - tileNumOffset)
  singleAsImage havePIL t it colors

/-- `divmod(n, width)` and the row for the remainder (graphics2D.py 427–428, 462–463). -/
def rows (n width : Nat) : Py Nat := do
  raiseIf (width = 0) .zeroDivisionError
  return n / width + (if n % width ≠ 0 then 1 else 0)

/-- `renderImageTilesAsImage` (graphics2D.py 421–431). -/
def imageTilesAsImage (havePIL : Bool) (tiles : List ImageTile) (colors : List Color) (paletteNum width : Nat) : Py Image := do
  let height ← rows tiles.length width
  let px ← renderImageTiles tiles colors paletteNum width
  colorsToImage havePIL (px.map some) (width * 8) (height * 8) 1

/-- `renderTilemapTilesAsImage` (graphics2D.py 456–466). -/
def tilemapTilesAsImage (havePIL : Bool) (tilemapTiles : List TilemapTile) (imageTiles : List ImageTile) (colors : List Color)
    (width tileNumOffset : Nat) : Py Image := do
  let height ← rows tilemapTiles.length width
  let px ← renderTilemapTiles tilemapTiles imageTiles colors width tileNumOffset
  colorsToImage havePIL (px.map some) (width * 8) (height * 8) 1

/-- `renderTextureDataAsImage` (texture.py 530–539). -/
def textureDataAsImage (havePIL prepared : Bool) (data1 data2 : Bytes) (format width height : Nat)
    (palette : Option (List PalColor)) (isColor0Transparent : Bool) : Py Image := do
  let px ← renderTextureData prepared data1 data2 format width height palette isColor0Transparent
  colorsToImage havePIL px width height 5

/-- `Texture.renderAsImage(palette)` (texture.py 190–204). -/
def textureAsImage (havePIL prepared : Bool) (t : Texture) (palette : Option Palette) : Py Image :=
  textureDataAsImage havePIL prepared t.data1 t.data2 t.format t.width t.height
    (palette.map fun p => p.colors.map .tup) t.isColor0Transparent

end Verif.Model.Image
