import Verif.Base.Bits
import Verif.Base.Struct
import Verif.Model.Color

/-!
# Model of `ndspy/graphics2D.py`

Pixel values, tile numbers and palette numbers are natural numbers; formats are always members of their enumerations,
so `_checkImageFormat` and `_checkTilemapFormat` (45–60) never raise.  Not modelled here: the file wrappers (see `Files.lean`) and the
functions that make PIL images (see `Image.lean`).
-/

namespace Verif.Model.Graphics2D

open Verif Verif.Model.Color

/-- `ImageFormat` (graphics2D.py 26–31). -/
inductive ImageFormat where
  | i8
  | i4
  deriving DecidableEq, Repr

/-- `TilemapFormat` (graphics2D.py 37–42). -/
inductive TilemapFormat where
  | i10h1v1p4
  | i8
  deriving DecidableEq, Repr

/-- `ImageTile` (graphics2D.py 63–68). -/
structure ImageTile where
  pixels : List Nat
  format : ImageFormat
  deriving DecidableEq, Repr

/-- The two pixels of a byte (graphics2D.py 87–89). -/
def nibbles : Bytes → List Nat
  | [] => []
  | b :: bs => (b.toNat &&& 0xF) :: (b.toNat >>> 4) :: nibbles bs

/-- `ImageTile(data, format)` (graphics2D.py 70–99). -/
def ImageTile.load (data : Bytes) (format : ImageFormat) : Py ImageTile :=
  if format = .i4 then do
    raiseIf (data.length ≠ 32) .valueError
    return ⟨nibbles data, format⟩
  else do
    raiseIf (data.length ≠ 64) .valueError
    return ⟨data.map UInt8.toNat, format⟩

/-- `ImageTile()` (graphics2D.py 76–77). -/
def ImageTile.new (format : ImageFormat) : ImageTile := ⟨List.replicate 64 0, format⟩

/-- The loop of `ImageTile.save` for four-bit pixels (graphics2D.py 153–161). -/
def saveNibbles : List Nat → Option Nat → Py Bytes
  | [], _ => .ok []
  | px :: rest, none => saveNibbles rest (some (px &&& 0xF))
  | px :: rest, some left => do
    let b ← byteOf (left ||| ((px <<< 4) &&& 0xF0))
    let r ← saveNibbles rest none
    return b :: r

/-- `ImageTile.save` (graphics2D.py 147–166). -/
def ImageTile.save (t : ImageTile) : Py Bytes :=
  if t.format = .i4 then saveNibbles t.pixels none
  else mapE byteOf t.pixels

/-- `bytesPerTile` (graphics2D.py 176). -/
def bytesPerTile (format : ImageFormat) : Nat := if format = .i4 then 32 else 64

/-- `loadImageTiles` (graphics2D.py 169–184). -/
def loadImageTiles (data : Bytes) (format : ImageFormat) : Py (List ImageTile) :=
  mapE (fun i => ImageTile.load (slice data (i * bytesPerTile format) (i * bytesPerTile format + bytesPerTile format))
    format) (List.range (data.length / bytesPerTile format))

/-- `saveImageTiles` (graphics2D.py 196–210). -/
def saveImageTiles (tiles : List ImageTile) : Py Bytes :=
  match tiles with
  | [] => .ok []
  | t :: _ => do
    raiseIf (¬ tiles.all (fun t' => decide (t'.format = t.format)) = true) .valueError
    let r ← mapE ImageTile.save tiles
    return r.flatten

/-- The colour of one pixel (graphics2D.py 128–133); `colors2` is `colors` with every alpha set to 1 (line 120). -/
def renderPixel (pixels : List Nat) (colors2 : List Color) (cs i : Nat) : Py Color := do
  let px ← pyIdx pixels i
  if px ≠ 0 then pyIdx colors2 (cs + px) else return ⟨0, 0, 0, 0⟩

/-- `ImageTile.render` (graphics2D.py 109–135); the index `y * 8 + x` of the two loops runs from 0 to 63. -/
def ImageTile.render (t : ImageTile) (colors : List Color) (paletteNum : Nat) : Py (List Color) :=
  mapE (renderPixel t.pixels (colors.map fun c => { c with a := 1 })
    (paletteNum * (if t.format = .i4 then 16 else 256))) (List.range 64)

/-- `TilemapTile` (graphics2D.py 224–232). -/
structure TilemapTile where
  format : TilemapFormat
  tileNum : Nat
  hFlip : Bool
  vFlip : Bool
  paletteNum : Nat
  deriving DecidableEq, Repr

/-- The getter of `TilemapTile.value` (graphics2D.py 257–270). -/
def TilemapTile.value (t : TilemapTile) : Nat :=
  if t.format = .i8 then t.tileNum &&& 0xFF
  else 0 ||| (t.tileNum &&& 0x3FF) ||| (if t.hFlip = true then 0x400 else 0) ||| (if t.vFlip = true then 0x800 else 0)
    ||| ((t.paletteNum &&& 0xF) <<< 12)

/-- The setter of `TilemapTile.value` (graphics2D.py 272–280). -/
def TilemapTile.setValue (t : TilemapTile) (v : Nat) : TilemapTile :=
  if t.format = .i8 then { t with tileNum := v &&& 0xFF }
  else
    { t with
      tileNum := v &&& 0x3FF
      hFlip := decide (v &&& 0x400 ≠ 0)
      vFlip := decide (v &&& 0x800 ≠ 0)
      paletteNum := (v >>> 12) &&& 0xF }

/-- `TilemapTile(value, format)` (graphics2D.py 234–240): the value is set while the format still has its default. -/
def TilemapTile.load (v : Nat) (format : TilemapFormat) : TilemapTile :=
  { (⟨.i10h1v1p4, 0, false, false, 0⟩ : TilemapTile).setValue v with format := format }

/-- `loadTilemapTiles` (graphics2D.py 340–355). -/
def loadTilemapTiles (data : Bytes) (format : TilemapFormat) : Py (List TilemapTile) :=
  if format = .i10h1v1p4 then
    mapE (fun i => do
      let t ← unpackU .little 2 data (2 * i)
      return TilemapTile.load t format) (List.range ((data.length + 1) / 2))
  else return data.map fun t => TilemapTile.load t.toNat format

/-- `saveTilemapTiles` (graphics2D.py 367–384). -/
def saveTilemapTiles (tiles : List TilemapTile) : Py Bytes :=
  match tiles with
  | [] => .ok []
  | t :: _ => do
    raiseIf (¬ tiles.all (fun t' => decide (t'.format = t.format)) = true) .valueError
    if t.format = .i10h1v1p4 then do
      let r ← mapE (fun t' => packU .little 2 t'.value) tiles
      return r.flatten
    else mapE (fun t' => byteOf t'.value) tiles

/-- The index that pixel `i` is taken from (graphics2D.py 293–301). -/
def flipIndex (h v : Bool) (i : Nat) : Nat :=
  if h = true ∧ v = true then (56 - (i - i % 8)) + (7 - i % 8)
  else if h = true then (i - i % 8) + (7 - i % 8)
  else if v = true then (56 - (i - i % 8)) + i % 8
  else i

/-- `TilemapTile.renderSingle` (graphics2D.py 283–303). -/
def TilemapTile.renderSingle (t : TilemapTile) (imageTile : ImageTile) (colors : List Color) : Py (List Color) := do
  let pixels ← imageTile.render colors (if t.format = .i8 then 0 else t.paletteNum)
  if t.format = .i10h1v1p4 ∧ (t.hFlip = true ∨ t.vFlip = true) then
    mapE (fun i => pyIdx pixels (flipIndex t.hFlip t.vFlip i)) (List.range 64)
  else return pixels

/-- `TilemapTile.render` (graphics2D.py 316–325). -/
def TilemapTile.render (t : TilemapTile) (imageTiles : List ImageTile) (colors : List Color) (tileNumOffset : Nat) :
    Py (List Color) := do
  raiseIf (t.tileNum < tileNumOffset) .valueError
  let it ← pyIdx imageTiles (t.tileNum - tileNumOffset)
  t.renderSingle it colors

/-- `img[base : base + 8] = tilePixels[y2 * 8 : y2 * 8 + 8]` for the rows of one tile (graphics2D.py 414–416,
449–451). -/
def putBlock (img : List Color) (width x y : Nat) (px : List Color) : List Color :=
  (List.range 8).foldl (fun img y2 =>
    img.take (((y * 8 + y2) * width + x) * 8) ++ slice px (y2 * 8) (y2 * 8 + 8)
      ++ img.drop (((y * 8 + y2) * width + x) * 8 + 8)) img

/-- The loops over rows and columns with the iterator over the tiles (graphics2D.py 410–416, 445–451): `cells` are the
pairs of `y` and `x` in the order of the loops. -/
def renderCells {α : Type} (render : α → Py (List Color)) (width : Nat) :
    List (Nat × Nat) → List α → List Color → Py (List Color)
  | [], _, img => .ok img
  | _ :: _, [], _ => .error .stopIteration
  | (y, x) :: cells, t :: ts, img => do
    let px ← render t
    renderCells render width cells ts (putBlock img width x y px)

/-- The common body of `renderImageTiles` (graphics2D.py 405–418) and `renderTilemapTiles` (440–453). -/
def renderGrid {α : Type} (render : α → Py (List Color)) (tiles : List α) (width : Nat) : Py (List Color) := do
  raiseIf (width = 0) .zeroDivisionError
  let height := tiles.length / width + (if tiles.length % width ≠ 0 then 1 else 0)
  renderCells render width
    ((List.range height).flatMap fun y => (List.range width).map fun x => (y, x)) tiles
    (List.replicate (width * height * 64) ⟨0, 0, 0, 0⟩)

/-- `renderImageTiles` (graphics2D.py 398–418). -/
def renderImageTiles (tiles : List ImageTile) (colors : List Color) (paletteNum width : Nat) : Py (List Color) :=
  renderGrid (fun t => t.render colors paletteNum) tiles width

/-- `renderTilemapTiles` (graphics2D.py 434–453). -/
def renderTilemapTiles (tilemapTiles : List TilemapTile) (imageTiles : List ImageTile) (colors : List Color)
    (width tileNumOffset : Nat) : Py (List Color) :=
  renderGrid (fun t => t.render imageTiles colors tileNumOffset) tilemapTiles width

/-- `tileAt` (graphics2D.py 469–482); `None` for out of bounds. -/
def tileAt {α : Type} (tiles : List α) (x y width : Int) : Option α :=
  if x ≥ width ∨ y ≥ width then none
  else if x < 0 ∨ y < 0 then none
  else match pyIdxI tiles (y * width + x) with
    | .ok t => some t
    | .error _ => none

/-- `putTile` (graphics2D.py 485–501): the list afterwards and the returned flag. -/
def putTile {α : Type} (tiles : List α) (x y : Int) (t : α) (width : Int) : List α × Bool :=
  if x ≥ width ∨ y ≥ width then (tiles, false)
  else if x < 0 ∨ y < 0 then (tiles, false)
  else match pySetI tiles (y * width + x) t with
    | .ok r => (r, true)
    | .error _ => (tiles, false)

end Verif.Model.Graphics2D
