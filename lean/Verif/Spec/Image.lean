import Verif.Model.Image

/-!
# What images show (C135)

Independent of how they are made: where the bytes of a pixel are in an 'RGBA' image, and what five bits of brightness become.
-/

namespace Verif.Spec.Image

open Verif Verif.Model.Color Verif.Model.Image

/-- The four bytes of the pixel at column `x` and row `y`. -/
def pixel (im : Image) (x y : Nat) : Bytes := (im.data.drop (4 * (im.width * y + x))).take 4

/-- An image has its size, and as many bytes as its pixels need. -/
def Sized (im : Image) (w h : Nat) : Prop := im.width = w ∧ im.height = h ∧ im.data.length = 4 * (w * h)

/-- Brightness from 0 to 31 as brightness from 0 to 255: the five bits, and the upper three of them again. -/
def eight (x : Nat) : UInt8 := UInt8.ofNat (8 * x + x / 4)

/-- An opaque pixel of a colour. -/
def solid (c : Color) : Bytes := [eight c.r, eight c.g, eight c.b, 255]

/-- A pixel that is not seen. -/
def clear : Bytes := [0, 0, 0, 0]

/-- What a pixel of a tile looks like, with the colours from number `base` on: nothing for 0, the colour otherwise.  `none` if
there is no such pixel or no such colour. -/
def shown (colors : List Color) (base : Nat) : Option Nat → Option Bytes
  | none => none
  | some 0 => some clear
  | some q => (colors[base + q]?).map solid

/-- How many colours a palette for tiles of a format has. -/
def paletteSize : Model.Graphics2D.ImageFormat → Nat
  | .i4 => 16
  | .i8 => 256

/-- What the pixel at column `x` and row `y` of a tile looks like. -/
def tileShown (t : Model.Graphics2D.ImageTile) (colors : List Color) (palette x y : Nat) : Option Bytes :=
  shown colors (palette * paletteSize t.format) t.pixels[8 * y + x]?

/-- What the pixel at column `x` and row `y` of an entry of a tilemap looks like: that of its tile, at the mirrored place. -/
def entryShown (t : Model.Graphics2D.TilemapTile) (it : Model.Graphics2D.ImageTile) (colors : List Color) (x y : Nat) : Option Bytes :=
  match t.format with
  | .i8 => tileShown it colors 0 x y
  | .i10h1v1p4 => tileShown it colors t.paletteNum (if t.hFlip = true then 7 - x else x) (if t.vFlip = true then 7 - y else y)

/-- The same, for the tile that the entry is about. -/
def entryOf (t : Model.Graphics2D.TilemapTile) (its : List Model.Graphics2D.ImageTile) (colors : List Color) (first x y : Nat) :
    Option Bytes :=
  if t.tileNum < first then none else (its[t.tileNum - first]?).bind fun it => entryShown t it colors x y

/-- The colours have components of five bits. -/
def FiveBits (colors : List Color) : Prop := ∀ c ∈ colors, c.r < 32 ∧ c.g < 32 ∧ c.b < 32

/-- An image of the given size in which every pixel looks as the function says. -/
def Shows (im : Image) (w h : Nat) (f : Nat → Nat → Option Bytes) : Prop :=
  Sized im w h ∧ ∀ x y, x < w → y < h → f x y = some (pixel im x y)

end Verif.Spec.Image
