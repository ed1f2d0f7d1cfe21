import Verif.Model.Graphics2D
import Verif.Spec.Reader

/-!
# Colours, palettes, tiles and tilemaps, bit by bit
-/

namespace Verif.Spec.FormatGraphics

open Verif Verif.Model.Color Verif.Model.Graphics2D Verif.Spec.Reader

/-- The channels of a 16-bit colour: five bits each of red, green and blue, from the lowest bit on, and one bit of alpha. -/
def colorOf (v : Nat) : Color := ⟨bits v 0 5, bits v 5 5, bits v 10 5, bits v 15 1⟩

/-- The 16-bit number of a colour. -/
def numberOf (c : Color) : Nat := c.r + 0x20 * c.g + 0x400 * c.b + 0x8000 * c.a

/-- A channel of five bits as one of eight bits: the upper bits are repeated below. -/
def wide (x : Nat) : Nat := 8 * x + x / 4

/-- What a colour of five bits per channel and one bit of alpha is in each format. -/
def asFormat (c : Color) : Fmt → Val
  | .int16 => .int (numberOf c)
  | .bytes2 => .bytes [UInt8.ofNat (numberOf c % 0x100), UInt8.ofNat (numberOf c / 0x100)]
  | .rgb5a1 => .tup c
  | .rgb5a5 => .tup { c with a := 31 * c.a }
  | .rgba255 => .tup ⟨wide c.r, wide c.g, wide c.b, 255 * c.a⟩

/-- The pixel number `n` in image data: with four bits per pixel, the lower half of a byte comes first. -/
def pixel (d : Bytes) (f : ImageFormat) (n : Nat) : Nat :=
  match f with
  | .i8 => u8 d n
  | .i4 => bits (u8 d (n / 2)) (4 * (n % 2)) 4

/-- How many bytes there are in a tile of 64 pixels. -/
def tileSize : ImageFormat → Nat
  | .i8 => 64
  | .i4 => 32

/-- The entry of a tilemap that a 16-bit number stands for. -/
def entryOf (v : Nat) : TilemapTile := ⟨.i10h1v1p4, bits v 0 10, bit v 10, bit v 11, bits v 12 4⟩

end Verif.Spec.FormatGraphics
