import Verif.Base.Bytes

/-!
# Model of `ndspy/color.py`

Channels are natural numbers.  Not modelled here: the file wrappers (see `Files.lean`), default arguments (`a=1`, `a=255`), and what
happens when a value is not of the type its format says (the source calls that output undefined; the model
raises `TypeError`).
-/

namespace Verif.Model.Color

open Verif

/-- `ColorFormat` (color.py 60–69). -/
inductive Fmt where
  | int16
  | bytes2
  | rgb5a1
  | rgb5a5
  | rgba255
  deriving DecidableEq, Repr

/-- `ColorTuple` (color.py 72). -/
structure Color where
  r : Nat
  g : Nat
  b : Nat
  a : Nat
  deriving DecidableEq, Repr

/-- A colour in one of the formats. -/
inductive Val where
  | int (n : Nat)
  | bytes (b : Bytes)
  | tup (c : Color)
  deriving DecidableEq, Repr

/-- `x << 3 | x >> 2` (color.py 180 and others). -/
def expand5 (x : Nat) : Nat := x <<< 3 ||| x >>> 2

/-- `((x + 4) << 2) // 33` (color.py 237 and others). -/
def contract5 (x : Nat) : Nat := ((x + 4) <<< 2) / 33

/-- `bytes([v & 0xFF, v >> 8])` (color.py 165, 262, 344). -/
def bytes2 (v : Nat) : Py Bytes := do
  let lo ← byteOf (v &&& 0xFF)
  let hi ← byteOf (v >>> 8)
  return [lo, hi]

/-- Lines 259–262 of color.py. -/
def convertEnd (v : Nat) (to : Fmt) : Py Val :=
  if to = .int16 then .ok (.int v) else do
    let b ← bytes2 v
    return .bytes b

/-- The `from_ is CF_INT_16` branch (color.py 159–183). -/
def convertInt (x : Nat) (to : Fmt) : Py Val :=
  match to with
  | .int16 => .ok (.int x)
  | .bytes2 => do
    let b ← bytes2 x
    return .bytes b
  | _ =>
    let r := x &&& 0x1F
    let g := (x >>> 5) &&& 0x1F
    let b := (x >>> 10) &&& 0x1F
    let a := x >>> 15
    match to with
    | .rgb5a1 => .ok (.tup ⟨r, g, b, a⟩)
    | .rgb5a5 => .ok (.tup ⟨r, g, b, if a ≠ 0 then 0x1F else 0⟩)
    | _ => .ok (.tup ⟨expand5 r, expand5 g, expand5 b, if a ≠ 0 then 255 else 0⟩)

/-- The `from_ is CF_TUPLE_RGB5A1` branch (color.py 185–206). -/
def convertA1 (x : Color) (to : Fmt) : Py Val :=
  match to with
  | .rgb5a1 => .ok (.tup x)
  | .rgb5a5 => .ok (.tup ⟨x.r, x.g, x.b, if x.a ≠ 0 then 0x1F else 0⟩)
  | .rgba255 => .ok (.tup ⟨expand5 x.r, expand5 x.g, expand5 x.b, if x.a ≠ 0 then 255 else 0⟩)
  | _ => convertEnd ((x.r &&& 0x1F) ||| ((x.g &&& 0x1F) <<< 5) ||| ((x.b &&& 0x1F) <<< 10) ||| (x.a <<< 15)) to

/-- The `from_ is CF_TUPLE_RGB5A5` branch (color.py 208–229). -/
def convertA5 (x : Color) (to : Fmt) : Py Val :=
  match to with
  | .rgb5a5 => .ok (.tup x)
  | .rgb5a1 => .ok (.tup ⟨x.r, x.g, x.b, if x.a ≥ 0x10 then 1 else 0⟩)
  | .rgba255 => .ok (.tup ⟨expand5 x.r, expand5 x.g, expand5 x.b, expand5 x.a⟩)
  | _ => convertEnd ((x.r &&& 0x1F) ||| ((x.g &&& 0x1F) <<< 5) ||| ((x.b &&& 0x1F) <<< 10) |||
      ((if x.a ≥ 0x10 then 1 else 0) <<< 15)) to

/-- The last branch (color.py 231–255). -/
def convert255 (x : Color) (to : Fmt) : Py Val :=
  match to with
  | .rgba255 => .ok (.tup x)
  | .rgb5a1 => .ok (.tup ⟨contract5 x.r, contract5 x.g, contract5 x.b, if x.a ≥ 0x80 then 1 else 0⟩)
  | .rgb5a5 => .ok (.tup ⟨contract5 x.r, contract5 x.g, contract5 x.b, contract5 x.a⟩)
  | _ => convertEnd ((contract5 x.r &&& 0x1F) ||| ((contract5 x.g &&& 0x1F) <<< 5) |||
      ((contract5 x.b &&& 0x1F) <<< 10) ||| ((if x.a ≥ 0x80 then 1 else 0) <<< 15)) to

/-- `convert` (color.py 138–262). -/
def convert (x : Val) (from_ to : Fmt) : Py Val :=
  match from_, x with
  | .bytes2, .bytes b => do
    let b1 ← pyIdx b 1
    let b0 ← pyIdx b 0
    convertInt (b1.toNat <<< 8 ||| b0.toNat) to
  | .int16, .int n => convertInt n to
  | .rgb5a1, .tup c => convertA1 c to
  | .rgb5a5, .tup c => convertA5 c to
  | .rgba255, .tup c => convert255 c to
  | _, _ => .error .typeError

/-- `unpack` (color.py 269–276). -/
def unpack (v : Nat) : Color := ⟨v &&& 0x1F, (v >>> 5) &&& 0x1F, (v >>> 10) &&& 0x1F, (v >>> 15) &&& 1⟩

/-- `pack` (color.py 279–286). -/
def pack (r g b a : Nat) : Nat :=
  (r &&& 0x1F) ||| ((g &&& 0x1F) <<< 5) ||| ((b &&& 0x1F) <<< 10) ||| ((a &&& 1) <<< 15)

/-- `unpack255` (color.py 289–298). -/
def unpack255 (v : Nat) : Color :=
  let c := unpack v
  ⟨expand5 c.r, expand5 c.g, expand5 c.b, if c.a ≠ 0 then 255 else 0⟩

/-- `pack255` (color.py 301–309). -/
def pack255 (r g b a : Nat) : Nat := pack (contract5 r) (contract5 g) (contract5 b) (if a < 128 then 0 else 1)

/-- `expand` (color.py 312–319). -/
def expand (r g b a : Nat) : Color := ⟨expand5 r, expand5 g, expand5 b, if a ≠ 0 then 255 else 0⟩

/-- `contract` (color.py 322–329). -/
def contract (r g b a : Nat) : Color := ⟨contract5 r, contract5 g, contract5 b, if a < 128 then 0 else 1⟩

/-- `load` (color.py 332–336). -/
def load (data : Bytes) : Py Color := do
  let b1 ← pyIdx data 1
  let b0 ← pyIdx data 0
  return unpack (b1.toNat <<< 8 ||| b0.toNat)

/-- `save` (color.py 339–344). -/
def save (r g b a : Nat) : Py Bytes := bytes2 (pack r g b a)

/-- One row of the tables filled by `prepareLUTs` (color.py 99–115). -/
structure LutRow where
  unpacked : Color
  unpacked255 : Color
  rgba : Nat
  argb : Nat
  bgra : Nat
  abgr : Nat

/-- Row `i` (color.py 99–115). -/
def lutRow (i : Nat) : LutRow :=
  let r := i &&& 0x1F
  let g := (i >>> 5) &&& 0x1F
  let b := (i >>> 10) &&& 0x1F
  let a := (i >>> 15) &&& 1
  let r255 := expand5 r
  let g255 := expand5 g
  let b255 := expand5 b
  let a255 := if a ≠ 0 then 255 else 0
  { unpacked := ⟨r, g, b, a⟩
    unpacked255 := ⟨r255, g255, b255, a255⟩
    rgba := (r255 <<< 24) ||| (g255 <<< 16) ||| (b255 <<< 8) ||| a255
    argb := (a255 <<< 24) ||| (r255 <<< 16) ||| (g255 <<< 8) ||| b255
    bgra := (b255 <<< 24) ||| (g255 <<< 16) ||| (r255 <<< 8) ||| a255
    abgr := (a255 <<< 24) ||| (b255 <<< 16) ||| (g255 <<< 8) ||| r255 }

/-- `prepareLUTs` (color.py 76–115): the six tables, as one table of rows. -/
def luts : List LutRow := (List.range 0x10000).map lutRow

/-- `loadPalette` (color.py 347–352). -/
def loadPalette (data : Bytes) : Py (List Color) := do
  let l ← mapE (fun i => unpackU .little 2 data (2 * i)) (List.range (data.length / 2))
  return l.map unpack

/-- `savePalette` (color.py 364–369). -/
def savePalette (colors : List Color) : Py Bytes := do
  let l ← mapE (fun c => packU .little 2 (pack c.r c.g c.b c.a)) colors
  return l.flatten

end Verif.Model.Color
