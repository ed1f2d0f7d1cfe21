import Verif.Base.Sort
import Verif.Base.Dict
import Verif.Model.Common
import Verif.Model.Color
import Verif.Model.InfoBlock

/-!
# Model of `ndspy/texture.py`

Textures, palettes and NSBTX files.  A format and a transformation mode is its number; loading only makes numbers from
0 to 7 and 0 to 3.  Widths, heights and the unknown numbers are natural numbers.  `int(width * height * bits / 8)`
(401–402, 407) is exact for the sizes that occur, so natural division is used.  Not modelled here: `__str__`,
`__repr__` (see `ReprSound.lean`); see `Image.lean` for `renderAsImage`, `Build.lean` for `fromTexturesAndPalettes`, `fromColors`, `fromFlags` and `size`.
-/

namespace Verif.Model.Texture

open Verif Verif.Model.Common Verif.Model.Color Verif.Model.InfoBlock

/-- `b'BTX0'`. -/
def BTX0 : Bytes := [0x42, 0x54, 0x58, 0x30]

/-- `b'TEX0'`. -/
def TEX0 : Bytes := [0x54, 0x45, 0x58, 0x30]

/-- `TextureFormat.TEXELED` (texture.py 35). -/
def TEXELED : Nat := 5

/-- `bitsPerPixel1` (texture.py 40–56). -/
def bitsPerPixel1 (format : Nat) : Nat :=
  match format with
  | 0 => 0
  | 1 => 8
  | 2 => 2
  | 3 => 4
  | 4 => 8
  | 5 => 2
  | 6 => 8
  | _ => 16

/-- `bitsPerPixel2` (texture.py 59–71). -/
def bitsPerPixel2 (format : Nat) : Nat := if format = TEXELED then 1 else 0

/-- `Texture` (texture.py 87–110). -/
structure Texture where
  unk00 : Nat
  unk02 : Nat
  repeatS : Bool
  repeatT : Bool
  mirrorS : Bool
  mirrorT : Bool
  width : Nat
  height : Nat
  format : Nat
  isColor0Transparent : Bool
  coordsTransformationMode : Nat
  unk04 : Nat
  data1 : Bytes
  data2 : Bytes
  deriving DecidableEq, Repr

/-- `Texture.__init__` (texture.py 91–110).  The two enums have a member for every value that can occur. -/
def Texture.new (unk00 unk02 params unk04 : Nat) (data1 data2 : Bytes) : Texture where
  unk00 := unk00
  unk02 := unk02
  repeatS := decide (params &&& 1 ≠ 0)
  repeatT := decide (params &&& 2 ≠ 0)
  mirrorS := decide (params &&& 4 ≠ 0)
  mirrorT := decide (params &&& 8 ≠ 0)
  width := 8 <<< ((params >>> 4) &&& 7)
  height := 8 <<< ((params >>> 7) &&& 7)
  format := (params >>> 10) &&& 7
  isColor0Transparent := decide (params &&& 0x2000 ≠ 0)
  coordsTransformationMode := (params >>> 14) &&& 3
  unk04 := unk04
  data1 := data1
  data2 := data2

/-- `SIZES_ENCODED` (texture.py 146–155). -/
def sizeEncoded (n : Nat) : Option Nat :=
  [(8, 0), (16, 1), (32, 2), (64, 3), (128, 4), (256, 5), (512, 6), (1024, 7)].lookup n

/-- The parameter word that `Texture.save` computes (texture.py 138–169). -/
def Texture.params (t : Texture) : Py Nat :=
  match sizeEncoded t.width, sizeEncoded t.height with
  | some w, some h =>
    .ok ((if t.repeatS = true then 1 else 0) ||| (if t.repeatT = true then 2 else 0) |||
      (if t.mirrorS = true then 4 else 0) ||| (if t.mirrorT = true then 8 else 0) ||| (w <<< 4) ||| (h <<< 7) |||
      ((t.format &&& 7) <<< 10) ||| (if t.isColor0Transparent = true then 0x2000 else 0) |||
      ((t.coordsTransformationMode &&& 3) <<< 14))
  | _, _ => .error .valueError

/-- `Palette` (texture.py 240–260). -/
structure Palette where
  unk00 : Nat
  unk02 : Nat
  unkHeader02 : Nat
  colors : List Color
  deriving DecidableEq, Repr

/-- `NSBTX` (texture.py 275–292). -/
structure NSBTX where
  unk08 : Nat
  unk10 : Nat
  unk18 : Nat
  unk20 : Nat
  unk2C : Nat
  unk32 : Nat
  textures : List (Option Str × Texture)
  palettes : List (Option Str × Palette)
  deriving DecidableEq, Repr

/-- One texture of a TEX0 block (texture.py 391–416). -/
def readTexture (data : Bytes) (texDataOff compressedData1Off compressedData2Off : Nat) (e : Entry) :
    Py (Option Str × Texture) := do
  raiseIf (e.data.length ≠ 8) .structError
  let f ← unpackUs .little [2, 2, 4] e.data 0
  match f with
  | [off, params, unk04] =>
    let tex := Texture.new e.unk00 e.unk02 params unk04 [] []
    let off := off <<< 3
    let len1 := tex.width * tex.height * bitsPerPixel1 tex.format / 8
    let len2 := tex.width * tex.height * bitsPerPixel2 tex.format / 8
    if tex.format = TEXELED then
      return (e.name, { tex with
        data1 := slice data (compressedData1Off + off) (compressedData1Off + off + len1)
        data2 := slice data (compressedData2Off + off / 2) (compressedData2Off + off / 2 + len2) })
    else
      return (e.name, { tex with data1 := slice data (off + texDataOff) (off + texDataOff + len1), data2 := [] })
  | _ => .error .structError

/-- What is remembered of a palette in the first pass (texture.py 429–434): name, the two unknown numbers of the info
block and the one of the header. -/
abbrev PaletteKey := Option Str × Nat × Nat × Nat

/-- The first pass over one palette (texture.py 429–438): the key and the start offset. -/
def readPaletteKey (palDataOff : Nat) (e : Entry) : Py (PaletteKey × Nat) := do
  raiseIf (e.data.length ≠ 4) .structError
  let f ← unpackUs .little [2, 2] e.data 0
  match f with
  | [off, unkHeader02] => return ((e.name, e.unk00, e.unk02, unkHeader02), (off <<< 3) + palDataOff)
  | _ => .error .structError

/-- The second pass over one palette (texture.py 443–451).  `starts` is `palette2StartOffset` and `offsets` the sorted
`paletteStartOffsets`. -/
def readPalette (data : Bytes) (starts : List (PaletteKey × Nat)) (offsets : List Nat) (pt : PaletteKey) :
    Py (Option Str × Palette) :=
  match starts.lookup pt with
  | none => .error .keyError
  | some startOff =>
    if startOff ∈ offsets then do
      let endOff ← pyIdx offsets (offsets.idxOf startOff + 1)
      let colors ← loadPalette (slice data startOff endOff)
      return (pt.1, ⟨pt.2.1, pt.2.2.1, pt.2.2.2, colors⟩)
    else .error .valueError

/-- `_readTEX0(data)` (texture.py 366–453), with the fields of the result in an `NSBTX`. -/
def readTEX0 (data : Bytes) : Py NSBTX := do
  pyAssert (data.take 4 = TEX0)
  let f ← unpackUs .little [4, 2, 2, 4, 4, 4, 2, 2, 4, 4, 4, 4, 2, 2, 4, 4] data 8
  match f with
  | [unk08, _, texOff, unk10, texDataOff, unk18, _, _, unk20, compressedData1Off, compressedData2Off, unk2C,
      palDataLen, unk32, palOff, palDataOff] => do
    let texEntries ← loadInfoBlock data texOff (some 8)
    let textures ← mapE (readTexture data texDataOff compressedData1Off compressedData2Off) texEntries
    let palEntries ← loadInfoBlock data palOff (some 4)
    let keys ← mapE (readPaletteKey palDataOff) palEntries
    let palettes ← mapE (readPalette data (keys.foldl (fun d k => dictSet d k.1 k.2) [])
      (sortBy id (keys.map (·.2) ++ [palDataOff + (palDataLen <<< 3)]))) (keys.map (·.1))
    return ⟨unk08, unk10, unk18, unk20, unk2C, unk32, textures, palettes⟩
  | _ => .error .structError

/-- The state of the loop over the textures when saving: the data areas and the entries. -/
structure SaveTex where
  textures : Bytes
  compressed1 : Bytes
  compressed2 : Bytes
  entries : List Entry
  deriving DecidableEq, Repr

/-- Saving one texture (texture.py 474–491). -/
def saveTexture (s : SaveTex) (x : Option Str × Texture) : Py SaveTex := do
  let params ← x.2.params
  if x.2.format = TEXELED then do
    raiseIf (x.2.data1.length ≠ x.2.data2.length * 2) .valueError
    let entry ← packUs .little [(2, s.compressed1.length >>> 3), (2, params), (4, x.2.unk04)]
    return ⟨s.textures, s.compressed1 ++ x.2.data1, s.compressed2 ++ x.2.data2,
      s.entries ++ [⟨x.1, x.2.unk00, x.2.unk02, entry⟩]⟩
  else do
    let entry ← packUs .little [(2, s.textures.length >>> 3), (2, params), (4, x.2.unk04)]
    return ⟨s.textures ++ x.2.data1, s.compressed1, s.compressed2, s.entries ++ [⟨x.1, x.2.unk00, x.2.unk02, entry⟩]⟩

/-- The loop over the textures (texture.py 473–491). -/
def saveTextures : SaveTex → List (Option Str × Texture) → Py SaveTex
  | s, [] => .ok s
  | s, x :: xs => do
    let s ← saveTexture s x
    saveTextures s xs

/-- Saving one palette (texture.py 499–509); the state is the palette data and the entries. -/
def savePaletteEntry (s : Bytes × List Entry) (x : Option Str × Palette) : Py (Bytes × List Entry) := do
  let d ← savePalette x.2.colors
  raiseIf (d.length % 8 ≠ 0) .valueError
  let entry ← packUs .little [(2, s.1.length >>> 3), (2, x.2.unkHeader02)]
  return (s.1 ++ d, s.2 ++ [⟨x.1, x.2.unk00, x.2.unk02, entry⟩])

/-- The loop over the palettes (texture.py 498–509). -/
def savePalettes : Bytes × List Entry → List (Option Str × Palette) → Py (Bytes × List Entry)
  | s, [] => .ok s
  | s, x :: xs => do
    let s ← savePaletteEntry s x
    savePalettes s xs

/-- The values of the header after the magic and the size (texture.py 521–525), where `ti` and `pi` are the lengths of the
two info blocks. -/
def headerFields (t : NSBTX) (tex : SaveTex) (ti pi : Nat) (pal : Bytes) : List (Nat × Nat) :=
  [(4, t.unk08), (2, tex.textures.length >>> 3), (2, 0x3C),
    (4, t.unk10), (4, 0x3C + ti + pi), (4, t.unk18), (2, tex.compressed1.length >>> 3), (2, 0x3C),
    (4, t.unk20), (4, 0x3C + ti + pi + tex.textures.length),
    (4, 0x3C + ti + pi + tex.textures.length + tex.compressed1.length), (4, t.unk2C),
    (2, pal.length >>> 3), (2, t.unk32), (4, 0x3C + ti),
    (4, 0x3C + ti + pi + tex.textures.length + tex.compressed1.length + tex.compressed2.length)]

/-- `_saveTEX0(fields)` (texture.py 456–527).  The header is packed as one struct. -/
def saveTEX0 (t : NSBTX) : Py Bytes := do
  let tex ← saveTextures ⟨[], [], [], []⟩ t.textures
  let texInfo ← saveInfoBlock tex.entries 8
  let pal ← savePalettes ([], []) t.palettes
  let palInfo ← saveInfoBlock pal.2 4
  let data := zeros 0x3C ++ texInfo ++ palInfo ++ tex.textures ++ tex.compressed1 ++ tex.compressed2 ++ pal.1
  let header ← packUs .little ((4, data.length) :: headerFields t tex texInfo.length palInfo.length pal.1)
  packInto data 0 (TEX0 ++ header)

/-- `NSBTX(data)` (texture.py 295–322). -/
def load (data : Bytes) : Py NSBTX := do
  raiseIf (data.take 4 ≠ BTX0) .valueError
  let h ← unpackStdHeader data 0
  raiseIf (h.version ≠ 1) .valueError
  pyAssert (h.numBlocks = 1)
  pyAssert ((data.drop 0x14).take 4 = TEX0)
  readTEX0 (data.drop 0x14)

/-- `NSBTX.save()` (texture.py 339–363).  The order of writing the header and the offset of the block does not matter:
both lie in the first 0x14 bytes and do not overlap. -/
def save (t : NSBTX) : Py Bytes := do
  let tex0 ← saveTEX0 t
  let header ← packStdHeader ⟨BTX0, 0xFEFF, 1, 0x14 + tex0.length, 0x10, 1⟩
  return header ++ [0x14, 0, 0, 0] ++ tex0

/-! ## Rendering -/

/-- An element of the list of colours a texture is rendered with: `Palette.colors` holds tuples, while the functions index
a table with it, which takes numbers. -/
inductive PalColor where
  | int (n : Nat)
  | tup (c : Color)
  deriving DecidableEq, Repr

/-- `COLOR_LUT[color]` with `COLOR_LUT = ndspyColor.LUT_UNPACKED` (texture.py 580 and others). -/
def lut (c : PalColor) : Py Color :=
  match c with
  | .int n => do
    let row ← pyIdx luts n
    return row.unpacked
  | .tup _ => .error .typeError

/-- `colors[i]`; `None` cannot be indexed. -/
def colorAt (colors : Option (List PalColor)) (i : Nat) : Py PalColor :=
  match colors with
  | none => .error .typeError
  | some l => pyIdx l i

/-- `dest[i] = v` for `dest = [0] * (w * h)`; `none` stands for the zero. -/
abbrev Dest := List (Option Color)

/-- The pixel for a palette index with the given alpha: `(r, g, b, a)` of the table entry. -/
def pixel (colors : Option (List PalColor)) (i alpha : Nat) : Py Color := do
  let color ← colorAt colors i
  let c ← lut color
  return ⟨c.r, c.g, c.b, alpha⟩

/-- `a = 31 if value != 0 else alpha0` with `alpha0 = 0 if isColor0Transparent else 31` (texture.py 595, 607). -/
def alphaFor (value : Nat) (isColor0Transparent : Bool) : Nat :=
  if value ≠ 0 then 31 else if isColor0Transparent = true then 0 else 31

/-- Running a loop body over the cells, with the iterator over the data and the image as state. -/
def runCells {σ α : Type} (body : σ → α → Py σ) : σ → List α → Py σ
  | s, [] => .ok s
  | s, c :: cs => do
    let s ← body s c
    runCells body s cs

/-- `for y in range(0, h, sy): for x in range(0, w, sx)`: the pairs `(y, x)` in order. -/
def cells (h sy w sx : Nat) : List (Nat × Nat) :=
  (List.range ((h + sy - 1) / sy)).flatMap fun y => (List.range ((w + sx - 1) / sx)).map fun x => (sy * y, sx * x)

/-- The body for A3I5 (texture.py 577–584). -/
def cellA3I5 (colors : Option (List PalColor)) (w : Nat) (s : Bytes × Dest) (c : Nat × Nat) : Py (Bytes × Dest) :=
  match s.1 with
  | [] => .error .stopIteration
  | v :: it => do
    let p ← pixel colors (v.toNat &&& 0x1F) (((v.toNat >>> 5) <<< 2) ||| ((v.toNat >>> 5) >>> 1))
    let d ← pySet s.2 (c.1 * w + c.2) (some p)
    return (it, d)

/-- Writing one pixel of an indexed format (texture.py 604–608 and others). -/
def putIndexed (colors : Option (List PalColor)) (transparent : Bool) (d : Dest) (pos value : Nat) : Py Dest := do
  let p ← pixel colors value (alphaFor value transparent)
  pySet d pos (some p)

/-- The body for I2 (texture.py 601–626). -/
def cellI2 (colors : Option (List PalColor)) (transparent : Bool) (w : Nat) (s : Bytes × Dest) (c : Nat × Nat) :
    Py (Bytes × Dest) :=
  match s.1 with
  | [] => .error .stopIteration
  | v :: it => do
    let d ← putIndexed colors transparent s.2 (c.1 * w + c.2) (v.toNat &&& 3)
    let d ← putIndexed colors transparent d (c.1 * w + c.2 + 1) ((v.toNat >>> 2) &&& 3)
    let d ← putIndexed colors transparent d (c.1 * w + c.2 + 2) ((v.toNat >>> 4) &&& 3)
    let d ← putIndexed colors transparent d (c.1 * w + c.2 + 3) (v.toNat >>> 6)
    return (it, d)

/-- The body for I4 (texture.py 641–653). -/
def cellI4 (colors : Option (List PalColor)) (transparent : Bool) (w : Nat) (s : Bytes × Dest) (c : Nat × Nat) :
    Py (Bytes × Dest) :=
  match s.1 with
  | [] => .error .stopIteration
  | v :: it => do
    let d ← putIndexed colors transparent s.2 (c.1 * w + c.2) (v.toNat &&& 0xF)
    let d ← putIndexed colors transparent d (c.1 * w + c.2 + 1) (v.toNat >>> 4)
    return (it, d)

/-- The body for I8 (texture.py 669–673): it indexes the data. -/
def cellI8 (data : Bytes) (colors : Option (List PalColor)) (transparent : Bool) (w : Nat) (d : Dest)
    (c : Nat × Nat) : Py Dest := do
  let v ← pyIdx data (c.1 * w + c.2)
  putIndexed colors transparent d (c.1 * w + c.2) v.toNat

/-- The body for A5I3 (texture.py 803–807). -/
def cellA5I3 (colors : Option (List PalColor)) (w : Nat) (s : Bytes × Dest) (c : Nat × Nat) : Py (Bytes × Dest) :=
  match s.1 with
  | [] => .error .stopIteration
  | v :: it => do
    let p ← pixel colors (v.toNat &&& 0x7) (v.toNat >>> 3)
    let d ← pySet s.2 (c.1 * w + c.2) (some p)
    return (it, d)

/-- The body for A1BGR5 (texture.py 822–825). -/
def cellA1BGR5 (w : Nat) (s : Bytes × Dest) (c : Nat × Nat) : Py (Bytes × Dest) :=
  match s.1 with
  | v1 :: v2 :: it => do
    let p ← lut (.int (v1.toNat ||| (v2.toNat <<< 8)))
    let d ← pySet s.2 (c.1 * w + c.2) (some ⟨p.r, p.g, p.b, if p.a ≠ 0 then 31 else 0⟩)
    return (it, d)
  | _ => .error .stopIteration

/-- `color & mask` of a palette entry: a tuple has no such operator. -/
def asInt (c : PalColor) : Py Nat :=
  match c with
  | .int n => .ok n
  | .tup _ => .error .typeError

/-- The mix of the first two colours of the texel's palette with weights `k0` and `k1` that add up to `2 ^ shift`
(texture.py 713–728, 733–748, 764–779).  For the average the code writes `r0 + r1` for `r0 * 1 + r1 * 1`. -/
def mix (colors : Option (List PalColor)) (off k0 k1 shift : Nat) : Py PalColor := do
  let c0 ← colorAt colors off
  let c1 ← colorAt colors (off + 1)
  let c0 ← asInt c0
  let c1 ← asInt c1
  return .int ((((c0 &&& 0x001F) * k0 + (c1 &&& 0x001F) * k1) >>> shift) |||
    ((((c0 &&& 0x03E0) * k0 + (c1 &&& 0x03E0) * k1) >>> shift) &&& 0x03E0) |||
    ((((c0 &&& 0x7C00) * k0 + (c1 &&& 0x7C00) * k1) >>> shift) &&& 0x7C00))

/-- The colour of a texel, or `none` if it is transparent (texture.py 703–779). -/
def texelColor (colors : Option (List PalColor)) (off interpMode sub : Nat) : Py (Option PalColor) :=
  if sub < 2 then do
    let c ← colorAt colors (off + sub)
    return some c
  else if sub = 2 then
    if interpMode = 1 then do
      let c ← mix colors off 1 1 1
      return some c
    else if interpMode = 3 then do
      let c ← mix colors off 5 3 3
      return some c
    else do
      let c ← colorAt colors (off + 2)
      return some c
  else
    if interpMode < 2 then .ok none
    else if interpMode = 2 then do
      let c ← colorAt colors (off + 3)
      return some c
    else do
      let c ← mix colors off 3 5 3
      return some c

/-- One texel (texture.py 697–786). -/
def putTexel (colors : Option (List PalColor)) (off interpMode sub : Nat) (d : Dest) (pos : Nat) : Py Dest := do
  let c ← texelColor colors off interpMode sub
  match c with
  | some c => do
    let p ← lut c
    pySet d pos (some ⟨p.r, p.g, p.b, 31⟩)
  | none => pySet d pos (some ⟨0, 0, 0, 0⟩)

/-- One row of a block of texels (texture.py 695–786). -/
def texelRow (colors : Option (List PalColor)) (off interpMode w : Nat) (c : Nat × Nat) (s : Bytes × Dest) (suby : Nat) :
    Py (Bytes × Dest) :=
  match s.1 with
  | [] => .error .stopIteration
  | v :: it => do
    let d ← runCells (fun d subx => putTexel colors off interpMode ((v.toNat >>> (2 * subx)) &&& 3) d
      ((c.1 + suby) * w + c.2 + subx)) s.2 (List.range 4)
    return (it, d)

/-- The body for texeled textures (texture.py 690–786); the state has the two iterators and the image. -/
def cellTexeled (colors : Option (List PalColor)) (w : Nat) (s : Bytes × Bytes × Dest) (c : Nat × Nat) :
    Py (Bytes × Bytes × Dest) :=
  match s.2.1 with
  | a :: b :: it2 => do
    let r ← runCells (texelRow colors (((a.toNat ||| (b.toNat <<< 8)) &&& 0x3FFF) * 2)
      ((a.toNat ||| (b.toNat <<< 8)) >>> 14) w c) (s.1, s.2.2) (List.range 4)
    return (r.1, it2, r.2)
  | _ => .error .stopIteration

/-- `renderTextureData(data1, data2, format, width, height, palette, isColor0Transparent)` (texture.py 542–827).
`prepared` says whether `color.prepareLUTs()` has been called; without that the tables do not exist. -/
def renderTextureData (prepared : Bool) (data1 data2 : Bytes) (format width height : Nat)
    (palette : Option (List PalColor)) (isColor0Transparent : Bool) : Py Dest :=
  let dest : Dest := List.replicate (width * height) none
  if format = 0 ∨ 7 < format then .error .valueError
  else if prepared = false then .error .attributeError
  else
    match format with
    | 1 => do
      let r ← runCells (cellA3I5 palette width) (data1, dest) (cells height 1 width 1)
      return r.2
    | 2 => do
      let r ← runCells (cellI2 palette isColor0Transparent width) (data1, dest) (cells height 1 width 4)
      return r.2
    | 3 => do
      let r ← runCells (cellI4 palette isColor0Transparent width) (data1, dest) (cells height 1 width 2)
      return r.2
    | 4 => runCells (cellI8 data1 palette isColor0Transparent width) dest (cells height 1 width 1)
    | 5 => do
      let r ← runCells (cellTexeled palette width) (data1, data2, dest) (cells height 4 width 4)
      return r.2.2
    | 6 => do
      let r ← runCells (cellA5I3 palette width) (data1, dest) (cells height 1 width 1)
      return r.2
    | _ => do
      let r ← runCells (cellA1BGR5 width) (data1, dest) (cells height 1 width 1)
      return r.2

/-- `Texture.render(palette)` (texture.py 174–190). -/
def Texture.render (prepared : Bool) (t : Texture) (palette : Option Palette) : Py Dest :=
  renderTextureData prepared t.data1 t.data2 t.format t.width t.height
    (palette.map fun p => p.colors.map .tup) t.isColor0Transparent

end Verif.Model.Texture
