import Verif.Spec.FormatNsbmd
import Verif.Model.Nsbmd

/-!
# Texture blocks and NSBTX files, byte by byte

Only the data structures of textures, palettes and colours are used from the model.
-/

namespace Verif.Spec.FormatNsbtx

open Verif Verif.Spec.Reader Verif.Spec.FormatFnt Verif.Spec.FormatNsbmd Verif.Model.Color Verif.Model.Texture

/-! ## Lists of names with a record for each -/

/-- A list with records of `k` bytes at `o` is all right; all its records lie in the block. -/
def RecordsOk (d : Bytes) (o k : Nat) : Prop :=
  u16 d (o + 4) = 8 ∧ u16 d (o + 6) = 12 + 4 * count d o ∧ u32 d (o + 8) = 0x17F ∧ u16 d (o + 12 + 4 * count d o) = k ∧
  u16 d (o + 14 + 4 * count d o) = 4 + count d o * k ∧ o + 16 + (4 + k) * count d o ≤ d.length

/-- The `i`-th pair of unknown numbers, record and name. -/
def unk00At (d : Bytes) (o i : Nat) : Nat := u16 d (o + 12 + 4 * i)
def unk02At (d : Bytes) (o i : Nat) : Nat := u16 d (o + 14 + 4 * i)
def recordAt (d : Bytes) (o k i : Nat) : Nat := o + 16 + 4 * count d o + k * i
def nameAt (d : Bytes) (o k i : Nat) : Str := stripped (text d (o + 16 + (4 + k) * count d o + 16 * i) 16)

/-! ## Textures -/

/-- How many bits a pixel takes, and how many more in the second data area. -/
def perPixel : Nat → Nat × Nat
  | 1 => (8, 0)
  | 2 => (2, 0)
  | 3 => (4, 0)
  | 4 => (8, 0)
  | 5 => (2, 1)
  | 6 => (8, 0)
  | 7 => (16, 0)
  | _ => (0, 0)

/-- The data of a texture of this format: where they are in one of the areas, which begin at 0x14, 0x24 and 0x28 of the header.
Compressed textures have data in two of them. -/
def data1 (d : Bytes) (format off size : Nat) : Bytes :=
  bytesAt d (u32 d (if format = 5 then 0x24 else 0x14) + off) (size * (perPixel format).1 / 8)
def data2 (d : Bytes) (format off size : Nat) : Bytes :=
  if format = 5 then bytesAt d (u32 d 0x28 + off / 2) (size * (perPixel format).2 / 8) else []

/-- The `i`-th texture of the list at `o`. -/
def texture (d : Bytes) (o i : Nat) : Option Str × Texture :=
  let r := recordAt d o 8 i
  let p := u16 d (r + 2)
  let w := 8 * 2 ^ bits p 4 3
  let h := 8 * 2 ^ bits p 7 3
  let f := bits p 10 3
  (some (nameAt d o 8 i), {
    unk00 := unk00At d o i
    unk02 := unk02At d o i
    repeatS := bit p 0
    repeatT := bit p 1
    mirrorS := bit p 2
    mirrorT := bit p 3
    width := w
    height := h
    format := f
    isColor0Transparent := bit p 13
    coordsTransformationMode := bits p 14 2
    unk04 := u32 d (r + 4)
    data1 := data1 d f (8 * u16 d r) (w * h)
    data2 := data2 d f (8 * u16 d r) (w * h) })

/-! ## Palettes -/

/-- A colour. -/
def colour (n : Nat) : Color := ⟨bits n 0 5, bits n 5 5, bits n 10 5, bits n 15 1⟩

/-- The colours in some bytes. -/
def colours (b : Bytes) : List Color := (List.range (b.length / 2)).map fun i => colour (u16 b (2 * i))

/-- What tells palettes apart: the name and three numbers. -/
abbrev Key := Option Str × Nat × Nat × Nat
def key (d : Bytes) (o i : Nat) : Key :=
  (some (nameAt d o 4 i), unk00At d o i, unk02At d o i, u16 d (recordAt d o 4 i + 2))

/-- Where the colours of the `i`-th palette of the list at `o` begin according to its record. -/
def start (d : Bytes) (o i : Nat) : Nat := u32 d 0x38 + 8 * u16 d (recordAt d o 4 i)

/-- All these places, and the end of the colours. -/
def stops (d : Bytes) (o : Nat) : List Nat :=
  (List.range (count d o)).map (start d o) ++ [u32 d 0x38 + 8 * u16 d 0x30]

/-- The last palette that cannot be told apart from the `i`-th one. -/
def twin (d : Bytes) (o i : Nat) : Nat :=
  (((List.range (count d o)).filter fun j => key d o j = key d o i).getLast?).getD i

/-- A palette ends where the next one begins; if another one begins at the same place, it ends there. -/
def stopAfter (l : List Nat) (s : Nat) : Option Nat :=
  if 2 ≤ l.count s then some s else (l.filter (s < ·)).min?

/-- The `i`-th palette of the list at `o`. -/
def palette (d : Bytes) (o i : Nat) : Option Str × Palette :=
  let s := start d o (twin d o i)
  (some (nameAt d o 4 i), {
    unk00 := unk00At d o i
    unk02 := unk02At d o i
    unkHeader02 := u16 d (recordAt d o 4 i + 2)
    colors := colours (span d s ((stopAfter (stops d o) s).getD s)) })

/-! ## The block and the file -/

/-- A texture block is all right: both lists are, and behind every palette there is a place where it ends. -/
def BlockOk (d : Bytes) : Prop :=
  bytesAt d 0 4 = [0x54, 0x45, 0x58, 0x30] ∧ 0x3C ≤ d.length ∧ RecordsOk d (u16 d 0x0E) 8 ∧ RecordsOk d (u32 d 0x34) 4 ∧
  ∀ i < count d (u32 d 0x34), (stopAfter (stops d (u32 d 0x34)) (start d (u32 d 0x34) (twin d (u32 d 0x34) i))).isSome

/-- What is in it. -/
def block (d : Bytes) : NSBTX where
  unk08 := u32 d 0x08
  unk10 := u32 d 0x10
  unk18 := u32 d 0x18
  unk20 := u32 d 0x20
  unk2C := u32 d 0x2C
  unk32 := u16 d 0x32
  textures := (List.range (count d (u16 d 0x0E))).map (texture d (u16 d 0x0E))
  palettes := (List.range (count d (u32 d 0x34))).map (palette d (u32 d 0x34))

/-- A NSBTX file is all right: name, version 1, one block, which lies right behind its offset. -/
def FileOk (d : Bytes) : Prop :=
  bytesAt d 0 4 = [0x42, 0x54, 0x58, 0x30] ∧ u16 d 6 = 1 ∧ u16 d 14 = 1 ∧ BlockOk (d.drop 0x14)

/-! ## Model files -/

/-- Where the blocks of an NSBMD file are, and their bytes. -/
def places (d : Bytes) : List Nat := (List.range (u16 d 14)).map fun i => u32 d (0x10 + 4 * i)
def blockAt (d : Bytes) (o : Nat) : Bytes := bytesAt d o (u32 d (o + 4))

/-- The names of the blocks. -/
def IsModel (d : Bytes) (o : Nat) : Prop := bytesAt d o 4 = [0x4D, 0x44, 0x4C, 0x30]
def IsTexture (d : Bytes) (o : Nat) : Prop := bytesAt d o 4 = [0x54, 0x45, 0x58, 0x30]
instance (d : Bytes) (o : Nat) : Decidable (IsModel d o) := by unfold IsModel; infer_instance
instance (d : Bytes) (o : Nat) : Decidable (IsTexture d o) := by unfold IsTexture; infer_instance

/-- An NSBMD file is all right: name, version 2, and each block is one of models or one of textures and all right. -/
def ModelFileOk (d : Bytes) : Prop :=
  bytesAt d 0 4 = [0x42, 0x4D, 0x44, 0x30] ∧ u16 d 6 = 2 ∧ 0x10 + 4 * u16 d 14 ≤ d.length ∧
  ∀ o ∈ places d, o + 8 ≤ d.length ∧
    (IsModel d o ∧ FormatNsbmd.BlockOk (blockAt d o) ∨ IsTexture d o ∧ BlockOk (blockAt d o))

/-- The last block of either kind. -/
def lastModel (d : Bytes) : Option Bytes := ((places d).filter fun o => IsModel d o).getLast?.map (blockAt d)
def lastTexture (d : Bytes) : Option Bytes := ((places d).filter fun o => IsTexture d o).getLast?.map (blockAt d)

/-- What is in an NSBMD file. -/
def modelFile (d : Bytes) : Model.Nsbmd.NSBMD where
  tex := ((lastTexture d).map block).getD ⟨0, 0, 0, 0, 0, 0, [], []⟩
  mdl0 := lastModel d
  models := (lastModel d).map FormatNsbmd.modelNames

end Verif.Spec.FormatNsbtx
