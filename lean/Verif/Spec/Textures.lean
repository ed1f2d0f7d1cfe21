import Verif.Model.Texture
import Verif.Spec.Layouts

/-!
# Repainting the textures and palettes of a game (C169)
-/

namespace Verif.Spec.Textures

open Verif Verif.Model Verif.Model.Texture
open Verif.Spec.Layouts (Change changeAll)

/-! ## The program -/

/-- `t = NSBTX(data)`, changes of textures and palettes of it (`t.textures[i][1].data1 = …`,
`t.palettes[i][1].colors[j] = …`), `t.save()`. -/
def retexture (ts : List (Change (Option Str × Texture))) (ps : List (Change (Option Str × Palette))) (data : Bytes) :
    Py Bytes := do
  let t ← load data
  let l ← changeAll t.textures ts
  let m ← changeAll t.palettes ps
  save { t with textures := l, palettes := m }

/-! ## The changes -/

/-- `y` is `x` with other pixels, and perhaps other flags: the name, size, format and mode are the same, and so is the
amount of data. -/
structure Repainted (x y : Option Str × Texture) : Prop where
  name : y.1 = x.1
  width : y.2.width = x.2.width
  height : y.2.height = x.2.height
  format : y.2.format = x.2.format
  mode : y.2.coordsTransformationMode = x.2.coordsTransformationMode
  size1 : y.2.data1.length = x.2.data1.length
  size2 : y.2.data2.length = x.2.data2.length

/-- A colour that a palette can hold. -/
def InRange (c : Color.Color) : Prop := c.r < 32 ∧ c.g < 32 ∧ c.b < 32 ∧ c.a < 2

/-- `y` is `x` with other colours, as many, in range if those were. -/
structure Recoloured (x y : Option Str × Palette) : Prop where
  name : y.1 = x.1
  unk00 : y.2.unk00 = x.2.unk00
  unk02 : y.2.unk02 = x.2.unk02
  unkHeader02 : y.2.unkHeader02 = x.2.unkHeader02
  count : y.2.colors.length = x.2.colors.length
  range : (∀ c ∈ x.2.colors, InRange c) → ∀ c ∈ y.2.colors, InRange c

/-- `textures[i][1].data1 = new`. -/
def repaint (new : Bytes) (x : Option Str × Texture) : Option Str × Texture := (x.1, { x.2 with data1 := new })

/-- `palettes[i][1].colors[j] = c`, for a colour that is there. -/
def recolour (j : Nat) (c : Color.Color) (x : Option Str × Palette) : Option Str × Palette :=
  (x.1, { x.2 with colors := x.2.colors.set j c })

end Verif.Spec.Textures
