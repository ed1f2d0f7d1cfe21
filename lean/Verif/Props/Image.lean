import Verif.Proofs.Image
import Verif.Props.Texture
import Verif.Props.Color

/-!
# What the images of tiles, tilemaps and textures show (C135)
-/

namespace Verif.Props.Image

open Verif Verif.Model.Color Verif.Model.Graphics2D Verif.Model.Image Verif.Spec.Image

/-! ## Images of lists of colours -/

/-- The last byte of a pixel: with one bit of alpha 0 or 255, with five bits like the brightness. -/
def alphaByte (aBits a : Nat) : UInt8 := if aBits = 1 then (if a = 0 then 0 else 255) else eight a

/-- **C135.** The image of a list of colours has its size, and shows the colours row by row, from the left; more colours than
pixels do not matter. -/
theorem image_of_colors (aBits : Nat) (hb : aBits = 1 ∨ aBits = 5) (cs : List Color) (w h : Nat)
    (hc : ∀ c ∈ cs, c.r < 32 ∧ c.g < 32 ∧ c.b < 32 ∧ c.a < 32) (hl : w * h ≤ cs.length) :
    ∃ im, colorsToImage true (cs.map some) w h aBits = .ok im ∧
      Shows im w h fun x y => (cs[w * y + x]?).map fun c => [eight c.r, eight c.g, eight c.b, alphaByte aBits c.a] := by
  obtain ⟨im, h1, h2, h3⟩ := Proofs.Image.image_shows hb (cs := cs) (W := w) (H := h)
    (fun c h => ⟨(hc c h).1, (hc c h).2.1, (hc c h).2.2.1, fun _ => (hc c h).2.2.2⟩) hl
  refine ⟨im, h1, h2, fun x y hx hy => ?_⟩
  rw [← h3 x y hx hy]
  dsimp only
  congr 1
  funext c
  unfold Proofs.Image.bytesOf alphaByte
  by_cases h1 : aBits = 1 <;> by_cases h0 : c.a = 0 <;> simp [h1, h0]

/-- **C135.** With too few colours, without Pillow, or with another number of bits there is no image. -/
theorem no_image (havePIL : Bool) (aBits : Nat) (cs : List Color) (w h : Nat)
    (hc : ∀ c ∈ cs, c.r < 32 ∧ c.g < 32 ∧ c.b < 32 ∧ c.a < 32) :
    (havePIL = false → ∀ cs : List (Option Color), colorsToImage havePIL cs w h aBits = .error .runtimeError) ∧
    (aBits ≠ 1 ∧ aBits ≠ 5 → ∀ cs : List (Option Color), colorsToImage true cs w h aBits = .error .valueError) ∧
    (aBits = 1 ∨ aBits = 5 → cs.length < w * h → colorsToImage true (cs.map some) w h aBits = .error .stopIteration) := by
  refine ⟨fun h0 cs => ?_, fun h0 cs => ?_, fun hb hl => ?_⟩
  · unfold colorsToImage
    rw [raiseIf_true h0]
    rfl
  · unfold colorsToImage
    rw [raiseIf_false (by simp), bind_ok, raiseIf_true h0]
    rfl
  · rw [Proofs.Image.image_eq hb w h fun c h => ⟨(hc c h).1, (hc c h).2.1, (hc c h).2.2.1, fun _ => (hc c h).2.2.2⟩,
      if_neg (by omega)]

theorem eight_toNat {x : Nat} (h : x < 32) : (eight x).toNat = expand5 x := by
  unfold eight expand5
  rw [(Proofs.Image.expand_val h).1]
  have := (Proofs.Image.expand_val h).2
  simp [Nat.mod_eq_of_lt this]

/-- The colour that four bytes of a pixel are. -/
def colorOf (b : Bytes) : Color := ⟨(b.getD 0 0).toNat, (b.getD 1 0).toNat, (b.getD 2 0).toNat, (b.getD 3 0).toNat⟩

/-- **C135.** No colour is lost in an image: `color.convert` makes the colours again from the pixels, with one bit of alpha or with
five. -/
theorem image_lossless (aBits : Nat) (hb : aBits = 1 ∨ aBits = 5) (cs : List Color) (w h : Nat) (im : Image)
    (hc : ∀ c ∈ cs, c.r < 32 ∧ c.g < 32 ∧ c.b < 32 ∧ c.a < if aBits = 1 then 2 else 32) (hl : w * h ≤ cs.length)
    (hi : colorsToImage true (cs.map some) w h aBits = .ok im) (x y : Nat) (hx : x < w) (hy : y < h) :
    ∃ c, cs[w * y + x]? = some c ∧
      convert (.tup (colorOf (pixel im x y))) .rgba255 (if aBits = 1 then .rgb5a1 else .rgb5a5) = .ok (.tup c) := by
  obtain ⟨im', h1, -, h3⟩ := image_of_colors aBits hb cs w h (fun c hcm => by
    obtain ⟨a, b, c, d⟩ := hc c hcm
    refine ⟨a, b, c, Nat.lt_of_lt_of_le d ?_⟩
    split <;> decide) hl
  rw [hi] at h1
  cases h1
  have := Proofs.Image.index_lt hx hy
  have hlt : w * y + x < cs.length := by omega
  refine ⟨cs[w * y + x], List.getElem?_eq_getElem hlt, ?_⟩
  obtain ⟨cr, cg, cb, ca⟩ := hc _ (List.getElem_mem hlt)
  have hp := h3 x y hx hy
  dsimp only at hp
  rw [List.getElem?_eq_getElem hlt, Option.map_some] at hp
  rw [← Option.some.inj hp]
  generalize cs[w * y + x] = c at cr cg cb ca ⊢
  have e : colorOf [eight c.r, eight c.g, eight c.b, alphaByte aBits c.a] =
      ⟨expand5 c.r, expand5 c.g, expand5 c.b, (alphaByte aBits c.a).toNat⟩ := by
    rw [← eight_toNat cr, ← eight_toNat cg, ← eight_toNat cb]
    rfl
  rw [e]
  obtain ⟨r, g, b, a⟩ := c
  dsimp only at cr cg cb ca ⊢
  rcases hb with rfl | rfl
  · rw [if_pos rfl] at ca
    show Except.ok (Val.tup _) = _
    rw [Proofs.Color.contract5_expand5 cr, Proofs.Color.contract5_expand5 cg, Proofs.Color.contract5_expand5 cb]
    have : a = 0 ∨ a = 1 := by omega
    rcases this with rfl | rfl <;> rfl
  · show Except.ok (Val.tup _) = _
    have : (alphaByte 5 a).toNat = expand5 a := eight_toNat ca
    dsimp only
    rw [this, Proofs.Color.contract5_expand5 cr, Proofs.Color.contract5_expand5 cg, Proofs.Color.contract5_expand5 cb,
      Proofs.Color.contract5_expand5 ca]

/-- Colours of more than five bits are not refused, but spoil others: with red 32, green is changed. -/
theorem wide_colors : colorsToImage true [some ⟨32, 0, 0, 1⟩] 1 1 1 = .ok ⟨1, 1, [8, 1, 0, 255]⟩ := by decide +kernel

/-! ## Images of tiles and tilemaps -/

/-- **C135.** The image of a tile: 8 by 8 pixels, nothing where the tile has a 0, opaque colours of the palette elsewhere.  It is made
exactly if there is a pixel and a colour for each place. -/
theorem tile_image (t : ImageTile) (colors : List Color) (p : Nat) (hc : FiveBits colors) (im : Image) :
    tileAsImage true t colors p = .ok im ↔ Shows im 8 8 (tileShown t colors p) :=
  Proofs.Image.agrees_image (Proofs.Image.agrees_tile t colors p hc) im

/-- **C135.** The image of an entry of a tilemap with a tile. -/
theorem single_image (t : TilemapTile) (it : ImageTile) (colors : List Color) (hc : FiveBits colors) (im : Image) :
    singleAsImage true t it colors = .ok im ↔ Shows im 8 8 (entryShown t it colors) :=
  Proofs.Image.agrees_image (Proofs.Image.agrees_single t it colors hc) im

/-- **C135.** The image of an entry of a tilemap with a list of tiles. -/
theorem entry_image (t : TilemapTile) (its : List ImageTile) (colors : List Color) (o : Nat) (hc : FiveBits colors) (im : Image) :
    entryAsImage true t its colors o = .ok im ↔ Shows im 8 8 (entryOf t its colors o) := by
  have e : entryAsImage true t its colors o = t.render its colors o >>= fun px => colorsToImage true (px.map some) 8 8 1 := by
    unfold entryAsImage TilemapTile.render singleAsImage
    simp only [bind_assoc]
  rw [e]
  exact Proofs.Image.agrees_image (Proofs.Image.agrees_entry t its colors o hc) im

/-- **C135**, complete rows: the image of tiles, `w` to a row. -/
theorem tiles_image_partial (tiles : List ImageTile) (colors : List Color) (p w h : Nat) (hw : 0 < w) (hl : tiles.length = w * h)
    (hc : FiveBits colors) (im : Image) :
    imageTilesAsImage true tiles colors p w = .ok im ↔
      Shows im (w * 8) (h * 8) fun X Y => (tiles[w * (Y / 8) + X / 8]?).bind fun t => tileShown t colors p (X % 8) (Y % 8) :=
  Proofs.Image.grid_image (fun t => Proofs.Image.agrees_tile t colors p hc) hw hl im

/-- **C135**, complete rows: the image of a tilemap. -/
theorem tilemap_image_partial (tiles : List TilemapTile) (its : List ImageTile) (colors : List Color) (w h o : Nat) (hw : 0 < w)
    (hl : tiles.length = w * h) (hc : FiveBits colors) (im : Image) :
    tilemapTilesAsImage true tiles its colors w o = .ok im ↔
      Shows im (w * 8) (h * 8) fun X Y =>
        (tiles[w * (Y / 8) + X / 8]?).bind fun t => entryOf t its colors o (X % 8) (Y % 8) :=
  Proofs.Image.grid_image (fun t => Proofs.Image.agrees_entry t its colors o hc) hw hl im

/-- Tiles that do not fill the last row give no image. -/
theorem tiles_image_incomplete (tiles : List ImageTile) (colors : List Color) (p w : Nat) (hw : 0 < w) (hl : tiles.length % w ≠ 0)
    (hr : ∀ t ∈ tiles, ∃ px, t.render colors p = .ok px) : imageTilesAsImage true tiles colors p w = .error .stopIteration := by
  unfold imageTilesAsImage rows
  rw [raiseIf_false (by omega), bind_ok, Graphics2D.render_incomplete_row tiles colors p w hw hl hr]
  rfl

/-! ## Images of textures -/

theorem pixel_fits {format : Nat} {pal : List Nat} {data1 data2 : Bytes} {transparent : Bool} {w i : Nat} {c : Color}
    (h : Spec.Texture.pixelAt format pal data1 data2 transparent w i = some c) : c.r < 32 ∧ c.g < 32 ∧ c.b < 32 ∧ c.a < 32 := by
  have hrgb : ∀ n a, a < 32 → (Spec.Texture.rgb n a).r < 32 ∧ (Spec.Texture.rgb n a).g < 32 ∧ (Spec.Texture.rgb n a).b < 32 ∧
      (Spec.Texture.rgb n a).a < 32 := fun n a ha => ⟨Nat.mod_lt _ (by decide), Nat.mod_lt _ (by decide), Nat.mod_lt _ (by decide), ha⟩
  have hentry : ∀ i a, a < 32 → ∀ c, Spec.Texture.entry pal i a = some c → c.r < 32 ∧ c.g < 32 ∧ c.b < 32 ∧ c.a < 32 := by
    intro i a ha c h
    unfold Spec.Texture.entry at h
    obtain ⟨n, -, h⟩ := Option.bind_eq_some_iff.1 h
    split at h
    · cases h; exact hrgb n a ha
    · cases h
  have hblend : ∀ b k0 k1, k0 + k1 = 2 ∨ k0 + k1 = 8 → ∀ c, Spec.Texture.blend pal b k0 k1 = some c →
      c.r < 32 ∧ c.g < 32 ∧ c.b < 32 ∧ c.a < 32 := by
    intro b k0 k1 hk c h
    unfold Spec.Texture.blend at h
    obtain ⟨n, -, h⟩ := Option.bind_eq_some_iff.1 h
    obtain ⟨m, -, h⟩ := Option.bind_eq_some_iff.1 h
    cases h
    have key : ∀ x y, x < 32 → y < 32 → (k0 * x + k1 * y) / (k0 + k1) < 32 := by
      intro x y hx hy
      rw [Nat.div_lt_iff_lt_mul (by omega), Nat.mul_add]
      have h1 : k0 * x ≤ k0 * 31 := Nat.mul_le_mul_left _ (by omega)
      have h2 : k1 * y ≤ k1 * 31 := Nat.mul_le_mul_left _ (by omega)
      omega
    have m32 : ∀ x, x % 32 < 32 := fun x => Nat.mod_lt _ (by decide)
    exact ⟨key _ _ (m32 _) (m32 _), key _ _ (m32 _) (m32 _), key _ _ (m32 _) (m32 _), (by decide : 31 < 32)⟩
  have halpha : ∀ tr k, Spec.Texture.alpha tr k < 32 := by
    intro tr k; unfold Spec.Texture.alpha; split <;> decide
  unfold Spec.Texture.pixelAt at h
  split at h
  · obtain ⟨v, -, h⟩ := Option.bind_eq_some_iff.1 h
    have := v.toNat_lt
    exact hentry _ _ (by omega) _ h
  · obtain ⟨v, -, h⟩ := Option.bind_eq_some_iff.1 h
    exact hentry _ _ (halpha _ _) _ h
  · obtain ⟨v, -, h⟩ := Option.bind_eq_some_iff.1 h
    exact hentry _ _ (halpha _ _) _ h
  · obtain ⟨v, -, h⟩ := Option.bind_eq_some_iff.1 h
    exact hentry _ _ (halpha _ _) _ h
  · dsimp only at h
    obtain ⟨lo, -, h⟩ := Option.bind_eq_some_iff.1 h
    obtain ⟨hi, -, h⟩ := Option.bind_eq_some_iff.1 h
    obtain ⟨v, -, h⟩ := Option.bind_eq_some_iff.1 h
    unfold Spec.Texture.texel at h
    split at h
    · cases h; decide
    split at h
    · exact hblend _ _ _ (by decide) _ h
    split at h
    · exact hblend _ _ _ (by decide) _ h
    split at h
    · exact hblend _ _ _ (by decide) _ h
    · exact hentry _ _ (by decide) _ h
  · obtain ⟨v, -, h⟩ := Option.bind_eq_some_iff.1 h
    have := v.toNat_lt
    exact hentry _ _ (by omega) _ h
  · obtain ⟨lo, -, h⟩ := Option.bind_eq_some_iff.1 h
    obtain ⟨hi, -, h⟩ := Option.bind_eq_some_iff.1 h
    cases h
    exact hrgb _ _ (by split <;> decide)

/-- **C135.** The image of texture data, with the tables of `color` prepared and a palette of 16-bit colours: its pixels are those that
the format defines (C75). -/
theorem texture_image {format : Nat} {pal : List Nat} {data1 data2 : Bytes} {transparent : Bool} {w h : Nat}
    (hf : 1 ≤ format ∧ format ≤ 7) (hc : Texture.Covered format w h) (im : Image) :
    textureDataAsImage true true data1 data2 format w h (some (pal.map .int)) transparent = .ok im ↔
      Shows im w h fun x y => (Spec.Texture.pixelAt format pal data1 data2 transparent w (w * y + x)).map fun c =>
        [eight c.r, eight c.g, eight c.b, eight c.a] := by
  have key : (∀ i < w * h, (Spec.Texture.pixelAt format pal data1 data2 transparent w i).isSome) →
      ∃ im, textureDataAsImage true true data1 data2 format w h (some (pal.map .int)) transparent = .ok im ∧
      Shows im w h fun x y => (Spec.Texture.pixelAt format pal data1 data2 transparent w (w * y + x)).map fun c =>
        [eight c.r, eight c.g, eight c.b, eight c.a] := by
    intro hs
    have hr := (Texture.render_spec hf hc (img := _)).2 ⟨hs, rfl⟩
    let cs := (List.range (w * h)).map fun i => (Spec.Texture.pixelAt format pal data1 data2 transparent w i).getD ⟨0, 0, 0, 0⟩
    have hcs : (List.range (w * h)).map (Spec.Texture.pixelAt format pal data1 data2 transparent w) = cs.map some := by
      rw [List.map_map]
      refine List.map_congr_left fun i hi => ?_
      have := hs i (List.mem_range.1 hi)
      show _ = some (Option.getD _ _)
      cases hp : Spec.Texture.pixelAt format pal data1 data2 transparent w i with
      | none => rw [hp] at this; cases this
      | some c => rfl
    have hfit : ∀ c ∈ cs, c.r < 32 ∧ c.g < 32 ∧ c.b < 32 ∧ c.a < 32 := by
      intro c hcm
      have : some c ∈ cs.map some := List.mem_map_of_mem hcm
      rw [← hcs] at this
      obtain ⟨i, -, hi⟩ := List.mem_map.1 this
      exact pixel_fits hi
    obtain ⟨im, h1, h2, h3⟩ := image_of_colors 5 (.inr rfl) cs w h hfit (by simp [cs])
    refine ⟨im, ?_, h2, fun x y hx hy => ?_⟩
    · unfold textureDataAsImage
      rw [hr, bind_ok, hcs, h1]
    · rw [← h3 x y hx hy]
      dsimp only
      have hlt := Proofs.Image.index_lt hx hy
      have : (cs.map some)[w * y + x]? = some (Spec.Texture.pixelAt format pal data1 data2 transparent w (w * y + x)) := by
        rw [← hcs, List.getElem?_map, List.getElem?_range hlt, Option.map_some]
      rw [List.getElem?_map] at this
      cases hp : cs[w * y + x]? with
      | none => rw [hp] at this; cases this
      | some c =>
        rw [hp, Option.map_some] at this
        rw [← Option.some.inj this]
        rfl
  constructor
  · intro hi
    unfold textureDataAsImage at hi
    obtain ⟨img, h1, -⟩ := bind_eq_ok.1 hi
    obtain ⟨im', h2, h3⟩ := key ((Texture.render_spec hf hc).1 h1).1
    unfold textureDataAsImage at h2
    rw [hi] at h2
    cases h2
    exact h3
  · intro hs
    obtain ⟨im', h2, h3⟩ := key fun i hi => by
      have hw : 0 < w := Nat.pos_of_ne_zero fun h => by rw [h, Nat.zero_mul] at hi; omega
      have := hs.2 (i % w) (i / w) (Nat.mod_lt _ hw) (Nat.div_lt_of_lt_mul hi)
      dsimp only at this
      rw [Nat.div_add_mod] at this
      cases hp : Spec.Texture.pixelAt format pal data1 data2 transparent w i with
      | none => rw [hp] at this; cases this
      | some c => rfl
    rw [h2, Proofs.Image.image_ext hs h3]

/-- A texture with a `Palette` gives no image (C76). -/
theorem texture_image_never {t : Model.Texture.Texture} (havePIL : Bool) (palette : Model.Texture.Palette) (hf : t.format ∈ [1, 2, 3, 4, 6])
    (hw : 0 < t.width) (hh : 0 < t.height) : ∃ e, textureAsImage havePIL true t (some palette) = .error e := by
  obtain ⟨e, he⟩ := Texture.paletted_never palette hf hw hh
  refine ⟨e, ?_⟩
  unfold textureAsImage textureDataAsImage
  unfold Model.Texture.Texture.render at he
  rw [he]
  rfl

/-! ## Examples -/

/-- A tile that is empty but for its first two pixels. -/
def corner : ImageTile := ⟨[2, 1] ++ List.replicate 62 0, .i4⟩

-- the second palette of 16; the entry of the tilemap is mirrored, so the first pixel is in the last column
example : ((tilemapTilesAsImage true [⟨.i10h1v1p4, 5, true, false, 1⟩, ⟨.i10h1v1p4, 5, false, true, 0⟩] [corner]
      (List.replicate 16 ⟨1, 2, 3, 0⟩ ++ [⟨0, 0, 0, 0⟩, ⟨31, 0, 0, 0⟩, ⟨0, 31, 16, 1⟩]) 2 5).toOption.map fun im =>
      [im.width, im.height] ++ ([pixel im 7 0, pixel im 6 0, pixel im 0 0, pixel im 8 7].flatten.map UInt8.toNat)) =
    some [16, 8, 0, 255, 132, 255, 255, 0, 0, 255, 0, 0, 0, 0, 8, 16, 24, 255] := by decide +kernel

example : FiveBits (List.replicate 16 ⟨1, 2, 3, 0⟩ ++ [⟨0, 0, 0, 0⟩, ⟨31, 0, 0, 0⟩, ⟨0, 31, 16, 1⟩]) := by
  unfold FiveBits; decide

example : textureDataAsImage true true [0xE4] [] 2 4 1 (some ([0x001F, 0x03E0, 0x7C00, 0x7FFF].map .int)) true =
    .ok ⟨4, 1, [255, 0, 0, 0, 0, 255, 0, 255, 0, 0, 255, 255, 255, 255, 255, 255]⟩ := by
  rw [texture_image (by decide) ⟨by decide, by decide, by decide⟩]
  refine ⟨by unfold Sized; decide, fun x y hx hy => ?_⟩
  have : y = 0 := by omega
  have hx' : x = 0 ∨ x = 1 ∨ x = 2 ∨ x = 3 := by omega
  subst this
  rcases hx' with rfl | rfl | rfl | rfl <;> decide +kernel

/-- Two colours, one of them transparent, and a third that is not shown. -/
def twoColors : List Color := [⟨31, 0, 16, 0⟩, ⟨1, 2, 3, 1⟩, ⟨9, 9, 9, 1⟩]

example : ∃ im, colorsToImage true (twoColors.map some) 2 1 1 = .ok im ∧ Shows im 2 1 fun x y =>
    (twoColors[2 * y + x]?).map fun c => [eight c.r, eight c.g, eight c.b, alphaByte 1 c.a] :=
  image_of_colors 1 (.inl rfl) twoColors 2 1 (by decide) (by decide)

example : colorsToImage true (twoColors.map some) 2 1 1 = .ok ⟨2, 1, [255, 0, 132, 0, 8, 16, 24, 255]⟩ := by decide +kernel

example : ∃ c, twoColors[1]? = some c ∧
    convert (.tup (colorOf (pixel ⟨2, 1, [255, 0, 132, 0, 8, 16, 24, 255]⟩ 1 0))) .rgba255 .rgb5a1 = .ok (.tup c) :=
  image_lossless 1 (.inl rfl) twoColors 2 1 _ (by decide) (by decide) (by decide +kernel) 1 0 (by decide) (by decide)

example : colorsToImage true (twoColors.map some) 2 2 5 = .error .stopIteration :=
  (no_image true 5 twoColors 2 2 (by decide)).2.2 (.inr rfl) (by decide)

example : imageTilesAsImage true [.new .i8, .new .i8, .new .i8] [] 0 2 = .error .stopIteration := by
  refine tiles_image_incomplete _ _ _ _ (by decide) (by decide) fun t ht => ?_
  simp only [List.mem_cons, List.not_mem_nil, or_false, or_self] at ht
  subst ht
  exact ⟨List.replicate 64 ⟨0, 0, 0, 0⟩, by decide +kernel⟩

end Verif.Props.Image
