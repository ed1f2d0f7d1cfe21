import Verif.Proofs.Graphics2D

/-!
# Properties of tiles and tilemaps (C43, C44, C67)
-/

namespace Verif.Props.Graphics2D

open Verif Verif.Model.Color Verif.Model.Graphics2D Verif.Proofs.Graphics2D

/-- A tile with 64 pixels, each of which its format can express. -/
def Valid (t : ImageTile) : Prop :=
  t.pixels.length = 64 ∧ ∀ p ∈ t.pixels, p < if t.format = .i4 then 16 else 256

/-- **C43.** A valid tile can be saved, and loading what was saved gives it back. -/
theorem tile_roundtrip (t : ImageTile) (h : Valid t) :
    ∃ d, t.save = .ok d ∧ d.length = (if t.format = .i4 then 32 else 64) ∧ ImageTile.load d t.format = .ok t :=
  tile_save h

/-- **C43.** Data of the right length loads to a valid tile that saves to the same data; other data is refused. -/
theorem tile_roundtrip_bytes (d : Bytes) (f : ImageFormat) :
    (d.length = (if f = .i4 then 32 else 64) → ∃ t, ImageTile.load d f = .ok t ∧ t.format = f ∧ Valid t ∧ t.save = .ok d) ∧
    (d.length ≠ (if f = .i4 then 32 else 64) → ImageTile.load d f = .error .valueError) :=
  ⟨fun h => let ⟨t, h1, h2, h3, h4⟩ := tile_load h; ⟨t, h1, h2, h4, h3⟩, fun h => tile_load_err h⟩

/-- **C43.** In four-bit data the first of two pixels is in the low half of the byte, and the pixels are in order. -/
theorem tile_pixels (d : Bytes) (f : ImageFormat) (t : ImageTile) (h : ImageTile.load d f = .ok t) (i : Nat) :
    t.pixels[i]? = if f = .i4 then d[i / 2]?.map (fun b => if i % 2 = 0 then b.toNat % 16 else b.toNat / 16)
      else d[i]?.map UInt8.toNat := by
  unfold ImageTile.load at h
  split at h
  · rename_i hf
    obtain ⟨_, h1, h'⟩ := bind_eq_ok.1 h
    cases h'
    rw [if_pos hf]
    dsimp only
    clear h h1 hf
    induction d generalizing i with
    | nil => simp [nibbles]
    | cons b d ih =>
      rw [nibbles]
      match i with
      | 0 => simp only [List.getElem?_cons_zero, Nat.zero_div, Nat.zero_mod, reduceIte, Option.map_some]
             rw [Bits.and_mask _ 4 rfl]
      | 1 => simp [Bits.shr]
      | i + 2 =>
        have e1 : (i + 2) / 2 = i / 2 + 1 := by omega
        have e2 : (i + 2) % 2 = i % 2 := by omega
        rw [e1, e2, List.getElem?_cons_succ, List.getElem?_cons_succ, List.getElem?_cons_succ, ih]
  · rename_i hf
    obtain ⟨_, h1, h⟩ := bind_eq_ok.1 h
    cases h
    rw [if_neg hf]
    simp

/-- **C43.** Lists of valid tiles of one format can be saved and load back, for any number of tiles. -/
theorem tiles_roundtrip (f : ImageFormat) (ts : List ImageTile) (h : ∀ t ∈ ts, t.format = f ∧ Valid t) :
    ∃ d, saveImageTiles ts = .ok d ∧ d.length = ts.length * (if f = .i4 then 32 else 64) ∧
      loadImageTiles d f = .ok ts :=
  tiles_save_load h

/-- **C43.** Any data loads to valid tiles; saving them gives the data up to the last complete tile. -/
theorem tiles_roundtrip_bytes (f : ImageFormat) (d : Bytes) : ∃ ts, loadImageTiles d f = .ok ts ∧
    ts.length = d.length / (if f = .i4 then 32 else 64) ∧ (∀ t ∈ ts, t.format = f ∧ Valid t) ∧
    saveImageTiles ts = .ok (d.take (d.length / (if f = .i4 then 32 else 64) * (if f = .i4 then 32 else 64))) :=
  tiles_load_save d f

/-- **C43.** Tiles of different formats are refused. -/
theorem tiles_mixed (ts : List ImageTile) (t t' : ImageTile) (h : t ∈ ts) (h' : t' ∈ ts) (hf : t.format ≠ t'.format) :
    saveImageTiles ts = .error .valueError := by
  unfold saveImageTiles
  cases ts with
  | nil => cases h
  | cons a ts =>
    dsimp only
    rw [raiseIf_true]
    · rfl
    · rw [List.all_eq_true]
      intro hn
      have h1 := hn t h
      have h2 := hn t' h'
      rw [decide_eq_true_iff] at h1 h2
      exact hf (h1.trans h2.symm)

example : Valid ⟨List.replicate 63 3 ++ [15], .i4⟩ := by unfold Valid; decide
example : saveImageTiles [⟨List.replicate 63 3 ++ [15], .i4⟩] = .ok (List.replicate 31 0x33 ++ [0xF3]) := by
  decide +kernel

/-- **C43.** The 16-bit value of a tilemap entry holds tile number, flips and palette number, and loading it gives the
entry back exactly if tile and palette number fit (in 8-bit entries there is only a tile number). -/
theorem tilemap_entry (t : TilemapTile) :
    (t.value < if t.format = .i8 then 256 else 65536) ∧
    (TilemapTile.load t.value t.format = t ↔
      if t.format = .i8 then t.tileNum < 256 ∧ t.hFlip = false ∧ t.vFlip = false ∧ t.paletteNum = 0
      else t.tileNum < 1024 ∧ t.paletteNum < 16) :=
  ⟨value_lt t, load_value_iff t⟩

/-- **C43.** Every value is the value of the entry loaded from it, whose fields are the bits of the value. -/
theorem tilemap_entry_value (v : Nat) (f : TilemapFormat) (h : v < if f = .i8 then 256 else 65536) :
    (TilemapTile.load v f).value = v ∧ TilemapTile.load v f =
      ⟨f, v % 1024, decide (v / 1024 % 2 = 1), decide (v / 2048 % 2 = 1), v / 4096 % 16⟩ :=
  ⟨value_load f h, load_eq v f⟩

/-- **C43.** Assigning a value to an existing entry reads back as that value cut to the width of the entry, and never
changes its format; an 8-bit entry keeps its flips and palette number. -/
theorem tilemap_entry_set (t : TilemapTile) (v : Nat) :
    (t.setValue v).format = t.format ∧
    (t.setValue v).value = v % (if t.format = .i8 then 256 else 65536) ∧
    (t.format = .i8 → t.setValue v = { t with tileNum := v % 256 }) := by
  have h8 : v &&& 0xFF = v % 256 := Bits.and_mask v 8 rfl
  refine ⟨?_, ?_, ?_⟩
  · unfold TilemapTile.setValue; split <;> rfl
  · by_cases hf : t.format = .i8
    · have e : t.setValue v = { t with tileNum := v % 256 } := by
        unfold TilemapTile.setValue; rw [if_pos hf, h8]
      rw [e]
      unfold TilemapTile.value
      rw [if_pos hf, if_pos (by exact hf)]
      have := Bits.and_mask (v % 256) 8 rfl
      simp only [] at this ⊢
      rw [this]
      omega
    · have e : t.setValue v = TilemapTile.load v .i10h1v1p4 := by
        have hf' : t.format = .i10h1v1p4 := by
          cases h : t.format with
          | i8 => exact absurd h hf
          | i10h1v1p4 => rfl
        unfold TilemapTile.load TilemapTile.setValue
        rw [if_neg hf, if_neg (by decide), hf']
      have e2 : TilemapTile.load v .i10h1v1p4 = TilemapTile.load (v % 65536) .i10h1v1p4 := by
        rw [load_eq, load_eq]
        have h1 : v % 65536 % 1024 = v % 1024 := by omega
        have h2 : v % 65536 / 1024 % 2 = v / 1024 % 2 := by omega
        have h3 : v % 65536 / 2048 % 2 = v / 2048 % 2 := by omega
        have h4 : v % 65536 / 4096 % 16 = v / 4096 % 16 := by omega
        rw [h1, h2, h3, h4]
      rw [e, e2, if_neg hf]
      exact value_load .i10h1v1p4 (by rw [if_neg (by decide)]; omega)
  · intro hf
    unfold TilemapTile.setValue; rw [if_pos hf, h8]

example : (TilemapTile.setValue ⟨.i8, 3, true, false, 7⟩ 0x1234) = ⟨.i8, 0x34, true, false, 7⟩ := by decide

/-- **C43.** Lists of entries of one format can always be saved, and load back to the entries loaded from their values:
to themselves if each fits. -/
theorem tilemap_roundtrip (f : TilemapFormat) (ts : List TilemapTile) (h : ∀ t ∈ ts, t.format = f) :
    ∃ d, saveTilemapTiles ts = .ok d ∧ loadTilemapTiles d f = .ok (ts.map fun t => TilemapTile.load t.value t.format) ∧
      ((∀ t ∈ ts, if f = .i8 then t.tileNum < 256 ∧ t.hFlip = false ∧ t.vFlip = false ∧ t.paletteNum = 0
        else t.tileNum < 1024 ∧ t.paletteNum < 16) → loadTilemapTiles d f = .ok ts) := by
  refine ⟨_, saveTilemapTiles_eq h, tilemap_load_saved h, fun hc => ?_⟩
  rw [tilemap_load_saved h]
  congr 1
  conv => rhs; rw [← List.map_id ts]
  refine List.map_congr_left fun t ht => ?_
  refine (load_value_iff t).2 ?_
  rw [h t ht]
  exact hc t ht

/-- **C43.** Data of 8-bit entries, and data of 16-bit entries of even length, load to entries that save to the same
data. -/
theorem tilemap_roundtrip_bytes (d : Bytes) (f : TilemapFormat) (hd : f = .i10h1v1p4 → d.length % 2 = 0) :
    ∃ ts, loadTilemapTiles d f = .ok ts ∧ (∀ t ∈ ts, t.format = f) ∧
      ts.length = d.length / (if f = .i8 then 1 else 2) ∧ saveTilemapTiles ts = .ok d :=
  tilemap_load_bytes d f hd

example : saveTilemapTiles [⟨.i10h1v1p4, 1023, true, false, 9⟩] = .ok [0xFF, 0x97] ∧
    loadTilemapTiles [0xFF, 0x97] .i10h1v1p4 = .ok [⟨.i10h1v1p4, 1023, true, false, 9⟩] := by decide +kernel

/-! ### C44 -/

theorem tileAt_eq {α : Type} (ts : List α) {x y w : Int} (h : 0 ≤ x ∧ x < w ∧ 0 ≤ y ∧ y < w) :
    tileAt ts x y w = ts[(y * w + x).toNat]? := by
  unfold tileAt
  rw [if_neg (by omega), if_neg (by omega)]
  have : 0 ≤ y * w + x := Int.add_nonneg (Int.mul_nonneg (by omega) (by omega)) h.1
  unfold pyIdxI pyIdx
  rw [if_pos this]
  cases ts[(y * w + x).toNat]? <;> rfl

theorem tileAt_none {α : Type} (ts : List α) {x y w : Int} (h : ¬ (0 ≤ x ∧ x < w ∧ 0 ≤ y ∧ y < w)) :
    tileAt ts x y w = none := by
  unfold tileAt
  split
  · rfl
  · rw [if_pos (by omega)]

/-- **C44, as far as it holds**: `putTile` places exactly the tile at the given coordinates.  Whatever the coordinates,
afterwards `tileAt` gives the new tile there if the call returned true, and what it gave before everywhere else; and the
call returns true exactly if `tileAt` finds a tile there.  (C44 fails for rows beyond the width, see below.) -/
theorem put_get_partial {α : Type} (ts : List α) (x y w : Int) (t : α) :
    (∀ x' y', tileAt (putTile ts x y t w).1 x' y' w =
      if x' = x ∧ y' = y ∧ (putTile ts x y t w).2 = true then some t else tileAt ts x' y' w) ∧
    ((putTile ts x y t w).2 = true ↔ tileAt ts x y w ≠ none) ∧ (putTile ts x y t w).1.length = ts.length := by
  by_cases hb : 0 ≤ x ∧ x < w ∧ 0 ≤ y ∧ y < w
  · have hnn : 0 ≤ y * w + x := Int.add_nonneg (Int.mul_nonneg (by omega) (by omega)) hb.1
    by_cases hl : (y * w + x).toNat < ts.length
    · have hput : putTile ts x y t w = (ts.set (y * w + x).toNat t, true) := by
        unfold putTile
        rw [if_neg (by omega), if_neg (by omega)]
        unfold pySetI pyPos
        rw [if_pos hnn, if_pos hl]
      rw [hput]
      dsimp only
      refine ⟨?_, ?_, by simp⟩
      · intro x' y'
        by_cases hb' : 0 ≤ x' ∧ x' < w ∧ 0 ≤ y' ∧ y' < w
        · have hnn' : 0 ≤ y' * w + x' := Int.add_nonneg (Int.mul_nonneg (by omega) (by omega)) hb'.1
          rw [tileAt_eq _ hb', tileAt_eq _ hb', List.getElem?_set]
          by_cases he : x' = x ∧ y' = y
          · obtain ⟨rfl, rfl⟩ := he
            simp [hl]
          · have hne : y * w + x ≠ y' * w + x' := by
              intro hc
              apply he
              rcases Int.lt_trichotomy y y' with h | h | h
              · have : (y + 1) * w ≤ y' * w := Int.mul_le_mul_of_nonneg_right h (by omega)
                rw [Int.add_mul, Int.one_mul] at this
                omega
              · subst h; omega
              · have : (y' + 1) * w ≤ y * w := Int.mul_le_mul_of_nonneg_right h (by omega)
                rw [Int.add_mul, Int.one_mul] at this
                omega
            rw [if_neg (by omega), if_neg (by intro h; exact he ⟨h.1, h.2.1⟩)]
        · rw [tileAt_none _ hb', tileAt_none _ hb', if_neg]
          rintro ⟨rfl, rfl, _⟩
          exact hb' hb
      · rw [tileAt_eq _ hb]
        simp [hl]
    · have hput : putTile ts x y t w = (ts, false) := by
        unfold putTile
        rw [if_neg (by omega), if_neg (by omega)]
        unfold pySetI pyPos
        rw [if_pos hnn, if_neg hl]
      rw [hput]
      refine ⟨by simp, ?_, rfl⟩
      rw [tileAt_eq _ hb, List.getElem?_eq_none (by omega)]
      simp
  · have hput : putTile ts x y t w = (ts, false) := by
      unfold putTile
      split
      · rfl
      · rw [if_pos (by omega)]
    rw [hput]
    refine ⟨by simp, ?_, rfl⟩
    rw [tileAt_none _ hb]
    simp

/-- **C44.** In the first `w` rows, the tile at column `x` and row `y` is item `y * w + x`. -/
theorem tile_at {α : Type} (ts : List α) (x y w : Nat) (hx : x < w) (hy : y < w) :
    tileAt ts x y w = ts[y * w + x]? := by
  rw [tileAt_eq ts (by omega)]
  congr 1

/-- **C44 fails** for every grid with more rows than columns: its rows from number `w` on cannot be read or written,
because `y` is compared with the width. -/
theorem tall_grid {α : Type} (ts : List α) (x y w : Nat) (t : α) (hy : w ≤ y) :
    tileAt ts x y w = none ∧ putTile ts x y t w = (ts, false) := by
  unfold tileAt putTile
  rw [if_pos (by omega), if_pos (by omega)]
  exact ⟨rfl, rfl⟩

example : tileAt [10, 11, 12, 13, 14, 15] 0 2 2 = none ∧ tileAt [10, 11, 12, 13, 14, 15] 1 1 2 = some 13 ∧
    putTile [10, 11, 12, 13] 1 1 99 2 = ([10, 11, 12, 99], true) := by decide

/-! ### C67 -/

/-- **C67.** A tile renders exactly if it has 64 pixels and every non-zero one has a colour in the chosen palette;
pixel value 0 is transparent, and other pixels get their colour, made opaque. -/
theorem render_tile (t : ImageTile) (colors : List Color) (p : Nat) (out : List Color) :
    t.render colors p = .ok out ↔ out.length = 64 ∧ ∀ i (h : i < out.length), ∃ px, t.pixels[i]? = some px ∧
      ((px = 0 ∧ out[i] = ⟨0, 0, 0, 0⟩) ∨ (px ≠ 0 ∧ ∃ c, colors[p * (if t.format = .i4 then 16 else 256) + px]? = some c ∧
        out[i] = ⟨c.r, c.g, c.b, 1⟩)) := by
  unfold ImageTile.render
  rw [mapE_range_ok]
  refine and_congr_right fun _ => forall_congr' fun i => forall_congr' fun hi => ?_
  unfold renderPixel
  rw [bind_eq_ok]
  refine exists_congr fun px => ?_
  rw [pyIdx_eq_ok]
  refine and_congr_right fun _ => ?_
  by_cases h0 : px = 0
  · subst h0
    rw [if_neg (by simp), pure_eq_ok]
    simp [eq_comm]
  · rw [if_pos h0, pyIdx_eq_ok, List.getElem?_map]
    simp only [h0, false_and, false_or, ne_eq, not_false_eq_true, true_and]
    rw [Option.map_eq_some_iff]
    refine exists_congr fun c => and_congr_right fun _ => ?_
    exact eq_comm

theorem flip_lt (h v : Bool) {i : Nat} (hi : i < 64) : flipIndex h v i < 64 := by
  unfold flipIndex; split <;> (try split) <;> (try split) <;> omega

/-- **C67.** A tilemap entry renders to its tile with its palette, the pixel at column `x` and row `y` being the tile's
pixel at the mirrored column if `hFlip` is set and at the mirrored row if `vFlip` is set. -/
theorem render_entry (t : TilemapTile) (it : ImageTile) (colors : List Color) (ht : t.format = .i10h1v1p4) :
    (∀ px, it.render colors t.paletteNum = .ok px → ∃ out, t.renderSingle it colors = .ok out ∧ out.length = 64 ∧
      ∀ x y, x < 8 → y < 8 → out[8 * y + x]? =
        px[8 * (if t.vFlip = true then 7 - y else y) + (if t.hFlip = true then 7 - x else x)]?) ∧
    (∀ e, it.render colors t.paletteNum = .error e → t.renderSingle it colors = .error e) := by
  unfold TilemapTile.renderSingle
  rw [if_neg (by rw [ht]; decide)]
  constructor
  · intro px hpx
    have h64 : px.length = 64 := by
      have := (render_tile it colors t.paletteNum px).1 hpx
      exact this.1
    rw [hpx, bind_ok]
    by_cases hf : t.hFlip = true ∨ t.vFlip = true
    · rw [if_pos ⟨ht, hf⟩]
      refine ⟨(List.range 64).map fun i => px.getD (flipIndex t.hFlip t.vFlip i) ⟨0, 0, 0, 0⟩, ?_, by simp, ?_⟩
      · refine mapE_ok_of_forall fun i hi => ?_
        have hi := flip_lt t.hFlip t.vFlip (List.mem_range.1 hi)
        rw [pyIdx_eq_ok, List.getD_eq_getElem?_getD, List.getElem?_eq_getElem (by omega)]
        rfl
      · intro x y hx hy
        have hi : 8 * y + x < 64 := by omega
        have hfl := flip_lt t.hFlip t.vFlip hi
        rw [List.getElem?_map, List.getElem?_range hi, Option.map_some, List.getD_eq_getElem?_getD,
          List.getElem?_eq_getElem (by omega), Option.getD_some, ← List.getElem?_eq_getElem]
        congr 1
        unfold flipIndex
        have e1 : (8 * y + x) % 8 = x := by omega
        rw [e1]
        cases t.hFlip <;> cases t.vFlip <;> simp <;> omega
    · rw [if_neg fun h => hf h.2]
      refine ⟨px, rfl, h64, ?_⟩
      intro x y hx hy
      have h1 : ¬ t.hFlip = true := fun h => hf (.inl h)
      have h2 : ¬ t.vFlip = true := fun h => hf (.inr h)
      rw [if_neg h1, if_neg h2]
  · intro e he
    rw [he]
    rfl

/-- **C67.** 8-bit entries use palette 0 and are never mirrored. -/
theorem render_entry_i8 (t : TilemapTile) (it : ImageTile) (colors : List Color) (ht : t.format = .i8) :
    t.renderSingle it colors = it.render colors 0 := by
  unfold TilemapTile.renderSingle
  rw [if_pos ht]
  cases it.render colors 0 with
  | error e => rfl
  | ok px => rw [bind_ok, if_neg (by rw [ht]; simp)]; rfl

theorem render_length {t : TilemapTile} {its : List ImageTile} {colors : List Color} {o : Nat} {px : List Color}
    (h : t.render its colors o = .ok px) : px.length = 64 := by
  unfold TilemapTile.render at h
  obtain ⟨_, _, h⟩ := bind_eq_ok.1 h
  obtain ⟨it, _, h⟩ := bind_eq_ok.1 h
  cases hf : t.format with
  | i8 =>
    rw [render_entry_i8 t it colors hf] at h
    exact ((render_tile _ _ _ _).1 h).1
  | i10h1v1p4 =>
    have hk := render_entry t it colors hf
    cases hr : it.render colors t.paletteNum with
    | error e => rw [hk.2 e hr] at h; cases h
    | ok px' =>
      obtain ⟨out, h1, h2, _⟩ := hk.1 px' hr
      rw [h1] at h
      cases h
      exact h2

/-- **C67, complete rows.** Rendering `w * h` tiles gives an image of `8 w` times `8 h` pixels in which the pixel at
`(X, Y)` is pixel `(X mod 8, Y mod 8)` of the tile at column `X / 8` and row `Y / 8`. -/
theorem render_tiles_partial (tiles : List ImageTile) (colors : List Color) (p w h : Nat) (hw : 0 < w)
    (hl : tiles.length = w * h) (hr : ∀ t ∈ tiles, ∃ px, t.render colors p = .ok px) :
    ∃ img, renderImageTiles tiles colors p w = .ok img ∧ img.length = w * h * 64 ∧
      ∀ X Y, X < 8 * w → Y < 8 * h → ∀ t px, tiles[Y / 8 * w + X / 8]? = some t → t.render colors p = .ok px →
        img[Y * (8 * w) + X]? = px[Y % 8 * 8 + X % 8]? :=
  renderGrid_ok hw (fun _ _ h => ((render_tile _ _ _ _).1 h).1) hl hr

/-- **C67, complete rows.** The same for tilemaps. -/
theorem render_tilemap_partial (tiles : List TilemapTile) (its : List ImageTile) (colors : List Color) (w h o : Nat)
    (hw : 0 < w) (hl : tiles.length = w * h) (hr : ∀ t ∈ tiles, ∃ px, t.render its colors o = .ok px) :
    ∃ img, renderTilemapTiles tiles its colors w o = .ok img ∧ img.length = w * h * 64 ∧
      ∀ X Y, X < 8 * w → Y < 8 * h → ∀ t px, tiles[Y / 8 * w + X / 8]? = some t → t.render its colors o = .ok px →
        img[Y * (8 * w) + X]? = px[Y % 8 * 8 + X % 8]? :=
  renderGrid_ok hw (fun _ _ h => render_length h) hl hr

/-- A tilemap entry shows the image tile with its number less the offset. -/
theorem render_entry_tile (t : TilemapTile) (its : List ImageTile) (colors : List Color) (o : Nat) :
    t.render its colors o = if t.tileNum < o then .error .valueError else
      match its[t.tileNum - o]? with
      | some it => t.renderSingle it colors
      | none => .error .indexError := by
  unfold TilemapTile.render
  split
  · rename_i h; rw [raiseIf_true h]; rfl
  · rename_i h
    rw [raiseIf_false h, bind_ok]
    unfold pyIdx
    cases its[t.tileNum - o]? <;> rfl

/-- **C67 fails for incomplete rows**: the code makes room for the last row but raises `StopIteration` when the tiles
run out. -/
theorem render_incomplete_row (tiles : List ImageTile) (colors : List Color) (p w : Nat) (hw : 0 < w)
    (hl : tiles.length % w ≠ 0) (hr : ∀ t ∈ tiles, ∃ px, t.render colors p = .ok px) :
    renderImageTiles tiles colors p w = .error .stopIteration :=
  renderGrid_short hw hl hr

example : (ImageTile.new .i4).render [] 3 = .ok (List.replicate 64 ⟨0, 0, 0, 0⟩) := by decide +kernel

example : (⟨.i10h1v1p4, 5, true, false, 1⟩ : TilemapTile).renderSingle
      ⟨[1] ++ List.replicate 63 0, .i4⟩ (List.replicate 20 ⟨1, 2, 3, 0⟩) =
    .ok (List.replicate 7 ⟨0, 0, 0, 0⟩ ++ [⟨1, 2, 3, 1⟩] ++ List.replicate 56 ⟨0, 0, 0, 0⟩) := by decide +kernel

example : renderImageTiles [.new .i8, .new .i8, .new .i8] [] 0 2 = .error .stopIteration := by decide +kernel

end Verif.Props.Graphics2D
