import Verif.Spec.Image
import Verif.Proofs.Color
import Verif.Proofs.Graphics2D
import Verif.Props.Graphics2D

/-!
# Lemmas about images
-/

namespace Verif.Proofs.Image

open Verif Verif.Model.Color Verif.Model.Image Verif.Spec.Image

/-- The bytes of a colour. -/
def bytesOf (aBits : Nat) (c : Color) : Bytes :=
  [eight c.r, eight c.g, eight c.b, if aBits = 1 then (if c.a ≠ 0 then 255 else 0) else eight c.a]

/-- Colours that fit. -/
def Fits (aBits : Nat) (c : Color) : Prop := c.r < 32 ∧ c.g < 32 ∧ c.b < 32 ∧ (aBits ≠ 1 → c.a < 32)

theorem expand_val {x : Nat} (h : x < 32) : x <<< 3 ||| x >>> 2 = 8 * x + x / 4 ∧ 8 * x + x / 4 < 256 := by
  have : ∀ y : Fin 32, y.val <<< 3 ||| y.val >>> 2 = 8 * y.val + y.val / 4 := by decide +kernel
  exact ⟨this ⟨x, h⟩, by omega⟩

theorem word_val {r g b a : Nat} (hr : r < 256) (hg : g < 256) (hb : b < 256) (ha : a < 256) :
    (a <<< 24) ||| (b <<< 16) ||| (g <<< 8) ||| r = r + 256 * (g + 256 * (b + 256 * a)) := by
  rw [Nat.shiftLeft_eq, Nat.shiftLeft_eq, Nat.shiftLeft_eq]
  have e1 : a * 2 ^ 24 ||| b * 2 ^ 16 = (256 * a + b) * 2 ^ 16 := by
    rw [show a * 2 ^ 24 = a * 2 ^ 8 * 2 ^ 16 by omega, ← Nat.shiftLeft_eq _ 16, ← Nat.shiftLeft_eq _ 16, ← Nat.shiftLeft_or_distrib,
      Nat.mul_comm a, ← Nat.two_pow_add_eq_or_of_lt (by omega), Nat.shiftLeft_eq]
  have e2 : ∀ n, n * 2 ^ 16 ||| g * 2 ^ 8 = (256 * n + g) * 2 ^ 8 := by
    intro n
    rw [show n * 2 ^ 16 = n * 2 ^ 8 * 2 ^ 8 by omega, ← Nat.shiftLeft_eq _ 8, ← Nat.shiftLeft_eq g 8,
      ← Nat.shiftLeft_or_distrib, Nat.mul_comm n, ← Nat.two_pow_add_eq_or_of_lt (by omega), Nat.shiftLeft_eq]
  rw [e1, e2, Nat.mul_comm _ (2 ^ 8), ← Nat.two_pow_add_eq_or_of_lt (by omega)]
  omega

theorem le_word {r g b a : Nat} (hr : r < 256) (hg : g < 256) (hb : b < 256) :
    enBytes .little 4 (r + 256 * (g + 256 * (b + 256 * a))) = [UInt8.ofNat r, UInt8.ofNat g, UInt8.ofNat b, UInt8.ofNat a] := by
  have d : ∀ r q : Nat, r < 256 → (r + 256 * q) / 256 = q := fun r q h => by omega
  have e : ∀ r q : Nat, UInt8.ofNat (r + 256 * q) = UInt8.ofNat r := fun r q => by
    rw [← UInt8.toNat_inj]; simp
  show [UInt8.ofNat _, UInt8.ofNat _, UInt8.ofNat _, UInt8.ofNat _] = _
  rw [d _ _ hr, d _ _ hg, d _ _ hb, e, e, e]

theorem alpha_lt {aBits : Nat} {c : Color} (h : Fits aBits c) :
    (if aBits = 1 then (if c.a ≠ 0 then 255 else 0) else c.a <<< 3 ||| c.a >>> 2) < 256 := by
  split
  · split <;> decide
  · rename_i hb
    obtain ⟨h1, h2⟩ := expand_val (h.2.2.2 hb)
    omega

theorem pack_word {aBits : Nat} {c : Color} (h : Fits aBits c) : packU .little 4 (word aBits c) = .ok (bytesOf aBits c) := by
  obtain ⟨r1, r2⟩ := expand_val h.1
  obtain ⟨g1, g2⟩ := expand_val h.2.1
  obtain ⟨b1, b2⟩ := expand_val h.2.2.1
  have ha := alpha_lt h
  unfold word
  dsimp only
  rw [word_val (by omega) (by omega) (by omega) ha, r1, g1, b1]
  rw [packU_eq_ok]
  refine ⟨by show _ < 4294967296; omega, ?_⟩
  generalize hA : (if aBits = 1 then (if c.a ≠ 0 then 255 else 0) else c.a <<< 3 ||| c.a >>> 2) = A at ha ⊢
  have hA' : bytesOf aBits c = [eight c.r, eight c.g, eight c.b, UInt8.ofNat A] := by
    unfold bytesOf
    congr 4
    by_cases hb : aBits = 1
    · rw [if_pos hb] at hA ⊢
      subst hA
      split <;> rfl
    · rw [if_neg hb] at hA ⊢
      rw [(expand_val (h.2.2.2 hb)).1] at hA
      rw [← hA]
      rfl
  rw [hA']
  exact (le_word r2 g2 b2).symm

theorem fill_eq (aBits : Nat) {W : Nat} (hW : 0 < W) : ∀ (m k : Nat) (cs : List Color) (dest : List Nat), k + m = dest.length →
    fill aBits W ((List.range' k m).map fun k => (k / W, k % W)) (cs.map some) dest =
      if m ≤ cs.length then .ok (dest.take k ++ (cs.take m).map (word aBits)) else .error .stopIteration
  | 0, k, cs, dest, h => by
    rw [if_pos (by omega), List.take_of_length_le (by omega)]
    simp [fill]
  | m + 1, k, [], dest, h => by
    rw [if_neg (by simp)]
    rfl
  | m + 1, k, c :: cs, dest, h => by
    rw [List.range'_succ, List.map_cons, List.map_cons, fill]
    unfold pySet
    rw [Nat.mul_comm, Nat.div_add_mod, if_pos (by omega), bind_ok, fill_eq aBits hW m (k + 1) cs _ (by rw [List.length_set]; omega)]
    rw [List.length_cons]
    by_cases hm : m ≤ cs.length
    · rw [if_pos hm, if_pos (by omega), List.take_succ_cons, List.map_cons]
      congr 1
      rw [List.take_set, List.take_succ, List.getElem?_eq_getElem (by omega)]
      rw [List.set_append_right _ _ (by rw [List.length_take]; omega), List.length_take, Nat.min_eq_left (by omega), Nat.sub_self]
      simp
    · rw [if_neg hm, if_neg (by omega)]

theorem image_eq {aBits : Nat} (hb : aBits = 1 ∨ aBits = 5) {cs : List Color} (W H : Nat) (hc : ∀ c ∈ cs, Fits aBits c) :
    colorsToImage true (cs.map some) W H aBits =
      if W * H ≤ cs.length then .ok ⟨W, H, ((cs.take (W * H)).map (bytesOf aBits)).flatten⟩ else .error .stopIteration := by
  unfold colorsToImage
  rw [raiseIf_false (by simp), bind_ok, raiseIf_false (by omega), bind_ok]
  rcases Nat.eq_zero_or_pos W with rfl | hW
  · have e : ((List.range H).flatMap fun y => (List.range 0).map fun x => (y, x)) = [] := by simp
    rw [e, fill, bind_ok]
    simp [mapE]
    rfl
  · rw [Proofs.Graphics2D.cells_eq W hW, List.range_eq_range', fill_eq aBits hW _ _ _ _ (by simp)]
    split
    · rw [bind_ok, List.take_zero, List.nil_append]
      have : mapE (packU .little 4) ((cs.take (W * H)).map (word aBits)) = .ok ((cs.take (W * H)).map (bytesOf aBits)) := by
        rw [mapE_map]
        have : ∀ l : List Color, (∀ c ∈ l, Fits aBits c) →
            mapE (fun a => packU .little 4 (word aBits a)) l = .ok (l.map (bytesOf aBits)) := by
          intro l hl
          induction l with
          | nil => rfl
          | cons c l ih =>
            rw [mapE_cons, pack_word (hl c (by simp)), bind_ok, ih fun c hc => hl c (by simp [hc])]
            rfl
        exact this _ fun c h => hc c (List.mem_of_mem_take h)
      rw [this]
      rfl
    · rfl

theorem flatten_length : ∀ {ls : List Bytes}, (∀ l ∈ ls, l.length = 4) → ls.flatten.length = 4 * ls.length
  | [], _ => rfl
  | l :: ls, h => by
    rw [List.flatten_cons, List.length_append, h l (by simp), flatten_length fun l hl => h l (by simp [hl]), List.length_cons]
    omega

theorem chunk : ∀ {ls : List Bytes} {i : Nat} {b : Bytes}, (∀ l ∈ ls, l.length = 4) → ls[i]? = some b →
    (ls.flatten.drop (4 * i)).take 4 = b
  | [], i, b, _, h => by simp at h
  | l :: ls, 0, b, h4, h => by
    have := h4 l (by simp)
    cases h
    rw [List.flatten_cons, Nat.mul_zero, List.drop_zero, List.take_append_of_le_length (by omega), List.take_of_length_le (by omega)]
  | l :: ls, i + 1, b, h4, h => by
    have := h4 l (by simp)
    rw [List.flatten_cons, show 4 * (i + 1) = l.length + 4 * i by omega, List.drop_length_add_append]
    exact chunk (fun l hl => h4 l (by simp [hl])) h

theorem bytes_ext : ∀ {n : Nat} {a b : Bytes}, a.length = 4 * n → b.length = 4 * n →
    (∀ i < n, (a.drop (4 * i)).take 4 = (b.drop (4 * i)).take 4) → a = b
  | 0, a, b, ha, hb, _ => by
    rw [List.length_eq_zero_iff.1 (by omega : a.length = 0), List.length_eq_zero_iff.1 (by omega : b.length = 0)]
  | n + 1, a, b, ha, hb, h => by
    rw [← List.take_append_drop 4 a, ← List.take_append_drop 4 b]
    have h0 := h 0 (by omega)
    rw [Nat.mul_zero, List.drop_zero, List.drop_zero] at h0
    rw [h0, bytes_ext (n := n) (a := a.drop 4) (b := b.drop 4) (by rw [List.length_drop]; omega) (by rw [List.length_drop]; omega)]
    intro i hi
    rw [List.drop_drop, List.drop_drop, show 4 + 4 * i = 4 * (i + 1) by omega]
    exact h (i + 1) (by omega)

theorem image_ext {im im' : Image} {w h : Nat} {f : Nat → Nat → Option Bytes} (h1 : Shows im w h f) (h2 : Shows im' w h f) :
    im = im' := by
  obtain ⟨⟨a1, a2, a3⟩, a4⟩ := h1
  obtain ⟨⟨b1, b2, b3⟩, b4⟩ := h2
  have : im.data = im'.data := by
    refine bytes_ext a3 b3 fun i hi => ?_
    have hw : 0 < w := Nat.pos_of_ne_zero fun h => by rw [h, Nat.zero_mul] at hi; omega
    have h1 := a4 (i % w) (i / w) (Nat.mod_lt _ hw) (Nat.div_lt_of_lt_mul hi)
    rw [b4 (i % w) (i / w) (Nat.mod_lt _ hw) (Nat.div_lt_of_lt_mul hi)] at h1
    unfold pixel at h1
    rw [a1, b1, Nat.div_add_mod] at h1
    exact (Option.some.inj h1).symm
  cases im; cases im'
  simp only at a1 a2 b1 b2 this
  subst a1 a2 this
  rw [b1, b2]

theorem index_lt {w h x y : Nat} (hx : x < w) (hy : y < h) : w * y + x < w * h := by
  have : w * (y + 1) ≤ w * h := Nat.mul_le_mul_left w hy
  rw [Nat.mul_succ] at this
  omega

/-- The image of a list of colours. -/
theorem image_shows {aBits : Nat} (hb : aBits = 1 ∨ aBits = 5) {cs : List Color} {W H : Nat} (hc : ∀ c ∈ cs, Fits aBits c)
    (hl : W * H ≤ cs.length) : ∃ im, colorsToImage true (cs.map some) W H aBits = .ok im ∧
      Shows im W H fun x y => (cs[W * y + x]?).map (bytesOf aBits) := by
  rw [image_eq hb W H hc, if_pos hl]
  have h4 : ∀ l ∈ (cs.take (W * H)).map (bytesOf aBits), l.length = 4 := by
    intro l hl
    obtain ⟨c, -, rfl⟩ := List.mem_map.1 hl
    rfl
  refine ⟨_, rfl, ⟨rfl, rfl, ?_⟩, fun x y hx hy => ?_⟩
  · show (List.flatten _).length = _
    rw [flatten_length h4, List.length_map, List.length_take, Nat.min_eq_left hl]
  · have := index_lt hx hy
    have e : cs[W * y + x]? = some cs[W * y + x] := List.getElem?_eq_getElem (by omega)
    dsimp only
    rw [e, Option.map_some]
    congr 1
    refine (chunk h4 ?_).symm
    rw [List.getElem?_map, List.getElem?_take, if_pos this, e]
    rfl

/-- The pixels of a tile are rendered exactly if each of them is given, and then as given. -/
def Agrees (r : Py (List Color)) (f : Nat → Nat → Option Bytes) : Prop :=
  (∀ px, r = .ok px → px.length = 64 ∧ (∀ c ∈ px, Fits 1 c) ∧ ∀ x y, x < 8 → y < 8 → (px[8 * y + x]?).map (bytesOf 1) = f x y) ∧
  ((∀ x y, x < 8 → y < 8 → (f x y).isSome) → ∃ px, r = .ok px)

theorem agrees_image {r : Py (List Color)} {f : Nat → Nat → Option Bytes} (h : Agrees r f) (im : Image) :
    (r >>= fun px => colorsToImage true (px.map some) 8 8 1) = .ok im ↔ Shows im 8 8 f := by
  have key : ∀ px, r = .ok px → ∃ im, (r >>= fun px => colorsToImage true (px.map some) 8 8 1) = .ok im ∧ Shows im 8 8 f := by
    intro px hr
    obtain ⟨h1, h2, h3⟩ := h.1 px hr
    obtain ⟨im, h4, h5⟩ := image_shows (aBits := 1) (.inl rfl) (W := 8) (H := 8) h2 (by omega)
    refine ⟨im, by rw [hr, bind_ok, h4], h5.1, fun x y hx hy => ?_⟩
    rw [← h3 x y hx hy]
    exact h5.2 x y hx hy
  constructor
  · intro hi
    obtain ⟨px, hr, -⟩ := bind_eq_ok.1 hi
    obtain ⟨im', h1, h2⟩ := key px hr
    rw [hi] at h1
    cases h1
    exact h2
  · intro hs
    obtain ⟨px, hr⟩ := h.2 fun x y hx hy => by rw [hs.2 x y hx hy]; rfl
    obtain ⟨im', h1, h2⟩ := key px hr
    rw [h1, image_ext hs h2]

open Model.Graphics2D in
theorem agrees_tile (t : ImageTile) (colors : List Color) (p : Nat) (hc : FiveBits colors) :
    Agrees (t.render colors p) (tileShown t colors p) := by
  have hsize : paletteSize t.format = if t.format = .i4 then 16 else 256 := by cases t.format <;> rfl
  constructor
  · intro px hr
    obtain ⟨h1, h2⟩ := (Props.Graphics2D.render_tile t colors p px).1 hr
    refine ⟨h1, fun c hcm => ?_, fun x y hx hy => ?_⟩
    · obtain ⟨i, hi, rfl⟩ := List.mem_iff_getElem.1 hcm
      obtain ⟨q, -, ⟨-, h⟩ | ⟨-, c, hcc, h⟩⟩ := h2 i hi
      · rw [h]; exact ⟨by decide, by decide, by decide, fun h => absurd rfl h⟩
      · rw [h]
        obtain ⟨a, b, c⟩ := hc c (List.mem_of_getElem? hcc)
        exact ⟨a, b, c, fun h => absurd rfl h⟩
    · have hi : 8 * y + x < px.length := by omega
      obtain ⟨q, hq, h⟩ := h2 _ hi
      unfold tileShown
      rw [hq, List.getElem?_eq_getElem hi, hsize, Option.map_some]
      rcases h with ⟨rfl, h⟩ | ⟨h0, c, hcc, h⟩
      · rw [h]; rfl
      · rw [h]
        cases q with
        | zero => exact absurd rfl h0
        | succ q =>
          rw [shown, hcc]
          · rfl
          · omega
  · intro hs
    unfold ImageTile.render
    have : ∀ i < 64, ∃ c, renderPixel t.pixels (colors.map fun c => { c with a := 1 })
        (p * (if t.format = .i4 then 16 else 256)) i = .ok c := by
      intro i hi
      have h := hs (i % 8) (i / 8) (Nat.mod_lt _ (by decide)) (by omega)
      unfold tileShown at h
      rw [Nat.div_add_mod, hsize] at h
      unfold renderPixel pyIdx
      cases hq : t.pixels[i]? with
      | none => rw [hq] at h; cases h
      | some q =>
        rw [hq] at h
        dsimp only
        rw [bind_ok]
        cases q with
        | zero => exact ⟨_, rfl⟩
        | succ q =>
          rw [shown] at h
          · rw [if_pos (by omega), List.getElem?_map]
            cases hcc : colors[p * (if t.format = .i4 then 16 else 256) + (q + 1)]? with
            | none => rw [hcc] at h; cases h
            | some c => exact ⟨_, rfl⟩
          · omega
    generalize renderPixel t.pixels (colors.map fun c => { c with a := 1 }) (p * (if t.format = .i4 then 16 else 256)) = g at this ⊢
    have key : ∀ l : List Nat, (∀ i ∈ l, i < 64) → ∃ px, mapE g l = .ok px := by
      intro l
      induction l with
      | nil => exact fun _ => ⟨[], rfl⟩
      | cons i l ih =>
        intro hl
        obtain ⟨c, h1⟩ := this i (hl i (by simp))
        obtain ⟨px, h2⟩ := ih fun i hi => hl i (by simp [hi])
        exact ⟨c :: px, by rw [mapE_cons, h1, bind_ok, h2]; rfl⟩
    exact key _ fun i hi => List.mem_range.1 hi

open Model.Graphics2D in
theorem agrees_single (t : TilemapTile) (it : ImageTile) (colors : List Color) (hc : FiveBits colors) :
    Agrees (t.renderSingle it colors) (entryShown t it colors) := by
  unfold entryShown
  cases hf : t.format with
  | i8 =>
    rw [Props.Graphics2D.render_entry_i8 t it colors hf]
    exact agrees_tile it colors 0 hc
  | i10h1v1p4 =>
    dsimp only
    obtain ⟨h1, h2⟩ := Props.Graphics2D.render_entry t it colors hf
    obtain ⟨a1, a2⟩ := agrees_tile it colors t.paletteNum hc
    have lt : ∀ (b : Bool) (z : Nat), z < 8 → (if b = true then 7 - z else z) < 8 := by
      intro b z hz; split <;> omega
    constructor
    · intro px hr
      cases hp : it.render colors t.paletteNum with
      | error e => rw [h2 e hp] at hr; cases hr
      | ok qx =>
        obtain ⟨out, h3, h4, h5⟩ := h1 qx hp
        rw [h3] at hr
        cases hr
        obtain ⟨b1, b2, b3⟩ := a1 qx hp
        refine ⟨h4, fun c hcm => ?_, fun x y hx hy => ?_⟩
        · obtain ⟨i, hi, rfl⟩ := List.mem_iff_getElem.1 hcm
          have h6 := h5 (i % 8) (i / 8) (Nat.mod_lt _ (by decide)) (by omega)
          rw [Nat.div_add_mod, List.getElem?_eq_getElem hi] at h6
          exact b2 _ (List.mem_of_getElem? h6.symm)
        · rw [h5 x y hx hy]
          exact b3 _ _ (lt t.hFlip x hx) (lt t.vFlip y hy)
    · intro hs
      obtain ⟨px, hp⟩ := a2 fun x y hx hy => by
        have h := hs (if t.hFlip = true then 7 - x else x) (if t.vFlip = true then 7 - y else y) (lt t.hFlip x hx) (lt t.vFlip y hy)
        have inv : ∀ (b : Bool) (z : Nat), z < 8 → (if b = true then 7 - (if b = true then 7 - z else z) else (if b = true then 7 - z else z)) = z := by
          intro b z hz
          cases b
          · rfl
          · show 7 - (7 - z) = z; omega
        dsimp only at h
        rw [inv t.hFlip x hx, inv t.vFlip y hy] at h
        exact h
      obtain ⟨out, h3, -⟩ := h1 px hp
      exact ⟨out, h3⟩

open Model.Graphics2D in
theorem agrees_entry (t : TilemapTile) (its : List ImageTile) (colors : List Color) (o : Nat) (hc : FiveBits colors) :
    Agrees (t.render its colors o) (entryOf t its colors o) := by
  rw [Props.Graphics2D.render_entry_tile]
  unfold entryOf
  split
  · exact ⟨fun px h => (nomatch h), fun h => absurd (h 0 0 (by decide) (by decide)) (by simp)⟩
  · cases its[t.tileNum - o]? with
    | none => exact ⟨fun px h => (nomatch h), fun h => absurd (h 0 0 (by decide) (by decide)) (by simp)⟩
    | some it => exact agrees_single t it colors hc

open Model.Graphics2D in
theorem cells_all {α : Type} {render : α → Py (List Color)} {W : Nat} : ∀ (cells : List (Nat × Nat)) (ts : List α)
    (img img' : List Color), renderCells render W cells ts img = .ok img' → ts.length ≤ cells.length →
    ∀ t ∈ ts, ∃ px, render t = .ok px
  | _, [], _, _, _, _ => fun t h => nomatch h
  | [], _ :: _, _, _, _, h => by simp at h
  | (y, x) :: cells, t :: ts, img, img', h, hl => by
    rw [renderCells] at h
    obtain ⟨px, h1, h2⟩ := bind_eq_ok.1 h
    intro t' ht'
    rcases List.mem_cons.1 ht' with rfl | ht'
    · exact ⟨px, h1⟩
    · exact cells_all cells ts _ _ h2 (by simpa using hl) t' ht'

open Model.Graphics2D in
theorem grid_all {α : Type} {render : α → Py (List Color)} {tiles : List α} {W H : Nat} (hW : 0 < W)
    (hl : tiles.length = W * H) {img : List Color} (h : renderGrid render tiles W = .ok img) : ∀ t ∈ tiles, ∃ px, render t = .ok px := by
  unfold renderGrid at h
  rw [raiseIf_false (by omega), bind_ok] at h
  dsimp only at h
  rw [hl, Nat.mul_div_cancel_left _ hW, Nat.mul_mod_right, if_neg (by decide), Nat.add_zero, Graphics2D.cells_eq W hW] at h
  exact cells_all _ _ _ _ h (by simp [hl])

open Model.Graphics2D in
/-- The image of a grid of tiles, in terms of the tiles. -/
theorem grid_image {α : Type} {render : α → Py (List Color)} {f : α → Nat → Nat → Option Bytes} (ha : ∀ t, Agrees (render t) (f t))
    {tiles : List α} {W H : Nat} (hW : 0 < W) (hl : tiles.length = W * H) (im : Image) :
    (do
      let height ← rows tiles.length W
      let px ← renderGrid render tiles W
      colorsToImage true (px.map some) (W * 8) (height * 8) 1) = .ok im ↔
    Shows im (W * 8) (H * 8) fun X Y => (tiles[W * (Y / 8) + X / 8]?).bind fun t => f t (X % 8) (Y % 8) := by
  have hrow : rows tiles.length W = .ok H := by
    unfold rows
    rw [raiseIf_false (by omega), bind_ok, hl, Nat.mul_div_cancel_left _ hW, Nat.mul_mod_right, if_neg (by decide)]
    rfl
  rw [hrow, bind_ok]
  have key : (∀ t ∈ tiles, ∃ px, render t = .ok px) → ∃ im, (do
      let px ← renderGrid render tiles W
      colorsToImage true (px.map some) (W * 8) (H * 8) 1) = .ok im ∧
      Shows im (W * 8) (H * 8) fun X Y => (tiles[W * (Y / 8) + X / 8]?).bind fun t => f t (X % 8) (Y % 8) := by
    intro hall
    obtain ⟨img, h1, h2, h3⟩ := Graphics2D.renderGrid_ok hW (fun t px h => ((ha t).1 px h).1) hl hall
    have pos : ∀ X Y, X < W * 8 → Y < H * 8 → ∃ t px, t ∈ tiles ∧ tiles[W * (Y / 8) + X / 8]? = some t ∧ render t = .ok px ∧
        img[W * 8 * Y + X]? = px[8 * (Y % 8) + X % 8]? := by
      intro X Y hX hY
      have hi := index_lt (w := W) (h := H) (x := X / 8) (y := Y / 8) (by omega) (by omega)
      have ht : tiles[W * (Y / 8) + X / 8]? = some tiles[W * (Y / 8) + X / 8] := List.getElem?_eq_getElem (by omega)
      obtain ⟨px, hp⟩ := hall _ (List.mem_of_getElem? ht)
      refine ⟨_, px, List.mem_of_getElem? ht, ht, hp, ?_⟩
      rw [Nat.mul_comm W 8, Nat.mul_comm (8 * W), Nat.mul_comm 8 (Y % 8)]
      exact h3 X Y (by omega) (by omega) _ px (by rw [Nat.mul_comm]; exact ht) hp
    have hfit : ∀ c ∈ img, Fits 1 c := by
      intro c hcm
      obtain ⟨i, hi, rfl⟩ := List.mem_iff_getElem.1 hcm
      have hlt : i < W * 8 * (H * 8) := by
        have : W * 8 * (H * 8) = W * H * 64 := by
          rw [Nat.mul_assoc, Nat.mul_comm 8, Nat.mul_assoc, ← Nat.mul_assoc W]
        omega
      obtain ⟨t, px, -, -, hp, he⟩ := pos (i % (W * 8)) (i / (W * 8)) (Nat.mod_lt _ (by omega)) (Nat.div_lt_of_lt_mul hlt)
      rw [Nat.div_add_mod, List.getElem?_eq_getElem hi] at he
      exact ((ha t).1 px hp).2.1 _ (List.mem_of_getElem? he.symm)
    have hlen : W * 8 * (H * 8) ≤ img.length := by
      have : W * 8 * (H * 8) = W * H * 64 := by
        rw [Nat.mul_assoc, Nat.mul_comm 8, Nat.mul_assoc, ← Nat.mul_assoc W]
      omega
    obtain ⟨im, h4, h5⟩ := image_shows (aBits := 1) (.inl rfl) (W := W * 8) (H := H * 8) hfit hlen
    refine ⟨im, by rw [h1, bind_ok, h4], h5.1, fun X Y hX hY => ?_⟩
    obtain ⟨t, px, -, ht, hp, he⟩ := pos X Y hX hY
    rw [← h5.2 X Y hX hY]
    dsimp only
    rw [ht, he, ((ha t).1 px hp).2.2 _ _ (Nat.mod_lt _ (by decide)) (Nat.mod_lt _ (by decide))]
    rfl
  constructor
  · intro hi
    obtain ⟨img, h1, -⟩ := bind_eq_ok.1 hi
    obtain ⟨im', h2, h3⟩ := key (grid_all hW hl h1)
    rw [hi] at h2
    cases h2
    exact h3
  · intro hs
    have hall : ∀ t ∈ tiles, ∃ px, render t = .ok px := by
      intro t ht
      obtain ⟨i, hi, rfl⟩ := List.mem_iff_getElem.1 ht
      refine (ha _).2 fun x y hx hy => ?_
      have hx' : i % W < W := Nat.mod_lt _ hW
      have hy' : i / W < H := Nat.div_lt_of_lt_mul (by omega)
      have := hs.2 (8 * (i % W) + x) (8 * (i / W) + y) (by omega) (by omega)
      dsimp only at this
      rw [show (8 * (i / W) + y) / 8 = i / W by omega, show (8 * (i % W) + x) / 8 = i % W by omega, Nat.div_add_mod,
        List.getElem?_eq_getElem hi, show (8 * (i / W) + y) % 8 = y by omega, show (8 * (i % W) + x) % 8 = x by omega] at this
      rw [show f tiles[i] x y = _ from this]
      rfl
    obtain ⟨im', h2, h3⟩ := key hall
    rw [h2, image_ext hs h3]

end Verif.Proofs.Image
