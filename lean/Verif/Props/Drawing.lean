import Verif.Props.Graphics2D
import Verif.Props.Color
import Verif.Props.Nested
import Verif.Spec.Drawing

/-!
# C160: drawing in the graphics of a game
-/

namespace Verif.Props.Drawing

open Verif Verif.Model Verif.Model.Graphics2D Verif.Spec.Drawing Verif.Proofs.Graphics2D
open Verif.Model.Color (Color)
open Verif.Spec.Nested (Layer Apart)

/-! ## Changing pixels -/

/-- Tiles of the format with 64 pixels each, of any values. -/
def Shape (f : ImageFormat) (ts : List ImageTile) : Prop := ∀ t ∈ ts, t.format = f ∧ t.pixels.length = 64

theorem pySetI_ok {α : Type} {l l' : List α} {i : Int} {v : α} :
    pySetI l i v = .ok l' ↔ ∃ k, pyPos l.length i = some k ∧ l' = l.set k v := by
  unfold pySetI
  cases pyPos l.length i with
  | none => simp
  | some k =>
    constructor
    · intro h; cases h; exact ⟨k, rfl, rfl⟩
    · rintro ⟨k', h, rfl⟩; cases h; rfl

theorem pyPos_lt {n : Nat} {i : Int} {k : Nat} (h : pyPos n i = some k) : k < n := by
  unfold pyPos at h
  split at h
  · split at h
    · cases h; assumption
    · cases h
  · split at h
    · cases h; omega
    · cases h

theorem setPixel_ok {f : ImageFormat} {ts ts' : List ImageTile} {k i : Int} {v : Nat} (hs : Shape f ts)
    (h : setPixel ts k i v = .ok ts') : ∃ a b t, pyPos ts.length k = some a ∧ pyPos 64 i = some b ∧ ts[a]? = some t ∧
      ts' = ts.set a { t with pixels := t.pixels.set b v } := by
  unfold setPixel at h
  obtain ⟨t, ht, h⟩ := bind_eq_ok.1 h
  obtain ⟨px, hp, h⟩ := bind_eq_ok.1 h
  obtain ⟨a, ha, rfl⟩ := pySetI_ok.1 h
  obtain ⟨b, hb, rfl⟩ := pySetI_ok.1 hp
  rw [pyIdxI_eq, ha] at ht
  have ht := pyIdx_eq_ok.1 ht
  rw [(hs t (List.mem_of_getElem? ht)).2] at hb
  exact ⟨a, b, t, ha, hb, ht, rfl⟩

theorem shape_set {f : ImageFormat} {ts : List ImageTile} {a b v : Nat} {t : ImageTile} (hs : Shape f ts)
    (ht : ts[a]? = some t) : Shape f (ts.set a { t with pixels := t.pixels.set b v }) := by
  intro t' ht'
  rcases List.mem_or_eq_of_mem_set ht' with h | rfl
  · exact hs t' h
  · have := hs t (List.mem_of_getElem? ht)
    exact ⟨this.1, by simpa using this.2⟩

theorem pixel_set {f : ImageFormat} {ts : List ImageTile} {a b v : Nat} {t : ImageTile} (hs : Shape f ts) (ht : ts[a]? = some t)
    (hb : b < 64) (k i : Nat) : pixel (ts.set a { t with pixels := t.pixels.set b v }) k i =
      if k = a ∧ i = b then some v else pixel ts k i := by
  have hlt := (List.getElem?_eq_some_iff.1 ht).1
  have h64 := (hs t (List.mem_of_getElem? ht)).2
  unfold pixel
  by_cases hk : k = a
  · subst hk
    rw [List.getElem?_set_self hlt, ht]
    simp only [Option.bind_some]
    by_cases hi : i = b
    · subst hi
      rw [List.getElem?_set_self (by omega), if_pos (by simp)]
    · rw [List.getElem?_set_ne (Ne.symm hi), if_neg (fun h => hi h.2)]
  · rw [List.getElem?_set_ne (Ne.symm hk), if_neg (fun h => hk h.1)]

/-- What the assignments do. -/
theorem setPixels_ok {f : ImageFormat} {ts' : List ImageTile} : ∀ {dots : List Dot} {ts : List ImageTile}, Shape f ts →
    setPixels ts dots = .ok ts' → Shape f ts' ∧ ts'.length = ts.length ∧
      (∀ k i, (∀ e ∈ dots, ¬ Hits ts.length e k i) → pixel ts' k i = pixel ts k i) ∧
      (∀ k i v, LastDot ts.length dots k i v → pixel ts' k i = some v)
  | [], ts, hs, h => by
    cases h
    refine ⟨hs, rfl, fun _ _ _ => rfl, ?_⟩
    rintro k i v ⟨before, e, after, h, -⟩
    cases before <;> cases h
  | (k0, i0, v0) :: rest, ts, hs, h => by
    unfold setPixels at h
    obtain ⟨c, hc, h⟩ := bind_eq_ok.1 h
    obtain ⟨a, b, t, ha, hb, ht, rfl⟩ := setPixel_ok hs hc
    obtain ⟨h1, h2, h3, h4⟩ := setPixels_ok (shape_set hs ht) h
    simp only [List.length_set] at h2 h3 h4
    have hp := pixel_set (v := v0) hs ht (pyPos_lt hb)
    refine ⟨h1, h2, ?_, ?_⟩
    · intro k i hk
      rw [h3 k i fun e he => hk e (List.mem_cons_of_mem _ he), hp, if_neg]
      rintro ⟨rfl, rfl⟩
      exact hk (k0, i0, v0) (by simp) ⟨ha, hb⟩
    · rintro k i v ⟨before, e, after, he, hj, hv, hl⟩
      cases before with
      | nil =>
        cases he
        obtain ⟨hj1, hj2⟩ := hj
        rw [ha] at hj1
        rw [hb] at hj2
        cases hj1
        cases hj2
        cases hv
        rw [h3 _ _ hl, hp, if_pos ⟨rfl, rfl⟩]
      | cons x before =>
        cases he
        exact h4 k i v ⟨before, e, after, rfl, hj, hv, hl⟩

/-- The assignments fail only if a tile or a pixel is not there. -/
theorem setPixels_cases {f : ImageFormat} : ∀ {dots : List Dot} {ts : List ImageTile}, Shape f ts →
    ((∀ e ∈ dots, ∃ k i, Hits ts.length e k i) ∧ ∃ ts', setPixels ts dots = .ok ts') ∨
    ((∃ e ∈ dots, ¬ ∃ k i, Hits ts.length e k i) ∧ setPixels ts dots = .error .indexError)
  | [], ts, hs => .inl ⟨by simp, ts, rfl⟩
  | (k0, i0, v0) :: rest, ts, hs => by
    unfold setPixels setPixel
    cases ha : pyPos ts.length k0 with
    | none =>
      refine .inr ⟨⟨_, List.mem_cons_self, ?_⟩, ?_⟩
      · rintro ⟨k, i, h, -⟩
        rw [ha] at h
        cases h
      · rw [pyIdxI_eq, ha]; rfl
    | some a =>
      have hlt := pyPos_lt ha
      have ht : ts[a]? = some ts[a] := List.getElem?_eq_getElem hlt
      have h64 := (hs _ (List.getElem_mem hlt)).2
      rw [pyIdxI_eq, ha]
      dsimp only
      rw [pyIdx_eq_ok.2 ht, bind_ok]
      cases hb : pyPos 64 i0 with
      | none =>
        refine .inr ⟨⟨_, List.mem_cons_self, ?_⟩, ?_⟩
        · rintro ⟨k, i, -, h⟩
          rw [hb] at h
          cases h
        · unfold pySetI; rw [h64, hb]; rfl
      | some b =>
        rw [pySetI_ok.2 ⟨b, by rw [h64]; exact hb, rfl⟩, bind_ok, pySetI_ok.2 ⟨a, ha, rfl⟩, bind_ok]
        have := setPixels_cases (dots := rest) (shape_set (b := b) (v := v0) hs ht)
        simp only [List.length_set] at this
        rcases this with ⟨h1, h2⟩ | ⟨⟨e, h1, h2⟩, h3⟩
        · refine .inl ⟨?_, h2⟩
          intro e he
          rcases List.mem_cons.1 he with rfl | he
          · exact ⟨a, b, ha, hb⟩
          · exact h1 e he
        · exact .inr ⟨⟨e, List.mem_cons_of_mem _ h1, h2⟩, h3⟩

/-! ## Saving them -/

/-- The tile as it is stored. -/
def norm (f : ImageFormat) (t : ImageTile) : ImageTile := { t with pixels := t.pixels.map (· % depth f) }

theorem saveNibbles_mod : ∀ (px : List Nat) (s : Option Nat), saveNibbles (px.map (· % 16)) s = saveNibbles px s
  | [], _ => rfl
  | p :: px, none => by
    rw [List.map_cons, saveNibbles, saveNibbles, saveNibbles_mod px]
    congr 2
    rw [Bits.and_mask _ 4 rfl, Bits.and_mask _ 4 rfl]
    omega
  | p :: px, some l => by
    have hb : ∀ b : Nat, (b <<< 4) &&& 0xF0 = (b % 16) <<< 4 := by
      intro b
      have h1 : b % 16 = b &&& 0xF := (Bits.and_mask b 4 rfl).symm
      rw [h1, show (0xF0 : Nat) = 0xF <<< 4 from rfl, ← Nat.shiftLeft_and_distrib]
    rw [List.map_cons, saveNibbles, saveNibbles, saveNibbles_mod px, hb, hb, Nat.mod_mod]

theorem norm_fit {f : ImageFormat} {t : ImageTile} (h : t.format = f ∧ t.pixels.length = 64) :
    (norm f t).format = f ∧ Fit (norm f t) := by
  refine ⟨h.1, by simpa [norm] using h.2, ?_⟩
  intro p hp
  obtain ⟨q, -, rfl⟩ := List.mem_map.1 hp
  show q % depth f < if t.format = .i4 then 16 else 256
  rw [h.1]
  exact Nat.mod_lt _ (by unfold depth; split <;> omega)

theorem byteOf_cases (n : Nat) : byteOf n = if n < 256 then .ok (UInt8.ofNat n) else .error .valueError := rfl

theorem mapE_byteOf_cases (px : List Nat) : ((∀ p ∈ px, p < 256) ∧ ∃ d, mapE byteOf px = .ok d) ∨
    ((∃ p ∈ px, ¬ p < 256) ∧ mapE byteOf px = .error .valueError) := by
  induction px with
  | nil => exact .inl ⟨by simp, [], rfl⟩
  | cons p px ih =>
    rw [mapE_cons, byteOf_cases]
    by_cases hp : p < 256
    · rw [if_pos hp, bind_ok]
      rcases ih with ⟨h1, d, h2⟩ | ⟨⟨q, h1, h2⟩, h3⟩
      · refine .inl ⟨?_, UInt8.ofNat p :: d, by rw [h2]; rfl⟩
        intro q hq
        rcases List.mem_cons.1 hq with rfl | hq
        · exact hp
        · exact h1 q hq
      · exact .inr ⟨⟨q, List.mem_cons_of_mem _ h1, h2⟩, by rw [h3]; rfl⟩
    · rw [if_neg hp]
      exact .inr ⟨⟨p, by simp, hp⟩, rfl⟩

theorem mapE_save_cases {ts : List ImageTile} (hs : Shape .i8 ts) :
    ((∀ t ∈ ts, ∀ p ∈ t.pixels, p < 256) ∧ ∃ r, mapE ImageTile.save ts = .ok r) ∨
    ((∃ t ∈ ts, ∃ p ∈ t.pixels, ¬ p < 256) ∧ mapE ImageTile.save ts = .error .valueError) := by
  induction ts with
  | nil => exact .inl ⟨by simp, [], rfl⟩
  | cons t ts ih =>
    have hf := (hs t (by simp)).1
    have e : t.save = mapE byteOf t.pixels := by
      unfold ImageTile.save
      rw [hf, if_neg (by decide)]
    rw [mapE_cons, e]
    rcases mapE_byteOf_cases t.pixels with ⟨h1, d, h2⟩ | ⟨h1, h2⟩
    · rw [h2, bind_ok]
      rcases ih (fun t ht => hs t (by simp [ht])) with ⟨h3, r, h4⟩ | ⟨⟨q, h3, h4⟩, h5⟩
      · refine .inl ⟨?_, d :: r, by rw [h4]; rfl⟩
        intro q hq
        rcases List.mem_cons.1 hq with rfl | hq
        · exact h1
        · exact h3 q hq
      · exact .inr ⟨⟨q, List.mem_cons_of_mem _ h3, h4⟩, by rw [h5]; rfl⟩
    · rw [h2]
      exact .inr ⟨⟨t, by simp, h1⟩, rfl⟩

/-- What is loaded after saving tiles with any values. -/
theorem save_norm {f : ImageFormat} {ts : List ImageTile} (hs : Shape f ts) :
    (∃ g, saveImageTiles ts = .ok g ∧ g.length = ts.length * bytesPerTile f ∧ loadImageTiles g f = .ok (ts.map (norm f)) ∧
      (f = .i8 → ∀ t ∈ ts, ∀ p ∈ t.pixels, p < 256)) ∨
    (f = .i8 ∧ (∃ t ∈ ts, ∃ p ∈ t.pixels, ¬ p < 256) ∧ saveImageTiles ts = .error .valueError) := by
  have hfit : ∀ t ∈ ts.map (norm f), t.format = f ∧ Fit t := by
    intro t ht
    obtain ⟨t', ht', rfl⟩ := List.mem_map.1 ht
    exact norm_fit (hs t' ht')
  obtain ⟨g, h1, h2, h3⟩ := tiles_save_load hfit
  rw [List.length_map] at h2
  have key : mapE ImageTile.save (ts.map (norm f)) = mapE ImageTile.save ts → saveImageTiles ts = .ok g := by
    intro e
    rw [saveImageTiles_eq fun t ht => (hs t ht).1, ← e, ← saveImageTiles_eq fun t ht => (hfit t ht).1, h1]
  cases f with
  | i4 =>
    refine .inl ⟨g, key ?_, h2, h3, by simp⟩
    rw [mapE_map]
    refine mapE_congr fun t ht => ?_
    have hf := (hs t ht).1
    unfold ImageTile.save norm
    dsimp only
    rw [hf, if_pos rfl, if_pos rfl]
    exact saveNibbles_mod _ _
  | i8 =>
    rcases mapE_save_cases hs with ⟨h4, r, h5⟩ | ⟨h4, h5⟩
    · refine .inl ⟨g, key ?_, h2, h3, fun _ => h4⟩
      have : ts.map (norm .i8) = ts := by
        conv => rhs; rw [← List.map_id ts]
        refine List.map_congr_left fun t ht => ?_
        unfold norm
        rw [show depth .i8 = 256 from rfl, map_mod_eq (h4 t ht)]
        rfl
      rw [this]
    · refine .inr ⟨rfl, h4, ?_⟩
      rw [saveImageTiles_eq fun t ht => (hs t ht).1, h5]
      rfl

theorem pixel_norm (f : ImageFormat) (ts : List ImageTile) (k i : Nat) :
    pixel (ts.map (norm f)) k i = (pixel ts k i).map (· % depth f) := by
  unfold pixel
  rw [List.getElem?_map]
  cases ts[k]? with
  | none => rfl
  | some t => simp [norm]

theorem loaded_shape {f : ImageFormat} {d : Bytes} {ts : List ImageTile} (h : loadImageTiles d f = .ok ts) :
    Shape f ts ∧ ts.length = d.length / bytesPerTile f ∧ ∀ k i p, pixel ts k i = some p → p < depth f := by
  obtain ⟨ts', h1, h2, h3, -⟩ := Graphics2D.tiles_roundtrip_bytes f d
  rw [h] at h1
  cases h1
  refine ⟨fun t ht => ⟨(h3 t ht).1, (h3 t ht).2.1⟩, h2, ?_⟩
  intro k i p hp
  unfold pixel at hp
  cases hk : ts[k]? with
  | none => rw [hk] at hp; cases hp
  | some t =>
    rw [hk, Option.bind_some] at hp
    obtain ⟨e, -, h4⟩ := h3 t (List.mem_of_getElem? hk)
    have := h4 p (List.mem_of_getElem? hp)
    rw [e] at this
    exact this

/-- **C160.** After changing pixels of a graphics file it loads as the picture with the new pixels, and nothing else has
changed; what comes after the last complete tile is gone. -/
theorem redraw_result {f : ImageFormat} {dots : List Dot} {d g : Bytes} (h : redraw f dots d = .ok g) :
    ∃ ts ts', loadImageTiles d f = .ok ts ∧ loadImageTiles g f = .ok ts' ∧ Drawn f dots ts ts' ∧
      g.length = d.length / bytesPerTile f * bytesPerTile f := by
  unfold redraw at h
  obtain ⟨ts, h1, h⟩ := bind_eq_ok.1 h
  obtain ⟨ts1, h2, h⟩ := bind_eq_ok.1 h
  obtain ⟨hs, hl, hp⟩ := loaded_shape h1
  obtain ⟨g1, g2, g3, g4⟩ := setPixels_ok hs h2
  rcases save_norm g1 with ⟨g', k1, k2, k3, -⟩ | ⟨-, -, k⟩
  · rw [h] at k1
    cases k1
    refine ⟨ts, _, h1, k3, ⟨?_, ?_, ?_, ?_⟩, by rw [k2, g2, hl]⟩
    · rw [List.length_map, g2]
    · exact (loaded_shape k3).1
    · intro k i hk
      rw [pixel_norm, g3 k i hk]
      cases e : pixel ts k i with
      | none => rfl
      | some p => rw [Option.map_some, Nat.mod_eq_of_lt (hp k i p e)]
    · intro k i v hk
      rw [pixel_norm, g4 k i v hk]
      rfl
  · rw [h] at k
    cases k

/-- The last change of a pixel, if there is one. -/
theorem lastDot_exists {count : Nat} {k i : Nat} : ∀ {dots : List Dot}, (∃ e ∈ dots, Hits count e k i) →
    ∃ v, LastDot count dots k i v
  | [], h => by obtain ⟨e, h, -⟩ := h; cases h
  | e :: rest, h => by
    by_cases hr : ∃ e' ∈ rest, Hits count e' k i
    · obtain ⟨v, before, e', after, h1, h2⟩ := lastDot_exists hr
      exact ⟨v, e :: before, e', after, by rw [h1]; rfl, h2⟩
    · obtain ⟨e', he, ha⟩ := h
      rcases List.mem_cons.1 he with rfl | he
      · exact ⟨e'.2.2, [], e', rest, rfl, ha, rfl, fun e'' h1 h2 => hr ⟨e'', h1, h2⟩⟩
      · exact absurd ⟨e', he, ha⟩ hr

/-- A pixel of a list of tiles has a place. -/
theorem pixel_of_mem {ts : List ImageTile} {t : ImageTile} {p : Nat} (ht : t ∈ ts) (hp : p ∈ t.pixels) :
    ∃ k i, pixel ts k i = some p := by
  obtain ⟨k, hk⟩ := List.mem_iff_getElem?.1 ht
  obtain ⟨i, hi⟩ := List.mem_iff_getElem?.1 hp
  exact ⟨k, i, by unfold pixel; rw [hk, Option.bind_some, hi]⟩

theorem mem_of_pixel {ts : List ImageTile} {k i p : Nat} (h : pixel ts k i = some p) : ∃ t ∈ ts, p ∈ t.pixels := by
  unfold pixel at h
  cases hk : ts[k]? with
  | none => rw [hk] at h; cases h
  | some t =>
    rw [hk, Option.bind_some] at h
    exact ⟨t, List.mem_of_getElem? hk, List.mem_of_getElem? h⟩

/-- **C160.** A change of a tile or a pixel that is not there is an `IndexError`. -/
theorem redraw_range (f : ImageFormat) (dots : List Dot) (d : Bytes)
    (h : ∃ e ∈ dots, ¬ ∃ k i, Hits (d.length / bytesPerTile f) e k i) : redraw f dots d = .error .indexError := by
  obtain ⟨ts, h1, -⟩ := Graphics2D.tiles_roundtrip_bytes f d
  obtain ⟨hs, hl, -⟩ := loaded_shape h1
  unfold redraw
  rw [h1, bind_ok]
  rcases setPixels_cases (dots := dots) hs with ⟨h2, -⟩ | ⟨-, h2⟩
  · obtain ⟨e, he, hn⟩ := h
    rw [← hl] at hn
    exact absurd (h2 e he) hn
  · rw [h2]; rfl

/-- **C160.** Otherwise drawing in four-bit graphics works, with any values. -/
theorem redraw_i4 (dots : List Dot) (d : Bytes) (h : ∀ e ∈ dots, ∃ k i, Hits (d.length / 32) e k i) :
    ∃ g, redraw .i4 dots d = .ok g := by
  obtain ⟨ts, h1, -⟩ := Graphics2D.tiles_roundtrip_bytes .i4 d
  obtain ⟨hs, hl, -⟩ := loaded_shape h1
  unfold redraw
  rw [h1, bind_ok]
  rcases setPixels_cases (dots := dots) hs with ⟨-, ts', h2⟩ | ⟨⟨e, he, hn⟩, -⟩
  · rw [h2, bind_ok]
    rcases save_norm (setPixels_ok hs h2).1 with ⟨g, k1, -⟩ | ⟨k, -⟩
    · exact ⟨g, k1⟩
    · cases k
  · rw [hl] at hn
    exact absurd (h e he) hn

/-- **C160.** In eight-bit graphics it works if and only if no pixel ends up with a value of 256 or more, and is refused with
`ValueError` if one does. -/
theorem redraw_i8 (dots : List Dot) (d : Bytes) (h : ∀ e ∈ dots, ∃ k i, Hits (d.length / 64) e k i) :
    ((∀ k i v, LastDot (d.length / 64) dots k i v → v < 256) → ∃ g, redraw .i8 dots d = .ok g) ∧
    (∀ k i v, LastDot (d.length / 64) dots k i v → 256 ≤ v → redraw .i8 dots d = .error .valueError) := by
  obtain ⟨ts, h1, -⟩ := Graphics2D.tiles_roundtrip_bytes .i8 d
  obtain ⟨hs, hl, hd⟩ := loaded_shape h1
  change ts.length = d.length / 64 at hl
  unfold redraw
  rw [h1, bind_ok]
  rcases setPixels_cases (dots := dots) hs with ⟨-, ts', h2⟩ | ⟨⟨e, he, hn⟩, -⟩
  · rw [h2, bind_ok]
    obtain ⟨g1, g2, g3, g4⟩ := setPixels_ok hs h2
    rw [← hl]
    rcases save_norm g1 with ⟨g, k1, -, -, k2⟩ | ⟨-, ⟨t, ht, p, hp, hlt⟩, k⟩
    · refine ⟨fun _ => ⟨g, k1⟩, ?_⟩
      intro k i v hv hge
      obtain ⟨t, ht, hp⟩ := mem_of_pixel (g4 k i v hv)
      have := k2 rfl t ht v hp
      omega
    · refine ⟨fun hv => absurd ?_ hlt, fun _ _ _ _ _ => k⟩
      obtain ⟨a, b, hab⟩ := pixel_of_mem ht hp
      by_cases hx : ∃ e ∈ dots, Hits ts.length e a b
      · obtain ⟨v, hlast⟩ := lastDot_exists hx
        rw [g4 a b v hlast] at hab
        cases hab
        exact hv a b _ hlast
      · rw [g3 a b fun e he hh => hx ⟨e, he, hh⟩] at hab
        exact hd a b p hab
  · rw [hl] at hn
    exact absurd (h e he) hn

/-- **C160.** Pixels of a graphics file in archives, compressed files and ROMs are changed, and every other file is what it
was. -/
theorem draw_result {limit : Nat} (h0 : 0 < limit) {u : Bool} {path : List Layer} {f : ImageFormat} {dots : List Dot}
    {d d' : Bytes} (h : draw limit u path f dots d = .ok d') :
    ∃ a b ts ts', Spec.Nested.read limit path d = .ok a ∧ loadImageTiles a f = .ok ts ∧
      Spec.Nested.read limit path d' = .ok b ∧ loadImageTiles b f = .ok ts' ∧ Drawn f dots ts ts' ∧
      ∀ path', Apart limit path path' d → Spec.Nested.read limit path' d' = Spec.Nested.read limit path' d := by
  unfold draw at h
  obtain ⟨a, h1, h⟩ := bind_eq_ok.1 h
  obtain ⟨b, h2, h⟩ := bind_eq_ok.1 h
  obtain ⟨ts, ts', h3, h4, h5, -⟩ := redraw_result h2
  exact ⟨a, b, ts, ts', h1, h3, Nested.write_read h0 h, h4, h5, fun path' ha => Nested.write_apart h0 ha h⟩

/-! ## Changing colours -/

theorem setColors_ok {p' : List Color} : ∀ {edits : List (Int × Color)} {p : List Color}, setColors p edits = .ok p' →
    p'.length = p.length ∧ (∀ k, (∀ e ∈ edits, pyPos p.length e.1 ≠ some k) → p'[k]? = p[k]?) ∧
      (∀ k c, LastColor p.length edits k c → p'[k]? = some c)
  | [], p, h => by
    cases h
    refine ⟨rfl, fun _ _ => rfl, ?_⟩
    rintro k c ⟨before, i, after, h, -⟩
    cases before <;> cases h
  | (i0, c0) :: rest, p, h => by
    unfold setColors at h
    obtain ⟨q, hq, h⟩ := bind_eq_ok.1 h
    obtain ⟨a, ha, rfl⟩ := pySetI_ok.1 hq
    obtain ⟨h2, h3, h4⟩ := setColors_ok h
    simp only [List.length_set] at h2 h3 h4
    refine ⟨h2, ?_, ?_⟩
    · intro k hk
      rw [h3 k fun e he => hk e (List.mem_cons_of_mem _ he), List.getElem?_set_ne]
      rintro rfl
      exact hk (i0, c0) (by simp) ha
    · rintro k c ⟨before, j, after, he, hj, hl⟩
      cases before with
      | nil =>
        cases he
        rw [ha] at hj
        cases hj
        rw [h3 _ hl, List.getElem?_set_self (pyPos_lt ha)]
      | cons x before =>
        cases he
        exact h4 k c ⟨before, j, after, rfl, hj, hl⟩

theorem setColors_cases : ∀ (edits : List (Int × Color)) (p : List Color),
    ((∀ e ∈ edits, ∃ k, pyPos p.length e.1 = some k) → ∃ p', setColors p edits = .ok p') ∧
    ((∃ e ∈ edits, pyPos p.length e.1 = none) → setColors p edits = .error .indexError)
  | [], p => ⟨fun _ => ⟨p, rfl⟩, fun ⟨e, h, _⟩ => by cases h⟩
  | (i0, c0) :: rest, p => by
    unfold setColors pySetI
    cases ha : pyPos p.length i0 with
    | none =>
      refine ⟨fun h => ?_, fun _ => rfl⟩
      obtain ⟨k, hk⟩ := h (i0, c0) (by simp)
      rw [ha] at hk
      cases hk
    | some a =>
      dsimp only
      rw [bind_ok]
      obtain ⟨h1, h2⟩ := setColors_cases rest (p.set a c0)
      rw [List.length_set] at h1 h2
      refine ⟨fun h => h1 fun e he => h e (List.mem_cons_of_mem _ he), ?_⟩
      rintro ⟨e, he, hn⟩
      rcases List.mem_cons.1 he with rfl | he
      · rw [ha] at hn; cases hn
      · exact h2 ⟨e, he, hn⟩

theorem pack_stored (c : Color) : Color.pack c.r c.g c.b c.a =
    Color.pack (stored c).r (stored c).g (stored c).b (stored c).a := by
  have h5 : ∀ n : Nat, n % 32 &&& 0x1F = n &&& 0x1F := fun n => by
    rw [Bits.and_mask _ 5 rfl, Bits.and_mask _ 5 rfl]; omega
  have h1 : ∀ n : Nat, n % 2 &&& 1 = n &&& 1 := fun n => by
    rw [Bits.and_mask _ 1 rfl, Bits.and_mask _ 1 rfl]; omega
  unfold Color.pack stored
  dsimp only
  rw [h5, h5, h5, h1]

theorem stored_lt (c : Color) : (stored c).r < 32 ∧ (stored c).g < 32 ∧ (stored c).b < 32 ∧ (stored c).a < 2 := by
  unfold stored
  dsimp only
  omega

/-- What is loaded after saving a palette with any values. -/
theorem save_stored (p : List Color) : ∃ g, Color.savePalette p = .ok g ∧ g.length = 2 * p.length ∧
    Color.loadPalette g = .ok (p.map stored) := by
  have e : Color.savePalette p = Color.savePalette (p.map stored) := by
    rw [Proofs.Color.savePalette_eq, Proofs.Color.savePalette_eq, List.map_map]
    congr 2
    refine List.map_congr_left fun c _ => ?_
    rw [Function.comp_apply, pack_stored c]
  refine ⟨_, e.trans (Proofs.Color.savePalette_eq _), ?_, ?_⟩
  · rw [Proofs.Color.flatten_len _ (n := 2) (by simp), List.length_map]
  · refine Proofs.Color.load_save_palette ?_
    intro c hc
    obtain ⟨c', -, rfl⟩ := List.mem_map.1 hc
    exact stored_lt c'

theorem unpack_stored (n : Nat) : stored (Color.unpack n) = Color.unpack n := by
  unfold stored Color.unpack
  dsimp only
  rw [Bits.and_mask _ 5 rfl, Bits.and_mask _ 5 rfl, Bits.and_mask _ 5 rfl, Bits.and_mask _ 1 rfl]
  simp

/-- **C160.** After changing colours of a palette file it loads as the palette with the new colours, of which only the low bits
are kept, and nothing else has changed. -/
theorem recolor_result {edits : List (Int × Color)} {d g : Bytes} (h : recolor edits d = .ok g) :
    ∃ p p', Color.loadPalette d = .ok p ∧ Color.loadPalette g = .ok p' ∧ Painted edits p p' ∧
      g.length = 2 * (d.length / 2) := by
  unfold recolor at h
  obtain ⟨p, h1, h⟩ := bind_eq_ok.1 h
  obtain ⟨q, h2, h⟩ := bind_eq_ok.1 h
  obtain ⟨g1, g2, g3⟩ := setColors_ok h2
  obtain ⟨g', k1, k2, k3⟩ := save_stored q
  rw [h] at k1
  cases k1
  have hl : p.length = d.length / 2 ∧ p.map stored = p := by
    rw [Proofs.Color.loadPalette_eq] at h1
    cases h1
    refine ⟨by rw [List.length_map, Proofs.Color.pairs_length], ?_⟩
    rw [List.map_map]
    exact List.map_congr_left fun x _ => unpack_stored _
  refine ⟨p, _, h1, k3, ⟨?_, ?_, ?_⟩, by rw [k2, g1, hl.1]⟩
  · rw [List.length_map, g1]
  · intro k hk
    rw [List.getElem?_map, g2 k hk, ← List.getElem?_map, hl.2]
  · intro k c hk
    rw [List.getElem?_map, g3 k c hk]
    rfl

/-- **C160.** It works if and only if all the colours are there; otherwise it is an `IndexError`. -/
theorem recolor_cases (edits : List (Int × Color)) (d : Bytes) :
    ((∀ e ∈ edits, ∃ k, pyPos (d.length / 2) e.1 = some k) → ∃ g, recolor edits d = .ok g) ∧
    ((∃ e ∈ edits, pyPos (d.length / 2) e.1 = none) → recolor edits d = .error .indexError) := by
  obtain ⟨p, h1, h2, -⟩ := Color.palette_roundtrip_bytes d
  rw [← h2]
  unfold recolor
  rw [h1, bind_ok]
  obtain ⟨h3, h4⟩ := setColors_cases edits p
  refine ⟨fun h => ?_, fun h => by rw [h4 h]; rfl⟩
  obtain ⟨p', h5⟩ := h3 h
  obtain ⟨g, h6, -⟩ := save_stored p'
  exact ⟨g, by rw [h5, bind_ok, h6]⟩

/-- **C160.** Colours of a palette file in archives, compressed files and ROMs are changed, and every other file is what it
was. -/
theorem paint_result {limit : Nat} (h0 : 0 < limit) {u : Bool} {path : List Layer} {edits : List (Int × Color)}
    {d d' : Bytes} (h : paint limit u path edits d = .ok d') :
    ∃ a b p p', Spec.Nested.read limit path d = .ok a ∧ Color.loadPalette a = .ok p ∧
      Spec.Nested.read limit path d' = .ok b ∧ Color.loadPalette b = .ok p' ∧ Painted edits p p' ∧
      ∀ path', Apart limit path path' d → Spec.Nested.read limit path' d' = Spec.Nested.read limit path' d := by
  unfold paint at h
  obtain ⟨a, h1, h⟩ := bind_eq_ok.1 h
  obtain ⟨b, h2, h⟩ := bind_eq_ok.1 h
  obtain ⟨p, p', h3, h4, h5, -⟩ := recolor_result h2
  exact ⟨a, b, p, p', h1, h3, Nested.write_read h0 h, h4, h5, fun path' ha => Nested.write_apart h0 ha h⟩

/-! ## Examples -/

/-- An archive with a compressed four-bit picture of one tile and some more bytes `a`, and a palette `b` of two colours. -/
def art : Py Bytes := do
  let f ← Lz10.compress ((List.range 35).map UInt8.ofNat)
  Narc.save ⟨.mk .nil [[97], [98]] 0, [f, [0x1F, 0x80, 0, 0]], .little⟩

/-- Changes of the pixels 0 (twice) and 63, with indices from the beginning and from the end. -/
def dots : List Dot := [(0, 0, 7), (-1, -1, 0x25), (-1, -64, 9)]

example : (do
    let d ← art
    let d' ← draw 1 false [.narc [97], .lz10] .i4 dots d
    let a ← Spec.Nested.read 1 [.narc [97], .lz10] d'
    let b ← Spec.Nested.read 1 [.narc [98]] d'
    return (a, b)) = .ok ([9] ++ (List.range 31).tail.map UInt8.ofNat ++ [0x5F], [0x1F, 0x80, 0, 0]) := by decide +kernel

example : (do
    let d ← art
    let d' ← paint 1 false [.narc [98]] [(1, ⟨33, 2, 3, 4⟩), (-1, ⟨31, 31, 0, 1⟩)] d
    Spec.Nested.read 1 [.narc [98]] d') = .ok [0x1F, 0x80, 0xFF, 0x83] := by decide +kernel

example : LastDot 1 dots 0 0 9 ∧ LastDot 1 dots 0 63 0x25 ∧ ∀ e ∈ dots, ¬ Hits 1 e 0 5 := by
  unfold dots
  refine ⟨⟨[(0, 0, 7), (-1, -1, 0x25)], _, [], rfl, ⟨rfl, rfl⟩, rfl, by simp⟩,
    ⟨[(0, 0, 7)], _, [(-1, -64, 9)], rfl, ⟨rfl, rfl⟩, rfl, ?_⟩, ?_⟩ <;> (unfold Hits; decide)

example : redraw .i8 [(0, 3, 256)] (zeros 64) = .error .valueError ∧
    redraw .i8 [(0, 64, 1)] (zeros 64) = .error .indexError ∧
    redraw .i8 [(1, 3, 1)] (zeros 127) = .error .indexError := by decide +kernel

example : ∃ g, redraw .i8 [(0, 3, 256), (0, 3, 255)] (zeros 64) = .ok g := by
  refine ⟨_, (show redraw .i8 [(0, 3, 256), (0, 3, 255)] (zeros 64) = .ok ([0, 0, 0, 255] ++ zeros 60) by decide +kernel)⟩

end Verif.Props.Drawing
