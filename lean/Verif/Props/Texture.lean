import Verif.Proofs.TextureSave
import Verif.Proofs.TextureRender

/-!
# C45, C47, C75, C76: textures
-/

namespace Verif.Props.Texture

open Verif Verif.Model.Color Verif.Model.Texture Verif.Proofs.Texture Verif.Spec.Texture
open Verif.Props.InfoBlock (Clean)

/-! ## C45: the parameter word -/

/-- Sizes that the parameter word can hold. -/
def AllowedSize (n : Nat) : Prop := n ∈ [8, 16, 32, 64, 128, 256, 512, 1024]

theorem allowed_iff (n : Nat) : AllowedSize n ↔ ∃ k < 8, n = 8 * 2 ^ k := by
  unfold AllowedSize
  constructor
  · intro h
    simp only [List.mem_cons, List.not_mem_nil, or_false] at h
    rcases h with h | h | h | h | h | h | h | h <;> subst h
    · exact ⟨0, by decide, rfl⟩
    · exact ⟨1, by decide, rfl⟩
    · exact ⟨2, by decide, rfl⟩
    · exact ⟨3, by decide, rfl⟩
    · exact ⟨4, by decide, rfl⟩
    · exact ⟨5, by decide, rfl⟩
    · exact ⟨6, by decide, rfl⟩
    · exact ⟨7, by decide, rfl⟩
  · rintro ⟨k, hk, rfl⟩
    have : k = 0 ∨ k = 1 ∨ k = 2 ∨ k = 3 ∨ k = 4 ∨ k = 5 ∨ k = 6 ∨ k = 7 := by omega
    rcases this with h | h | h | h | h | h | h | h <;> subst h <;> decide

/-- **When a texture has a parameter word.** -/
theorem word_iff (t : Texture) : (∃ p, t.params = .ok p) ↔ AllowedSize t.width ∧ AllowedSize t.height := by
  rw [allowed_iff, allowed_iff]
  constructor
  · rintro ⟨p, hp⟩
    obtain ⟨w, h, h1, h2, h3, h4, _⟩ := params_eq_ok.1 hp
    exact ⟨⟨w, h1, h3⟩, h, h2, h4⟩
  · rintro ⟨⟨w, h1, h3⟩, h, h2, h4⟩
    exact ⟨_, params_eq_ok.2 ⟨w, h, h1, h2, h3, h4, rfl⟩⟩

theorem word_error {t : Texture} (h : ¬ (AllowedSize t.width ∧ AllowedSize t.height)) : t.params = .error .valueError := by
  rw [← word_iff] at h
  cases hp : t.params with
  | ok p => exact absurd ⟨p, hp⟩ h
  | error e => rw [params_error hp]

/-- **C45, from the word.** Making a texture from any 16-bit parameter word and saving it gives that word. -/
theorem word_roundtrip {p : Nat} (hp : p < 65536) (a b c : Nat) (d1 d2 : Bytes) :
    (Texture.new a b p c d1 d2).params = .ok p := by
  rw [params_eq_ok]
  refine ⟨p / 16 % 8, p / 128 % 8, by omega, by omega, ?_, ?_, ?_⟩
  · rw [new_eq]
  · rw [new_eq]
  · rw [new_eq, wordOf]
    dsimp only
    rw [flag_decide, flag_decide, flag_decide, flag_decide, flag_decide]
    omega

example : (Texture.new 1 2 0xABCD 3 [] []).params = .ok 0xABCD := by decide
example : (Texture.new 1 2 0xFFFF 3 [] []).params = .ok 0xFFFF := by decide

/-- **C45, from the attributes.** A texture that saves is made again from its word: every attribute reads back as set. -/
theorem fields_roundtrip {t : Texture} {p : Nat} (h : t.params = .ok p) (hf : t.format < 8)
    (hm : t.coordsTransformationMode < 4) : Texture.new t.unk00 t.unk02 p t.unk04 t.data1 t.data2 = t := by
  obtain ⟨w, h, h1, h2, h3, h4, rfl⟩ := params_eq_ok.1 h
  exact new_wordOf t h1 h2 h3 h4 hf hm

example : let t : Texture := ⟨1, 2, true, false, false, true, 1024, 8, 5, true, 3, 7, [1], [2]⟩
    t.params = .ok 62585 ∧ Texture.new 1 2 62585 7 [1] [2] = t := by decide

/-- **Where each attribute is in the word**, so that changing one leaves the bits of all others alone. -/
theorem word_layout {t : Texture} {p : Nat} (hw : t.params = .ok p) :
    p % 2 = (if t.repeatS = true then 1 else 0) ∧ p / 2 % 2 = (if t.repeatT = true then 1 else 0) ∧
    p / 4 % 2 = (if t.mirrorS = true then 1 else 0) ∧ p / 8 % 2 = (if t.mirrorT = true then 1 else 0) ∧
    t.width = 8 * 2 ^ (p / 16 % 8) ∧ t.height = 8 * 2 ^ (p / 128 % 8) ∧ p / 1024 % 8 = t.format % 8 ∧
    p / 8192 % 2 = (if t.isColor0Transparent = true then 1 else 0) ∧ p / 16384 = t.coordsTransformationMode % 4 := by
  obtain ⟨w, h, h1, h2, h3, h4, hp⟩ := params_eq_ok.1 hw
  subst hp
  change _ = flag _ ∧ _ = flag _ ∧ _ = flag _ ∧ _ = flag _ ∧ _ ∧ _ ∧ _ ∧ _ = flag _ ∧ _
  have f1 := flag_lt t.repeatS; have f2 := flag_lt t.repeatT; have f3 := flag_lt t.mirrorS; have f4 := flag_lt t.mirrorT
  have f5 := flag_lt t.isColor0Transparent
  have e1 : wordOf t w h / 16 % 8 = w := by unfold wordOf; omega
  have e2 : wordOf t w h / 128 % 8 = h := by unfold wordOf; omega
  rw [e1, e2]
  unfold wordOf
  refine ⟨by omega, by omega, by omega, by omega, h3, h4, by omega, by omega, by omega⟩

example : (⟨1, 2, true, false, false, true, 16, 32, 5, true, 3, 7, [1], [2]⟩ : Texture).params = .ok 0xF519 := by decide

/-- Two words are equal exactly when the attributes are. -/
theorem word_injective {t u : Texture} {p q : Nat} (h : t.params = .ok p) (h' : u.params = .ok q) (hf : t.format < 8)
    (hm : t.coordsTransformationMode < 4) (hf' : u.format < 8) (hm' : u.coordsTransformationMode < 4) :
    p = q ↔ t.repeatS = u.repeatS ∧ t.repeatT = u.repeatT ∧ t.mirrorS = u.mirrorS ∧ t.mirrorT = u.mirrorT ∧
      t.width = u.width ∧ t.height = u.height ∧ t.format = u.format ∧ t.isColor0Transparent = u.isColor0Transparent ∧
      t.coordsTransformationMode = u.coordsTransformationMode := by
  constructor
  · rintro rfl
    have e1 := fields_roundtrip h hf hm
    have e2 := fields_roundtrip h' hf' hm'
    refine ⟨?_, ?_, ?_, ?_, ?_, ?_, ?_, ?_, ?_⟩ <;> rw [← e1, ← e2] <;> rfl
  · rintro ⟨a1, a2, a3, a4, a5, a6, a7, a8, a9⟩
    have : t.params = u.params := by
      unfold Texture.params
      rw [a1, a2, a3, a4, a5, a6, a7, a8, a9]
    rw [h, h'] at this
    cases this
    rfl

/-! ## C47: NSBTX files -/

/-- The bits of data a format needs for a pixel, in the first and the second data block. -/
def bits : Nat → Nat × Nat
  | 1 => (8, 0)
  | 2 => (2, 0)
  | 3 => (4, 0)
  | 4 => (8, 0)
  | 5 => (2, 1)
  | 6 => (8, 0)
  | 7 => (16, 0)
  | _ => (0, 0)

/-- A texture whose data have the length that its format and size need. -/
def Complete (t : Texture) : Prop :=
  t.format < 8 ∧ t.coordsTransformationMode < 4 ∧ 8 * t.data1.length = t.width * t.height * (bits t.format).1 ∧
    8 * t.data2.length = t.width * t.height * (bits t.format).2

/-- The contents for which a file that saves is read back: complete textures, names that an info block can hold, palettes
of colours with components in range, no two palettes that agree in name and unknown numbers, and no empty palette before
one that is not empty. -/
def Representable (t : NSBTX) : Prop :=
  (∀ x ∈ t.textures, Complete x.2 ∧ Clean x.1) ∧
  (∀ x ∈ t.palettes, Clean x.1 ∧ ∀ c ∈ x.2.colors, c.r < 32 ∧ c.g < 32 ∧ c.b < 32 ∧ c.a < 2) ∧
  (t.palettes.map fun x => (x.1, x.2.unk00, x.2.unk02, x.2.unkHeader02)).Nodup ∧
  t.palettes.Pairwise fun x y => x.2.colors = [] → y.2.colors = []

theorem emptyLast_iff : ∀ xs : List (Option Str × Palette), EmptyLast xs ↔
    xs.Pairwise fun x y => x.2.colors = [] → y.2.colors = []
  | [] => by simp [EmptyLast]
  | x :: xs => by
    rw [EmptyLast, List.pairwise_cons, emptyLast_iff xs]
    constructor
    · rintro ⟨h1, h2⟩; exact ⟨fun y hy hx => h1 hx y hy, h2⟩
    · rintro ⟨h1, h2⟩; exact ⟨fun hx y hy => h1 y hy hx, h2⟩

theorem complete_ok {t : Texture} (h : Complete t) : TexOk t := by
  obtain ⟨h1, h2, h3, h4⟩ := h
  have : t.format = 0 ∨ t.format = 1 ∨ t.format = 2 ∨ t.format = 3 ∨ t.format = 4 ∨ t.format = 5 ∨ t.format = 6 ∨
    t.format = 7 := by omega
  have e1 : (bits t.format).1 = bitsPerPixel1 t.format := by
    rcases this with h | h | h | h | h | h | h | h <;> rw [h] <;> rfl
  have e2 : (bits t.format).2 = bitsPerPixel2 t.format := by
    rcases this with h | h | h | h | h | h | h | h <;> rw [h] <;> rfl
  rw [e1] at h3
  rw [e2] at h4
  exact ⟨h1, h2, by rw [← h3]; omega, by rw [← h4]; omega⟩

/-- **C47.** An NSBTX that saves and whose contents are representable is read back from the saved file. -/
theorem nsbtx_roundtrip {t : NSBTX} {b : Bytes} (h : Model.Texture.save t = .ok b) (hr : Representable t) :
    Model.Texture.load b = .ok t := by
  obtain ⟨h1, h2, h3, h4⟩ := hr
  exact load_save h ⟨fun x hx => complete_ok (h1 x hx).1, fun x hx => (h1 x hx).2, fun x hx => (h2 x hx).2,
    fun x hx => (h2 x hx).1, h3, (emptyLast_iff _).2 h4⟩

/-- Every texture that is accepted has a size the word can hold, and a texeled one has twice as much first as second data. -/
theorem textures_accepted : ∀ {xs : List (Option Str × Texture)} {s s' : SaveTex}, saveTextures s xs = .ok s' →
    ∀ x ∈ xs, (∃ w, x.2.width = 8 * 2 ^ w ∧ w < 8) ∧ (∃ w, x.2.height = 8 * 2 ^ w ∧ w < 8) ∧
      (x.2.format = 5 → x.2.data1.length = 2 * x.2.data2.length)
  | [], _, _, _, _, hx => nomatch hx
  | y :: ys, s, s', h, x, hx => by
    rw [saveTextures] at h
    simp only [bind_eq_ok] at h
    obtain ⟨s1, h1, h2⟩ := h
    rcases List.mem_cons.1 hx with rfl | hx
    · unfold saveTexture at h1
      simp only [bind_eq_ok] at h1
      obtain ⟨p, hp, h1⟩ := h1
      obtain ⟨w, k, g1, g2, g3, g4, -⟩ := params_eq_ok.1 hp
      refine ⟨⟨w, g3, by omega⟩, ⟨k, g4, by omega⟩, ?_⟩
      intro hf
      rw [if_pos (show x.2.format = TEXELED from hf)] at h1
      simp only [bind_eq_ok, raiseIf_eq_ok] at h1
      obtain ⟨_, hl, -⟩ := h1
      omega
    · exact textures_accepted h2 x hx

theorem palettes_accepted : ∀ {xs : List (Option Str × Palette)} {s s' : Bytes × List Model.InfoBlock.Entry},
    savePalettes s xs = .ok s' → ∀ x ∈ xs, x.2.colors.length % 4 = 0
  | [], _, _, _, _, hx => nomatch hx
  | y :: ys, s, s', h, x, hx => by
    rw [savePalettes] at h
    simp only [bind_eq_ok] at h
    obtain ⟨s1, h1, h2⟩ := h
    rcases List.mem_cons.1 hx with rfl | hx
    · unfold savePaletteEntry at h1
      simp only [bind_eq_ok, raiseIf_eq_ok] at h1
      obtain ⟨d, hd, _, hl, -⟩ := h1
      rw [Proofs.Color.savePalette_eq] at hd
      cases hd
      rw [flatten_length_const (n := 2) (by
        intro p hp
        obtain ⟨c, -, rfl⟩ := List.mem_map.1 hp
        exact leBytes_length _ _), List.length_map] at hl
      omega
    · exact palettes_accepted h2 x hx

/-- **C47, what `save` refuses.** A file only saves if every texture has sides of 8 to 1024 that are powers of two, every
texeled texture has twice as much data in the first block as in the second, and every palette has a multiple of four
colours. -/
theorem nsbtx_accepts {t : NSBTX} {b : Bytes} (h : Model.Texture.save t = .ok b) :
    (∀ x ∈ t.textures, (∃ w, x.2.width = 8 * 2 ^ w ∧ w < 8) ∧ (∃ w, x.2.height = 8 * 2 ^ w ∧ w < 8) ∧
      (x.2.format = 5 → x.2.data1.length = 2 * x.2.data2.length)) ∧
    ∀ x ∈ t.palettes, x.2.colors.length % 4 = 0 := by
  unfold Model.Texture.save saveTEX0 at h
  simp only [bind_eq_ok] at h
  obtain ⟨_, ⟨tex, h1, _, _, pal, h2, -⟩, -⟩ := h
  exact ⟨textures_accepted h1, palettes_accepted h2⟩

/-- A compressed and a paletted texture, two palettes. -/
def sample : NSBTX where
  unk08 := 1
  unk10 := 2
  unk18 := 3
  unk20 := 4
  unk2C := 5
  unk32 := 6
  textures := [(some [0x61], ⟨1, 2, true, false, false, true, 8, 8, 5, true, 3, 7, List.replicate 16 0x1B, List.replicate 8 5⟩),
    (some [0x62], ⟨3, 4, false, false, false, true, 8, 16, 2, false, 0, 7, List.replicate 32 9, []⟩)]
  palettes := [(some [0x63], ⟨1, 2, 3, [⟨1, 2, 3, 1⟩, ⟨4, 5, 6, 0⟩, ⟨7, 8, 9, 0⟩, ⟨31, 31, 31, 1⟩]⟩),
    (some [0x64], ⟨1, 2, 3, []⟩)]

theorem sample_representable : Representable sample := by
  have hc : ∀ n : Nat, n ≠ 0 → Clean (some [n]) := by
    intro n hn
    refine ⟨[n], rfl, by simp, fun t ht => ?_⟩
    have := congrArg List.getLast? ht
    simp at this
    exact hn this
  refine ⟨?_, ?_, by decide, by decide⟩
  · intro x hx
    simp only [sample, List.mem_cons, List.not_mem_nil, or_false] at hx
    rcases hx with rfl | rfl
    · exact ⟨by simp only [Complete]; decide, hc _ (by decide)⟩
    · exact ⟨by simp only [Complete]; decide, hc _ (by decide)⟩
  · intro x hx
    simp only [sample, List.mem_cons, List.not_mem_nil, or_false] at hx
    rcases hx with rfl | rfl
    · exact ⟨hc _ (by decide), by decide⟩
    · exact ⟨hc _ (by decide), by decide⟩

example : ∃ b, Model.Texture.save sample = .ok b ∧ Model.Texture.load b = .ok sample := by
  cases h : Model.Texture.save sample with
  | ok b => exact ⟨b, rfl, nsbtx_roundtrip h sample_representable⟩
  | error e =>
    exfalso
    have : (Model.Texture.save sample).isOk = true := by decide +kernel
    rw [h] at this
    cases this

/-- An empty palette before one with colours: the second one's colours are lost, since both begin at the same place and
the first of the two ends there. -/
theorem empty_palette_spoils : ∃ t b t', Model.Texture.save t = .ok b ∧ Model.Texture.load b = .ok t' ∧
    t.palettes.map (·.2.colors.length) = [0, 4] ∧ t'.palettes.map (·.2.colors.length) = [0, 0] := by
  have h : (Model.Texture.save ⟨0, 0, 0, 0, 0, 0, [], [(some [0x61], ⟨0, 0, 0, []⟩),
      (some [0x62], ⟨0, 0, 0, List.replicate 4 ⟨1, 2, 3, 1⟩⟩)]⟩ >>= Model.Texture.load) =
      .ok ⟨0, 0, 0, 0, 0, 0, [], [(some [0x61], ⟨0, 0, 0, []⟩), (some [0x62], ⟨0, 0, 0, []⟩)]⟩ := by decide +kernel
  obtain ⟨b, h1, h2⟩ := bind_eq_ok.1 h
  exact ⟨_, b, _, h1, h2, rfl, rfl⟩

/-- Two palettes with the same name and unknown numbers: the first is read back with the colours of the second. -/
theorem same_palettes_spoil : ∃ t b t', Model.Texture.save t = .ok b ∧ Model.Texture.load b = .ok t' ∧
    t.palettes.map (·.2.colors.map Color.r) = [[1, 1, 1, 1], [2, 2, 2, 2]] ∧
    t'.palettes.map (·.2.colors.map Color.r) = [[2, 2, 2, 2], [2, 2, 2, 2]] := by
  have h : (Model.Texture.save ⟨0, 0, 0, 0, 0, 0, [], [(some [0x61], ⟨0, 0, 0, List.replicate 4 ⟨1, 0, 0, 0⟩⟩),
      (some [0x61], ⟨0, 0, 0, List.replicate 4 ⟨2, 0, 0, 0⟩⟩)]⟩ >>= Model.Texture.load) =
      .ok ⟨0, 0, 0, 0, 0, 0, [], [(some [0x61], ⟨0, 0, 0, List.replicate 4 ⟨2, 0, 0, 0⟩⟩),
        (some [0x61], ⟨0, 0, 0, List.replicate 4 ⟨2, 0, 0, 0⟩⟩)]⟩ := by decide +kernel
  obtain ⟨b, h1, h2⟩ := bind_eq_ok.1 h
  exact ⟨_, b, _, h1, h2, rfl, rfl⟩

/-- A texture with less data than it needs is saved without complaint and read back with the data of the next one. -/
theorem short_data_spoils : ∃ t b t', Model.Texture.save t = .ok b ∧ Model.Texture.load b = .ok t' ∧
    t.textures.map (·.2.data1) = [[], List.replicate 16 7] ∧
    t'.textures.map (·.2.data1) = [List.replicate 16 7, List.replicate 16 7] := by
  have h : (Model.Texture.save ⟨0, 0, 0, 0, 0, 0, [
        (some [0x61], ⟨0, 0, false, false, false, false, 8, 8, 2, false, 0, 0, [], []⟩),
        (some [0x62], ⟨0, 0, false, false, false, false, 8, 8, 2, false, 0, 0, List.replicate 16 7, []⟩)], []⟩ >>=
        Model.Texture.load) =
      .ok ⟨0, 0, 0, 0, 0, 0, [
        (some [0x61], ⟨0, 0, false, false, false, false, 8, 8, 2, false, 0, 0, List.replicate 16 7, []⟩),
        (some [0x62], ⟨0, 0, false, false, false, false, 8, 8, 2, false, 0, 0, List.replicate 16 7, []⟩)], []⟩ := by
    decide +kernel
  obtain ⟨b, h1, h2⟩ := bind_eq_ok.1 h
  exact ⟨_, b, _, h1, h2, rfl, rfl⟩

/-! ## C75: the pixels of a rendered texture -/

/-- The sizes that the loops of a format cover: whole bytes, whole blocks. -/
def Covered (format w h : Nat) : Prop :=
  (format = 2 → 4 ∣ w) ∧ (format = 3 → 2 ∣ w) ∧ (format = 5 → 4 ∣ w ∧ 4 ∣ h)

/-- Every size a texture can have is covered. -/
theorem allowed_covered {w h format : Nat} (hw : AllowedSize w) (hh : AllowedSize h) : Covered format w h := by
  have h8 : ∀ n, AllowedSize n → 4 ∣ n ∧ 2 ∣ n := by
    intro n hn
    unfold AllowedSize at hn
    simp only [List.mem_cons, List.not_mem_nil, or_false] at hn
    omega
  exact ⟨fun _ => (h8 w hw).1, fun _ => (h8 w hw).2, fun _ => ⟨(h8 w hw).1, (h8 h hh).1⟩⟩

/-- **C75.** With the tables prepared and a palette of 16-bit colours, the image has exactly the pixels that the format
defines, row by row; and rendering succeeds exactly when the data and the palette suffice for every pixel. -/
theorem render_spec {format : Nat} {pal : List Nat} {data1 data2 : Bytes} {transparent : Bool} {w h : Nat} {img : Dest}
    (hf : 1 ≤ format ∧ format ≤ 7) (hc : Covered format w h) :
    renderTextureData true data1 data2 format w h (some (pal.map .int)) transparent = .ok img ↔
      (∀ i < w * h, (pixelAt format pal data1 data2 transparent w i).isSome) ∧
        img = (List.range (w * h)).map (pixelAt format pal data1 data2 transparent w) := by
  have : format = 1 ∨ format = 2 ∨ format = 3 ∨ format = 4 ∨ format = 5 ∨ format = 6 ∨ format = 7 := by omega
  obtain ⟨c2, c3, c5⟩ := hc
  rcases this with rfl | rfl | rfl | rfl | rfl | rfl | rfl
  · exact render_A3I5
  · obtain ⟨m, rfl⟩ := c2 rfl
    exact render_I2
  · obtain ⟨m, rfl⟩ := c3 rfl
    exact render_I4
  · exact render_I8
  · obtain ⟨⟨m, rfl⟩, n, rfl⟩ := c5 rfl
    exact render_texeled
  · exact render_A5I3
  · exact render_A1BGR5

example : renderTextureData true [0xE4] [] 2 4 1 (some ([0x001F, 0x03E0, 0x7C00, 0x7FFF].map .int)) true =
    .ok [some ⟨31, 0, 0, 0⟩, some ⟨0, 31, 0, 31⟩, some ⟨0, 0, 31, 31⟩, some ⟨31, 31, 31, 31⟩] := by
  rw [render_spec (by decide) ⟨by decide, by decide, by decide⟩]
  decide

/-- A texel block in the mode that mixes 5 : 3 and 3 : 5. -/
example : renderTextureData true [0xE4, 0xE4, 0xE4, 0xE4] [0, 0xC0] 5 4 4 (some ([0x001F, 0x7C08].map .int)) true =
    .ok (List.replicate 4 [some ⟨31, 0, 0, 31⟩, some ⟨8, 0, 31, 31⟩, some ⟨22, 0, 11, 31⟩, some ⟨16, 0, 19, 31⟩]).flatten := by
  rw [render_spec (by decide) ⟨by decide, by decide, by decide⟩]
  decide

/-- Direct colours need no palette. -/
theorem direct_spec {data1 data2 : Bytes} {transparent : Bool} {w h : Nat} {img : Dest} {palette : Option (List PalColor)} :
    renderTextureData true data1 data2 7 w h palette transparent = .ok img ↔ 2 * (w * h) ≤ data1.length ∧
      img = (List.range (w * h)).map (pixelAt 7 [] data1 data2 transparent w) := by
  rw [render_A1BGR5 (pal := [])]
  refine and_congr_left fun _ => ⟨fun hi => ?_, fun hl i hi => ?_⟩
  · rcases Nat.eq_zero_or_pos (w * h) with h0 | h0
    · omega
    · have := hi (w * h - 1) (by omega)
      by_cases hl : 2 * (w * h - 1) + 1 < data1.length
      · omega
      · rw [pixelAt, List.getElem?_eq_none (i := 2 * (w * h - 1) + 1) (by omega)] at this
        · cases data1[2 * (w * h - 1)]? <;> simp at this
        all_goals decide
  · rw [pixelAt, List.getElem?_eq_getElem (i := 2 * i) (by omega), List.getElem?_eq_getElem (i := 2 * i + 1) (by omega)]
    · rfl
    all_goals decide

example : renderTextureData true [0x1F, 0x80, 0xE0, 0x03] [] 7 2 1 none false =
    .ok [some ⟨31, 0, 0, 31⟩, some ⟨0, 31, 0, 0⟩] := by
  rw [direct_spec]; decide

/-! ## C76: rendering with a `Palette` -/

/-- **C76, what does hold**: once the tables are prepared, a texture of direct colours renders with any palette, exactly
if it has data for every pixel, to the pixels that the format defines.  (Missing: all other formats, see `paletted_never` and
`texeled_no_colour`, and textures rendered before the tables are prepared, see `unprepared`.) -/
theorem direct_render_partial {t : Texture} (hf : t.format = 7) (palette : Option Palette) {img : Dest} :
    t.render true palette = .ok img ↔ 2 * (t.width * t.height) ≤ t.data1.length ∧
      img = (List.range (t.width * t.height)).map (pixelAt 7 [] t.data1 t.data2 t.isColor0Transparent t.width) := by
  unfold Texture.render
  rw [hf]
  exact direct_spec

/-- Nothing is rendered before `color.prepareLUTs()` has been called. -/
theorem unprepared (t : Texture) (palette : Option Palette) :
    t.render false palette = .error (if t.format = 0 ∨ 7 < t.format then .valueError else .attributeError) := by
  unfold Texture.render renderTextureData
  dsimp only
  split <;> rfl

theorem unknown_format (prepared : Bool) {t : Texture} (palette : Option Palette) (h : t.format = 0 ∨ 7 < t.format) :
    t.render prepared palette = .error .valueError := by
  unfold Texture.render renderTextureData
  exact if_pos h

theorem pixel_tup (palette : Palette) (i a : Nat) :
    ∃ e, pixel (some (palette.colors.map .tup)) i a = .error e := by
  unfold pixel colorAt pyIdx
  dsimp only
  rw [List.getElem?_map]
  cases palette.colors[i]? with
  | none => exact ⟨_, rfl⟩
  | some c => exact ⟨_, rfl⟩

theorem cells_head {h sy w sx : Nat} (hh : 0 < h) (hw : 0 < w) (hsy : 0 < sy) (hsx : 0 < sx) :
    ∃ l, cells h sy w sx = (0, 0) :: l := by
  have e : ∀ n s, 0 < n → 0 < s → ∃ m, (n + s - 1) / s = m + 1 := by
    intro n s hn hs
    have : 1 ≤ (n + s - 1) / s := by rw [Nat.le_div_iff_mul_le hs]; omega
    exact ⟨(n + s - 1) / s - 1, by omega⟩
  obtain ⟨m, hm⟩ := e h sy hh hsy
  obtain ⟨n, hn⟩ := e w sx hw hsx
  unfold cells
  rw [hm, hn, List.range_succ_eq_map, List.range_succ_eq_map, List.flatMap_cons, List.map_cons]
  exact ⟨_, rfl⟩

theorem runCells_head {σ α : Type} {body : σ → α → Py σ} {s : σ} {a : α} {l : List α} {e : PyErr} (h : body s a = .error e) :
    runCells body s (a :: l) = .error e := by
  rw [runCells, h]; rfl

/-- **C76.** A texture in a paletted format is never rendered with a `Palette`: the tables are indexed with the colours,
which are tuples in a `Palette`. -/
theorem paletted_never {t : Texture} (palette : Palette) (hf : t.format ∈ [1, 2, 3, 4, 6]) (hw : 0 < t.width)
    (hh : 0 < t.height) : ∃ e, t.render true (some palette) = .error e := by
  unfold Texture.render
  rw [Option.map_some]
  obtain ⟨l1, h1⟩ := cells_head hh hw (sy := 1) (sx := 1) (by decide) (by decide)
  obtain ⟨l2, h2⟩ := cells_head hh hw (sy := 1) (sx := 2) (by decide) (by decide)
  obtain ⟨l4, h4⟩ := cells_head hh hw (sy := 1) (sx := 4) (by decide) (by decide)
  simp only [List.mem_cons, List.not_mem_nil, or_false] at hf
  have hput : ∀ tr d p v, ∃ e, putIndexed (some (palette.colors.map .tup)) tr d p v = .error e := by
    intro tr d p v
    unfold putIndexed
    obtain ⟨e, he⟩ := pixel_tup palette v (alphaFor v tr)
    rw [he]
    exact ⟨e, rfl⟩
  have stop : ∀ {body : Bytes × Dest → Nat × Nat → Py (Bytes × Dest)} {s : Bytes × Dest} {l : List (Nat × Nat)},
      (∃ e, body s (0, 0) = .error e) →
      ∃ e, (do
        let r ← runCells body s ((0, 0) :: l)
        return r.2 : Py Dest) = .error e := by
    rintro body s l ⟨e, he⟩
    rw [runCells_head he]
    exact ⟨e, rfl⟩
  unfold renderTextureData
  dsimp only
  rw [if_neg (by omega), if_neg (by decide)]
  rcases hf with h | h | h | h | h <;> rw [h]
  · refine h1 ▸ stop ?_
    unfold cellA3I5
    cases t.data1 with
    | nil => exact ⟨_, rfl⟩
    | cons v it =>
      dsimp only
      obtain ⟨e, he⟩ := pixel_tup palette (v.toNat &&& 0x1F) (((v.toNat >>> 5) <<< 2) ||| ((v.toNat >>> 5) >>> 1))
      rw [he]
      exact ⟨e, rfl⟩
  · refine h4 ▸ stop ?_
    unfold cellI2
    cases t.data1 with
    | nil => exact ⟨_, rfl⟩
    | cons v it =>
      dsimp only
      obtain ⟨e, he⟩ := hput t.isColor0Transparent (List.replicate (t.width * t.height) none) (0 * t.width + 0) (v.toNat &&& 3)
      rw [he]
      exact ⟨e, rfl⟩
  · refine h2 ▸ stop ?_
    unfold cellI4
    cases t.data1 with
    | nil => exact ⟨_, rfl⟩
    | cons v it =>
      dsimp only
      obtain ⟨e, he⟩ := hput t.isColor0Transparent (List.replicate (t.width * t.height) none) (0 * t.width + 0) (v.toNat &&& 0xF)
      rw [he]
      exact ⟨e, rfl⟩
  · have : ∃ e, cellI8 t.data1 (some (palette.colors.map .tup)) t.isColor0Transparent t.width
        (List.replicate (t.width * t.height) none) (0, 0) = .error e := by
      unfold cellI8
      cases pyIdx t.data1 (0 * t.width + 0) with
      | error e => exact ⟨e, rfl⟩
      | ok v => exact hput _ _ _ _
    obtain ⟨e, he⟩ := this
    exact ⟨e, h1 ▸ runCells_head he⟩
  · refine h1 ▸ stop ?_
    unfold cellA5I3
    cases t.data1 with
    | nil => exact ⟨_, rfl⟩
    | cons v it =>
      dsimp only
      obtain ⟨e, he⟩ := pixel_tup palette (v.toNat &&& 0x7) (v.toNat >>> 3)
      rw [he]
      exact ⟨e, rfl⟩

/-- How many colours a paletted format can show. -/
def palSize (format : Nat) : Nat :=
  match format with
  | 1 => 32
  | 2 => 4
  | 3 => 16
  | 4 => 256
  | _ => 8

/-- **C76.** What is raised is TypeError, if the texture has data and the palette has the colour of its first pixel. -/
theorem paletted_type_error {t : Texture} (palette : Palette) (hf : t.format ∈ [1, 2, 3, 4, 6]) (hw : 0 < t.width)
    (hh : 0 < t.height) {v : UInt8} {it : Bytes} (hd : t.data1 = v :: it)
    (hc : v.toNat % palSize t.format < palette.colors.length) : t.render true (some palette) = .error .typeError := by
  have hpix : ∀ i a, i < palette.colors.length → pixel (some (palette.colors.map .tup)) i a = .error .typeError := by
    intro i a hi
    unfold pixel colorAt pyIdx
    dsimp only
    rw [List.getElem?_map, List.getElem?_eq_getElem hi]
    rfl
  have hput : ∀ tr d p i, i < palette.colors.length → putIndexed (some (palette.colors.map .tup)) tr d p i = .error .typeError := by
    intro tr d p i hi
    unfold putIndexed
    rw [hpix i _ hi]
    rfl
  obtain ⟨l1, h1⟩ := cells_head hh hw (sy := 1) (sx := 1) (by decide) (by decide)
  obtain ⟨l2, h2⟩ := cells_head hh hw (sy := 1) (sx := 2) (by decide) (by decide)
  obtain ⟨l4, h4⟩ := cells_head hh hw (sy := 1) (sx := 4) (by decide) (by decide)
  have stop : ∀ {body : Bytes × Dest → Nat × Nat → Py (Bytes × Dest)} {s : Bytes × Dest} {l : List (Nat × Nat)},
      body s (0, 0) = .error .typeError →
      (do
        let r ← runCells body s ((0, 0) :: l)
        return r.2 : Py Dest) = .error .typeError := by
    intro body s l he
    rw [runCells_head he]
    rfl
  simp only [List.mem_cons, List.not_mem_nil, or_false] at hf
  unfold Texture.render
  rw [Option.map_some]
  unfold renderTextureData
  dsimp only
  rw [if_neg (by omega), if_neg (by decide), hd]
  rcases hf with h | h | h | h | h <;> rw [h] at hc ⊢ <;> dsimp only [palSize] at hc ⊢
  · refine h1 ▸ stop ?_
    show (pixel _ (v.toNat &&& 0x1F) _).bind _ = _
    rw [hpix _ _ (by rw [Nat.and_two_pow_sub_one_eq_mod v.toNat 5]; exact hc)]
    rfl
  · refine h4 ▸ stop ?_
    show (putIndexed _ _ _ _ (v.toNat &&& 3)).bind _ = _
    rw [hput _ _ _ _ (by rw [Nat.and_two_pow_sub_one_eq_mod v.toNat 2]; exact hc)]
    rfl
  · refine h2 ▸ stop ?_
    show (putIndexed _ _ _ _ (v.toNat &&& 15)).bind _ = _
    rw [hput _ _ _ _ (by rw [Nat.and_two_pow_sub_one_eq_mod v.toNat 4]; exact hc)]
    rfl
  · rw [h1]
    refine runCells_head ?_
    unfold cellI8
    rw [show 0 * t.width + 0 = 0 by omega]
    show putIndexed _ _ _ 0 v.toNat = _
    have := v.toNat_lt
    rw [Nat.mod_eq_of_lt (by omega)] at hc
    exact hput _ _ _ _ hc
  · refine h1 ▸ stop ?_
    show (pixel _ (v.toNat &&& 7) _).bind _ = _
    rw [hpix _ _ (by rw [Nat.and_two_pow_sub_one_eq_mod v.toNat 3]; exact hc)]
    rfl

example : (⟨0, 0, false, false, false, false, 8, 8, 2, false, 0, 0, List.replicate 16 7, []⟩ : Texture).render true
    (some ⟨0, 0, 0, List.replicate 4 ⟨1, 2, 3, 1⟩⟩) = .error .typeError := by decide

/-- Compressed textures rendered with a `Palette` show no colour: if rendering succeeds at all, every pixel that was
written is transparent black. -/
theorem texeled_no_colour {t : Texture} (palette : Palette) (hf : t.format = 5) {img : Dest}
    (h : t.render true (some palette) = .ok img) : ∀ x ∈ img, x = none ∨ x = some ⟨0, 0, 0, 0⟩ := by
  unfold Texture.render at h
  rw [Option.map_some, hf] at h
  change (do
      let r ← runCells (cellTexeled (some (palette.colors.map .tup)) t.width)
        (t.data1, t.data2, List.replicate (t.width * t.height) none) (cells t.height 4 t.width 4)
      return r.2.2 : Py Dest) = _ at h
  have inv : ∀ {σ α : Type} (P : σ → Prop) (body : σ → α → Py σ), (∀ s a s', P s → body s a = .ok s' → P s') →
      ∀ l s s', P s → runCells body s l = .ok s' → P s' := by
    intro σ α P body hb l
    induction l with
    | nil => intro s s' hp h; cases h; exact hp
    | cons a l ih =>
      intro s s' hp h
      rw [runCells] at h
      obtain ⟨s1, h1, h2⟩ := bind_eq_ok.1 h
      exact ih s1 s' (hb s a s1 hp h1) h2
  have hset : ∀ (d d' : Dest) p, (∀ x ∈ d, x = none ∨ x = some ⟨0, 0, 0, 0⟩) →
      pySet d p (some ⟨0, 0, 0, 0⟩) = .ok d' → ∀ x ∈ d', x = none ∨ x = some ⟨0, 0, 0, 0⟩ := by
    intro d d' p hd hs x hx
    unfold pySet at hs
    split at hs
    · cases hs
      rcases List.mem_or_eq_of_mem_set hx with h | h
      · exact hd x h
      · exact Or.inr h
    · cases hs
  have hcol : ∀ i c, colorAt (some (palette.colors.map PalColor.tup)) i = .ok c → ∃ k, c = .tup k := by
    intro i c hc
    unfold colorAt pyIdx at hc
    dsimp only at hc
    rw [List.getElem?_map] at hc
    cases hp : palette.colors[i]? with
    | none => rw [hp] at hc; cases hc
    | some k => rw [hp] at hc; cases hc; exact ⟨k, rfl⟩
  have hmix : ∀ off k0 k1 s c, mix (some (palette.colors.map PalColor.tup)) off k0 k1 s = .ok c → False := by
    intro off k0 k1 s c hc
    unfold mix at hc
    obtain ⟨c0, h1, hc⟩ := bind_eq_ok.1 hc
    obtain ⟨c1, h2, hc⟩ := bind_eq_ok.1 hc
    obtain ⟨k, rfl⟩ := hcol _ _ h1
    cases hc
  have htex : ∀ off m sub c, texelColor (some (palette.colors.map PalColor.tup)) off m sub = .ok (some c) → ∃ k, c = .tup k := by
    intro off m sub c hc
    have hone : ∀ i, (do let c ← colorAt (some (palette.colors.map PalColor.tup)) i; return some c : Py (Option PalColor)) =
        .ok (some c) → ∃ k, c = .tup k := by
      intro i hi
      obtain ⟨c', h1, h2⟩ := bind_eq_ok.1 hi
      cases h2
      exact hcol i _ h1
    have htwo : ∀ off k0 k1 s, (do let c ← mix (some (palette.colors.map PalColor.tup)) off k0 k1 s; return some c :
        Py (Option PalColor)) = .ok (some c) → ∃ k, c = .tup k := by
      intro off k0 k1 s hi
      obtain ⟨c', h1, h2⟩ := bind_eq_ok.1 hi
      exact absurd (hmix _ _ _ _ _ h1) id
    unfold texelColor at hc
    repeat' split at hc
    all_goals first
      | exact hone _ hc
      | exact htwo _ _ _ _ hc
      | exact nomatch hc
  have hput : ∀ off m sub (d : Dest) p d', (∀ x ∈ d, x = none ∨ x = some ⟨0, 0, 0, 0⟩) →
      putTexel (some (palette.colors.map PalColor.tup)) off m sub d p = .ok d' →
      ∀ x ∈ d', x = none ∨ x = some ⟨0, 0, 0, 0⟩ := by
    intro off m sub d p d' hd hp
    unfold putTexel at hp
    obtain ⟨c, h1, h2⟩ := bind_eq_ok.1 hp
    cases c with
    | none => exact hset _ _ _ hd h2
    | some c =>
      obtain ⟨k, rfl⟩ := htex _ _ _ _ h1
      cases h2
  obtain ⟨r, h1, h2⟩ := bind_eq_ok.1 h
  cases h2
  refine inv (fun s : Bytes × Bytes × Dest => ∀ x ∈ s.2.2, x = none ∨ x = some ⟨0, 0, 0, 0⟩) _ ?_ _ _ _ ?_ h1
  · intro s a s' hp hb
    unfold cellTexeled at hb
    split at hb
    · obtain ⟨r, hr, hs⟩ := bind_eq_ok.1 hb
      cases hs
      refine inv (fun s : Bytes × Dest => ∀ x ∈ s.2, x = none ∨ x = some ⟨0, 0, 0, 0⟩) _ ?_ _ _ r ?_ hr
      · intro s a s' hp hb
        unfold texelRow at hb
        split at hb
        · cases hb
        · obtain ⟨r, hr, hs⟩ := bind_eq_ok.1 hb
          cases hs
          exact inv (fun d : Dest => ∀ x ∈ d, x = none ∨ x = some ⟨0, 0, 0, 0⟩) _
            (fun d a d' hd hb => hput _ _ _ _ _ _ hd hb) _ _ _ hp hr
      · exact hp
    · cases hb
  · intro x hx
    exact Or.inl (List.eq_of_mem_replicate hx)

example : (⟨0, 0, false, false, false, false, 8, 8, 5, false, 0, 0, List.replicate 16 0xFF, List.replicate 8 0⟩ : Texture).render
    true (some ⟨0, 0, 0, List.replicate 4 ⟨1, 2, 3, 1⟩⟩) = .ok (List.replicate 64 (some ⟨0, 0, 0, 0⟩)) := by decide +kernel

end Verif.Props.Texture
