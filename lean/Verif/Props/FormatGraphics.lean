import Verif.Spec.FormatGraphics
import Verif.Proofs.Reader
import Verif.Props.Color
import Verif.Props.Graphics2D

/-!
# Colours, palettes, tiles and tilemaps, bit by bit (C109)
-/

namespace Verif.Props.FormatGraphics

open Verif Verif.Model.Color Verif.Model.Graphics2D Verif.Spec.Reader Verif.Spec.FormatGraphics Verif.Proofs.Reader

theorem unpack_bits (v : Nat) : unpack v = colorOf v := by
  unfold unpack colorOf bits
  rw [Bits.and_mask _ 5 rfl, Bits.and_mask _ 5 rfl, Bits.and_mask _ 5 rfl, Bits.and_mask _ 1 rfl]
  simp only [Nat.shiftRight_eq_div_pow, Nat.pow_zero, Nat.div_one]

theorem colorOf_lt (v : Nat) : (colorOf v).r < 32 ∧ (colorOf v).g < 32 ∧ (colorOf v).b < 32 ∧ (colorOf v).a < 2 := by
  unfold colorOf bits
  refine ⟨?_, ?_, ?_, ?_⟩ <;> exact Nat.mod_lt _ (by decide)

theorem number_color {v : Nat} (h : v < 2 ^ 16) : numberOf (colorOf v) = v := by
  unfold numberOf colorOf bits
  dsimp only
  omega

theorem color_number {c : Color} (h : c.r < 32 ∧ c.g < 32 ∧ c.b < 32 ∧ c.a < 2) : colorOf (numberOf c) = c := by
  obtain ⟨r, g, b, a⟩ := c
  unfold numberOf colorOf bits
  dsimp only at *
  simp only [Color.mk.injEq]
  omega

/-- C109: packing and unpacking 16-bit colours. -/
theorem pack_bits {c : Color} (h : c.r < 32 ∧ c.g < 32 ∧ c.b < 32 ∧ c.a < 2) : pack c.r c.g c.b c.a = numberOf c := by
  have h1 := Proofs.Color.unpack_pack h.1 h.2.1 h.2.2.1 h.2.2.2
  have h2 := number_color (Proofs.Color.pack_lt c.r c.g c.b c.a)
  rw [← unpack_bits, h1] at h2
  exact h2.symm

theorem expand_wide {x : Nat} (h : x < 32) : expand5 x = wide x := by
  have key : ∀ y : Fin 32, expand5 y.val = wide y.val := by decide
  exact key ⟨x, h⟩

theorem unpack255_bits (v : Nat) : unpack255 v = ⟨wide (bits v 0 5), wide (bits v 5 5), wide (bits v 10 5), 255 * bits v 15 1⟩ := by
  have h := colorOf_lt v
  unfold unpack255
  rw [unpack_bits]
  dsimp only
  rw [expand_wide h.1, expand_wide h.2.1, expand_wide h.2.2.1]
  congr 1
  have : (colorOf v).a = 0 ∨ (colorOf v).a = 1 := by omega
  show _ = 255 * (colorOf v).a
  rcases this with e | e <;> rw [e] <;> rfl

theorem convert_a1 {c : Color} (h : c.r < 32 ∧ c.g < 32 ∧ c.b < 32 ∧ c.a < 2) (t : Fmt) :
    convert (.tup c) .rgb5a1 t = .ok (asFormat c t) := by
  have hp := pack_bits h
  have ha : c.a &&& 1 = c.a := by rw [Bits.and_mask _ 1 rfl]; omega
  unfold pack at hp
  rw [ha] at hp
  have h16 : numberOf c < 2 ^ 16 := by unfold numberOf; omega
  have h01 : c.a = 0 ∨ c.a = 1 := by omega
  cases t with
  | int16 => show Except.ok _ = _; rw [hp]; rfl
  | bytes2 =>
    show (bytes2 _ >>= fun b => _) = _
    rw [hp, Proofs.Color.bytes2_of_lt h16, bind_ok]
    have : UInt8.ofNat (numberOf c % 0x100) = UInt8.ofNat (numberOf c) := by
      apply UInt8.toNat_inj.1
      rw [UInt8.toNat_ofNat', UInt8.toNat_ofNat']
      omega
    unfold asFormat
    rw [this]
    rfl
  | rgb5a1 => rfl
  | rgb5a5 =>
    show Except.ok (Val.tup ⟨c.r, c.g, c.b, if c.a ≠ 0 then 0x1F else 0⟩) = Except.ok (Val.tup ⟨c.r, c.g, c.b, 31 * c.a⟩)
    rcases h01 with e | e <;> rw [e] <;> rfl
  | rgba255 =>
    show Except.ok (Val.tup ⟨expand5 c.r, expand5 c.g, expand5 c.b, if c.a ≠ 0 then 255 else 0⟩) =
      Except.ok (Val.tup ⟨wide c.r, wide c.g, wide c.b, 255 * c.a⟩)
    rw [expand_wide h.1, expand_wide h.2.1, expand_wide h.2.2.1]
    rcases h01 with e | e <;> rw [e] <;> rfl

/-- C109: a colour of five bits per channel and one bit of alpha, in each of the formats, is converted to what it is in every other. -/
theorem convert_formats {c : Color} (h : c.r < 32 ∧ c.g < 32 ∧ c.b < 32 ∧ c.a < 2) (f t : Fmt) :
    convert (asFormat c f) f t = .ok (asFormat c t) := by
  have hv : Verif.Spec.Color.Valid .rgb5a1 (.tup c) := h
  rw [Props.Color.convert_commutes .rgb5a1 f t _ _ hv (convert_a1 h f) (by simp [Verif.Spec.Color.level])]
  exact convert_a1 h t

/-- C109: a colour in two bytes. -/
theorem color_bytes {d : Bytes} {c : Color} : load d = .ok c ↔ 2 ≤ d.length ∧ c = colorOf (u16 d 0) := by
  unfold load
  simp only [bind_eq_ok, pure_eq_ok, pyIdx_eq_ok, List.getElem?_eq_some_iff]
  have key : ∀ (h1 : 1 < d.length) (h0 : 0 < d.length), d[1].toNat <<< 8 ||| d[0].toNat = u16 d 0 := by
    intro h1 h0
    rw [Proofs.Color.or_add' (k := 8) (UInt8.toNat_lt _), u16, u8_eq h0, u8_eq (o := 0 + 1) h1]
    simp only [Nat.zero_add]
    omega
  constructor
  · rintro ⟨_, ⟨h1, rfl⟩, _, ⟨h0, rfl⟩, rfl⟩
    rw [key h1 h0]
    exact ⟨h1, unpack_bits _⟩
  · rintro ⟨h, rfl⟩
    exact ⟨_, ⟨by omega, rfl⟩, _, ⟨by omega, rfl⟩, by rw [key (by omega) (by omega), unpack_bits]⟩

/-- C109: the colours of a palette are in order, two bytes each. -/
theorem palette_bytes (d : Bytes) : loadPalette d = .ok ((List.range (d.length / 2)).map fun i => colorOf (u16 d (2 * i))) := by
  unfold loadPalette
  rw [(mapE_eq_map (fun a b => unpack2) _ _).2 ⟨fun i hi => by have := List.mem_range.1 hi; omega, rfl⟩, bind_ok, pure_eq_ok, List.map_map]
  apply List.map_congr_left
  intro i _
  exact unpack_bits _

/-- C109: so they are in a saved palette. -/
theorem palette_saved {p : List Color} {d : Bytes} (h : ∀ c ∈ p, c.r < 32 ∧ c.g < 32 ∧ c.b < 32 ∧ c.a < 2) (hs : savePalette p = .ok d) :
    d.length = 2 * p.length ∧ ∀ (i : Nat) (c : Color), p[i]? = some c → u16 d (2 * i) = numberOf c := by
  have hr := Props.Color.palette_roundtrip p h
  rw [hs, bind_ok, palette_bytes] at hr
  obtain ⟨p', hp', hl, -, -⟩ := Props.Color.palette_roundtrip_bytes d
  rw [palette_bytes] at hp'
  have hr' : _ = p := Except.ok.inj hr
  have hlen : d.length = 2 * p.length := by
    unfold savePalette at hs
    obtain ⟨l, h1, h2⟩ := bind_eq_ok.1 hs
    cases pure_eq_ok.1 h2
    rw [flatten_length_const (n := 2)]
    · rw [mapE_length h1]; omega
    · intro x hx
      obtain ⟨i, hi, rfl⟩ := List.mem_iff_getElem.1 hx
      have := mapE_getElem h1 i (by rw [← mapE_length h1]; exact hi) hi
      rw [(packU_eq_ok.1 this).2, enBytes_length]
  refine ⟨hlen, fun i c hc => ?_⟩
  have hi := (List.getElem?_eq_some_iff.1 hc).1
  rw [← hr', List.getElem?_map, List.getElem?_range (by omega)] at hc
  have hc : colorOf (u16 d (2 * i)) = c := Option.some.inj hc
  rw [← hc, number_color (u16_lt _ _)]

theorem byte_map {d : Bytes} {o n i x : Nat} (h : (bytesAt d o n)[i]?.map UInt8.toNat = some x) : x = u8 d (o + i) := by
  obtain ⟨b, hb, rfl⟩ := Option.map_eq_some_iff.1 h
  have hi := (List.getElem?_eq_some_iff.1 hb).1
  have : i < n := by have := bytesAt_length d o n; omega
  rw [← u8_bytesAt d o this]
  unfold u8
  rw [hb]; rfl

/-- C109: the pixels of image tiles are in order, 64 for each tile. -/
theorem tiles_bytes (d : Bytes) (f : ImageFormat) : loadImageTiles d f = .ok ((List.range (d.length / tileSize f)).map fun t =>
    ⟨(List.range 64).map fun p => pixel d f (64 * t + p), f⟩) := by
  have hb : bytesPerTile f = tileSize f := by cases f <;> rfl
  unfold loadImageTiles
  rw [hb]
  refine mapE_ok_of_forall fun t ht => ?_
  have ht := List.mem_range.1 ht
  have hs : 0 < tileSize f := by cases f <;> decide
  have hle : t * tileSize f + tileSize f ≤ d.length := by
    have := (Nat.le_div_iff_mul_le hs).1 (Nat.succ_le_of_lt ht)
    rwa [Nat.succ_mul] at this
  have hl : (slice d (t * tileSize f) (t * tileSize f + tileSize f)).length = if f = .i4 then 32 else 64 := by
    rw [slice_length_of_le hle, Nat.add_sub_cancel_left]
    cases f <;> rfl
  obtain ⟨it, h1, h2, h3, -⟩ := (Props.Graphics2D.tile_roundtrip_bytes _ f).1 hl
  rw [h1]
  have hp := fun i => Props.Graphics2D.tile_pixels _ f it h1 i
  obtain ⟨px, fmt⟩ := it
  dsimp only at h2 hp
  subst h2
  congr 2
  have hlen : px.length = 64 := h3.1
  apply List.ext_getElem?
  intro i
  rcases Nat.lt_or_ge i 64 with hi | hi
  · have hpi : px[i]? = some px[i] := List.getElem?_eq_getElem (by omega)
    rw [List.getElem?_map, List.getElem?_range hi, hpi]
    have hp' := hp i
    rw [hpi, slice_bytesAt] at hp'
    congr 1
    dsimp only
    cases fmt with
    | i8 =>
      rw [if_neg (by decide)] at hp'
      rw [pixel, Nat.mul_comm 64 t]
      exact byte_map hp'.symm
    | i4 =>
      rw [if_pos rfl] at hp'
      rw [pixel, show (64 * t + i) / 2 = t * 32 + i / 2 by omega, show (64 * t + i) % 2 = i % 2 by omega]
      have h2 : i / 2 < 32 := by omega
      obtain ⟨b, hb, hb'⟩ := Option.map_eq_some_iff.1 hp'.symm
      have e : b.toNat = u8 d (t * 32 + i / 2) := byte_map (o := t * tileSize .i4) (n := tileSize .i4) (by rw [hb]; rfl)
      rw [← hb', ← e]
      have hlt := UInt8.toNat_lt b
      unfold bits
      rcases Nat.mod_two_eq_zero_or_one i with h0 | h0
      · rw [if_pos h0, h0]; simp
      · rw [if_neg (by omega), h0]; simp; omega
  · rw [List.getElem?_eq_none (by omega), List.getElem?_eq_none (by simp; omega)]

/-- C109: the entries of a 16-bit tilemap. -/
theorem tilemap_bytes {d : Bytes} {ts : List TilemapTile} : loadTilemapTiles d .i10h1v1p4 = .ok ts ↔
    d.length % 2 = 0 ∧ ts = (List.range (d.length / 2)).map fun i => entryOf (u16 d (2 * i)) := by
  have he : ∀ v, TilemapTile.load v .i10h1v1p4 = entryOf v := by
    intro v
    rw [Proofs.Graphics2D.load_eq]
    unfold entryOf bits bit
    simp
  unfold loadTilemapTiles
  rw [if_pos rfl, mapE_eq_map (P := fun i => 2 * i + 2 ≤ d.length) (g := fun i => entryOf (u16 d (2 * i)))]
  · constructor
    · rintro ⟨h1, rfl⟩
      have : d.length % 2 = 0 := by
        rcases Nat.eq_zero_or_pos d.length with h | h
        · omega
        · have := h1 ((d.length + 1) / 2 - 1) (List.mem_range.2 (by omega))
          omega
      exact ⟨this, by rw [show (d.length + 1) / 2 = d.length / 2 by omega]⟩
    · rintro ⟨h1, rfl⟩
      rw [show (d.length + 1) / 2 = d.length / 2 by omega]
      exact ⟨fun i hi => by have := List.mem_range.1 hi; omega, rfl⟩
  · intro i t
    simp only [bind_eq_ok, pure_eq_ok, unpack2, he]
    constructor
    · rintro ⟨_, ⟨h, rfl⟩, rfl⟩; exact ⟨h, rfl⟩
    · rintro ⟨h, rfl⟩; exact ⟨_, ⟨h, rfl⟩, rfl⟩

/-- C109: the entries of an 8-bit tilemap. -/
theorem tilemap_bytes_8 (d : Bytes) : loadTilemapTiles d .i8 = .ok ((List.range d.length).map fun i => ⟨.i8, u8 d i, false, false, 0⟩) := by
  unfold loadTilemapTiles
  rw [if_neg (by decide), pure_eq_ok]
  apply List.ext_getElem
  · simp
  · intro i h1 h2
    rw [List.length_map] at h1
    rw [List.getElem_map, List.getElem_map, List.getElem_range, Proofs.Graphics2D.load_eq, u8_eq h1]
    have := UInt8.toNat_lt d[i]
    rw [Nat.mod_eq_of_lt (by omega), Nat.div_eq_of_lt (by omega), Nat.div_eq_of_lt (b := 2048) (by omega),
      Nat.div_eq_of_lt (b := 4096) (by omega)]
    rfl

/-! ## Examples -/

/-- Red is in the lowest bits. -/
example : loadPalette [0x1F, 0, 0xE0, 3, 0, 0x7C, 0, 0x80, 7] = .ok [⟨31, 0, 0, 0⟩, ⟨0, 31, 0, 0⟩, ⟨0, 0, 31, 0⟩, ⟨0, 0, 0, 1⟩] := by
  rw [palette_bytes]; decide

example : convert (.bytes [0x43, 0x84]) .bytes2 .rgba255 = .ok (.tup ⟨24, 16, 8, 255⟩) :=
  convert_formats (c := ⟨3, 2, 1, 1⟩) (by decide) .bytes2 .rgba255

example : loadTilemapTiles [5, 0x94, 1, 8] .i10h1v1p4 = .ok [⟨.i10h1v1p4, 5, true, false, 9⟩, ⟨.i10h1v1p4, 1, false, true, 0⟩] :=
  tilemap_bytes.2 ⟨rfl, by decide⟩

/-- Odd data is refused. -/
example (ts : List TilemapTile) : loadTilemapTiles [5, 0x94, 1] .i10h1v1p4 ≠ .ok ts := fun h => absurd (tilemap_bytes.1 h).1 (by decide)

/-- The second pixel of the second tile. -/
example (d : Bytes) (h : d.length = 70) : ∃ t0 t1, loadImageTiles d .i4 = .ok [t0, t1] ∧ t1.pixels[1]? = some (u8 d 32 / 16) := by
  refine ⟨_, _, by rw [tiles_bytes, h]; rfl, ?_⟩
  have := u8_lt d 32
  show some (u8 d 32 / 16 % 16) = _
  rw [Nat.mod_eq_of_lt (by omega)]

end Verif.Props.FormatGraphics
