import Verif.Proofs.Color

/-!
# Properties of colours and palettes (C20, C21)
-/

namespace Verif.Props.Color

open Verif Verif.Model.Color Verif.Spec.Color

/-- C20: `pack` and `unpack` are inverse, `load` and `save` too. -/
theorem pack_unpack_inverse :
    (∀ r g b a, r < 32 → g < 32 → b < 32 → a < 2 → unpack (pack r g b a) = ⟨r, g, b, a⟩) ∧
    (∀ v, v < 2 ^ 16 → pack (unpack v).r (unpack v).g (unpack v).b (unpack v).a = v) ∧
    (∀ r g b a, r < 32 → g < 32 → b < 32 → a < 2 → (save r g b a >>= load) = .ok ⟨r, g, b, a⟩) := by
  refine ⟨fun r g b a h1 h2 h3 h4 => Proofs.Color.unpack_pack h1 h2 h3 h4,
    fun v h => Proofs.Color.pack_unpack h, ?_⟩
  intro r g b a h1 h2 h3 h4
  have hp := Proofs.Color.pack_lt r g b a
  unfold save
  rw [Proofs.Color.bytes2_of_lt hp, bind_ok]
  have h0 := (UInt8.ofNat (pack r g b a)).toNat_lt
  unfold load
  simp only [leBytes]
  have e1 : pyIdx [UInt8.ofNat (pack r g b a), UInt8.ofNat (pack r g b a / 256)] 1 =
    .ok (UInt8.ofNat (pack r g b a / 256)) := rfl
  have e0 : pyIdx [UInt8.ofNat (pack r g b a), UInt8.ofNat (pack r g b a / 256)] 0 =
    .ok (UInt8.ofNat (pack r g b a)) := rfl
  rw [e1, bind_ok, e0, bind_ok, Proofs.Color.or_add' (k := 8) (by omega), pure_eq_ok, UInt8.toNat_ofNat',
    UInt8.toNat_ofNat']
  rw [show pack r g b a / 256 % 2 ^ 8 * 2 ^ 8 + pack r g b a % 2 ^ 8 = pack r g b a by omega]
  exact Proofs.Color.unpack_pack h1 h2 h3 h4

/-- C20: expanding is undone by contracting, also in packed form, and the packed forms are the compositions
the documentation names. -/
theorem expand_contract_inverse :
    (∀ r g b a, r < 32 → g < 32 → b < 32 → a < 2 →
      let e := expand r g b a
      e.r < 256 ∧ e.g < 256 ∧ e.b < 256 ∧ e.a < 256 ∧ contract e.r e.g e.b e.a = ⟨r, g, b, a⟩) ∧
    (∀ v, let u := unpack v; unpack255 v = expand u.r u.g u.b u.a) ∧
    (∀ r g b a, let c := contract r g b a; pack255 r g b a = pack c.r c.g c.b c.a) ∧
    (∀ v, v < 2 ^ 16 → let u := unpack255 v; pack255 u.r u.g u.b u.a = v) := by
  have key : ∀ r g b a, r < 32 → g < 32 → b < 32 → a < 2 →
      contract (expand r g b a).r (expand r g b a).g (expand r g b a).b (expand r g b a).a = ⟨r, g, b, a⟩ := by
    intro r g b a h1 h2 h3 h4
    simp only [expand, contract, Proofs.Color.contract5_expand5 h1, Proofs.Color.contract5_expand5 h2,
      Proofs.Color.contract5_expand5 h3, Color.mk.injEq, true_and]
    have : a = 0 ∨ a = 1 := by omega
    rcases this with rfl | rfl <;> rfl
  refine ⟨?_, fun v => rfl, fun r g b a => rfl, ?_⟩
  · intro r g b a h1 h2 h3 h4
    refine ⟨Proofs.Color.expand5_lt h1, Proofs.Color.expand5_lt h2, Proofs.Color.expand5_lt h3, ?_,
      key r g b a h1 h2 h3 h4⟩
    simp only [expand]; split <;> omega
  · intro v h
    have hr := Proofs.Color.unpack_range v
    have := key _ _ _ _ hr.1 hr.2.1 hr.2.2.1 hr.2.2.2
    simp only [expand, contract, Color.mk.injEq] at this
    simp only [unpack255, pack255, this.1, this.2.1, this.2.2.1]
    exact (congrArg (pack _ _ _) this.2.2.2).trans (Proofs.Color.pack_unpack h)

/-- C20: contracting picks a 5-bit channel whose expansion is at least as close as that of any other. -/
theorem contract_closest (r g b a y : Nat) (hr : r < 256) (hg : g < 256) (hb : b < 256) (hy : y < 32) :
    let c := contract r g b a
    let e := expand c.r c.g c.b c.a
    c.r < 32 ∧ c.g < 32 ∧ c.b < 32 ∧ c.a < 2 ∧
    ((e.r : Int) - r).natAbs ≤ (((expand y 0 0 0).r : Int) - r).natAbs ∧
    ((e.g : Int) - g).natAbs ≤ (((expand 0 y 0 0).g : Int) - g).natAbs ∧
    ((e.b : Int) - b).natAbs ≤ (((expand 0 0 y 0).b : Int) - b).natAbs ∧
    (a < 256 → ((e.a : Int) - a).natAbs ≤ 127) := by
  refine ⟨Proofs.Color.contract5_lt hr, Proofs.Color.contract5_lt hg, Proofs.Color.contract5_lt hb, ?_,
    Proofs.Color.closest_table ⟨r, hr⟩ ⟨y, hy⟩, Proofs.Color.closest_table ⟨g, hg⟩ ⟨y, hy⟩,
    Proofs.Color.closest_table ⟨b, hb⟩ ⟨y, hy⟩, ?_⟩
  · simp only [contract]; split <;> omega
  · intro ha
    simp only [contract, expand]
    split <;> simp <;> omega

/-- C20: the lookup tables have one row per packed value and agree with the direct conversions; the integer
tables hold the four channels as the bytes of a big-endian number in the named order. -/
theorem luts_agree (v : Nat) (h : v < 2 ^ 16) :
    luts.length = 2 ^ 16 ∧ ∃ row, luts[v]? = some row ∧ row.unpacked = unpack v ∧ row.unpacked255 = unpack255 v ∧
      (let c := unpack255 v
       row.rgba = ((c.r * 256 + c.g) * 256 + c.b) * 256 + c.a ∧
       row.argb = ((c.a * 256 + c.r) * 256 + c.g) * 256 + c.b ∧
       row.bgra = ((c.b * 256 + c.g) * 256 + c.r) * 256 + c.a ∧
       row.abgr = ((c.a * 256 + c.b) * 256 + c.g) * 256 + c.r) := by
  refine ⟨by unfold luts; rw [List.length_map, List.length_range], lutRow v, ?_, rfl, rfl, ?_⟩
  · unfold luts
    rw [List.getElem?_map, List.getElem?_range (by omega)]; rfl
  · have hr := Proofs.Color.unpack_range v
    have e1 := Proofs.Color.expand5_lt hr.1
    have e2 := Proofs.Color.expand5_lt hr.2.1
    have e3 := Proofs.Color.expand5_lt hr.2.2.1
    have e4 : (if (unpack v).a ≠ 0 then 255 else 0) < 256 := by split <;> omega
    have key : ∀ w x y z : Nat, x < 256 → y < 256 → z < 256 →
        (w <<< 24) ||| (x <<< 16) ||| (y <<< 8) ||| z = ((w * 256 + x) * 256 + y) * 256 + z := by
      intro w x y z hx hy hz
      have s1 : (w <<< 24) ||| (x <<< 16) = (w * 256 + x) <<< 16 := by
        have : w <<< 24 = (w <<< 8) <<< 16 := by rw [← Nat.shiftLeft_add]
        rw [this, ← Nat.shiftLeft_or_distrib, Proofs.Color.or_add' (k := 8) (by omega)]
      have s2 : ∀ u, (u <<< 16) ||| (y <<< 8) = (u * 256 + y) <<< 8 := by
        intro u
        have : u <<< 16 = (u <<< 8) <<< 8 := by rw [← Nat.shiftLeft_add]
        rw [this, ← Nat.shiftLeft_or_distrib, Proofs.Color.or_add' (k := 8) (by omega)]
      rw [s1, s2, Proofs.Color.or_add' (k := 8) (by omega)]
    simp only [unpack255]
    exact ⟨key _ _ _ _ e2 e3 e4, key _ _ _ _ e1 e2 e3, key _ _ _ _ e2 e1 e4, key _ _ _ _ e3 e2 e1⟩

/-- C20: converting a valid value never fails and gives a valid value of the target format. -/
theorem convert_valid (f t : Fmt) (x : Val) (h : Valid f x) : ∃ y, convert x f t = .ok y ∧ Valid t y :=
  ⟨_, Proofs.Color.convert_eq h, Proofs.Color.enc_valid (Proofs.Color.conv_ok (Proofs.Color.dec_ok h))⟩

/-- C20: going through an intermediate format changes nothing, provided that format can express at least as
much as one of the two ends. -/
theorem convert_commutes (f m t : Fmt) (x y : Val) (h : Valid f x) (hm : convert x f m = .ok y)
    (hl : min (level f) (level t) ≤ level m) : convert y m t = convert x f t := by
  rw [Proofs.Color.convert_eq h] at hm
  cases hm
  have hk := Proofs.Color.conv_ok (k := Proofs.Color.kind m) (Proofs.Color.dec_ok h)
  rw [Proofs.Color.convert_eq (Proofs.Color.enc_valid hk), Proofs.Color.convert_eq h, Proofs.Color.dec_enc hk,
    Proofs.Color.conv_conv (Proofs.Color.dec_ok h)]
  simpa only [Proofs.Color.klevel_kind] using hl

/-- C20: converting to a format that can express as much, and back, gives the same value. -/
theorem convert_lossless (f t : Fmt) (x y : Val) (h : Valid f x) (ht : convert x f t = .ok y)
    (hl : level f ≤ level t) : convert y t f = .ok x := by
  rw [convert_commutes f t f x y h ht (by omega), Proofs.Color.convert_eq h]
  have : Proofs.Color.conv (Proofs.Color.kind f) (Proofs.Color.kind f) (Proofs.Color.dec f x) =
      Proofs.Color.dec f x := by cases Proofs.Color.kind f <;> rfl
  rw [this, Proofs.Color.enc_dec h]

example : Valid .rgb5a5 (.tup ⟨31, 0, 17, 15⟩) := by unfold Valid; decide
example : convert (.tup ⟨31, 0, 17, 15⟩) .rgb5a5 .rgba255 = .ok (.tup ⟨255, 0, 140, 123⟩) ∧
    convert (.tup ⟨255, 0, 140, 123⟩) .rgba255 .bytes2 = .ok (.bytes [0x1F, 0x44]) ∧
    convert (.tup ⟨31, 0, 17, 15⟩) .rgb5a5 .bytes2 = .ok (.bytes [0x1F, 0x44]) := by decide +kernel
/-- The condition on the intermediate format is needed. -/
example : (convert (.tup ⟨1, 2, 3, 4⟩) .rgba255 .int16 >>= fun y => convert y .int16 .rgba255) ≠
    convert (.tup ⟨1, 2, 3, 4⟩) .rgba255 .rgba255 := by decide +kernel

/-- C21: a palette with 5-bit channels survives saving and loading. -/
theorem palette_roundtrip (p : List Color) (h : ∀ c ∈ p, c.r < 32 ∧ c.g < 32 ∧ c.b < 32 ∧ c.a < 2) :
    (savePalette p >>= loadPalette) = .ok p := by
  rw [Proofs.Color.savePalette_eq, bind_ok, Proofs.Color.load_save_palette h]

/-- C21: loading never fails, gives one colour per two bytes, and saving the colours gives back the bytes,
without the last one if their number is odd. -/
theorem palette_roundtrip_bytes (d : Bytes) :
    ∃ p, loadPalette d = .ok p ∧ p.length = d.length / 2 ∧
      savePalette p = .ok (d.take (2 * (d.length / 2))) ∧ (d.length % 2 = 0 → savePalette p = .ok d) := by
  have key : savePalette ((Proofs.Color.pairs d).map fun p => unpack (leVal [p.1, p.2])) =
      .ok (d.take (2 * (d.length / 2))) := by
    rw [Proofs.Color.savePalette_eq, ← Proofs.Color.pairs_flatten, List.map_map]
    congr 2
    apply List.map_congr_left
    intro p _
    have hl := leVal_lt [p.1, p.2]
    simp only [List.length_cons, List.length_nil] at hl
    simp only [Function.comp]
    rw [Proofs.Color.pack_unpack (by omega)]
    exact leBytes_leVal [p.1, p.2]
  refine ⟨_, Proofs.Color.loadPalette_eq d, by rw [List.length_map, Proofs.Color.pairs_length], key, ?_⟩
  intro he
  rw [key, List.take_of_length_le (by omega)]

example : savePalette [⟨31, 0, 17, 1⟩, ⟨1, 2, 3, 0⟩] = .ok [0x1F, 0xC4, 0x41, 0x0C] ∧
    loadPalette [0x1F, 0xC4, 0x41, 0x0C, 7] = .ok [⟨31, 0, 17, 1⟩, ⟨1, 2, 3, 0⟩] := by decide +kernel

end Verif.Props.Color
