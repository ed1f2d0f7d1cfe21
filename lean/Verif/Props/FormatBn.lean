import Verif.Proofs.Reader
import Verif.Spec.FormatBn
import Verif.Props.Bn

/-!
# What is loaded from any BNBL or BNCL file (C96)
-/

namespace Verif.Props.FormatBn

open Verif Verif.Model.Bn Verif.Model.Util Verif.Spec.Reader Verif.Spec.FormatBn Verif.Proofs.Reader

theorem shift_bits (w : Nat) : (w >>> 12) &&& 3 = bits w 12 2 := by
  rw [Nat.shiftRight_eq_div_pow]
  exact Nat.and_two_pow_sub_one_eq_mod _ 2

theorem low_bits (w : Nat) : w &&& 0xFFF = bits w 0 12 := by
  unfold bits
  rw [Nat.pow_zero, Nat.div_one]
  exact Nat.and_two_pow_sub_one_eq_mod _ 12

theorem bits_cases (w : Nat) : bits w 12 2 = 0 ∨ bits w 12 2 = 1 ∨ bits w 12 2 = 2 ∨ bits w 12 2 = 3 := by
  unfold bits; omega

theorem unpackAlignment_eq (a b : Nat) :
    unpackAlignment a b = (bits a 0 12, bits b 0 12, horizontal a + vertical b) := by
  unfold unpackAlignment horizontal vertical
  rw [shift_bits, shift_bits, low_bits, low_bits]
  rcases bits_cases a with h | h | h | h <;> rcases bits_cases b with h' | h' | h' | h' <;> rw [h, h'] <;> rfl

theorem area_iff {d : Bytes} {o : Nat} {t : TouchArea} :
    TouchArea.fromData (slice d o (o + 6)) = .ok t ↔ o + 6 ≤ d.length ∧ t = areaAt d o := by
  unfold TouchArea.fromData areaAt
  simp only [bind_eq_ok, pure_eq_ok, unpack1, unpack2, slice_bytesAt, bytesAt_length, unpackAlignment_eq]
  have e0 := u16_bytesAt d o (n := 6) (i := 0) (by omega)
  have e2 := u16_bytesAt d o (n := 6) (i := 2) (by omega)
  have e4 := u8_bytesAt d o (n := 6) (i := 4) (by omega)
  have e5 := u8_bytesAt d o (n := 6) (i := 5) (by omega)
  constructor
  · rintro ⟨_, ⟨_, rfl⟩, _, ⟨_, rfl⟩, _, ⟨_, rfl⟩, _, ⟨h, rfl⟩, rfl⟩
    refine ⟨by omega, ?_⟩
    rw [e0, e2, e4, e5]; rfl
  · rintro ⟨h, rfl⟩
    refine ⟨_, ⟨by omega, rfl⟩, _, ⟨by omega, rfl⟩, _, ⟨by omega, rfl⟩, _, ⟨by omega, rfl⟩, ?_⟩
    rw [e0, e2, e4, e5]; rfl

theorem position_iff {d : Bytes} {o : Nat} {t : ImagePosition} :
    ImagePosition.fromData (slice d o (o + 8)) = .ok t ↔ o + 8 ≤ d.length ∧ t = positionAt d o := by
  unfold ImagePosition.fromData positionAt
  simp only [bind_eq_ok, pure_eq_ok, unpack4, unpack2, slice_bytesAt, bytesAt_length, unpackAlignment_eq]
  have e0 := u16_bytesAt d o (n := 8) (i := 0) (by omega)
  have e2 := u16_bytesAt d o (n := 8) (i := 2) (by omega)
  have e4 := u32_bytesAt d o (n := 8) (i := 4) (by omega)
  constructor
  · rintro ⟨_, ⟨_, rfl⟩, _, ⟨_, rfl⟩, _, ⟨h, rfl⟩, rfl⟩
    refine ⟨by omega, ?_⟩
    rw [e0, e2, e4]; rfl
  · rintro ⟨h, rfl⟩
    refine ⟨_, ⟨by omega, rfl⟩, _, ⟨by omega, rfl⟩, _, ⟨by omega, rfl⟩, ?_⟩
    rw [e0, e2, e4]; rfl

/-- C96: a BNBL file loads exactly if it begins with `JNBL` and all touch areas it announces are there, and then they are read
from the documented places. -/
theorem bnbl_load_iff (d : Bytes) (b : BNBL) : BNBL.load d = .ok b ↔ IsBnbl d ∧ b = bnbl d := by
  unfold BNBL.load IsBnbl bnbl
  simp only [bind_eq_ok, pure_eq_ok, raiseIf_iff, unpack2, Decidable.not_not]
  rw [show slice d 0 4 = bytesAt d 0 4 from slice_bytesAt d 0 4]
  have hm := mapE_eq_map (fun i (t : TouchArea) => area_iff (d := d) (o := 8 + i * 6) (t := t))
  constructor
  · rintro ⟨_, h0, _, ⟨h1, rfl⟩, _, ⟨h2, rfl⟩, l, h3, rfl⟩
    obtain ⟨h4, rfl⟩ := (hm _ _).1 h3
    refine ⟨⟨h0, h2, (records_end h2).1 h4⟩, ?_⟩
    simp only [Nat.mul_comm]
  · rintro ⟨⟨h0, h1, h2⟩, rfl⟩
    refine ⟨(), h0, _, ⟨by omega, rfl⟩, _, ⟨h1, rfl⟩, _, (hm _ _).2 ⟨(records_end h1).2 h2, rfl⟩, ?_⟩
    simp only [Nat.mul_comm]

/-- C96: the same for BNCL files. -/
theorem bncl_load_iff (d : Bytes) (b : BNCL) : BNCL.load d = .ok b ↔ IsBncl d ∧ b = bncl d := by
  unfold BNCL.load IsBncl bncl
  simp only [bind_eq_ok, pure_eq_ok, raiseIf_iff, unpack2, Decidable.not_not]
  rw [show slice d 0 4 = bytesAt d 0 4 from slice_bytesAt d 0 4]
  have hm := mapE_eq_map (fun i (t : ImagePosition) => position_iff (d := d) (o := 8 + i * 8) (t := t))
  constructor
  · rintro ⟨_, h0, _, ⟨h1, rfl⟩, _, ⟨h2, rfl⟩, l, h3, rfl⟩
    obtain ⟨h4, rfl⟩ := (hm _ _).1 h3
    refine ⟨⟨h0, h2, (records_end h2).1 h4⟩, ?_⟩
    simp only [Nat.mul_comm]
  · rintro ⟨⟨h0, h1, h2⟩, rfl⟩
    refine ⟨(), h0, _, ⟨by omega, rfl⟩, _, ⟨h1, rfl⟩, _, (hm _ _).2 ⟨(records_end h1).2 h2, rfl⟩, ?_⟩
    simp only [Nat.mul_comm]

/-- C96: so a saved layout has its coordinates, sizes and alignments at the documented places. -/
theorem bnbl_saved (b : BNBL) (d : Bytes) (h : b.save = .ok d)
    (hp : ∀ t ∈ b.touchAreas, (0 ≤ t.x ∧ t.x < 4096) ∧ (0 ≤ t.y ∧ t.y < 4096) ∧ Spec.Util.ProperAlignment t.alignment) :
    IsBnbl d ∧ b = bnbl d :=
  (bnbl_load_iff d b).1 (Bn.bnbl_roundtrip b d h hp).1

theorem bncl_saved (b : BNCL) (d : Bytes) (h : b.save = .ok d)
    (hp : ∀ t ∈ b.imagePositions, (0 ≤ t.x ∧ t.x < 4096) ∧ (0 ≤ t.y ∧ t.y < 4096) ∧ Spec.Util.ProperAlignment t.alignment) :
    IsBncl d ∧ b = bncl d :=
  (bncl_load_iff d b).1 (Bn.bncl_roundtrip b d h hp).1

/-- A file with one touch area, centred horizontally and at the bottom, and a byte too many. -/
example : bnbl [0x4A, 0x4E, 0x42, 0x4C, 5, 0, 1, 0, 0x64, 0x10, 0xFF, 0x2F, 7, 255, 99] = ⟨5, [⟨100, 4095, 7, 255, 0x24⟩]⟩ := by
  decide +kernel
example : IsBnbl [0x4A, 0x4E, 0x42, 0x4C, 5, 0, 1, 0, 0x64, 0x10, 0xFF, 0x2F, 7, 255, 99] := by
  unfold IsBnbl; decide +kernel
example : bncl [0x4A, 0x4E, 0x43, 0x4C, 5, 0, 1, 0, 0x64, 0x20, 0x11, 0x00, 7, 1, 0, 0] = ⟨5, [⟨100, 17, 0x12, 263⟩]⟩ := by
  decide +kernel

end Verif.Props.FormatBn
