import Verif.Proofs.InfoBlock
import Verif.Proofs.Color
import Verif.Model.Texture
import Verif.Base.Bits

/-!
# The parameter word of a texture as arithmetic
-/

namespace Verif.Proofs.Texture

open Verif Verif.Model.Texture

theorem sizeEncoded_iff {n k : Nat} : sizeEncoded n = some k ↔ k < 8 ∧ n = 8 * 2 ^ k := by
  unfold sizeEncoded
  simp only [List.lookup_cons, List.lookup_nil]
  constructor
  · intro h
    repeat' split at h
    all_goals first
      | (rename_i hb; have := beq_iff_eq.1 hb; cases h; subst this; decide)
      | exact nomatch h
  · rintro ⟨hk, rfl⟩
    match k, hk with
    | 0, _ => rfl
    | 1, _ => rfl
    | 2, _ => rfl
    | 3, _ => rfl
    | 4, _ => rfl
    | 5, _ => rfl
    | 6, _ => rfl
    | 7, _ => rfl
    | k + 8, h => omega

/-- A flag as a number. -/
def flag (b : Bool) : Nat := if b = true then 1 else 0

theorem flag_lt (b : Bool) : flag b < 2 := by cases b <;> decide

/-- The parameter word for sizes `8 * 2 ^ w` and `8 * 2 ^ h`. -/
def wordOf (t : Texture) (w h : Nat) : Nat :=
  flag t.repeatS + 2 * flag t.repeatT + 4 * flag t.mirrorS + 8 * flag t.mirrorT + 16 * w + 128 * h +
    1024 * (t.format % 8) + 8192 * flag t.isColor0Transparent + 16384 * (t.coordsTransformationMode % 4)

theorem wordOf_lt (t : Texture) {w h : Nat} (hw : w < 8) (hh : h < 8) : wordOf t w h < 65536 := by
  have := flag_lt t.repeatS; have := flag_lt t.repeatT; have := flag_lt t.mirrorS; have := flag_lt t.mirrorT
  have := flag_lt t.isColor0Transparent
  unfold wordOf; omega

theorem ite_flag (b : Bool) (k : Nat) : (if b = true then 2 ^ k else 0) = flag b <<< k := by
  cases b <;> simp [flag, Nat.shiftLeft_eq]

theorem params_word (t : Texture) {w h : Nat} (hw : w < 8) (hh : h < 8) :
    ((if t.repeatS = true then 1 else 0) ||| (if t.repeatT = true then 2 else 0) |||
      (if t.mirrorS = true then 4 else 0) ||| (if t.mirrorT = true then 8 else 0) ||| (w <<< 4) ||| (h <<< 7) |||
      ((t.format &&& 7) <<< 10) ||| (if t.isColor0Transparent = true then 0x2000 else 0) |||
      ((t.coordsTransformationMode &&& 3) <<< 14)) = wordOf t w h := by
  have h1 := flag_lt t.repeatS; have h2 := flag_lt t.repeatT; have h3 := flag_lt t.mirrorS; have h4 := flag_lt t.mirrorT
  have h5 := flag_lt t.isColor0Transparent
  have h6 : t.format % 8 < 8 := Nat.mod_lt _ (by decide)
  rw [show (if t.repeatS = true then 1 else 0) = flag t.repeatS from rfl,
    show (if t.repeatT = true then 2 else 0) = flag t.repeatT <<< 1 from ite_flag _ 1,
    show (if t.mirrorS = true then 4 else 0) = flag t.mirrorS <<< 2 from ite_flag _ 2,
    show (if t.mirrorT = true then 8 else 0) = flag t.mirrorT <<< 3 from ite_flag _ 3,
    show (if t.isColor0Transparent = true then 0x2000 else 0) = flag t.isColor0Transparent <<< 13 from ite_flag _ 13,
    Bits.and_mask t.format 3 rfl, Bits.and_mask t.coordsTransformationMode 2 rfl,
    Bits.or_add (k := 1) (by omega), Bits.or_add (k := 2) (by omega), Bits.or_add (k := 3) (by omega),
    Bits.or_add (k := 4) (by omega), Bits.or_add (k := 7) (by omega), Bits.or_add (k := 10) (by omega),
    Bits.or_add (k := 13) (by omega), Bits.or_add (k := 14) (by omega)]
  unfold wordOf
  omega

theorem params_eq_ok {t : Texture} {p : Nat} :
    t.params = .ok p ↔ ∃ w h, w < 8 ∧ h < 8 ∧ t.width = 8 * 2 ^ w ∧ t.height = 8 * 2 ^ h ∧ p = wordOf t w h := by
  unfold Texture.params
  cases hw : sizeEncoded t.width with
  | none =>
    constructor
    · intro h; exact nomatch h
    · rintro ⟨w, h, h1, _, h3, _, _⟩
      rw [sizeEncoded_iff.2 ⟨h1, h3⟩] at hw
      exact nomatch hw
  | some w =>
    obtain ⟨hw1, hw2⟩ := sizeEncoded_iff.1 hw
    cases hh : sizeEncoded t.height with
    | none =>
      constructor
      · intro h; exact nomatch h
      · rintro ⟨w, h, _, h2, _, h4, _⟩
        rw [sizeEncoded_iff.2 ⟨h2, h4⟩] at hh
        exact nomatch hh
    | some h =>
      obtain ⟨hh1, hh2⟩ := sizeEncoded_iff.1 hh
      dsimp only
      rw [params_word t hw1 hh1]
      constructor
      · intro he
        exact ⟨w, h, hw1, hh1, hw2, hh2, (Except.ok.inj he).symm⟩
      · rintro ⟨w', h', a1, a2, a3, a4, rfl⟩
        have := (sizeEncoded_iff.2 ⟨a1, a3⟩).symm.trans hw
        have := (sizeEncoded_iff.2 ⟨a2, a4⟩).symm.trans hh
        simp_all

theorem params_error {t : Texture} {e : PyErr} (h : t.params = .error e) : e = .valueError := by
  unfold Texture.params at h
  split at h
  · cases h
  · cases h; rfl

theorem bit_ne (p k : Nat) : decide (p &&& 2 ^ k ≠ 0) = decide (p / 2 ^ k % 2 = 1) := by
  have := Bits.and_two_pow_ne p k
  rw [Nat.testBit_eq_decide_div_mod_eq] at this
  rw [← this]
  by_cases h : p &&& 2 ^ k = 0 <;> simp [h]

/-- The texture read from a parameter word. -/
theorem new_eq (a b p c : Nat) (d1 d2 : Bytes) : Texture.new a b p c d1 d2 =
    { unk00 := a, unk02 := b, repeatS := decide (p % 2 = 1), repeatT := decide (p / 2 % 2 = 1),
      mirrorS := decide (p / 4 % 2 = 1), mirrorT := decide (p / 8 % 2 = 1), width := 8 * 2 ^ (p / 16 % 8),
      height := 8 * 2 ^ (p / 128 % 8), format := p / 1024 % 8, isColor0Transparent := decide (p / 8192 % 2 = 1),
      coordsTransformationMode := p / 16384 % 4, unk04 := c, data1 := d1, data2 := d2 } := by
  have b0 : decide (p &&& 1 ≠ 0) = decide (p % 2 = 1) := (bit_ne p 0).trans (by simp)
  have b1 : decide (p &&& 2 ≠ 0) = decide (p / 2 % 2 = 1) := bit_ne p 1
  have b2 : decide (p &&& 4 ≠ 0) = decide (p / 4 % 2 = 1) := bit_ne p 2
  have b3 : decide (p &&& 8 ≠ 0) = decide (p / 8 % 2 = 1) := bit_ne p 3
  have b13 : decide (p &&& 0x2000 ≠ 0) = decide (p / 8192 % 2 = 1) := bit_ne p 13
  unfold Texture.new
  rw [b0, b1, b2, b3, b13, Bits.shr p 4, Bits.and_mask (p / 2 ^ 4) 3 rfl, Bits.shr p 7, Bits.and_mask (p / 2 ^ 7) 3 rfl,
    Bits.shr p 10, Bits.and_mask (p / 2 ^ 10) 3 rfl, Bits.shr p 14, Bits.and_mask (p / 2 ^ 14) 2 rfl,
    Nat.shiftLeft_eq, Nat.shiftLeft_eq]

theorem decide_flag (b : Bool) : decide (flag b = 1) = b := by cases b <;> rfl

theorem flag_decide (n : Nat) : flag (decide (n % 2 = 1)) = n % 2 := by
  unfold flag
  by_cases h : n % 2 = 1 <;> simp [h] ; omega

theorem new_wordOf (t : Texture) {w h : Nat} (hw : w < 8) (hh : h < 8) (h1 : t.width = 8 * 2 ^ w)
    (h2 : t.height = 8 * 2 ^ h) (hf : t.format < 8) (hm : t.coordsTransformationMode < 4) :
    Texture.new t.unk00 t.unk02 (wordOf t w h) t.unk04 t.data1 t.data2 = t := by
  have f1 := flag_lt t.repeatS; have f2 := flag_lt t.repeatT; have f3 := flag_lt t.mirrorS; have f4 := flag_lt t.mirrorT
  have f5 := flag_lt t.isColor0Transparent
  rw [new_eq]
  unfold wordOf
  rw [Nat.mod_eq_of_lt hf, Nat.mod_eq_of_lt hm]
  generalize hp : flag t.repeatS + 2 * flag t.repeatT + 4 * flag t.mirrorS + 8 * flag t.mirrorT + 16 * w + 128 * h +
    1024 * t.format + 8192 * flag t.isColor0Transparent + 16384 * t.coordsTransformationMode = p
  rw [show p % 2 = flag t.repeatS by omega, show p / 2 % 2 = flag t.repeatT by omega,
    show p / 4 % 2 = flag t.mirrorS by omega, show p / 8 % 2 = flag t.mirrorT by omega,
    show p / 16 % 8 = w by omega, show p / 128 % 8 = h by omega, show p / 1024 % 8 = t.format by omega,
    show p / 8192 % 2 = flag t.isColor0Transparent by omega, show p / 16384 % 4 = t.coordsTransformationMode by omega,
    ← h1, ← h2]
  simp only [decide_flag]

end Verif.Proofs.Texture
