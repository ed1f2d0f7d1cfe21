import Verif.Proofs.Reader
import Verif.Spec.FormatSound
import Verif.Props.SoundWave
import Verif.Props.SoundStream

/-!
# What is loaded from any SWAV, SWAR or STRM file (C97)
-/

namespace Verif.Props.FormatSound

open Verif Verif.Model.SoundWave Verif.Model.SoundStream Verif.Spec.Reader Verif.Spec.FormatSound Verif.Proofs.Reader

theorem waveType_iff {n m : Nat} : waveTypeOf n = .ok m ↔ n ≤ 2 ∧ m = n := by
  unfold waveTypeOf
  split
  · rename_i h; simp only [Except.ok.injEq, h, true_and]; exact eq_comm
  · rename_i h; simp [h]

theorem unpackBool_iff {d : Bytes} {o : Nat} {b : Bool} : unpackBool d o = .ok b ↔ o + 1 ≤ d.length ∧ b = decide (u8 d o ≠ 0) := by
  unfold unpackBool
  simp only [bind_eq_ok, pure_eq_ok, unpack1]
  have e : (u8 d o != 0) = decide (u8 d o ≠ 0) := by
    by_cases h : u8 d o = 0 <;> simp [h]
  constructor
  · rintro ⟨_, ⟨h, rfl⟩, rfl⟩; exact ⟨h, e⟩
  · rintro ⟨h, rfl⟩; exact ⟨_, ⟨h, rfl⟩, e⟩

theorem info_iff {d s : Bytes} {o : Nat} {w : SWAV} :
    unpackInfo d o s = .ok w ↔ o + 12 ≤ d.length ∧ u8 d o ≤ 2 ∧ w = waveAt d o s := by
  unfold unpackInfo waveAt
  simp only [bind_eq_ok, pure_eq_ok, unpack1, unpack2, unpack4, unpackBool_iff, waveType_iff]
  constructor
  · rintro ⟨_, ⟨_, rfl⟩, _, ⟨_, rfl⟩, _, ⟨_, rfl⟩, _, ⟨_, rfl⟩, _, ⟨_, rfl⟩, _, ⟨h, rfl⟩, _, ⟨ht, rfl⟩, rfl⟩
    exact ⟨by omega, ht, rfl⟩
  · rintro ⟨h, ht, rfl⟩
    exact ⟨_, ⟨by omega, rfl⟩, _, ⟨by omega, rfl⟩, _, ⟨by omega, rfl⟩, _, ⟨by omega, rfl⟩, _, ⟨by omega, rfl⟩, _,
      ⟨by omega, rfl⟩, _, ⟨ht, rfl⟩, rfl⟩

theorem take_bytesAt (d : Bytes) (n : Nat) : d.take n = bytesAt d 0 n := rfl

/-- C97: a SWAV file loads exactly if its names, version, length and wave type are right, and then the wave has the fields at
the documented places. -/
theorem swav_load_iff (d : Bytes) (w : SWAV) : SWAV.load d = .ok w ↔ IsSwav d ∧ w = swav d := by
  unfold SWAV.load IsSwav Header swav
  simp only [bind_eq_ok, raiseIf_iff, pyAssert_iff, stdHeader_iff, unpackStr_iff, unpack4, info_iff, Decidable.not_not,
    slice_span]
  constructor
  · rintro ⟨_, h0, _, ⟨h1, rfl⟩, _, h2, _, h3, _, ⟨h4, rfl⟩, _, ⟨h5, rfl⟩, _, h6, h7, h8, rfl⟩
    exact ⟨⟨⟨h0, h2, h6⟩, h7, h8⟩, rfl⟩
  · rintro ⟨⟨⟨h0, h2, h6⟩, h7, h8⟩, rfl⟩
    exact ⟨(), h0, _, ⟨by omega, rfl⟩, (), h2, (), h0, _, ⟨by omega, rfl⟩, _, ⟨by omega, rfl⟩, (), h6, h7, h8, rfl⟩

theorem waveAt_span (d s : Bytes) (a b : Nat) (h : a + 12 ≤ b) : waveAt (span d a b) 0 s = waveAt d a s := by
  unfold waveAt
  rw [u8_span _ _ _ (by omega), u8_span _ _ _ (by omega), u16_span _ _ _ (by omega), u16_span _ _ _ (by omega),
    u16_span _ _ _ (by omega), u32_span _ _ _ (by omega)]
  rfl

theorem span_drop (d : Bytes) (a b n : Nat) : (span d a b).drop n = span d (a + n) b := by
  unfold span; rw [List.drop_drop]

theorem loadWave_iff {d : Bytes} {i : Nat} {w : SWAV} (hi : i < waveCount d) : loadWave d (u32 d 8) (waveCount d) i = .ok w ↔
    (0x40 + 4 * (i + 1) ≤ d.length ∧ waveStart d i + 0xC ≤ waveStop d i ∧ waveStart d i + 0xC ≤ d.length ∧
      u8 d (waveStart d i) ≤ 2) ∧ w = waveAt d (waveStart d i) (span d (waveStart d i + 0xC) (waveStop d i)) := by
  unfold loadWave
  simp only [bind_eq_ok, unpack4, info_iff, slice_span, span_drop]
  have hs : (if i = waveCount d - 1 then u32 d 8 else u32 d (0x3C + 4 * i + 4)) = waveStop d i := by
    unfold waveStop waveStart
    by_cases h : i + 1 = waveCount d
    · rw [if_pos h, if_pos (by omega)]
    · rw [if_neg h, if_neg (by omega)]; rfl
  have hst : u32 d (0x3C + 4 * i) = waveStart d i := rfl
  constructor
  · rintro ⟨_, ⟨_, rfl⟩, _, ⟨h1, rfl⟩, h2, h3, rfl⟩
    rw [hs, hst] at h2 h3 ⊢
    rw [Nat.zero_add, span_length] at h2
    rw [u8_span _ _ _ (by omega)] at h3
    rw [waveAt_span _ _ _ _ (by omega)]
    exact ⟨⟨by omega, by omega, by omega, h3⟩, rfl⟩
  · rintro ⟨⟨h1, h2, h3, h4⟩, rfl⟩
    refine ⟨_, ⟨by omega, rfl⟩, _, ⟨by omega, rfl⟩, ?_⟩
    rw [hs, hst, Nat.zero_add, span_length, u8_span _ _ _ (by omega), waveAt_span _ _ _ _ (by omega)]
    exact ⟨by omega, h4, rfl⟩

theorem mapE_eq_map_mem {α β : Type _} {f : α → Py β} {g : α → β} {P : α → Prop} : ∀ (l : List α) (r : List β)
    (_ : ∀ a ∈ l, ∀ b, f a = .ok b ↔ P a ∧ b = g a), mapE f l = .ok r ↔ (∀ a ∈ l, P a) ∧ r = l.map g
  | [], r, _ => by simp [mapE_nil, eq_comm]
  | a :: l, r, hf => by
    rw [mapE_cons_ok]
    have ih := mapE_eq_map_mem (f := f) (g := g) (P := P) l
    constructor
    · rintro ⟨b, bs, h1, h2, rfl⟩
      obtain ⟨h3, rfl⟩ := (hf a (by simp) _).1 h1
      obtain ⟨h4, rfl⟩ := (ih _ fun x hx => hf x (by simp [hx])).1 h2
      exact ⟨by simpa using ⟨h3, h4⟩, rfl⟩
    · rintro ⟨h1, rfl⟩
      exact ⟨_, _, (hf a (by simp) _).2 ⟨h1 a (by simp), rfl⟩,
        (ih _ fun x hx => hf x (by simp [hx])).2 ⟨fun x hx => h1 x (by simp [hx]), rfl⟩, rfl⟩

/-- C97: the same for SWAR files. -/
theorem swar_load_iff (d : Bytes) (ws : List SWAV) : loadSWAR d = .ok ws ↔ IsSwar d ∧ ws = swar d := by
  unfold loadSWAR IsSwar Header swar
  simp only [bind_eq_ok, raiseIf_iff, pyAssert_iff, stdHeader_iff, unpackStr_iff, unpack4, Decidable.not_not]
  have hm := fun r => mapE_eq_map_mem (List.range (waveCount d)) r (f := loadWave d (u32 d 8) (waveCount d)) (fun i hi w =>
    loadWave_iff (d := d) (i := i) (w := w) (List.mem_range.1 hi))
  simp only [List.mem_range] at hm
  constructor
  · rintro ⟨_, h0, _, ⟨h1, rfl⟩, _, h2, _, h3, _, ⟨h4, rfl⟩, _, ⟨h5, rfl⟩, _, ⟨h6, rfl⟩, _, h7, h8⟩
    obtain ⟨h9, rfl⟩ := (hm ws).1 h8
    exact ⟨⟨⟨h0, h2, h7⟩, h6, h9⟩, rfl⟩
  · rintro ⟨⟨⟨h0, h2, h7⟩, h6, h9⟩, rfl⟩
    exact ⟨(), h0, _, ⟨by omega, rfl⟩, (), h2, (), h0, _, ⟨by omega, rfl⟩, _, ⟨by omega, rfl⟩, _, ⟨h6, rfl⟩, (), h7,
      (hm _).2 ⟨h9, rfl⟩⟩

/-! ## Streams -/

theorem readRow_map (data : Bytes) (size : Nat) : ∀ (n offs : Nat),
    readRow data size n offs = ((List.range n).map fun i => bytesAt data (offs + i * size) size, offs + n * size)
  | 0, offs => by simp [readRow]
  | n + 1, offs => by
    rw [readRow, readRow_map data size n (offs + size), List.range_succ_eq_map]
    simp only [List.map_cons, List.map_map, slice_bytesAt]
    refine Prod.ext ?_ ?_
    · simp only [Nat.zero_mul, Nat.add_zero, List.cons.injEq, true_and]
      refine List.map_congr_left fun i _ => ?_
      simp only [Function.comp_apply, Nat.succ_mul]
      congr 1; omega
    · simp only [Nat.succ_mul]; omega

theorem zipWith_map_snoc {m k : Nat} {f : Nat → Nat → Bytes} :
    List.zipWith (fun ch b => ch ++ [b]) ((List.range m).map fun i => (List.range k).map fun j => f i j)
      ((List.range m).map fun i => f i k) = (List.range m).map fun i => (List.range (k + 1)).map fun j => f i j := by
  rw [List.zipWith_map_left, List.zipWith_map_right]
  simp only [List.range_succ, List.map_append, List.map_cons, List.map_nil]
  rw [List.zipWith_self]

theorem padLen_row (a : Nat) : a + padLen a 4 = (a + 3) / 4 * 4 := by
  unfold padLen; omega

theorem readRows_map (data : Bytes) (m n bpb last extra row : Nat) (f : Nat → Nat → Bytes)
    (hrow : row = (m * bpb + 3) / 4 * 4) (hex : 1 < n → extra = 0)
    (hf : ∀ i j, f i j = bytesAt data (j * row + i * ((if j + 1 = n then last else bpb) + extra))
      ((if j + 1 = n then last else bpb) + extra)) : ∀ k j, j + k = n →
    readRows data m n bpb last extra k (j * row) ((List.range m).map fun i => (List.range j).map fun j => f i j) =
      (List.range m).map fun i => (List.range n).map fun j => f i j
  | 0, j, h => by
    have : j = n := by omega
    subst this; rfl
  | k + 1, j, h => by
    rw [readRows]
    have hbn : n - (k + 1) = j := by omega
    have hif : (if j = n - 1 then last else bpb) = if j + 1 = n then last else bpb := by
      by_cases h' : j + 1 = n
      · rw [if_pos h', if_pos (by omega)]
      · rw [if_neg h', if_neg (by omega)]
    simp only [hbn, hif, readRow_map]
    have e : ((List.range m).map fun i => bytesAt data (j * row + i * ((if j + 1 = n then last else bpb) + extra))
        ((if j + 1 = n then last else bpb) + extra)) = (List.range m).map fun i => f i j :=
      List.map_congr_left fun i _ => (hf i j).symm
    rw [e, zipWith_map_snoc]
    cases k with
    | zero =>
      have : j + 1 = n := by omega
      rw [readRows]; subst this; rfl
    | succ k =>
      obtain rfl : extra = 0 := hex (by omega)
      rw [if_neg (by omega), show bpb + 0 = bpb from rfl, padLen_row,
        show (j * row + m * bpb + 3) / 4 * 4 = (j + 1) * row by
          rw [Nat.succ_mul, hrow]
          generalize m * bpb = x
          generalize hy : j * ((x + 3) / 4 * 4) = y
          have : y % 4 = 0 := by rw [← hy, ← Nat.mul_assoc]; exact Nat.mul_mod_left _ _
          omega]
      exact readRows_map data m n bpb last 0 row f hrow hex hf (k + 1) (j + 1) (by omega)

theorem head_iff {d : Bytes} {fields : List Nat} : unpackUs .little headFormat d 0x18 = .ok fields ↔ 0x60 ≤ d.length ∧
    fields = [u8 d 0x18, u8 d 0x19, u8 d 0x1A, u8 d 0x1B, u16 d 0x1C, u16 d 0x1E, u32 d 0x20, u32 d 0x24, u32 d 0x28,
      u32 d 0x2C, u32 d 0x30, u32 d 0x34, u32 d 0x38, u32 d 0x3C, u32 d 0x40, u32 d 0x44, u32 d 0x48, u32 d 0x4C, u32 d 0x50,
      u32 d 0x54, u32 d 0x58, u32 d 0x5C] := by
  rw [unpackUs_iff (by decide) (by decide)]
  exact Iff.rfl

theorem boolOf_ne (n : Nat) : boolOf n = decide (n ≠ 0) := by
  unfold boolOf
  by_cases h : n = 0 <;> simp [h]

/-- C97: the same for STRM files: block by block for each channel. -/
theorem strm_load_iff (d : Bytes) (s : STRM) : STRM.load d = .ok s ↔ IsStrm d ∧ s = strm d := by
  have hrows : ∀ t, t = u8 d 0x18 → readRows (span d (strmData d + 8) (strmData d + u32 d (strmData d + 4))) (u8 d 0x1A)
      (u32 d 0x2C) (u32 d 0x30) (u32 d 0x38) (if u32 d 0x2C = 1 ∧ t = 2 then 4 else 0) (u32 d 0x2C) 0
      (List.replicate (u8 d 0x1A) []) = (strm d).channels := by
    rintro _ rfl
    have h := readRows_map (span d (strmData d + 8) (strmData d + u32 d (strmData d + 4))) (u8 d 0x1A)
      (u32 d 0x2C) (u32 d 0x30) (u32 d 0x38) (if u32 d 0x2C = 1 ∧ u8 d 0x18 = 2 then 4 else 0) (rowSize d) (blockAt d) rfl
      (fun h => by rw [if_neg (by omega)]) (fun i j => rfl) (u32 d 0x2C) 0 (by omega)
    rw [Nat.zero_mul] at h
    have e : ((List.range (u8 d 0x1A)).map fun i => (List.range 0).map fun j => blockAt d i j) =
        List.replicate (u8 d 0x1A) [] := by
      simp only [List.range_zero, List.map_nil, List.map_const', List.length_range]
    rw [e] at h
    exact h
  unfold STRM.load IsStrm Header
  simp only [bind_eq_ok, raiseIf_iff, pyAssert_iff, stdHeader_iff, unpackStr_iff, unpack4, Decidable.not_not,
    head_iff]
  constructor
  · rintro ⟨_, h0, _, ⟨h1, rfl⟩, _, h2, _, h3, _, ⟨h4, rfl⟩, _, ⟨h5, rfl⟩, _, h6, _, ⟨h7, rfl⟩, h8⟩
    simp only [STRM.loadBlocks, bind_eq_ok, pyAssert_iff, waveType_iff, unpackStr_iff, unpack4, pure_eq_ok] at h8
    obtain ⟨_, h9, _, ⟨h10, rfl⟩, _, ⟨h11, rfl⟩, _, ⟨h12, rfl⟩, _, h13, rfl⟩ := h8
    refine ⟨⟨⟨h0, h2, h6⟩, h7, h10, h9, h12, h13⟩, ?_⟩
    rw [slice_span]
    have := hrows _ rfl
    unfold strmData at this
    rw [this, boolOf_ne]
    rfl
  · rintro ⟨⟨⟨h0, h2, h6⟩, h7, h10, h9, h12, h13⟩, rfl⟩
    refine ⟨(), h0, _, ⟨by omega, rfl⟩, (), h2, (), h0, _, ⟨by omega, rfl⟩, _, ⟨by omega, rfl⟩, (), h6, _, ⟨h7, rfl⟩, ?_⟩
    simp only [STRM.loadBlocks, bind_eq_ok, pyAssert_iff, waveType_iff, unpackStr_iff, unpack4, pure_eq_ok]
    unfold strmData at h12 h13
    refine ⟨(), h9, _, ⟨h10, rfl⟩, _, ⟨by omega, rfl⟩, _, ⟨by omega, rfl⟩, (), h13, ?_⟩
    rw [slice_span]
    have := hrows _ rfl
    unfold strmData at this
    rw [this, boolOf_ne]
    rfl

/-- C97: so saved files have the fields at these places. -/
theorem swav_saved (w w' : SWAV) (b : Bytes) (u v : Bool) (ht : w.waveType ≤ 2) (h : w.save u v = .ok (b, w')) :
    IsSwav b ∧ w' = swav b := by
  have := SoundWave.swav_roundtrip w w' b [] u v ht h
  rw [List.append_nil] at this
  exact (swav_load_iff b w').1 this

theorem swar_saved (ws : List SWAV) (b : Bytes) (ht : ∀ w ∈ ws, w.waveType ≤ 2) (h : saveSWAR ws = .ok b) :
    IsSwar b ∧ ws = swar b :=
  (swar_load_iff b ws).1 (by simpa using SoundWave.swar_roundtrip ws b [] ht h)

theorem strm_saved (s : STRM) (b : Bytes) (ht : s.waveType ≤ 2) (h : s.save = .ok b) : IsStrm b ∧ s = strm b := by
  have := SoundStream.strm_roundtrip s b [] ht h
  rw [List.append_nil] at this
  exact (strm_load_iff b s).1 this

/-! ## Examples, written by hand -/

/-- A looped ADPCM wave with eight bytes of data, and one byte behind its end. -/
def wave : Bytes :=
  [0x53, 0x57, 0x41, 0x56, 0xFF, 0xFE, 0, 1, 0x2C, 0, 0, 0, 0x10, 0, 1, 0, 0x44, 0x41, 0x54, 0x41, 0x1C, 0, 0, 0,
    2, 1, 0x40, 0x1F, 0x2E, 0x08, 1, 0, 1, 0, 0, 0, 10, 11, 12, 13, 14, 15, 16, 17, 99]

example : IsSwav wave := by unfold IsSwav Header; decide +kernel
example : swav wave = ⟨2, true, 8000, 2094, 1, 2, [10, 11, 12, 13, 14, 15, 16, 17]⟩ := by decide +kernel
example : SWAV.load wave = .ok (swav wave) := (swav_load_iff _ _).2 ⟨by unfold IsSwav Header; decide +kernel, rfl⟩

/-- Two waves, of four bytes and of none. -/
def waves : Bytes :=
  [0x53, 0x57, 0x41, 0x52, 0xFF, 0xFE, 0, 1, 0x60, 0, 0, 0, 0x10, 0, 1, 0, 0x44, 0x41, 0x54, 0x41, 0x50, 0, 0, 0] ++
    zeros 32 ++ [2, 0, 0, 0, 0x44, 0, 0, 0, 0x54, 0, 0, 0] ++
    [1, 0, 0x40, 0x1F, 0x2E, 0x08, 0, 0, 1, 0, 0, 0, 1, 2, 3, 4] ++ [0, 0, 0x40, 0x1F, 0x2E, 0x08, 0, 0, 0, 0, 0, 0]

example : IsSwar waves := by unfold IsSwar Header; decide +kernel
example : swar waves = [⟨1, false, 8000, 2094, 0, 1, [1, 2, 3, 4]⟩, ⟨0, false, 8000, 2094, 0, 0, []⟩] := by decide +kernel

/-- Two channels in two blocks of three and two bytes. -/
def stream : Bytes :=
  [0x53, 0x54, 0x52, 0x4D, 0xFF, 0xFE, 0, 1, 0x74, 0, 0, 0, 0x10, 0, 2, 0, 0x48, 0x45, 0x41, 0x44, 0x50, 0, 0, 0] ++
    [0, 1, 2, 5, 0x40, 0x1F, 0x2E, 0x08, 1, 0, 0, 0, 5, 0, 0, 0, 0x68, 0, 0, 0, 2, 0, 0, 0, 3, 0, 0, 0, 3, 0, 0, 0, 2, 0, 0, 0,
      2, 0, 0, 0] ++ zeros 32 ++ [0x44, 0x41, 0x54, 0x41, 0x14, 0, 0, 0] ++ [1, 2, 3, 4, 5, 6, 0, 0, 7, 8, 9, 10]

example : IsStrm stream := by unfold IsStrm Header; decide +kernel
example : (strm stream).channels = [[[1, 2, 3], [7, 8]], [[4, 5, 6], [9, 10]]] := by decide +kernel

end Verif.Props.FormatSound
