import Verif.Model.Graphics2D

/-! Helper lemmas about `ndspy/graphics2D.py`. -/

namespace Verif.Proofs.Graphics2D

open Verif Verif.Model.Color Verif.Model.Graphics2D

theorem toNat_lt (b : UInt8) : b.toNat < 256 := b.toNat_lt

theorem nibble_bytes (b : UInt8) : byteOf ((b.toNat &&& 0xF &&& 0xF) ||| (((b.toNat >>> 4) <<< 4) &&& 0xF0)) = .ok b := by
  have key : ∀ n : Fin 256, byteOf (((n : Nat) &&& 0xF &&& 0xF) ||| ((((n : Nat) >>> 4) <<< 4) &&& 0xF0))
      = .ok (UInt8.ofNat (n : Nat)) := by decide +kernel
  have := key ⟨b.toNat, toNat_lt b⟩
  simpa using this

theorem nibbles_length : ∀ bs : Bytes, (nibbles bs).length = 2 * bs.length
  | [] => rfl
  | b :: bs => by rw [nibbles]; simp only [List.length_cons, nibbles_length bs]; omega

theorem saveNibbles_nibbles : ∀ bs : Bytes, saveNibbles (nibbles bs) none = .ok bs
  | [] => rfl
  | b :: bs => by
    rw [nibbles, saveNibbles, saveNibbles, nibble_bytes, bind_ok, saveNibbles_nibbles bs]
    rfl

theorem nibble_pixels (a b : Nat) : ∃ x, byteOf ((a &&& 0xF) ||| ((b <<< 4) &&& 0xF0)) = .ok x ∧
    x.toNat &&& 0xF = a % 16 ∧ x.toNat >>> 4 = b % 16 := by
  have ha : a &&& 0xF = a % 16 := Bits.and_mask a 4 rfl
  have hb : (b <<< 4) &&& 0xF0 = (b % 16) <<< 4 := by
    have h1 : b % 16 = b &&& 0xF := (Bits.and_mask b 4 rfl).symm
    rw [h1, show (0xF0 : Nat) = 0xF <<< 4 from rfl, ← Nat.shiftLeft_and_distrib]
  have key : ∀ i j : Fin 16, ∃ x, byteOf ((i : Nat) ||| ((j : Nat) <<< 4)) = .ok x ∧ x.toNat &&& 0xF = (i : Nat) ∧
      x.toNat >>> 4 = (j : Nat) := by
    intro i j
    refine ⟨UInt8.ofNat ((i : Nat) ||| ((j : Nat) <<< 4)), ?_⟩
    revert i j
    decide +kernel
  rw [ha, hb]
  exact key ⟨a % 16, Nat.mod_lt _ (by decide)⟩ ⟨b % 16, Nat.mod_lt _ (by decide)⟩

theorem saveNibbles_ok : ∀ px : List Nat, px.length % 2 = 0 → ∃ d, saveNibbles px none = .ok d ∧
    nibbles d = px.map (· % 16)
  | [], _ => ⟨[], rfl, rfl⟩
  | [_], h => by simp at h
  | a :: b :: px, h => by
    obtain ⟨x, h1, h2, h3⟩ := nibble_pixels a b
    obtain ⟨d, h4, h5⟩ := saveNibbles_ok px (by simp only [List.length_cons] at h; omega)
    refine ⟨x :: d, ?_, ?_⟩
    · rw [saveNibbles, saveNibbles, h1, bind_ok, h4]; rfl
    · rw [nibbles, h2, h3, h5]; rfl

theorem map_mod_eq {px : List Nat} {m : Nat} (h : ∀ p ∈ px, p < m) : px.map (· % m) = px := by
  conv => rhs; rw [← List.map_id px]
  exact List.map_congr_left fun p hp => Nat.mod_eq_of_lt (h p hp)

theorem mapE_byteOf {px : List Nat} {d : Bytes} : mapE byteOf px = .ok d ↔ px = d.map UInt8.toNat := by
  have := mapE_eq_map (f := byteOf) (g := UInt8.ofNat) (P := fun n => n < 256) (fun a b => byteOf_eq_ok) px d
  rw [this]
  constructor
  · rintro ⟨h1, rfl⟩
    rw [List.map_map]
    conv => lhs; rw [← List.map_id px]
    refine List.map_congr_left fun p hp => ?_
    have := h1 p hp
    simp [UInt8.toNat_ofNat', Nat.mod_eq_of_lt this]
  · rintro rfl
    constructor
    · intro n hn
      obtain ⟨b, _, rfl⟩ := List.mem_map.1 hn
      exact toNat_lt b
    · rw [List.map_map]
      conv => lhs; rw [← List.map_id d]
      refine List.map_congr_left fun p hp => ?_
      simp

/-- Pixels that a tile of the format can hold. -/
def Fit (t : ImageTile) : Prop :=
  t.pixels.length = 64 ∧ ∀ p ∈ t.pixels, p < if t.format = .i4 then 16 else 256

theorem tile_save {t : ImageTile} (h : Fit t) : ∃ d, t.save = .ok d ∧ d.length = bytesPerTile t.format ∧
    ImageTile.load d t.format = .ok t := by
  obtain ⟨h1, h2⟩ := h
  obtain ⟨px, f⟩ := t
  dsimp only at h1 h2
  unfold ImageTile.save ImageTile.load bytesPerTile
  dsimp only
  split
  · rename_i hf
    rw [if_pos hf] at h2
    obtain ⟨d, h3, h4⟩ := saveNibbles_ok px (by omega)
    have hl : d.length = 32 := by
      have := nibbles_length d
      rw [h4, List.length_map] at this
      omega
    refine ⟨d, h3, hl, ?_⟩
    rw [raiseIf_false (by omega), bind_ok, h4, map_mod_eq h2]
    rfl
  · rename_i hf
    rw [if_neg hf] at h2
    refine ⟨px.map UInt8.ofNat, ?_, by simpa using h1, ?_⟩
    · rw [mapE_eq_map (P := fun n => n < 256) (g := UInt8.ofNat) fun a b => byteOf_eq_ok]
      exact ⟨h2, rfl⟩
    · rw [raiseIf_false (by simp [h1]), bind_ok, List.map_map]
      have : px.map (UInt8.toNat ∘ UInt8.ofNat) = px := by
        conv => rhs; rw [← List.map_id px]
        refine List.map_congr_left fun p hp => ?_
        simp [UInt8.toNat_ofNat', Nat.mod_eq_of_lt (h2 p hp)]
      rw [this]
      rfl

theorem tile_load {d : Bytes} {f : ImageFormat} (h : d.length = bytesPerTile f) : ∃ t, ImageTile.load d f = .ok t ∧
    t.format = f ∧ t.save = .ok d ∧ Fit t := by
  unfold bytesPerTile at h
  unfold ImageTile.load ImageTile.save Fit
  split at h
  · rename_i hf
    refine ⟨⟨nibbles d, f⟩, ?_, rfl, ?_, ?_, ?_⟩
    · rw [if_pos hf, raiseIf_false (by omega)]; rfl
    · dsimp only; rw [if_pos hf, saveNibbles_nibbles]
    · dsimp only; rw [nibbles_length]; omega
    · dsimp only; rw [if_pos hf]
      clear h hf
      induction d with
      | nil => simp [nibbles]
      | cons b d ih =>
        intro p hp
        rw [nibbles, List.mem_cons, List.mem_cons] at hp
        have h0 := toNat_lt b
        rcases hp with rfl | rfl | hp
        · rw [Bits.and_mask _ 4 rfl]; omega
        · rw [Bits.shr]; omega
        · exact ih p hp
  · rename_i hf
    refine ⟨⟨d.map UInt8.toNat, f⟩, ?_, rfl, ?_, ?_, ?_⟩
    · rw [if_neg hf, raiseIf_false (by omega)]; rfl
    · dsimp only; rw [if_neg hf, mapE_byteOf]
    · simpa using h
    · dsimp only; rw [if_neg hf]
      intro p hp
      obtain ⟨b, _, rfl⟩ := List.mem_map.1 hp
      exact toNat_lt b

theorem tile_load_err {d : Bytes} {f : ImageFormat} (h : d.length ≠ bytesPerTile f) :
    ImageTile.load d f = .error .valueError := by
  unfold bytesPerTile at h
  unfold ImageTile.load
  split at h
  · rename_i hf; rw [if_pos hf, raiseIf_true h]; rfl
  · rename_i hf; rw [if_neg hf, raiseIf_true h]; rfl

theorem bpt_pos (f : ImageFormat) : 0 < bytesPerTile f := by cases f <;> decide

theorem saveImageTiles_eq {ts : List ImageTile} {f : ImageFormat} (h : ∀ t ∈ ts, t.format = f) :
    saveImageTiles ts = (mapE ImageTile.save ts >>= fun r => pure r.flatten) := by
  unfold saveImageTiles
  cases ts with
  | nil => rfl
  | cons t ts =>
    dsimp only
    rw [raiseIf_false, bind_ok]
    intro hn
    apply hn
    rw [List.all_eq_true]
    intro t' ht'
    rw [decide_eq_true_iff, h t' ht', h t (by simp)]

theorem tiles_save_load {ts : List ImageTile} {f : ImageFormat} (h : ∀ t ∈ ts, t.format = f ∧ Fit t) :
    ∃ d, saveImageTiles ts = .ok d ∧ d.length = ts.length * bytesPerTile f ∧ loadImageTiles d f = .ok ts := by
  rw [saveImageTiles_eq fun t ht => (h t ht).1]
  have hs : ∃ r, mapE ImageTile.save ts = .ok r ∧ (∀ x ∈ r, x.length = bytesPerTile f) ∧ r.length = ts.length ∧
      ∀ (i : Nat) (hi : i < ts.length) (hr : i < r.length), ImageTile.load r[i] f = .ok ts[i] := by
    induction ts with
    | nil => exact ⟨[], rfl, by simp, rfl, by intro i hi; cases hi⟩
    | cons t ts ih =>
      obtain ⟨r, h1, h2, h3, h4⟩ := ih fun t ht => h t (by simp [ht])
      obtain ⟨hf, hfit⟩ := h t (by simp)
      obtain ⟨d, h5, h6, h7⟩ := tile_save hfit
      refine ⟨d :: r, ?_, ?_, by simp [h3], ?_⟩
      · rw [mapE_cons_ok]; exact ⟨d, r, h5, h1, rfl⟩
      · intro x hx
        rcases List.mem_cons.1 hx with rfl | hx
        · rw [h6, hf]
        · exact h2 x hx
      · intro i hi hr
        cases i with
        | zero => rw [← hf]; exact h7
        | succ i => exact h4 i (by simpa using hi) (by simpa using hr)
  obtain ⟨r, h1, h2, h3, h4⟩ := hs
  have hl : r.flatten.length = ts.length * bytesPerTile f := by rw [flatten_length_const h2, h3]
  refine ⟨r.flatten, by rw [h1]; rfl, hl, ?_⟩
  unfold loadImageTiles
  rw [hl, Nat.mul_div_cancel _ (bpt_pos f)]
  refine mapE_range_eq rfl fun i hi => ?_
  have ha := flatten_at h2 (i := i) (hi := by omega)
  have hle : r[i].length = bytesPerTile f := h2 _ (List.getElem_mem _)
  rw [ha.slice_eq (by rw [hle])]
  exact h4 i hi (by omega)

theorem take_mul_eq (d : Bytes) (b : Nat) : ∀ n, n * b ≤ d.length →
    ((List.range n).map fun i => slice d (i * b) (i * b + b)).flatten = d.take (n * b)
  | 0, _ => by simp
  | n + 1, h => by
    have hb : n * b + b ≤ d.length := by rw [Nat.succ_mul] at h; exact h
    rw [List.range_succ, List.map_append, List.flatten_append, take_mul_eq d b n (by omega), Nat.succ_mul]
    simp only [List.map_cons, List.map_nil, List.flatten_cons, List.flatten_nil, List.append_nil]
    have := slice_append_slice d (a := 0) (b := n * b) (c := n * b + b) (by omega) (by omega)
    simpa [slice] using this

theorem mapE_exists {α β : Type _} {f : α → Py β} {P : α → β → Prop} : ∀ {as : List α},
    (∀ a ∈ as, ∃ b, f a = .ok b ∧ P a b) → ∃ bs, mapE f as = .ok bs ∧ bs.length = as.length ∧
      ∀ (i : Nat) (h1 : i < as.length) (h2 : i < bs.length), P as[i] bs[i]
  | [], _ => ⟨[], rfl, rfl, by intro i h; cases h⟩
  | a :: as, h => by
    obtain ⟨b, hb, hp⟩ := h a (by simp)
    obtain ⟨bs, h1, h2, h3⟩ := mapE_exists (as := as) fun a ha => h a (by simp [ha])
    refine ⟨b :: bs, by rw [mapE_cons_ok]; exact ⟨b, bs, hb, h1, rfl⟩, by simp [h2], ?_⟩
    intro i h4 h5
    cases i with
    | zero => exact hp
    | succ i => exact h3 i (by simpa using h4) (by simpa using h5)

theorem tiles_load_save (d : Bytes) (f : ImageFormat) : ∃ ts, loadImageTiles d f = .ok ts ∧
    ts.length = d.length / bytesPerTile f ∧ (∀ t ∈ ts, t.format = f ∧ Fit t) ∧
    saveImageTiles ts = .ok (d.take (d.length / bytesPerTile f * bytesPerTile f)) := by
  have hp := bpt_pos f
  have hle : d.length / bytesPerTile f * bytesPerTile f ≤ d.length := Nat.div_mul_le_self _ _
  obtain ⟨ts, h1, h2, h3⟩ := mapE_exists (f := fun i => ImageTile.load
      (slice d (i * bytesPerTile f) (i * bytesPerTile f + bytesPerTile f)) f)
    (P := fun i t => t.format = f ∧ t.save = .ok (slice d (i * bytesPerTile f) (i * bytesPerTile f + bytesPerTile f)) ∧ Fit t)
    (as := List.range (d.length / bytesPerTile f)) (by
      intro i hi
      have hi := List.mem_range.1 hi
      have : (i + 1) * bytesPerTile f ≤ d.length / bytesPerTile f * bytesPerTile f := Nat.mul_le_mul_right _ hi
      rw [Nat.succ_mul] at this
      exact tile_load (by rw [slice_length_of_le (by omega)]; omega))
  rw [List.length_range] at h2
  have hf : ∀ t ∈ ts, t.format = f ∧ Fit t := by
    intro t ht
    obtain ⟨i, hi, rfl⟩ := List.mem_iff_getElem.1 ht
    have := h3 i (by simp; omega) hi
    exact ⟨this.1, this.2.2⟩
  refine ⟨ts, h1, h2, hf, ?_⟩
  rw [saveImageTiles_eq fun t ht => (hf t ht).1]
  have hs : mapE ImageTile.save ts = .ok ((List.range (d.length / bytesPerTile f)).map fun i =>
      slice d (i * bytesPerTile f) (i * bytesPerTile f + bytesPerTile f)) := by
    have hl : ts = (List.range ts.length).map fun i => ts.getD i (.new f) := by
      apply List.ext_getElem (by simp)
      intro i h4 h5
      simp [h4]
    rw [hl, mapE_map, h2]
    refine mapE_ok_of_forall fun i hi => ?_
    have hi := List.mem_range.1 hi
    have := (h3 i (by simpa using hi) (by omega)).2.1
    simp only [List.getElem_range] at this
    rw [← this]
    congr 1
    simp [h2, hi]
  rw [hs, bind_ok, take_mul_eq _ _ _ hle]
  rfl

/-! ### Tilemap entries -/

theorem value_eq (t : TilemapTile) : t.value = if t.format = .i8 then t.tileNum % 256 else
    t.tileNum % 1024 + (if t.hFlip = true then 1024 else 0) + (if t.vFlip = true then 2048 else 0)
      + t.paletteNum % 16 * 4096 := by
  unfold TilemapTile.value
  split
  · exact Bits.and_mask _ 8 rfl
  · rw [Bits.and_mask t.tileNum 10 rfl, Bits.and_mask t.paletteNum 4 rfl, Nat.zero_or]
    have hn : t.tileNum % 2 ^ 10 < 2 ^ 10 := Nat.mod_lt _ (by decide)
    have h1 : t.tileNum % 2 ^ 10 ||| (if t.hFlip = true then 0x400 else 0) =
        t.tileNum % 2 ^ 10 + (if t.hFlip = true then 1024 else 0) := by
      split
      · exact Bits.or_add (b := 1) hn
      · simp
    have h2 : t.tileNum % 2 ^ 10 + (if t.hFlip = true then 1024 else 0) < 2 ^ 11 := by split <;> omega
    have h3 : (t.tileNum % 2 ^ 10 + (if t.hFlip = true then 1024 else 0)) ||| (if t.vFlip = true then 0x800 else 0) =
        t.tileNum % 2 ^ 10 + (if t.hFlip = true then 1024 else 0) + (if t.vFlip = true then 2048 else 0) := by
      generalize t.tileNum % 2 ^ 10 + (if t.hFlip = true then 1024 else 0) = w at h2 ⊢
      split
      · exact Bits.or_add (b := 1) h2
      · simp
    rw [h1, h3, Bits.or_add (by split <;> split <;> omega)]

theorem and_pow_ne (v i : Nat) : (v &&& 2 ^ i ≠ 0) ↔ v / 2 ^ i % 2 = 1 := by
  have h := Bits.and_two_pow_ne v i
  rw [Nat.testBit_eq_decide_div_mod_eq] at h
  constructor
  · intro h'
    have : (v &&& 2 ^ i != 0) = true := by simpa using h'
    rw [h] at this
    simpa using this
  · intro h'
    rw [h'] at h
    simpa using h

theorem load_eq (v : Nat) (f : TilemapFormat) : TilemapTile.load v f =
    ⟨f, v % 1024, decide (v / 1024 % 2 = 1), decide (v / 2048 % 2 = 1), v / 4096 % 16⟩ := by
  unfold TilemapTile.load TilemapTile.setValue
  rw [if_neg (by decide)]
  dsimp only
  have h1 : (v &&& 0x400 ≠ 0) ↔ v / 1024 % 2 = 1 := and_pow_ne v 10
  have h2 : (v &&& 0x800 ≠ 0) ↔ v / 2048 % 2 = 1 := and_pow_ne v 11
  rw [Bits.and_mask v 10 rfl, Bits.and_mask _ 4 rfl, Bits.shr]
  simp only [h1, h2]

theorem value_lt (t : TilemapTile) : t.value < if t.format = .i8 then 256 else 65536 := by
  rw [value_eq]
  split
  · omega
  · split <;> split <;> omega

theorem load_value_iff (t : TilemapTile) : TilemapTile.load t.value t.format = t ↔
    if t.format = .i8 then t.tileNum < 256 ∧ t.hFlip = false ∧ t.vFlip = false ∧ t.paletteNum = 0
    else t.tileNum < 1024 ∧ t.paletteNum < 16 := by
  rw [load_eq, value_eq]
  obtain ⟨f, n, h, v, p⟩ := t
  dsimp only
  simp only [TilemapTile.mk.injEq, true_and]
  split
  · have h1 : n % 256 / 1024 % 2 = 0 := by omega
    have h2 : n % 256 / 2048 % 2 = 0 := by omega
    have h3 : n % 256 / 4096 % 16 = 0 := by omega
    rw [h1, h2, h3]
    constructor
    · rintro ⟨a, b, c, d⟩; exact ⟨by omega, by simpa using b.symm, by simpa using c.symm, d.symm⟩
    · rintro ⟨a, rfl, rfl, rfl⟩; exact ⟨by omega, rfl, rfl, rfl⟩
  · constructor
    · rintro ⟨h1, _, _, h4⟩
      exact ⟨by rw [← h1]; exact Nat.mod_lt _ (by decide), by rw [← h4]; exact Nat.mod_lt _ (by decide)⟩
    · intro hh
      have h1 := hh.1
      have h2 := hh.2
      cases h <;> cases v <;> simp only [reduceIte, Bool.false_eq_true, Nat.add_zero, decide_eq_true_eq,
        decide_eq_false_iff_not] <;> exact ⟨by omega, by omega, by omega, by omega⟩

theorem value_load {v : Nat} (f : TilemapFormat) (h : v < if f = .i8 then 256 else 65536) :
    (TilemapTile.load v f).value = v := by
  rw [load_eq, value_eq]
  dsimp only
  split
  · rename_i hf; rw [if_pos hf] at h; omega
  · rename_i hf; rw [if_neg hf] at h
    simp only [decide_eq_true_eq]
    split <;> split <;> omega

theorem saveTilemapTiles_eq {ts : List TilemapTile} {f : TilemapFormat} (h : ∀ t ∈ ts, t.format = f) :
    saveTilemapTiles ts = .ok (ts.map fun t => enBytes .little (if f = .i8 then 1 else 2) t.value).flatten := by
  unfold saveTilemapTiles
  cases ts with
  | nil => rfl
  | cons t ts =>
    dsimp only
    have ht := h t (by simp)
    rw [raiseIf_false, bind_ok]
    · cases f with
      | i10h1v1p4 =>
        rw [if_pos ht, if_neg (by decide)]
        rw [mapE_ok_of_forall (g := fun t' => enBytes .little 2 t'.value)]
        · rfl
        · intro t' ht'
          refine packU_of_lt ?_
          have := value_lt t'
          rw [h t' ht', if_neg (by decide)] at this
          exact this
      | i8 =>
        rw [if_neg (by rw [ht]; decide), if_pos rfl]
        rw [mapE_ok_of_forall (g := fun t' => UInt8.ofNat t'.value)]
        · congr 1
          have : ∀ l : List TilemapTile, l.map (fun t' => UInt8.ofNat t'.value)
              = (l.map fun t => enBytes .little 1 t.value).flatten := by
            intro l
            induction l with
            | nil => rfl
            | cons a l ih => simp only [List.map_cons, List.flatten_cons, ih]; rfl
          exact this _
        · intro t' ht'
          refine byteOf_eq_ok.2 ⟨?_, rfl⟩
          have := value_lt t'
          rw [h t' ht', if_pos rfl] at this
          exact this
    · intro hn
      apply hn
      rw [List.all_eq_true]
      intro t' ht'
      rw [decide_eq_true_iff, h t' ht', h t (by simp)]

theorem flatten_one (l : List TilemapTile) : (l.map fun t => enBytes .little 1 t.value).flatten
    = l.map fun t => UInt8.ofNat t.value := by
  induction l with
  | nil => rfl
  | cons a l ih => simp only [List.map_cons, List.flatten_cons, ih]; rfl

theorem tilemap_load_saved {ts : List TilemapTile} {f : TilemapFormat} (h : ∀ t ∈ ts, t.format = f) :
    loadTilemapTiles (ts.map fun t => enBytes .little (if f = .i8 then 1 else 2) t.value).flatten f =
      .ok (ts.map fun t => TilemapTile.load t.value t.format) := by
  unfold loadTilemapTiles
  cases f with
  | i8 =>
    rw [if_neg (by decide), if_pos rfl, flatten_one, List.map_map]
    rw [pure_def]
    congr 1
    refine List.map_congr_left fun t ht => ?_
    have hv := value_lt t
    rw [h t ht, if_pos rfl] at hv
    simp only [Function.comp, h t ht, UInt8.toNat_ofNat', Nat.reducePow, Nat.mod_eq_of_lt hv]
  | i10h1v1p4 =>
    rw [if_pos rfl, if_neg (by decide)]
    have hc : ∀ p ∈ ts.map fun t => enBytes .little 2 t.value, p.length = 2 := by
      intro p hp
      obtain ⟨t, _, rfl⟩ := List.mem_map.1 hp
      simp
    have hl := flatten_length_const hc
    rw [List.length_map] at hl
    refine mapE_range_eq (by rw [hl, List.length_map]; omega) fun i hi => ?_
    rw [List.length_map] at hi
    have ha := flatten_at hc (i := i) (hi := by simpa using hi)
    rw [List.getElem_map] at ha
    have hv := value_lt ts[i]
    rw [h _ (List.getElem_mem _), if_neg (by decide)] at hv
    rw [Nat.mul_comm 2 i, ha.unpackU hv, bind_ok, List.getElem_map, h _ (List.getElem_mem _)]
    rfl

theorem tilemap_load_bytes (d : Bytes) (f : TilemapFormat) (hd : f = .i10h1v1p4 → d.length % 2 = 0) :
    ∃ ts, loadTilemapTiles d f = .ok ts ∧ (∀ t ∈ ts, t.format = f) ∧
      ts.length = d.length / (if f = .i8 then 1 else 2) ∧ saveTilemapTiles ts = .ok d := by
  cases f with
  | i8 =>
    refine ⟨d.map fun t => TilemapTile.load t.toNat .i8, rfl, ?_, by simp, ?_⟩
    · intro t ht; obtain ⟨b, _, rfl⟩ := List.mem_map.1 ht; rfl
    · rw [saveTilemapTiles_eq (f := .i8), if_pos rfl, flatten_one, List.map_map]
      · congr 1
        conv => rhs; rw [← List.map_id d]
        refine List.map_congr_left fun b _ => ?_
        simp only [Function.comp]
        rw [value_load .i8 (by rw [if_pos rfl]; exact toNat_lt b)]
        simp
      · intro t ht; obtain ⟨b, _, rfl⟩ := List.mem_map.1 ht; rfl
  | i10h1v1p4 =>
    have hd := hd rfl
    have hn : (d.length + 1) / 2 = d.length / 2 := by omega
    let g : Nat → TilemapTile := fun i => TilemapTile.load (enVal .little (slice d (2 * i) (2 * i + 2))) .i10h1v1p4
    have hg : ∀ t ∈ (List.range (d.length / 2)).map g, t.format = .i10h1v1p4 := by
      intro t ht; obtain ⟨b, _, rfl⟩ := List.mem_map.1 ht; rfl
    refine ⟨(List.range (d.length / 2)).map g, ?_, hg, by simp, ?_⟩
    · unfold loadTilemapTiles
      rw [if_pos rfl, hn]
      refine mapE_ok_of_forall fun i hi => ?_
      have hi := List.mem_range.1 hi
      have : unpackU .little 2 d (2 * i) = .ok (enVal .little (slice d (2 * i) (2 * i + 2))) := by
        unfold unpackU; rw [if_pos (by omega)]
      rw [this]
      rfl
    · rw [saveTilemapTiles_eq hg, if_neg (by decide), List.map_map]
      congr 1
      have : (List.range (d.length / 2)).map ((fun t => enBytes .little 2 t.value) ∘ g)
          = (List.range (d.length / 2)).map fun i => slice d (i * 2) (i * 2 + 2) := by
        refine List.map_congr_left fun i hi => ?_
        have hi := List.mem_range.1 hi
        have hl : (slice d (2 * i) (2 * i + 2)).length = 2 := by rw [slice_length_of_le (by omega)]; omega
        have hv := enVal_lt .little (slice d (2 * i) (2 * i + 2))
        rw [hl] at hv
        simp only [Function.comp, g]
        rw [value_load .i10h1v1p4 (by rw [if_neg (by decide)]; exact hv)]
        have := enBytes_enVal .little (slice d (2 * i) (2 * i + 2))
        rw [hl] at this
        rw [this, Nat.mul_comm]
      rw [this, take_mul_eq d 2 _ (by omega)]
      exact List.take_of_length_le (by omega)

/-! ### Rendering -/

theorem mapE_range_ok {α : Type _} {f : Nat → Py α} {n : Nat} {r : List α} :
    mapE f (List.range n) = .ok r ↔ r.length = n ∧ ∀ i (h : i < r.length), f i = .ok r[i] := by
  constructor
  · intro h
    have hl := mapE_length h
    rw [List.length_range] at hl
    refine ⟨hl, fun i hi => ?_⟩
    have := mapE_getElem h i (by simpa [hl] using hi) hi
    simpa using this
  · rintro ⟨h1, h2⟩
    exact mapE_range_eq h1.symm h2

theorem putBlock_step {img row : List Color} {base i : Nat} (hrow : row.length = 8) (hb : base + 8 ≤ img.length) :
    (img.take base ++ row ++ img.drop (base + 8))[i]? =
      (if base ≤ i ∧ i < base + 8 then row[i - base]? else img[i]?) ∧
    (img.take base ++ row ++ img.drop (base + 8)).length = img.length := by
  have htl : (img.take base).length = base := by simp; omega
  constructor
  · rw [List.append_assoc, List.getElem?_append, htl]
    split
    · rename_i h
      rw [if_neg (by omega), List.getElem?_take, if_pos h]
    · rename_i h
      rw [List.getElem?_append, hrow]
      split
      · rw [if_pos (by omega)]
      · rw [if_neg (by omega), List.getElem?_drop]
        congr 1
        omega
  · simp only [List.length_append, htl, hrow, List.length_drop]; omega

/-- Where the rows of a block are. -/
theorem row_iff {W x y Y X n : Nat} (hX : X < 8 * W) (hx : x < W) :
    (((y * 8 + n) * W + x) * 8 ≤ Y * (8 * W) + X ∧ Y * (8 * W) + X < ((y * 8 + n) * W + x) * 8 + 8) ↔
      (Y = y * 8 + n ∧ X / 8 = x) := by
  have e : ((y * 8 + n) * W + x) * 8 = (y * 8 + n) * (8 * W) + x * 8 := by
    rw [Nat.add_mul, Nat.mul_assoc, Nat.mul_comm W 8]
  rw [e]
  generalize y * 8 + n = a
  rcases Nat.lt_trichotomy Y a with h | h | h
  · have : (Y + 1) * (8 * W) ≤ a * (8 * W) := Nat.mul_le_mul_right _ h
    rw [Nat.succ_mul] at this
    omega
  · subst h; omega
  · have : (a + 1) * (8 * W) ≤ Y * (8 * W) := Nat.mul_le_mul_right _ h
    rw [Nat.succ_mul] at this
    omega

theorem putRows {img px : List Color} {W H x y : Nat} (hi : img.length = W * H * 64) (hx : x < W) (hy : y < H)
    (hpx : px.length = 64) : ∀ n, n ≤ 8 →
    let r := (List.range n).foldl (fun img y2 =>
      img.take (((y * 8 + y2) * W + x) * 8) ++ slice px (y2 * 8) (y2 * 8 + 8)
        ++ img.drop (((y * 8 + y2) * W + x) * 8 + 8)) img
    r.length = img.length ∧ ∀ X Y, X < 8 * W → r[Y * (8 * W) + X]? =
      if Y / 8 = y ∧ Y % 8 < n ∧ X / 8 = x then px[Y % 8 * 8 + X % 8]? else img[Y * (8 * W) + X]?
  | 0, _ => by simp
  | n + 1, h => by
    obtain ⟨h1, h2⟩ := putRows hi hx hy hpx n (by omega)
    rw [List.range_succ, List.foldl_append]
    simp only [List.foldl_cons, List.foldl_nil]
    generalize (List.range n).foldl (fun img y2 =>
      img.take (((y * 8 + y2) * W + x) * 8) ++ slice px (y2 * 8) (y2 * 8 + 8)
        ++ img.drop (((y * 8 + y2) * W + x) * 8 + 8)) img = r at h1 h2 ⊢
    have hb : ((y * 8 + n) * W + x) * 8 + 8 ≤ r.length := by
      rw [h1, hi]
      have a1 : (y * 8 + n + 1) * W ≤ 8 * H * W := Nat.mul_le_mul_right _ (by omega)
      rw [Nat.succ_mul] at a1
      have a2 : W * H * 64 = 8 * H * W * 8 := by
        rw [Nat.mul_comm W H, Nat.mul_assoc 8 H W, Nat.mul_comm 8 (H * W), Nat.mul_assoc, Nat.mul_assoc, Nat.mul_assoc]
      rw [a2]
      omega
    have hrow : (slice px (n * 8) (n * 8 + 8)).length = 8 := by rw [slice_length_of_le (by omega)]; omega
    refine ⟨by rw [(putBlock_step (i := 0) hrow hb).2, h1], ?_⟩
    intro X Y hX
    rw [(putBlock_step hrow hb).1, h2 X Y hX]
    by_cases hc : Y = y * 8 + n ∧ X / 8 = x
    · rw [if_pos ((row_iff hX hx).2 hc), if_pos (by omega)]
      have e : ((y * 8 + n) * W + x) * 8 = (y * 8 + n) * (8 * W) + x * 8 := by
        rw [Nat.add_mul, Nat.mul_assoc, Nat.mul_comm W 8]
      rw [e, hc.1, getElem?_slice, if_pos (by omega)]
      congr 1
      omega
    · rw [if_neg fun h => hc ((row_iff hX hx).1 h)]
      by_cases hd : Y / 8 = y ∧ Y % 8 < n ∧ X / 8 = x
      · rw [if_pos hd, if_pos (by omega)]
      · rw [if_neg hd, if_neg (by omega)]

theorem putBlock_spec {img px : List Color} {W H x y : Nat} (hi : img.length = W * H * 64) (hx : x < W) (hy : y < H)
    (hpx : px.length = 64) : (putBlock img W x y px).length = img.length ∧
    ∀ X Y, X < 8 * W → (putBlock img W x y px)[Y * (8 * W) + X]? =
      if Y / 8 = y ∧ X / 8 = x then px[Y % 8 * 8 + X % 8]? else img[Y * (8 * W) + X]? := by
  obtain ⟨h1, h2⟩ := putRows hi hx hy hpx 8 (by omega)
  refine ⟨h1, fun X Y hX => ?_⟩
  unfold putBlock
  rw [h2 X Y hX]
  by_cases hd : Y / 8 = y ∧ X / 8 = x
  · rw [if_pos hd, if_pos (by omega)]
  · rw [if_neg hd, if_neg (by omega)]

theorem cells_eq (W : Nat) (hW : 0 < W) : ∀ H, ((List.range H).flatMap fun y => (List.range W).map fun x => (y, x))
    = (List.range (W * H)).map fun k => (k / W, k % W)
  | 0 => by simp
  | H + 1 => by
    rw [List.range_succ, List.flatMap_append, cells_eq W hW H, Nat.mul_succ, List.range_add, List.map_append]
    congr 1
    simp only [List.flatMap_cons, List.flatMap_nil, List.append_nil, List.map_map]
    refine List.map_congr_left fun x hx => ?_
    have hx := List.mem_range.1 hx
    simp only [Function.comp]
    rw [Nat.mul_add_div hW, Nat.div_eq_of_lt hx, Nat.mul_add_mod, Nat.mod_eq_of_lt hx, Nat.add_zero]

theorem div_lt_of {k W H : Nat} (h : k < W * H) : k / W < H := Nat.div_lt_of_lt_mul h

/-- The tiles from number `k` on. -/
theorem renderCells_spec {α : Type} {render : α → Py (List Color)} {W H : Nat} (hW : 0 < W)
    (h64 : ∀ t px, render t = .ok px → px.length = 64) :
    ∀ (m k : Nat) (ts : List α) (img : List Color), k + m = W * H → ts.length = m → img.length = W * H * 64 →
    (∀ t ∈ ts, ∃ px, render t = .ok px) →
    ∃ r, renderCells render W ((List.range' k m).map fun k => (k / W, k % W)) ts img = .ok r ∧
      r.length = img.length ∧ ∀ X Y, X < 8 * W → Y < 8 * H →
        (Y / 8 * W + X / 8 < k → r[Y * (8 * W) + X]? = img[Y * (8 * W) + X]?) ∧
        (∀ t px, k ≤ Y / 8 * W + X / 8 → ts[Y / 8 * W + X / 8 - k]? = some t → render t = .ok px →
          r[Y * (8 * W) + X]? = px[Y % 8 * 8 + X % 8]?)
  | 0, k, ts, img, hk, hl, hi, hr => by
    refine ⟨img, rfl, rfl, ?_⟩
    intro X Y hX hY
    refine ⟨fun _ => rfl, ?_⟩
    intro t px h1 h2
    have : ts = [] := List.eq_nil_of_length_eq_zero hl
    rw [this] at h2
    simp at h2
  | m + 1, k, ts, img, hk, hl, hi, hr => by
    match ts, hl with
    | t :: ts, hl =>
      obtain ⟨px, hpx⟩ := hr t (by simp)
      have hkH : k / W < H := div_lt_of (by omega)
      have hkW : k % W < W := Nat.mod_lt _ hW
      obtain ⟨b1, b2⟩ := putBlock_spec hi hkW hkH (h64 _ _ hpx)
      obtain ⟨r, h1, h2, h3⟩ := renderCells_spec (H := H) hW h64 m (k + 1) ts (putBlock img W (k % W) (k / W) px) (by omega)
        (by simpa using hl) (by rw [b1, hi]) (fun t ht => hr t (by simp [ht]))
      refine ⟨r, ?_, by rw [h2, b1], ?_⟩
      · rw [List.range'_succ, List.map_cons, renderCells, hpx, bind_ok, h1]
      · intro X Y hX hY
        obtain ⟨h4, h5⟩ := h3 X Y hX hY
        have hXW : X / 8 < W := by omega
        have hiff : (Y / 8 = k / W ∧ X / 8 = k % W) ↔ Y / 8 * W + X / 8 = k := by
          constructor
          · rintro ⟨h6, h7⟩; rw [h6, h7, Nat.mul_comm]; exact Nat.div_add_mod k W
          · intro h6
            rw [← h6, Nat.mul_comm, Nat.mul_add_div hW, Nat.div_eq_of_lt hXW, Nat.mul_add_mod, Nat.mod_eq_of_lt hXW]
            exact ⟨rfl, rfl⟩
        constructor
        · intro hlt
          rw [h4 (by omega), b2 X Y hX, if_neg (by rw [hiff]; omega)]
        · intro t' px' hle ht' hp'
          by_cases he : Y / 8 * W + X / 8 = k
          · rw [h4 (by omega), b2 X Y hX, if_pos (hiff.2 he)]
            rw [he, Nat.sub_self] at ht'
            simp only [List.getElem?_cons_zero, Option.some.injEq] at ht'
            subst ht'
            rw [hpx] at hp'
            cases hp'
            rfl
          · refine h5 t' px' (by omega) ?_ hp'
            rw [← ht']
            have : Y / 8 * W + X / 8 - k = (Y / 8 * W + X / 8 - (k + 1)) + 1 := by omega
            rw [this, List.getElem?_cons_succ]

theorem renderGrid_ok {α : Type} {render : α → Py (List Color)} {tiles : List α} {W H : Nat} (hW : 0 < W)
    (h64 : ∀ t px, render t = .ok px → px.length = 64) (hl : tiles.length = W * H)
    (hr : ∀ t ∈ tiles, ∃ px, render t = .ok px) : ∃ img, renderGrid render tiles W = .ok img ∧
      img.length = W * H * 64 ∧ ∀ X Y, X < 8 * W → Y < 8 * H →
        ∀ t px, tiles[Y / 8 * W + X / 8]? = some t → render t = .ok px →
          img[Y * (8 * W) + X]? = px[Y % 8 * 8 + X % 8]? := by
  unfold renderGrid
  rw [raiseIf_false (by omega), bind_ok]
  dsimp only
  rw [hl, Nat.mul_div_cancel_left _ hW, Nat.mul_mod_right, if_neg (by decide), Nat.add_zero, cells_eq W hW,
    List.range_eq_range']
  obtain ⟨r, h1, h2, h3⟩ := renderCells_spec (H := H) hW h64 (W * H) 0 tiles
    (List.replicate (W * H * 64) ⟨0, 0, 0, 0⟩) (by omega) hl (by simp) hr
  refine ⟨r, h1, by rw [h2]; simp, ?_⟩
  intro X Y hX hY t px ht hpx
  exact (h3 X Y hX hY).2 t px (by omega) ht hpx

/-- With fewer tiles than cells the iterator runs out. -/
theorem renderCells_short {α : Type} {render : α → Py (List Color)} {W : Nat} :
    ∀ (cells : List (Nat × Nat)) (ts : List α) (img : List Color), ts.length < cells.length →
    (∀ t ∈ ts, ∃ px, render t = .ok px) → renderCells render W cells ts img = .error .stopIteration
  | [], _, _, h, _ => by simp at h
  | _ :: _, [], _, _, _ => rfl
  | (y, x) :: cells, t :: ts, img, h, hr => by
    obtain ⟨px, hpx⟩ := hr t (by simp)
    rw [renderCells, hpx, bind_ok]
    exact renderCells_short cells ts _ (by simpa using h) fun t ht => hr t (by simp [ht])

theorem renderGrid_short {α : Type} {render : α → Py (List Color)} {tiles : List α} {W : Nat} (hW : 0 < W)
    (hl : tiles.length % W ≠ 0) (hr : ∀ t ∈ tiles, ∃ px, render t = .ok px) :
    renderGrid render tiles W = .error .stopIteration := by
  unfold renderGrid
  rw [raiseIf_false (by omega), bind_ok]
  dsimp only
  rw [if_pos hl, cells_eq W hW]
  refine renderCells_short _ _ _ ?_ hr
  rw [List.length_map, List.length_range, Nat.mul_add, Nat.mul_one]
  have := Nat.div_add_mod tiles.length W
  have := Nat.mod_lt tiles.length hW
  omega

end Verif.Proofs.Graphics2D
