import Verif.Props.FormatNsbmd
import Verif.Spec.FormatNsbtx
import Verif.Props.Texture

/-!
# Texture blocks, NSBTX and NSBMD files, byte by byte (C102)
-/

namespace Verif.Props.FormatNsbtx

open Verif Verif.Model.Common Verif.Model.InfoBlock Verif.Model.Color Verif.Model.Texture Verif.Spec.Reader Verif.Spec.FormatFnt
open Verif.Spec.FormatNsbmd (count stripped) 
open Verif.Spec.FormatNsbtx Verif.Proofs.Reader Verif.Props.FormatFnt

theorem shift_and (n k w : Nat) : (n >>> k) &&& (2 ^ w - 1) = bits n k w := by
  rw [Nat.shiftRight_eq_div_pow]
  exact Nat.and_two_pow_sub_one_eq_mod _ w

theorem low_and (n w : Nat) : n &&& (2 ^ w - 1) = bits n 0 w := shift_and n 0 w

/-! ## Lists of records -/

/-- The entry that is read. -/
def entryAt (d : Bytes) (o k i : Nat) : Entry :=
  ⟨some (nameAt d o k i), unk00At d o i, unk02At d o i, bytesAt d (recordAt d o k i) k⟩

theorem loadEntry_iff {d : Bytes} {o k i : Nat} {e : Entry} :
    loadEntry d (o + 12) (o + 12 + 4 * count d o + 4) k (o + 12 + 4 * count d o + 4 + k * count d o) i = .ok e ↔
      o + 12 + 4 * i + 4 ≤ d.length ∧ e = entryAt d o k i := by
  unfold loadEntry
  simp only [bind_eq_ok, unpackUs_iff (ks := [2, 2]) (by decide) (by decide)]
  have e1 : o + 12 + 4 * count d o + 4 + k * count d o + 16 * i = o + 16 + (4 + k) * count d o + 16 * i := by
    rw [Nat.add_mul]; omega
  have e2 : o + 12 + 4 * count d o + 4 + k * i = recordAt d o k i := by unfold recordAt; omega
  have e3 : o + 12 + 4 * i + 2 = o + 14 + 4 * i := by omega
  rw [e1, e2, slice_bytesAt, slice_bytesAt, FormatNsbmd.stripped_map]
  constructor
  · rintro ⟨_, ⟨h1, rfl⟩, h⟩
    simp only [readAll, uN, pure_eq_ok, e3] at h
    exact ⟨h1, h.symm⟩
  · rintro ⟨h1, rfl⟩
    refine ⟨_, ⟨h1, rfl⟩, ?_⟩
    simp only [readAll, uN, pure_eq_ok, e3]
    rfl

theorem loadInfoBlock_iff {d : Bytes} {o k : Nat} {es : List Entry} (hk : 0 < k) :
    (loadInfoBlock d o (some k) = .ok es ∧ ∀ e ∈ es, e.data.length = k) ↔
      RecordsOk d o k ∧ es = (List.range (count d o)).map (entryAt d o k) := by
  have hm := fun r => mapE_eq_map (fun i e => loadEntry_iff (d := d) (o := o) (k := k) (i := i) (e := e))
    (List.range (count d o)) r
  unfold loadInfoBlock
  simp only [bind_eq_ok, unpackUs_iff (ks := [1, 1, 2]) (by decide) (by decide),
    unpackUs_iff (ks := [2, 2, 4]) (by decide) (by decide)]
  constructor
  · rintro ⟨⟨_, ⟨h1, rfl⟩, _, ⟨h2, rfl⟩, h⟩, hl⟩
    simp only [readAll, uN, bind_eq_ok, pyAssert_iff] at h
    rw [show u8 d (o + 1) = count d o from rfl] at h
    obtain ⟨_, h3, _, h4, _, h5, _, h6, h⟩ := h
    obtain ⟨h6', rfl⟩ := (unpackUs_iff (by decide) (by decide)).1 h6
    simp only [readAll, uN, bind_eq_ok, pyAssert_iff] at h
    obtain ⟨_, h7, _, h8, h9⟩ := h
    have h7 := h7 k rfl
    rw [h7] at h8 h9
    obtain ⟨h9, rfl⟩ := (hm _).1 h9
    refine ⟨⟨h3, h4, h5, h7, ?_, ?_⟩, rfl⟩
    · rw [← h8]; congr 1; omega
    · have : ∀ i ∈ List.range (count d o), o + 16 + 4 * count d o + i * k + k ≤ d.length := by
        intro i hi
        have := hl _ (List.mem_map.2 ⟨i, hi, rfl⟩)
        simp only [entryAt, bytesAt_length, recordAt] at this
        have hc := Nat.mul_comm i k
        omega
      have := (records_end (by simp at h6'; omega)).1 this
      rw [Nat.add_mul]; omega
  · rintro ⟨⟨h1, h2, h3, h4, h5, h6⟩, rfl⟩
    rw [Nat.add_mul] at h6
    refine ⟨⟨_, ⟨by simp; omega, rfl⟩, _, ⟨by simp; omega, rfl⟩, ?_⟩, ?_⟩
    · simp only [readAll, uN, bind_eq_ok, pyAssert_iff]
      rw [show u8 d (o + 1) = count d o from rfl]
      refine ⟨⟨⟩, h1, ⟨⟩, h2, ⟨⟩, h3, _, (unpackUs_iff (by decide) (by decide)).2 ⟨by simp; omega, rfl⟩, ?_⟩
      simp only [readAll, uN, bind_eq_ok, pyAssert_iff]
      refine ⟨⟨⟩, fun n hn => by cases hn; exact h4, ⟨⟩, ?_, ?_⟩
      · rw [h4, ← h5]; congr 1; omega
      · rw [h4]
        refine (hm _).2 ⟨fun i hi => ?_, rfl⟩
        have := List.mem_range.1 hi
        omega
    · intro e he
      obtain ⟨i, hi, rfl⟩ := List.mem_map.1 he
      have := (records_end (n := count d o) (k := k) (s := o + 16 + 4 * count d o) (len := d.length) (by omega)).2 (by omega) i hi
      have hc := Nat.mul_comm i k
      simp only [entryAt, bytesAt_length, recordAt]
      omega

/-! ## Textures -/

theorem record_end {d : Bytes} {o k i : Nat} (h : RecordsOk d o k) (hi : i < count d o) : recordAt d o k i + k ≤ d.length := by
  obtain ⟨-, -, -, -, -, h⟩ := h
  rw [Nat.add_mul] at h
  have := (records_end (n := count d o) (k := k) (s := o + 16 + 4 * count d o) (len := d.length) (by omega)).2 (by omega) i
    (List.mem_range.2 hi)
  have hc := Nat.mul_comm i k
  unfold recordAt
  omega

theorem bits1 (f : Nat) (h : f < 8) : bitsPerPixel1 f = (perPixel f).1 := by
  obtain rfl | rfl | rfl | rfl | rfl | rfl | rfl | rfl : f = 0 ∨ f = 1 ∨ f = 2 ∨ f = 3 ∨ f = 4 ∨ f = 5 ∨ f = 6 ∨ f = 7 := by omega
  all_goals rfl

theorem new_eq (a b p c : Nat) (x y : Bytes) : Texture.new a b p c x y = {
    unk00 := a
    unk02 := b
    repeatS := bit p 0
    repeatT := bit p 1
    mirrorS := bit p 2
    mirrorT := bit p 3
    width := 8 * 2 ^ bits p 4 3
    height := 8 * 2 ^ bits p 7 3
    format := bits p 10 3
    isColor0Transparent := bit p 13
    coordsTransformationMode := bits p 14 2
    unk04 := c
    data1 := x
    data2 := y } := by
  unfold Texture.new
  rw [show (p >>> 4) &&& 7 = bits p 4 3 from shift_and p 4 3, show (p >>> 7) &&& 7 = bits p 7 3 from shift_and p 7 3,
    show (p >>> 10) &&& 7 = bits p 10 3 from shift_and p 10 3, show (p >>> 14) &&& 3 = bits p 14 2 from shift_and p 14 2,
    Nat.shiftLeft_eq, Nat.shiftLeft_eq]
  rw [← and_pow, ← and_pow, ← and_pow, ← and_pow, ← and_pow]

theorem readTexture_iff {d : Bytes} {o i : Nat} (h : RecordsOk d o 8) (hi : i < count d o) {t : Option Str × Texture} :
    readTexture d (u32 d 0x14) (u32 d 0x24) (u32 d 0x28) (entryAt d o 8 i) = .ok t ↔ t = texture d o i := by
  have hr := record_end h hi
  have hlen : (entryAt d o 8 i).data.length = 8 := by
    simp only [entryAt, bytesAt_length]; omega
  unfold readTexture
  rw [raiseIf, if_neg (by rw [hlen]; simp)]
  rw [show unpackUs .little [2, 2, 4] (entryAt d o 8 i).data 0 = .ok
    [u16 d (recordAt d o 8 i), u16 d (recordAt d o 8 i + 2), u32 d (recordAt d o 8 i + 4)] from
    (unpackUs_iff (by decide) (by decide)).2 ⟨by rw [hlen]; decide, by
      simp only [readAll, uN, entryAt, Nat.zero_add]
      rw [u16_bytesAt _ _ (by omega), u16_bytesAt _ _ (by omega), u32_bytesAt _ _ (by omega)]; rfl⟩]
  unfold texture
  generalize recordAt d o 8 i = r
  show (if (Texture.new (unk00At d o i) (unk02At d o i) (u16 d (r + 2)) (u32 d (r + 4)) [] []).format = TEXELED then _ else _) = _ ↔ _
  have hf : bits (u16 d (r + 2)) 10 3 < 8 := by unfold bits; omega
  simp only [new_eq, bits1 _ hf, slice_bytesAt, Nat.shiftLeft_eq, show TEXELED = 5 from rfl,
    show u16 d r * 2 ^ 3 = 8 * u16 d r from Nat.mul_comm _ _]
  generalize bits (u16 d (r + 2)) 10 3 = f at *
  unfold data1 data2
  by_cases h5 : f = 5
  · subst h5
    simp only [if_true, pure_eq_ok]
    exact eq_comm
  · simp only [h5, if_false, pure_eq_ok, Nat.add_comm (8 * u16 d r)]
    exact eq_comm

/-! ## Palettes -/

theorem colours_iff (b : Bytes) (l : List Color) : loadPalette b = .ok l ↔ l = colours b := by
  have hm := fun r => mapE_eq_map (f := fun i => unpackU .little 2 b (2 * i)) (P := fun i => 2 * i + 2 ≤ b.length)
    (g := fun i => u16 b (2 * i)) (fun i n => unpack2) (List.range (b.length / 2)) r
  unfold loadPalette colours
  simp only [bind_eq_ok, pure_eq_ok]
  have hu : ∀ n, unpack n = colour n := by
    intro n
    unfold unpack colour
    rw [show n &&& 0x1F = bits n 0 5 from low_and n 5, show (n >>> 5) &&& 0x1F = bits n 5 5 from shift_and n 5 5,
      show (n >>> 10) &&& 0x1F = bits n 10 5 from shift_and n 10 5, show (n >>> 15) &&& 1 = bits n 15 1 from shift_and n 15 1]
  constructor
  · rintro ⟨_, h, rfl⟩
    obtain ⟨-, rfl⟩ := (hm _).1 h
    simp [hu]
  · rintro rfl
    refine ⟨_, (hm _).2 ⟨fun i hi => ?_, rfl⟩, by simp [hu]⟩
    have := List.mem_range.1 hi
    omega

theorem lookup_foldl {ι κ ν : Type} [DecidableEq κ] (f : ι → κ) (g : ι → ν) (k : κ) : ∀ (l : List ι) (d : List (κ × ν)),
    (l.foldl (fun d i => dictSet d (f i) (g i)) d).lookup k =
      (((l.filter fun i => f i = k).getLast?).map g).or (d.lookup k)
  | [], d => by simp
  | i :: l, d => by
    rw [List.foldl_cons, lookup_foldl f g k l, dictSet_lookup]
    by_cases h : f i = k
    · rw [List.filter_cons_of_pos (by simpa using h), if_pos h.symm, List.getLast?_cons]
      cases (l.filter fun i => f i = k).getLast? <;> rfl
    · rw [List.filter_cons_of_neg (by simpa using h), if_neg (fun e => h e.symm)]

theorem lookup_inst {κ ν : Type} [DecidableEq κ] [i : BEq κ] [LawfulBEq κ] (k : κ) : ∀ l : List (κ × ν),
    @List.lookup κ ν i k l = @List.lookup κ ν instBEqOfDecidableEq k l
  | [] => rfl
  | p :: l => by
    unfold List.lookup
    rw [lookup_inst k l]
    by_cases h : k = p.1
    · rw [h]; simp
    · rw [beq_false_of_ne h, @beq_false_of_ne _ instBEqOfDecidableEq _ _ _ h]

theorem stopAfter_perm {l m : List Nat} (h : l.Perm m) (s : Nat) : stopAfter l s = stopAfter m s := by
  unfold stopAfter
  rw [h.count_eq]
  split
  · rfl
  · have hp := h.filter (s < ·)
    generalize l.filter (s < ·) = a at hp
    generalize m.filter (s < ·) = b at hp
    cases ha : a.min? with
    | none =>
      rw [List.min?_eq_none_iff] at ha
      subst ha
      rw [List.nil_perm.1 hp]; rfl
    | some x =>
      rw [List.min?_eq_some_iff] at ha
      symm
      rw [List.min?_eq_some_iff]
      exact ⟨hp.mem_iff.1 ha.1, fun y hy => ha.2 y (hp.mem_iff.2 hy)⟩

theorem next_sorted {s : Nat} : ∀ {l : List Nat}, l.Pairwise (· ≤ ·) → s ∈ l → l[l.idxOf s + 1]? = stopAfter l s
  | a :: as, hp, hs => by
    rw [List.pairwise_cons] at hp
    by_cases h : a = s
    · subst h
      rw [List.idxOf_cons_self]
      unfold stopAfter
      rw [List.count_cons_self]
      cases as with
      | nil => simp
      | cons b bs =>
        by_cases hm : a ∈ b :: bs
        · have h1 : 1 ≤ List.count a (b :: bs) := List.count_pos_iff.2 hm
          rw [if_pos (by omega)]
          have hb := (List.pairwise_cons.1 hp.2).1
          have h2 := hp.1 b (by simp)
          rcases List.mem_cons.1 hm with rfl | hm
          · rfl
          · have := hb a hm
            have : a = b := by omega
            subst this; rfl
        · rw [List.count_eq_zero.2 hm, if_neg (by omega)]
          have hlt : ∀ x ∈ b :: bs, a < x := fun x hx => by
            have := hp.1 x hx
            have : a ≠ x := fun e => hm (e ▸ hx)
            omega
          rw [List.filter_cons_of_neg (by simp), List.filter_eq_self.2 (fun x hx => by simpa using hlt x hx)]
          show some b = _
          symm
          rw [List.min?_eq_some_iff]
          refine ⟨by simp, fun x hx => ?_⟩
          rcases List.mem_cons.1 hx with rfl | hx
          · simp
          · exact (List.pairwise_cons.1 hp.2).1 x hx
    · have hs' : s ∈ as := by
        rcases List.mem_cons.1 hs with e | hs
        · exact absurd e.symm h
        · exact hs
      rw [List.idxOf_cons, beq_false_of_ne h, cond_false, List.getElem?_cons_succ, next_sorted hp.2 hs']
      unfold stopAfter
      have := hp.1 s hs'
      rw [List.count_cons_of_ne h, List.filter_cons_of_neg (by simp; omega)]

theorem readPaletteKey_iff {d : Bytes} {o i : Nat} (h : RecordsOk d o 4) (hi : i < count d o) {t : PaletteKey × Nat} :
    readPaletteKey (u32 d 0x38) (entryAt d o 4 i) = .ok t ↔ t = (key d o i, start d o i) := by
  have hr := record_end h hi
  have hlen : (entryAt d o 4 i).data.length = 4 := by
    simp only [entryAt, bytesAt_length]; omega
  unfold readPaletteKey
  rw [raiseIf, if_neg (by rw [hlen]; simp)]
  rw [show unpackUs .little [2, 2] (entryAt d o 4 i).data 0 = .ok
    [u16 d (recordAt d o 4 i), u16 d (recordAt d o 4 i + 2)] from
    (unpackUs_iff (by decide) (by decide)).2 ⟨by rw [hlen]; decide, by
      simp only [readAll, uN, entryAt, Nat.zero_add]
      rw [u16_bytesAt _ _ (by omega), u16_bytesAt _ _ (by omega)]; rfl⟩]
  show Except.ok _ = _ ↔ _
  rw [Except.ok.injEq, show u16 d (recordAt d o 4 i) <<< 3 + u32 d 0x38 = start d o i by
    unfold start; rw [Nat.shiftLeft_eq, Nat.add_comm, Nat.mul_comm]]
  exact eq_comm

theorem twin_mem {d : Bytes} {o i : Nat} (hi : i < count d o) :
    ((List.range (count d o)).filter fun j => key d o j = key d o i).getLast? = some (twin d o i) ∧
      twin d o i < count d o := by
  unfold twin
  have hm : i ∈ (List.range (count d o)).filter fun j => key d o j = key d o i := by
    rw [List.mem_filter]; exact ⟨List.mem_range.2 hi, by simp⟩
  generalize hl : (List.range (count d o)).filter (fun j => key d o j = key d o i) = l at *
  cases h : l.getLast? with
  | none => rw [List.getLast?_eq_none_iff.1 h] at hm; cases hm
  | some j =>
    have hj := List.mem_of_getLast? h
    rw [← hl, List.mem_filter] at hj
    exact ⟨rfl, List.mem_range.1 hj.1⟩

theorem readPalette_iff {d : Bytes} {o i : Nat} (hi : i < count d o) {t : Option Str × Palette} :
    readPalette d (((List.range (count d o)).map fun i => (key d o i, start d o i)).foldl (fun d k => dictSet d k.1 k.2) [])
        (sortBy id (stops d o)) (key d o i) = .ok t ↔
      (stopAfter (stops d o) (start d o (twin d o i))).isSome ∧ t = palette d o i := by
  have ht := twin_mem hi
  have hl := lookup_foldl (key d o) (start d o) (key d o i) (List.range (count d o)) []
  rw [ht.1, Option.map_some, Option.some_or] at hl
  unfold readPalette
  rw [List.foldl_map, lookup_inst, hl]
  simp only
  have hmem : start d o (twin d o i) ∈ sortBy id (stops d o) := by
    rw [(sortBy_perm id _).mem_iff]
    exact List.mem_append_left _ (List.mem_map.2 ⟨_, List.mem_range.2 ht.2, rfl⟩)
  rw [if_pos hmem]
  have hn := next_sorted (s := start d o (twin d o i)) (sortBy_sorted id (stops d o)) hmem
  rw [stopAfter_perm (sortBy_perm id _)] at hn
  simp only [bind_eq_ok, pure_eq_ok, pyIdx_eq_ok, hn, colours_iff, slice_span]
  unfold palette
  constructor
  · rintro ⟨e, h, _, rfl, rfl⟩
    simp only [h]
    exact ⟨rfl, rfl⟩
  · rintro ⟨h, rfl⟩
    obtain ⟨e, h⟩ := Option.isSome_iff_exists.1 h
    simp only [h]
    exact ⟨e, rfl, _, rfl, rfl⟩

/-! ## The block and the file -/

theorem entries_length {α : Type} {f : Entry → Py α} {k : Nat} {es : List Entry} {r : List α}
    (hf : ∀ e a, f e = .ok a → e.data.length = k) (h : mapE f es = .ok r) : ∀ e ∈ es, e.data.length = k := by
  induction es generalizing r with
  | nil => simp
  | cons e es ih =>
    obtain ⟨a, as, h1, h2, rfl⟩ := mapE_cons_ok.1 h
    intro x hx
    rcases List.mem_cons.1 hx with rfl | hx
    · exact hf _ _ h1
    · exact ih h2 x hx

/-- C102: a texture block can be read exactly if it is all right, and then has the textures and palettes described. -/
theorem tex0_load_iff (d : Bytes) (t : NSBTX) : readTEX0 d = .ok t ↔ BlockOk d ∧ t = block d := by
  unfold readTEX0 BlockOk block
  simp only [bind_eq_ok, pyAssert_iff, unpackUs_iff (ks := [4, 2, 2, 4, 4, 4, 2, 2, 4, 4, 4, 4, 2, 2, 4, 4]) (by decide) (by decide)]
  generalize ho : u16 d 0x0E = o
  generalize hq : u32 d 0x34 = q
  have ht := fun (h : RecordsOk d o 8) r => FormatSound.mapE_eq_map_mem (List.range (count d o)) r
    (f := fun i => readTexture d (u32 d 0x14) (u32 d 0x24) (u32 d 0x28) (entryAt d o 8 i)) (P := fun _ => True) (g := texture d o)
    (fun i hi t => by rw [true_and]; exact readTexture_iff h (List.mem_range.1 hi))
  have hk := fun (h : RecordsOk d q 4) r => FormatSound.mapE_eq_map_mem (List.range (count d q)) r
    (f := fun i => readPaletteKey (u32 d 0x38) (entryAt d q 4 i)) (P := fun _ => True) (g := fun i => (key d q i, start d q i))
    (fun i hi t => by rw [true_and]; exact readPaletteKey_iff h (List.mem_range.1 hi))
  have hp := fun r => FormatSound.mapE_eq_map_mem (List.range (count d q)) r
    (f := fun i => readPalette d (((List.range (count d q)).map fun i => (key d q i, start d q i)).foldl
      (fun d k => dictSet d k.1 k.2) []) (sortBy id (stops d q)) (key d q i))
    (P := fun i => (stopAfter (stops d q) (start d q (twin d q i))).isSome) (g := palette d q)
    (fun i hi t => readPalette_iff (List.mem_range.1 hi))
  have hs : ((List.range (count d q)).map fun i => (key d q i, start d q i)).map (·.2) ++ [u32 d 0x38 + u16 d 0x30 <<< 3] = stops d q := by
    unfold stops
    rw [List.map_map, Nat.shiftLeft_eq, Nat.mul_comm]; rfl
  have hks : ((List.range (count d q)).map fun i => (key d q i, start d q i)).map (·.1) = (List.range (count d q)).map (key d q) := by
    rw [List.map_map]; rfl
  constructor
  · rintro ⟨_, h1, _, ⟨h2, rfl⟩, h⟩
    simp only [readAll, uN, bind_eq_ok, pure_eq_ok, Nat.reduceAdd, ho, hq] at h
    obtain ⟨te, h3, ts, h4, pe, h5, ks, h6, ps, h7, rfl⟩ := h
    obtain ⟨h3', rfl⟩ := (loadInfoBlock_iff (by decide)).1 ⟨h3, entries_length (fun e a h => by
      unfold readTexture at h
      rw [bind_eq_ok] at h
      obtain ⟨_, h, -⟩ := h
      exact Decidable.not_not.1 (raiseIf_iff.1 h)) h4⟩
    obtain ⟨h5', rfl⟩ := (loadInfoBlock_iff (by decide)).1 ⟨h5, entries_length (fun e a h => by
      unfold readPaletteKey at h
      rw [bind_eq_ok] at h
      obtain ⟨_, h, -⟩ := h
      exact Decidable.not_not.1 (raiseIf_iff.1 h)) h6⟩
    rw [mapE_map] at h4 h6
    obtain ⟨-, rfl⟩ := (ht h3' _).1 h4
    obtain ⟨-, rfl⟩ := (hk h5' _).1 h6
    rw [hs, hks, mapE_map] at h7
    obtain ⟨h7', rfl⟩ := (hp _).1 h7
    exact ⟨⟨h1, h2, h3', h5', fun i hi => h7' i (List.mem_range.2 hi)⟩, rfl⟩
  · rintro ⟨⟨h1, h2, h3, h4, h5⟩, rfl⟩
    refine ⟨⟨⟩, h1, _, ⟨h2, rfl⟩, ?_⟩
    simp only [readAll, uN, bind_eq_ok, pure_eq_ok, Nat.reduceAdd, ho, hq]
    refine ⟨_, ((loadInfoBlock_iff (by decide)).2 ⟨h3, rfl⟩).1, (List.range (count d o)).map (texture d o), ?_,
      _, ((loadInfoBlock_iff (by decide)).2 ⟨h4, rfl⟩).1, (List.range (count d q)).map fun i => (key d q i, start d q i), ?_,
      (List.range (count d q)).map (palette d q), ?_, ?_⟩
    · rw [mapE_map]; exact (ht h3 _).2 ⟨fun _ _ => trivial, rfl⟩
    · rw [mapE_map]; exact (hk h4 _).2 ⟨fun _ _ => trivial, rfl⟩
    · rw [hs, hks, mapE_map]
      exact (hp _).2 ⟨fun i hi => h5 i (List.mem_range.1 hi), rfl⟩
    · rfl

/-- C102: an NSBTX file loads exactly if it is all right, and then as described. -/
theorem nsbtx_load_iff (d : Bytes) (t : NSBTX) : Model.Texture.load d = .ok t ↔ FileOk d ∧ t = block (d.drop 0x14) := by
  unfold Model.Texture.load FileOk
  simp only [bind_eq_ok, pyAssert_iff, raiseIf_iff, Decidable.not_not, stdHeader_iff, tex0_load_iff]
  constructor
  · rintro ⟨_, h1, _, ⟨h2, rfl⟩, _, h3, _, h4, _, h5, h6, rfl⟩
    exact ⟨⟨h1, h3, h4, h6⟩, rfl⟩
  · rintro ⟨⟨h1, h3, h4, h6⟩, rfl⟩
    have := h6.2.1
    rw [List.length_drop] at this
    exact ⟨⟨⟩, h1, _, ⟨by omega, rfl⟩, ⟨⟩, h3, ⟨⟩, h4, ⟨⟩, h6.1, h6, rfl⟩

/-- C102: a saved NSBTX file has everything at these places. -/
theorem nsbtx_saved {t : NSBTX} {b : Bytes} (h : Model.Texture.save t = .ok b) (hr : Props.Texture.Representable t) :
    FileOk b ∧ t = block (b.drop 0x14) :=
  (nsbtx_load_iff b t).1 (Props.Texture.nsbtx_roundtrip h hr)

example : ∃ b, Model.Texture.save Props.Texture.sample = .ok b ∧ FileOk b ∧ Props.Texture.sample = block (b.drop 0x14) := by
  cases h : Model.Texture.save Props.Texture.sample with
  | ok b => exact ⟨b, rfl, nsbtx_saved h Props.Texture.sample_representable⟩
  | error e =>
    exfalso
    have : (Model.Texture.save Props.Texture.sample).isOk = true := by decide +kernel
    rw [h] at this
    cases this

/-! ## Model files -/

open Verif.Model.Nsbmd

theorem readAll_words (d : Bytes) : ∀ (n o : Nat), readAll d (List.replicate n 4) o = (List.range n).map fun i => u32 d (o + 4 * i)
  | 0, _ => rfl
  | n + 1, o => by
    rw [List.replicate_succ, readAll, readAll_words d n, List.range_succ_eq_map, List.map_cons, List.map_map]
    refine List.cons_eq_cons.2 ⟨rfl, List.map_congr_left fun i _ => ?_⟩
    show _ = u32 d (o + 4 * (i + 1))
    congr 1; omega

/-- The block at a place is all right. -/
def PlaceOk (d : Bytes) (o : Nat) : Prop := o + 8 ≤ d.length ∧
  (IsModel d o ∧ Spec.FormatNsbmd.BlockOk (blockAt d o) ∨ IsTexture d o ∧ BlockOk (blockAt d o))

/-- What it adds. -/
def step (d : Bytes) (m : NSBMD) (o : Nat) : NSBMD :=
  if IsModel d o then { m with mdl0 := some (blockAt d o), models := some (Spec.FormatNsbmd.modelNames (blockAt d o)) }
  else { m with tex := block (blockAt d o) }

theorem not_both {d : Bytes} {o : Nat} (h : IsTexture d o) : ¬ IsModel d o := by
  unfold IsTexture at h
  unfold IsModel
  rw [h]
  decide

theorem parseBlock_iff (d : Bytes) (m : NSBMD) (o : Nat) (r : NSBMD) :
    parseBlock d m o = .ok r ↔ PlaceOk d o ∧ r = step d m o := by
  unfold parseBlock PlaceOk step
  simp only [bind_eq_ok, unpackStr_iff, unpack4, slice_bytesAt]
  constructor
  · rintro ⟨_, ⟨h1, rfl⟩, _, ⟨h2, rfl⟩, h⟩
    split at h
    · rename_i hm
      simp only [bind_eq_ok, pure_eq_ok, FormatNsbmd.mdl0_load_iff] at h
      obtain ⟨_, ⟨h3, rfl⟩, rfl⟩ := h
      exact ⟨⟨by omega, .inl ⟨hm, h3⟩⟩, (if_pos hm).symm⟩
    · rename_i hm
      split at h
      · rename_i ht
        simp only [bind_eq_ok, pure_eq_ok, tex0_load_iff] at h
        obtain ⟨_, ⟨h3, rfl⟩, rfl⟩ := h
        exact ⟨⟨by omega, .inr ⟨ht, h3⟩⟩, (if_neg hm).symm⟩
      · cases h
  · rintro ⟨⟨h1, h⟩, rfl⟩
    refine ⟨_, ⟨by omega, rfl⟩, _, ⟨by omega, rfl⟩, ?_⟩
    rcases h with ⟨hm, h⟩ | ⟨ht, h⟩
    · rw [if_pos (show bytesAt d o 4 = MDL0 from hm), if_pos hm]
      simp only [bind_eq_ok, pure_eq_ok, FormatNsbmd.mdl0_load_iff]
      exact ⟨_, ⟨h, rfl⟩, rfl⟩
    · rw [if_neg (show ¬ bytesAt d o 4 = MDL0 from not_both ht), if_neg (not_both ht), if_pos (show bytesAt d o 4 = TEX0 from ht)]
      simp only [bind_eq_ok, pure_eq_ok, tex0_load_iff]
      exact ⟨_, ⟨h, rfl⟩, rfl⟩

theorem parseBlocks_iff (d : Bytes) : ∀ (l : List Nat) (m r : NSBMD),
    parseBlocks d m l = .ok r ↔ (∀ o ∈ l, PlaceOk d o) ∧ r = l.foldl (step d) m
  | [], m, r => by simp [parseBlocks, eq_comm]
  | o :: l, m, r => by
    rw [parseBlocks, bind_eq_ok]
    simp only [parseBlock_iff, parseBlocks_iff d l, List.forall_mem_cons, List.foldl_cons]
    constructor
    · rintro ⟨_, ⟨h1, rfl⟩, h2, rfl⟩; exact ⟨⟨h1, h2⟩, rfl⟩
    · rintro ⟨⟨h1, h2⟩, rfl⟩; exact ⟨_, ⟨h1, rfl⟩, h2, rfl⟩

theorem fold_eq (d : Bytes) : ∀ (l : List Nat) (m : NSBMD), (∀ o ∈ l, PlaceOk d o) → l.foldl (step d) m =
    { tex := ((((l.filter fun o => IsTexture d o).getLast?).map (blockAt d)).map block).getD m.tex
      mdl0 := (((l.filter fun o => IsModel d o).getLast?).map (blockAt d)).or m.mdl0
      models := ((((l.filter fun o => IsModel d o).getLast?).map (blockAt d)).map Spec.FormatNsbmd.modelNames).or m.models }
  | [], m, _ => rfl
  | o :: l, m, h => by
    rw [List.foldl_cons, fold_eq d l _ fun x hx => h x (List.mem_cons_of_mem _ hx)]
    unfold step
    rcases (h o (by simp)).2 with ⟨hm, -⟩ | ⟨ht, -⟩
    · rw [List.filter_cons_of_pos (p := fun o => decide (IsModel d o)) (by simpa using hm),
        List.filter_cons_of_neg (p := fun o => decide (IsTexture d o)) (by simpa using fun ht => not_both ht hm), if_pos hm,
        List.getLast?_cons]
      cases (l.filter fun o => IsModel d o).getLast? <;> rfl
    · rw [List.filter_cons_of_pos (p := fun o => decide (IsTexture d o)) (by simpa using ht),
        List.filter_cons_of_neg (p := fun o => decide (IsModel d o)) (by simpa using not_both ht), if_neg (not_both ht),
        List.getLast?_cons]
      cases (l.filter fun o => IsTexture d o).getLast? <;> rfl

/-- C102: an NSBMD file loads exactly if it is all right, and then has the models of its last model block and the textures of
its last texture block. -/
theorem nsbmd_load_iff (d : Bytes) (m : NSBMD) : NSBMD.load d = .ok m ↔ ModelFileOk d ∧ m = modelFile d := by
  have hw : ∀ r, unpackUs .little (List.replicate (u16 d 14) 4) d 0x10 = .ok r ∧ 0x10 ≤ d.length ↔
      0x10 + 4 * u16 d 14 ≤ d.length ∧ r = places d := by
    intro r
    unfold places
    cases hn : u16 d 14 with
    | zero => simp [unpackUs, eq_comm, and_comm]
    | succ n =>
      rw [unpackUs_iff (by simp) (by simp), readAll_words, List.sum_replicate_nat]
      constructor
      · rintro ⟨⟨h1, h2⟩, h3⟩; exact ⟨by omega, h2⟩
      · rintro ⟨h1, h2⟩; exact ⟨⟨by omega, h2⟩, by omega⟩
  unfold NSBMD.load ModelFileOk
  simp only [bind_eq_ok, raiseIf_iff, Decidable.not_not, stdHeader_iff, parseBlocks_iff]
  have hf : ∀ (_ : ∀ o ∈ places d, PlaceOk d o), (places d).foldl (step d) NSBMD.new = modelFile d := by
    intro h
    rw [fold_eq d _ _ h]
    unfold modelFile lastModel lastTexture NSBMD.new
    simp
  constructor
  · rintro ⟨_, h1, _, ⟨h2, rfl⟩, _, h3, _, h4, h5, rfl⟩
    obtain ⟨h4', rfl⟩ := (hw _).1 ⟨h4, by omega⟩
    exact ⟨⟨h1, h3, h4', h5⟩, hf h5⟩
  · rintro ⟨⟨h1, h3, h4, h5⟩, rfl⟩
    exact ⟨⟨⟩, h1, _, ⟨by omega, rfl⟩, ⟨⟩, h3, _, ((hw _).2 ⟨h4, rfl⟩).1, h5, (hf h5).symm⟩

example : ModelFileOk Props.Nsbmd.oneFile ∧ Props.Nsbmd.one = modelFile Props.Nsbmd.oneFile :=
  (nsbmd_load_iff _ _).1 Props.Nsbmd.oneFile_load

end Verif.Props.FormatNsbtx
