import Verif.Proofs.Texture
import Verif.Props.InfoBlock

/-!
# NSBTX files: what is written and that it reads back
-/

namespace Verif.Proofs.Texture

open Props.InfoBlock (Clean)
open Verif Verif.Model.Common Verif.Model.Color Verif.Model.InfoBlock Verif.Model.Texture Verif.Proofs.InfoBlock

/-! ## Textures -/

/-- A texture whose data have the sizes that loading expects. -/
structure TexOk (t : Texture) : Prop where
  format : t.format < 8
  mode : t.coordsTransformationMode < 4
  len1 : t.data1.length = t.width * t.height * bitsPerPixel1 t.format / 8
  len2 : t.data2.length = t.width * t.height * bitsPerPixel2 t.format / 8

theorem area_mod {t : Texture} {w h : Nat} (h1 : t.width = 8 * 2 ^ w) (h2 : t.height = 8 * 2 ^ h) :
    ∃ m, t.width * t.height = 64 * m := by
  refine ⟨2 ^ w * 2 ^ h, ?_⟩
  rw [h1, h2, Nat.mul_mul_mul_comm]

theorem mul_div8 (m b : Nat) : 64 * m * b / 8 = 8 * (m * b) := by
  rw [show 64 * m * b = 8 * (8 * (m * b)) by rw [Nat.mul_assoc, show (64 : Nat) = 8 * 8 from rfl, Nat.mul_assoc],
    Nat.mul_div_cancel_left _ (by decide)]

/-- The lengths of the areas so far. -/
structure Aligned (s : SaveTex) : Prop where
  tex : s.textures.length % 8 = 0
  comp : s.compressed1.length % 16 = 0
  half : s.compressed1.length = 2 * s.compressed2.length

/-- One texture: what is written, and that it is read back wherever the areas lie. -/
theorem saveTexture_step {s s' : SaveTex} {x : Option Str × Texture} (h : saveTexture s x = .ok s') (ha : Aligned s)
    (hx : TexOk x.2) : Aligned s' ∧
      (∃ T C1 C2, s'.textures = s.textures ++ T ∧ s'.compressed1 = s.compressed1 ++ C1 ∧
        s'.compressed2 = s.compressed2 ++ C2) ∧
      ∃ e : Entry, s'.entries = s.entries ++ [e] ∧ e.name = x.1 ∧
        ∀ data o o1 o2, At data o s'.textures → At data o1 s'.compressed1 → At data o2 s'.compressed2 →
          readTexture data o o1 o2 e = .ok x := by
  obtain ⟨name, t⟩ := x
  dsimp only at hx
  unfold saveTexture at h
  obtain ⟨p, hp, h⟩ := bind_eq_ok.1 h
  obtain ⟨w, hh, hw1, hh1, hw, hhe, rfl⟩ := params_eq_ok.1 hp
  obtain ⟨m, hm⟩ := area_mod hw hhe
  have hnew := new_wordOf t hw1 hh1 hw hhe hx.format hx.mode
  have hnew' : ∀ d1 d2, Texture.new t.unk00 t.unk02 (wordOf t w hh) t.unk04 d1 d2 = { t with data1 := d1, data2 := d2 } := by
    intro d1 d2
    calc Texture.new t.unk00 t.unk02 (wordOf t w hh) t.unk04 d1 d2
        = { Texture.new t.unk00 t.unk02 (wordOf t w hh) t.unk04 t.data1 t.data2 with data1 := d1, data2 := d2 } := rfl
      _ = _ := by rw [hnew]
  have l1 := hx.len1
  have l2 := hx.len2
  rw [hm, mul_div8] at l1 l2
  obtain ⟨ha1, ha2, ha3⟩ := ha
  dsimp only at h
  by_cases hf : t.format = TEXELED
  · rw [if_pos hf] at h
    simp only [bind_eq_ok, pure_eq_ok, raiseIf_eq_ok, packUs_eq_ok] at h
    obtain ⟨_, hlen, b, ⟨hfit, rfl⟩, rfl⟩ := h
    dsimp only
    rw [hf] at l1 l2
    change _ = 8 * (m * 2) at l1
    change _ = 8 * (m * 1) at l2
    refine ⟨⟨ha1, ?_, ?_⟩, ⟨[], t.data1, t.data2, by simp, rfl, rfl⟩, _, rfl, rfl, ?_⟩
    · dsimp only; rw [List.length_append]; omega
    · dsimp only; rw [List.length_append, List.length_append]; omega
    · intro data o o1 o2 _ h1 h2
      unfold readTexture
      dsimp only
      have hl8 : (structBytes Endian.little [(2, s.compressed1.length >>> 3), (2, wordOf t w hh), (4, t.unk04)]).length = 8 := by
        rw [structBytes_length]; rfl
      have hr := unpackUs_at (At.refl (structBytes Endian.little [(2, s.compressed1.length >>> 3), (2, wordOf t w hh),
        (4, t.unk04)])) hfit
      simp only [List.map_cons, List.map_nil] at hr
      rw [raiseIf_false (by rw [hl8]; simp), bind_ok, hr, bind_ok]
      dsimp only
      rw [hnew']
      dsimp only
      rw [if_pos hf]
      have e1 : s.compressed1.length >>> 3 <<< 3 = s.compressed1.length := by rw [Bits.shl, Bits.shr]; omega
      rw [At.split] at h1 h2
      have e2 : s.compressed1.length / 2 = s.compressed2.length := by omega
      rw [e1, e2, ← hx.len1, ← hx.len2, h1.2.slice_eq rfl, h2.2.slice_eq rfl]
      rfl
  · rw [if_neg hf] at h
    simp only [bind_eq_ok, pure_eq_ok, packUs_eq_ok] at h
    obtain ⟨b, ⟨hfit, rfl⟩, rfl⟩ := h
    dsimp only
    have l2' : t.data2 = [] := by
      rw [bitsPerPixel2, if_neg hf] at l2
      simpa using l2
    refine ⟨⟨?_, ha2, ha3⟩, ⟨t.data1, [], [], rfl, by simp, by simp⟩, _, rfl, rfl, ?_⟩
    · dsimp only; rw [List.length_append]; omega
    · intro data o o1 o2 h0 _ _
      unfold readTexture
      dsimp only
      have hl8 : (structBytes Endian.little [(2, s.textures.length >>> 3), (2, wordOf t w hh), (4, t.unk04)]).length = 8 := by
        rw [structBytes_length]; rfl
      have hr := unpackUs_at (At.refl (structBytes Endian.little [(2, s.textures.length >>> 3), (2, wordOf t w hh),
        (4, t.unk04)])) hfit
      simp only [List.map_cons, List.map_nil] at hr
      rw [raiseIf_false (by rw [hl8]; simp), bind_ok, hr, bind_ok]
      dsimp only
      rw [hnew']
      dsimp only
      rw [if_neg hf]
      have e1 : s.textures.length >>> 3 <<< 3 = s.textures.length := by rw [Bits.shl, Bits.shr]; omega
      rw [At.split] at h0
      rw [e1, ← hx.len1, Nat.add_comm s.textures.length, h0.2.slice_eq rfl, ← l2']
      rfl

/-- All the textures. -/
theorem saveTextures_spec : ∀ {xs : List (Option Str × Texture)} {s s' : SaveTex}, saveTextures s xs = .ok s' → Aligned s →
    (∀ x ∈ xs, TexOk x.2) → Aligned s' ∧
      (∃ T C1 C2, s'.textures = s.textures ++ T ∧ s'.compressed1 = s.compressed1 ++ C1 ∧
        s'.compressed2 = s.compressed2 ++ C2) ∧
      ∃ es : List Entry, s'.entries = s.entries ++ es ∧ es.map Entry.name = xs.map Prod.fst ∧
        ∀ data o o1 o2, At data o s'.textures → At data o1 s'.compressed1 → At data o2 s'.compressed2 →
          mapE (readTexture data o o1 o2) es = .ok xs
  | [], s, s', h, ha, _ => by
    cases h
    exact ⟨ha, ⟨[], [], [], by simp, by simp, by simp⟩, [], by simp, rfl, fun _ _ _ _ _ _ _ => rfl⟩
  | x :: xs, s, s', h, ha, hx => by
    rw [saveTextures] at h
    obtain ⟨s1, h1, h2⟩ := bind_eq_ok.1 h
    obtain ⟨ha1, ⟨T, C1, C2, t1, t2, t3⟩, e, he, hn, hr⟩ := saveTexture_step h1 ha (hx x (by simp))
    obtain ⟨ha2, ⟨T', C1', C2', t1', t2', t3'⟩, es, hes, hns, hrs⟩ :=
      saveTextures_spec h2 ha1 (fun y hy => hx y (by simp [hy]))
    refine ⟨ha2, ⟨T ++ T', C1 ++ C1', C2 ++ C2', by rw [t1', t1, List.append_assoc], by rw [t2', t2, List.append_assoc],
      by rw [t3', t3, List.append_assoc]⟩, e :: es, by rw [hes, he]; simp, by rw [List.map_cons, List.map_cons, hn, hns], ?_⟩
    intro data o o1 o2 a0 a1 a2
    have b0 := a0; have b1 := a1; have b2 := a2
    rw [t1', At.split] at b0
    rw [t2', At.split] at b1
    rw [t3', At.split] at b2
    rw [mapE_cons, hr data o o1 o2 b0.1 b1.1 b2.1, bind_ok, hrs data o o1 o2 a0 a1 a2, bind_ok]

/-! ## Palettes -/

/-- The colours of a palette that can be stored. -/
def PalOk (p : Palette) : Prop := ∀ c ∈ p.colors, c.r < 32 ∧ c.g < 32 ∧ c.b < 32 ∧ c.a < 2

/-- The bytes of a palette. -/
def palB (p : Palette) : Bytes := (p.colors.map fun c => leBytes 2 (pack c.r c.g c.b c.a)).flatten

theorem palB_length (p : Palette) : (palB p).length = 2 * p.colors.length := Proofs.Color.flatten_len _ (by simp) _

/-- The key of a palette. -/
def keyOf (x : Option Str × Palette) : PaletteKey := (x.1, x.2.unk00, x.2.unk02, x.2.unkHeader02)

/-- The start offsets of the palettes, the first one at `o`. -/
def starts : Nat → List (Option Str × Palette) → List Nat
  | _, [] => []
  | o, x :: xs => o :: starts (o + (palB x.2).length) xs

/-- The palettes' data. -/
def palData (xs : List (Option Str × Palette)) : Bytes := (xs.map fun x => palB x.2).flatten

/-- All the palettes: what is written, and the first pass of reading. -/
theorem savePalettes_spec : ∀ {xs : List (Option Str × Palette)} {s s' : Bytes × List Entry},
    savePalettes s xs = .ok s' → s.1.length % 8 = 0 →
      s'.1 = s.1 ++ palData xs ∧ s'.1.length % 8 = 0 ∧ (∀ x ∈ xs, (palB x.2).length % 8 = 0) ∧
      ∃ es : List Entry, s'.2 = s.2 ++ es ∧ es.map Entry.name = xs.map Prod.fst ∧
        ∀ o, mapE (readPaletteKey o) es = .ok ((xs.map keyOf).zip (starts (o + s.1.length) xs))
  | [], s, s', h, h8 => by
    cases h
    exact ⟨by simp [palData], h8, (fun _ h => nomatch h), [], by simp, rfl, fun _ => rfl⟩
  | x :: xs, s, s', h, h8 => by
    rw [savePalettes] at h
    obtain ⟨s1, h1, h2⟩ := bind_eq_ok.1 h
    unfold savePaletteEntry at h1
    rw [Proofs.Color.savePalette_eq, bind_ok] at h1
    change ((do
      raiseIf ((palB x.2).length % 8 ≠ 0) .valueError
      let entry ← packUs .little [(2, s.1.length >>> 3), (2, x.2.unkHeader02)]
      return (s.1 ++ palB x.2, s.2 ++ [Entry.mk x.1 x.2.unk00 x.2.unk02 entry])) : Py (Bytes × List Entry)) = _ at h1
    simp only [bind_eq_ok, pure_eq_ok, raiseIf_eq_ok, packUs_eq_ok] at h1
    obtain ⟨_, hm, b, ⟨hfit, rfl⟩, rfl⟩ := h1
    have hm' : (palB x.2).length % 8 = 0 := by simpa using hm
    obtain ⟨r1, r2, r3, es, r4, r5, r6⟩ := savePalettes_spec h2 (by dsimp only; rw [List.length_append]; omega)
    refine ⟨?_, r2, ?_, ⟨x.1, x.2.unk00, x.2.unk02, structBytes Endian.little [(2, s.1.length >>> 3), (2, x.2.unkHeader02)]⟩ :: es,
      ?_, ?_, ?_⟩
    · rw [r1]; simp [palData]
    · intro y hy
      rcases List.mem_cons.1 hy with rfl | hy
      · exact hm'
      · exact r3 y hy
    · rw [r4, List.append_assoc]; rfl
    · rw [List.map_cons, List.map_cons, r5]
    · intro o
      rw [mapE_cons]
      have hl4 : (structBytes Endian.little [(2, s.1.length >>> 3), (2, x.2.unkHeader02)]).length = 4 := by
        rw [structBytes_length]; rfl
      have hr := unpackUs_at (At.refl (structBytes Endian.little [(2, s.1.length >>> 3), (2, x.2.unkHeader02)])) hfit
      simp only [List.map_cons, List.map_nil] at hr
      have e1 : s.1.length >>> 3 <<< 3 = s.1.length := by rw [Bits.shl, Bits.shr]; omega
      have : readPaletteKey o ⟨x.1, x.2.unk00, x.2.unk02,
          structBytes Endian.little [(2, s.1.length >>> 3), (2, x.2.unkHeader02)]⟩ = .ok (keyOf x, o + s.1.length) := by
        unfold readPaletteKey
        dsimp only
        rw [raiseIf_false (by rw [hl4]; simp), bind_ok, hr, bind_ok]
        dsimp only
        rw [e1, Nat.add_comm]
        rfl
      rw [this, bind_ok, r6 o, bind_ok]
      dsimp only
      rw [List.map_cons, starts, List.zip_cons_cons, List.length_append, Nat.add_assoc]

theorem starts_length : ∀ (o : Nat) (xs : List (Option Str × Palette)), (starts o xs).length = xs.length
  | _, [] => rfl
  | o, x :: xs => by rw [starts, List.length_cons, starts_length, List.length_cons]

theorem le_starts : ∀ {o : Nat} {xs : List (Option Str × Palette)} {a : Nat},
    a ∈ starts o xs → o ≤ a ∧ a ≤ o + (palData xs).length
  | _, [], _, h => nomatch h
  | o, x :: xs, a, h => by
    have hd : (palData (x :: xs)).length = (palB x.2).length + (palData xs).length := by simp [palData]
    rcases List.mem_cons.1 h with rfl | h
    · omega
    · have := le_starts h
      omega

theorem starts_sorted : ∀ (o : Nat) (xs : List (Option Str × Palette)),
    (starts o xs ++ [o + (palData xs).length]).Pairwise (fun a b => id a ≤ id b)
  | o, [] => by simp [starts]
  | o, x :: xs => by
    have hd : (palData (x :: xs)).length = (palB x.2).length + (palData xs).length := by simp [palData]
    rw [starts, List.cons_append, List.pairwise_cons]
    refine ⟨?_, ?_⟩
    · intro a ha
      rcases List.mem_append.1 ha with ha | ha
      · have := le_starts ha; dsimp only [id]; omega
      · simp only [List.mem_singleton] at ha; dsimp only [id]; omega
    · rw [hd, ← Nat.add_assoc]
      exact starts_sorted _ xs

theorem dict_zip {κ ν : Type} [DecidableEq κ] : ∀ (l : List (κ × ν)) (d : List (κ × ν)),
    ((d ++ l).map Prod.fst).Nodup → l.foldl (fun d k => dictSet d k.1 k.2) d = d ++ l
  | [], d, _ => by simp
  | p :: l, d, h => by
    rw [List.foldl_cons, dictSet_new, dict_zip l _ (by simpa using h)]
    · simp
    · intro hm
      rw [List.map_append, List.nodup_append] at h
      exact h.2.2 _ hm _ (by simp) rfl

/-- No palette without colours stands before one with colours. -/
def EmptyLast : List (Option Str × Palette) → Prop
  | [] => True
  | x :: xs => (x.2.colors = [] → ∀ y ∈ xs, y.2.colors = []) ∧ EmptyLast xs

/-- The end that the second pass finds for a palette. -/
theorem next_start : ∀ {xs : List (Option Str × Palette)} {o : Nat} {i : Nat} {x : Option Str × Palette} {a : Nat}
    (_ : EmptyLast xs) (_ : xs[i]? = some x) (_ : (starts o xs)[i]? = some a),
    a ∈ starts o xs ++ [o + (palData xs).length] ∧
    (starts o xs ++ [o + (palData xs).length])[(starts o xs ++ [o + (palData xs).length]).idxOf a + 1]? =
      some (a + (palB x.2).length) ∧ ∃ r t, palData xs = r ++ palB x.2 ++ t ∧ a = o + r.length
  | [], _, _, _, _, _, h, _ => by simp at h
  | y :: ys, o, 0, x, a, he, h, ha => by
    simp only [List.getElem?_cons_zero, Option.some.injEq] at h
    subst h
    rw [starts, List.getElem?_cons_zero, Option.some.injEq] at ha
    subst ha
    have hd : palData (y :: ys) = palB y.2 ++ palData ys := by simp [palData]
    refine ⟨by simp [starts], ?_, [], palData ys, ?_, rfl⟩
    · rw [starts, List.cons_append, List.idxOf_cons_self, Nat.zero_add, List.getElem?_cons_succ]
      cases ys with
      | nil => simp [starts, palData]
      | cons z zs => rw [starts]; rfl
    · simp [hd]
  | y :: ys, o, i + 1, x, a, he, h, ha => by
    rw [starts, List.getElem?_cons_succ] at ha
    rw [List.getElem?_cons_succ] at h
    obtain ⟨h1, h2, r, t, h3, h4⟩ := next_start he.2 h ha
    have hd : palData (y :: ys) = palB y.2 ++ palData ys := by simp [palData]
    have hl : (palData (y :: ys)).length = (palB y.2).length + (palData ys).length := by rw [hd]; simp
    have hs : starts o (y :: ys) ++ [o + (palData (y :: ys)).length] =
        o :: (starts (o + (palB y.2).length) ys ++ [o + (palB y.2).length + (palData ys).length]) := by
      rw [starts, hl, ← Nat.add_assoc]; rfl
    rw [hs]
    refine ⟨List.mem_cons_of_mem _ h1, ?_, palB y.2 ++ r, t, ?_, ?_⟩
    · by_cases hoa : a = o
      · subst hoa
        rw [List.idxOf_cons_self, Nat.zero_add, List.getElem?_cons_succ]
        have hly : (palB y.2).length = 0 := by omega
        have hye : y.2.colors = [] := by
          rw [palB_length] at hly
          exact List.eq_nil_of_length_eq_zero (by omega)
        have hxe : x.2.colors = [] := he.1 hye x (List.mem_of_getElem? h)
        have hx0 : (palB x.2).length = 0 := by rw [palB_length, hxe]; rfl
        rw [hx0, hly]
        cases ys with
        | nil => simp at h
        | cons z zs => rw [starts]; rfl
      · rw [List.idxOf_cons, beq_false_of_ne (fun e => hoa e.symm)]
        exact h2
    · rw [hd, h3]; simp
    · rw [List.length_append]; omega

theorem lookup_zip {κ ν : Type} [BEq κ] [LawfulBEq κ] : ∀ {ks : List κ} {vs : List ν} {i : Nat} {k : κ} {v : ν}, ks.Nodup →
    ks[i]? = some k → vs[i]? = some v → (ks.zip vs).lookup k = some v
  | [], _, _, _, _, _, h, _ => by simp at h
  | _ :: _, [], _, _, _, _, _, h => by simp at h
  | k' :: ks, v' :: vs, 0, k, v, _, h1, h2 => by
    simp only [List.getElem?_cons_zero, Option.some.injEq] at h1 h2
    subst h1; subst h2
    simp
  | k' :: ks, v' :: vs, i + 1, k, v, hn, h1, h2 => by
    rw [List.getElem?_cons_succ] at h1 h2
    obtain ⟨h3, h4⟩ := List.nodup_cons.1 hn
    have : k ≠ k' := fun e => h3 (e ▸ List.mem_of_getElem? h1)
    rw [List.zip_cons_cons, List.lookup_cons, beq_false_of_ne this]
    exact lookup_zip h4 h1 h2

/-- The second pass. -/
theorem readPalettes_ok {data : Bytes} {o len : Nat} {xs : List (Option Str × Palette)} (ha : At data o (palData xs))
    (hlen : len = (palData xs).length) (hc : ∀ x ∈ xs, PalOk x.2) (hk : (xs.map keyOf).Nodup) (he : EmptyLast xs) :
    mapE (readPalette data (((xs.map keyOf).zip (starts o xs)).foldl (fun d k => dictSet d k.1 k.2) [])
      (sortBy id (((xs.map keyOf).zip (starts o xs)).map (·.2) ++ [o + len])))
      (((xs.map keyOf).zip (starts o xs)).map (·.1)) = .ok xs := by
  have hz1 : ((xs.map keyOf).zip (starts o xs)).map (·.1) = xs.map keyOf :=
    List.map_fst_zip (by rw [starts_length, List.length_map]; exact Nat.le_refl _)
  have hz2 : ((xs.map keyOf).zip (starts o xs)).map (·.2) = starts o xs :=
    List.map_snd_zip (by rw [starts_length, List.length_map]; exact Nat.le_refl _)
  have hk' : ((([] : List (PaletteKey × Nat)) ++ (xs.map keyOf).zip (starts o xs)).map Prod.fst).Nodup := by
    rw [List.nil_append]
    exact hz1.symm ▸ hk
  rw [dict_zip _ [] hk', List.nil_append, hz1, hz2, hlen,
    sortBy_of_sorted (starts_sorted o xs), mapE_map]
  have key : ∀ (i : Nat) x, xs[i]? = some x → readPalette data ((xs.map keyOf).zip (starts o xs))
      (starts o xs ++ [o + (palData xs).length]) (keyOf x) = .ok x := by
    intro i x hi
    have hlt : i < (starts o xs).length := by rw [starts_length]; exact (List.getElem?_eq_some_iff.1 hi).1
    have hs : (starts o xs)[i]? = some (starts o xs)[i] := List.getElem?_eq_getElem hlt
    generalize (starts o xs)[i] = a at hs
    obtain ⟨h1, h2, r, t, h3, h4⟩ := next_start he hi hs
    unfold readPalette
    rw [lookup_zip hk (by rw [List.getElem?_map, hi]; rfl) hs]
    dsimp only
    rw [if_pos h1, pyIdx_eq_ok.2 h2, bind_ok]
    have hax : At data a (palB x.2) := by
      rw [h3, At.split, At.split] at ha
      rw [h4]; exact ha.1.2
    rw [hax.slice_eq rfl, palB, Proofs.Color.load_save_palette (hc x (List.mem_of_getElem? hi)), bind_ok]
    rfl
  refine (mapE_ok_of_forall (g := id) ?_).trans (by rw [List.map_id])
  intro x hx
  obtain ⟨i, hi, rfl⟩ := List.getElem_of_mem hx
  exact key i _ (List.getElem?_eq_getElem hi)

/-! ## The whole file -/

theorem load_infoBlock {data b : Bytes} {o L : Nat} {es : List Entry} (hs : saveInfoBlock es L = .ok b)
    (hn : ∀ e ∈ es, Clean e.name) (ha : At data o b) : loadInfoBlock data o (some L) = .ok es :=
  (Props.InfoBlock.roundtrip_iff hs (ha.slice_eq rfl) (.inr rfl)).2 hn

theorem names_of {es : List Entry} {α : Type} {xs : List (Option Str × α)} (h : es.map Entry.name = xs.map Prod.fst)
    (hx : ∀ x ∈ xs, Clean x.1) : ∀ e ∈ es, Clean e.name := by
  intro e he
  have : e.name ∈ es.map Entry.name := List.mem_map.2 ⟨e, he, rfl⟩
  rw [h, List.mem_map] at this
  obtain ⟨x, hx', hxe⟩ := this
  rw [← hxe]; exact hx x hx'

theorem saveTEX0_eq_ok {t : NSBTX} {b : Bytes} (h : saveTEX0 t = .ok b) : ∃ tex ti pal pi size,
    saveTextures ⟨[], [], [], []⟩ t.textures = .ok tex ∧ saveInfoBlock tex.entries 8 = .ok ti ∧
    savePalettes ([], []) t.palettes = .ok pal ∧ saveInfoBlock pal.2 4 = .ok pi ∧
    size = 0x3C + ti.length + pi.length + tex.textures.length + tex.compressed1.length + tex.compressed2.length + pal.1.length ∧
    Fits ((4, size) :: headerFields t tex ti.length pi.length pal.1) ∧
    b = TEX0 ++ structBytes .little ((4, size) :: headerFields t tex ti.length pi.length pal.1) ++
      (ti ++ (pi ++ (tex.textures ++ (tex.compressed1 ++ (tex.compressed2 ++ pal.1))))) := by
  unfold saveTEX0 at h
  obtain ⟨tex, h1, h⟩ := bind_eq_ok.1 h
  obtain ⟨ti, h2, h⟩ := bind_eq_ok.1 h
  obtain ⟨pal, h3, h⟩ := bind_eq_ok.1 h
  obtain ⟨pi, h4, h⟩ := bind_eq_ok.1 h
  dsimp only at h
  obtain ⟨hd, h5, h⟩ := bind_eq_ok.1 h
  obtain ⟨h6, rfl⟩ := packUs_eq_ok.1 h5
  obtain ⟨h7, rfl⟩ := packInto_eq_ok.1 h
  have hsz : (zeros 0x3C ++ ti ++ pi ++ tex.textures ++ tex.compressed1 ++ tex.compressed2 ++ pal.1).length =
      0x3C + ti.length + pi.length + tex.textures.length + tex.compressed1.length + tex.compressed2.length +
        pal.1.length := by
    simp only [List.length_append, zeros_length]
  rw [hsz] at h6
  refine ⟨tex, ti, pal, pi, _, h1, h2, h3, h4, rfl, h6, ?_⟩
  rw [hsz]
  generalize hM : TEX0 ++ structBytes .little _ = M
  have hML : M.length = 0x3C := by
    rw [← hM, List.length_append, structBytes_length]; simp [headerFields, TEX0]
  rw [patch, List.take_zero, List.nil_append, Nat.zero_add, hML]
  simp only [List.append_assoc]
  rw [List.drop_append, zeros_length, Nat.sub_self, List.drop_of_length_le (by simp)]
  simp

/-- What `Texture` and `Palette` objects survive saving and loading. -/
structure WellFormed (t : NSBTX) : Prop where
  tex : ∀ x ∈ t.textures, TexOk x.2
  texNames : ∀ x ∈ t.textures, Clean x.1
  pal : ∀ x ∈ t.palettes, PalOk x.2
  palNames : ∀ x ∈ t.palettes, Clean x.1
  keys : (t.palettes.map keyOf).Nodup
  empty : EmptyLast t.palettes

theorem readTEX0_save {t : NSBTX} {b : Bytes} (h : saveTEX0 t = .ok b) (hw : WellFormed t) : readTEX0 b = .ok t := by
  obtain ⟨tex, ti, pal, pi, size, h1, h2, h3, h4, hsize, hfit, hb⟩ := saveTEX0_eq_ok h
  obtain ⟨-, -, es, e1, e2, e3⟩ := saveTextures_spec h1 ⟨rfl, rfl, rfl⟩ hw.tex
  obtain ⟨p1, p2, p3, ps, p4, p5, p6⟩ := savePalettes_spec h3 rfl
  rw [List.nil_append] at e1 p1 p4
  subst e1
  have hat : At b 0 b := At.refl b
  conv at hat => rhs; rw [hb]
  rw [structBytes] at hat
  simp only [At.split, List.length_append, structBytes_length, enBytes_length] at hat
  obtain ⟨⟨a0, a1, a2⟩, a3, a4, a5, a6, a7, a8⟩ := hat
  have hm : TEX0.length = 4 := rfl
  have hfl : ((headerFields t tex ti.length pi.length pal.1).map Prod.fst).sum = 52 := by
    simp [headerFields]
  rw [hm] at a1 a2 a3 a4 a5 a6 a7 a8
  rw [hfl] at a3 a4 a5 a6 a7 a8
  have r1 := unpackUs_at a2 hfit.2
  have htake : b.take 4 = TEX0 := by rw [hb]; rfl
  unfold readTEX0
  rw [pyAssert_true htake, bind_ok]
  have r2 : unpackUs .little [4, 2, 2, 4, 4, 4, 2, 2, 4, 4, 4, 4, 2, 2, 4, 4] b 8 =
      .ok ((headerFields t tex ti.length pi.length pal.1).map Prod.snd) := r1
  rw [r2, bind_ok]
  simp only [headerFields, List.map_cons, List.map_nil]
  have i1 := load_infoBlock (o := 0x3C) h2 (names_of e2 hw.texNames) (a3.cast (by omega))
  have i2 := load_infoBlock (o := 0x3C + ti.length) h4 (p4 ▸ names_of p5 hw.palNames) (a4.cast (by omega))
  rw [i1, bind_ok, e3 b _ _ _ (a5.cast (by omega)) (a6.cast (by omega)) (a7.cast (by omega)), bind_ok, i2, bind_ok,
    p4, p6, bind_ok]
  have e8 : pal.1.length >>> 3 <<< 3 = pal.1.length := by rw [Bits.shl, Bits.shr]; omega
  rw [List.length_nil, Nat.add_zero, e8, readPalettes_ok (p1 ▸ a8.cast (by omega)) (congrArg List.length p1) hw.pal
    hw.keys hw.empty, bind_ok]
  rfl

theorem load_save {t : NSBTX} {b : Bytes} (h : Model.Texture.save t = .ok b) (hw : WellFormed t) :
    Model.Texture.load b = .ok t := by
  unfold Model.Texture.save at h
  simp only [bind_eq_ok, pure_eq_ok, packStdHeader_eq_ok] at h
  obtain ⟨tex0, h1, _, ⟨hok, rfl⟩, rfl⟩ := h
  have hl : (stdHeaderBytes ⟨BTX0, 0xFEFF, 1, 0x14 + tex0.length, 0x10, 1⟩ ++ [0x14, 0, 0, 0]).length = 0x14 := by
    simp
  have hr := readTEX0_save h1 hw
  have htake : tex0.take 4 = TEX0 := by
    unfold readTEX0 at hr
    simp only [bind_eq_ok, pyAssert_eq_ok] at hr
    exact hr.choose_spec.1
  unfold Model.Texture.load
  rw [raiseIf_false (show ¬ _ from not_not_intro ?_), bind_ok, unpackStdHeader_at
    (h := ⟨BTX0, 0xFEFF, 1, 0x14 + tex0.length, 0x10, 1⟩)
    ((At.first _ _).append_right _) hok rfl, bind_ok, raiseIf_false (show ¬ _ from not_not_intro rfl), bind_ok,
    pyAssert_true rfl, bind_ok, List.drop_left' hl, pyAssert_true htake, bind_ok]
  · exact hr
  · rfl

end Verif.Proofs.Texture
