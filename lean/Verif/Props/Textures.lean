import Verif.Props.Layouts
import Verif.Props.Reload
import Verif.Spec.Textures

/-!
# C169: repainting the textures and palettes of a game
-/

namespace Verif.Props.Textures

open Verif Verif.Model Verif.Model.Texture Verif.Spec.Layouts Verif.Spec.Textures
open Verif.Spec.Nested (Layer Apart)
open Verif.Props.Layouts
open Verif.Props.Reload (Whole)

theorem Repainted.refl (x : Option Str × Texture) : Repainted x x := ⟨rfl, rfl, rfl, rfl, rfl, rfl, rfl⟩

theorem Repainted.trans {x y z : Option Str × Texture} (h : Repainted x y) (g : Repainted y z) : Repainted x z :=
  ⟨g.name.trans h.name, g.width.trans h.width, g.height.trans h.height, g.format.trans h.format, g.mode.trans h.mode,
    g.size1.trans h.size1, g.size2.trans h.size2⟩

theorem Recoloured.refl (x : Option Str × Palette) : Recoloured x x := ⟨rfl, rfl, rfl, rfl, rfl, id⟩

theorem Recoloured.trans {x y z : Option Str × Palette} (h : Recoloured x y) (g : Recoloured y z) : Recoloured x z :=
  ⟨g.name.trans h.name, g.unk00.trans h.unk00, g.unk02.trans h.unk02, g.unkHeader02.trans h.unkHeader02,
    g.count.trans h.count, fun r => g.range (h.range r)⟩

/-- What each change keeps, all of them keep. -/
theorem becomes_keeps {α : Type} {R : α → α → Prop} (hr : ∀ x, R x x) (ht : ∀ x y z, R x y → R y z → R x z)
    {n k : Nat} {cs : List (Change α)} {P : α → Prop} (hP : ∀ x y, P x → R x y → P y)
    (h : ∀ c ∈ cs, ∀ x, pyPos n c.1 = some k → P x → R x (c.2 x)) (t : α) (h0 : P t) : R t (becomes n k cs t) := by
  unfold becomes
  induction cs generalizing t with
  | nil => exact hr t
  | cons c cs ih =>
    have ih := ih fun c hc => h c (List.mem_cons_of_mem _ hc)
    by_cases hk : pyPos n c.1 = some k
    · rw [List.filter_cons_of_pos (by simpa using hk)]
      have h1 := h c List.mem_cons_self t hk h0
      exact ht _ _ _ h1 (ih _ (hP _ _ h0 h1))
    · rw [List.filter_cons_of_neg (by simpa using hk)]
      exact ih t h0

/-- Elements of a changed list, one by one. -/
theorem changed_keeps {α : Type} {R : α → α → Prop} {cs : List (Change α)} {l l' : List α} (hc : Changed cs l l')
    (h : ∀ (k : Nat) t, l[k]? = some t → R t (becomes l.length k cs t)) :
    ∀ k : Nat, (∃ x y, l[k]? = some x ∧ l'[k]? = some y ∧ R x y) ∨ (l[k]? = none ∧ l'[k]? = none) := by
  intro k
  cases hx : l[k]? with
  | none =>
    right
    have := List.getElem?_eq_none_iff.1 hx
    exact ⟨rfl, List.getElem?_eq_none_iff.2 (by rw [hc.1]; exact this)⟩
  | some x => exact .inl ⟨x, _, rfl, hc.2 k x hx, h k x hx⟩

theorem keeps_mem {α : Type} {R : α → α → Prop} {l l' : List α}
    (h : ∀ k : Nat, (∃ x y, l[k]? = some x ∧ l'[k]? = some y ∧ R x y) ∨ (l[k]? = none ∧ l'[k]? = none)) {y : α}
    (hy : y ∈ l') : ∃ x ∈ l, R x y := by
  obtain ⟨k, hk⟩ := List.mem_iff_getElem?.1 hy
  rcases h k with ⟨x, y', h1, h2, h3⟩ | ⟨-, h2⟩
  · rw [hk] at h2
    cases h2
    exact ⟨x, List.mem_iff_getElem?.2 ⟨k, h1⟩, h3⟩
  · rw [hk] at h2; cases h2

theorem keeps_map {α β : Type} {R : α → α → Prop} {l l' : List α} {f : α → β}
    (h : ∀ k : Nat, (∃ x y, l[k]? = some x ∧ l'[k]? = some y ∧ R x y) ∨ (l[k]? = none ∧ l'[k]? = none))
    (hf : ∀ x y, R x y → f y = f x) : l'.map f = l.map f := by
  apply List.ext_getElem?
  intro k
  rw [List.getElem?_map, List.getElem?_map]
  rcases h k with ⟨x, y, h1, h2, h3⟩ | ⟨h1, h2⟩
  · rw [h1, h2, Option.map_some, Option.map_some, hf x y h3]
  · rw [h1, h2]

/-- Repainted textures and palettes can be stored if the original ones could be. -/
theorem repainted_representable {t : NSBTX} {l : List (Option Str × Texture)} {m : List (Option Str × Palette)}
    (hl : ∀ k : Nat, (∃ x y, t.textures[k]? = some x ∧ l[k]? = some y ∧ Repainted x y) ∨
      (t.textures[k]? = none ∧ l[k]? = none))
    (hm : ∀ k : Nat, (∃ x y, t.palettes[k]? = some x ∧ m[k]? = some y ∧ Recoloured x y) ∨
      (t.palettes[k]? = none ∧ m[k]? = none))
    (h : Texture.Representable t) : Texture.Representable { t with textures := l, palettes := m } := by
  obtain ⟨h1, h2, h3, h4⟩ := h
  refine ⟨fun y hy => ?_, fun y hy => ?_, ?_, ?_⟩
  · obtain ⟨x, hx, hr⟩ := keeps_mem hl hy
    obtain ⟨⟨a1, a2, a3, a4⟩, a5⟩ := h1 x hx
    refine ⟨⟨?_, ?_, ?_, ?_⟩, ?_⟩
    · rw [hr.format]; exact a1
    · rw [hr.mode]; exact a2
    · rw [hr.size1, hr.width, hr.height, hr.format]; exact a3
    · rw [hr.size2, hr.width, hr.height, hr.format]; exact a4
    · rw [hr.name]; exact a5
  · obtain ⟨x, hx, hr⟩ := keeps_mem hm hy
    obtain ⟨a1, a2⟩ := h2 x hx
    exact ⟨by rw [hr.name]; exact a1, hr.range a2⟩
  · change (m.map _).Nodup
    rw [keeps_map hm (f := fun x => (x.1, x.2.unk00, x.2.unk02, x.2.unkHeader02)) fun x y hr => by
      rw [hr.name, hr.unk00, hr.unk02, hr.unkHeader02]]
    exact h3
  · change m.Pairwise _
    have e : ∀ l : List (Option Str × Palette), (l.Pairwise fun x y => x.2.colors = [] → y.2.colors = []) ↔
        (l.map fun x => x.2.colors.length).Pairwise fun a b => a = 0 → b = 0 := by
      intro l
      rw [List.pairwise_map]
      simp only [List.length_eq_zero_iff]
    rw [e, keeps_map hm (f := fun x => x.2.colors.length) fun x y hr => hr.count, ← e]
    exact h4

/-- **C169.** After changing pixels of textures and colours of palettes of an NSBTX file, it loads with the new pixels and
colours, and nothing else has changed. -/
theorem retexture_result {ts : List (Change (Option Str × Texture))} {ps : List (Change (Option Str × Palette))}
    {d g : Bytes} {t : NSBTX} (ht : load d = .ok t) (hw : Whole t) (h : retexture ts ps d = .ok g)
    (hts : ∀ (k : Nat) x, t.textures[k]? = some x → Repainted x (becomes t.textures.length k ts x))
    (hps : ∀ (k : Nat) x, t.palettes[k]? = some x → Recoloured x (becomes t.palettes.length k ps x)) :
    ∃ l m, Changed ts t.textures l ∧ Changed ps t.palettes m ∧
      load g = .ok { t with textures := l, palettes := m } := by
  unfold retexture at h
  rw [ht, bind_ok] at h
  obtain ⟨l, h1, h⟩ := bind_eq_ok.1 h
  obtain ⟨m, h2, h⟩ := bind_eq_ok.1 h
  have c1 := changeAll_ok h1
  have c2 := changeAll_ok h2
  refine ⟨l, m, c1, c2, Texture.nsbtx_roundtrip h ?_⟩
  refine repainted_representable (changed_keeps c1 hts) (changed_keeps c2 hps) ?_
  obtain ⟨-, rfl⟩ := (FormatNsbtx.nsbtx_load_iff d t).1 ht
  exact Reload.block_representable hw

/-- New pixels of the right length, each put in place of those of one texture. -/
theorem repaint_keeps {t : NSBTX} {ts : List (Int × Bytes)}
    (h : ∀ e ∈ ts, ∀ (k : Nat) x, pyPos t.textures.length e.1 = some k → t.textures[k]? = some x →
      e.2.length = x.2.data1.length) (k : Nat) (x : Option Str × Texture) (hx : t.textures[k]? = some x) :
    Repainted x (becomes t.textures.length k (ts.map fun e => (e.1, repaint e.2)) x) := by
  refine becomes_keeps (P := fun y => y.2.data1.length = x.2.data1.length) Repainted.refl
    (fun _ _ _ => Repainted.trans) (fun a b hp hr => hr.size1.trans hp) ?_ x rfl
  intro c hc y hk hy
  obtain ⟨e, he, rfl⟩ := List.mem_map.1 hc
  exact ⟨rfl, rfl, rfl, rfl, rfl, (h e he k x hk hx).trans hy.symm, rfl⟩

/-- Colours in range, each put in place of another one. -/
theorem recolour_keeps {t : NSBTX} {ps : List (Int × Nat × Color.Color)} (h : ∀ e ∈ ps, InRange e.2.2) (k : Nat)
    (x : Option Str × Palette) (_ : t.palettes[k]? = some x) :
    Recoloured x (becomes t.palettes.length k (ps.map fun e => (e.1, recolour e.2.1 e.2.2)) x) := by
  refine becomes_keeps (P := fun _ => True) Recoloured.refl (fun _ _ _ => Recoloured.trans) (fun _ _ _ _ => trivial) ?_ x trivial
  intro c hc y _ _
  obtain ⟨e, he, rfl⟩ := List.mem_map.1 hc
  refine ⟨rfl, rfl, rfl, rfl, List.length_set, fun hr c hc => ?_⟩
  rcases List.mem_or_eq_of_mem_set hc with hc | rfl
  · exact hr c hc
  · exact h e he

/-! ## Saving works -/

/-- The texture with other pixels, as many. -/
def OtherPixels (x y : Option Str × Texture) : Prop :=
  y = (x.1, { x.2 with data1 := y.2.data1 }) ∧ y.2.data1.length = x.2.data1.length

/-- The palette with other colours, as many. -/
def OtherColours (x y : Option Str × Palette) : Prop :=
  y = (x.1, { x.2 with colors := y.2.colors }) ∧ y.2.colors.length = x.2.colors.length

theorem OtherPixels.trans {x y z : Option Str × Texture} (h : OtherPixels x y) (g : OtherPixels y z) : OtherPixels x z := by
  obtain ⟨h1, h2⟩ := h
  obtain ⟨g1, g2⟩ := g
  refine ⟨?_, g2.trans h2⟩
  rw [g1, h1]

theorem OtherColours.trans {x y z : Option Str × Palette} (h : OtherColours x y) (g : OtherColours y z) :
    OtherColours x z := by
  obtain ⟨h1, h2⟩ := h
  obtain ⟨g1, g2⟩ := g
  refine ⟨?_, g2.trans h2⟩
  rw [g1, h1]

/-- The same amounts of data and the same entries. -/
structure SameSizes (s s' : SaveTex) : Prop where
  textures : s'.textures.length = s.textures.length
  compressed1 : s'.compressed1.length = s.compressed1.length
  compressed2 : s'.compressed2.length = s.compressed2.length
  entries : s'.entries = s.entries

theorem saveTexture_same {s s' r : SaveTex} {x y : Option Str × Texture} (hs : SameSizes s s') (h : OtherPixels x y)
    (hr : saveTexture s x = .ok r) : ∃ r', saveTexture s' y = .ok r' ∧ SameSizes r r' := by
  obtain ⟨n, z⟩ := y
  obtain ⟨h1, h2⟩ := h
  have e1 : n = x.1 := congrArg Prod.fst h1
  have e2 : z = { x.2 with data1 := z.data1 } := congrArg Prod.snd h1
  subst e1
  generalize z.data1 = p at e2 h2
  subst e2
  change p.length = x.2.data1.length at h2
  unfold saveTexture at hr ⊢
  have hp : ({ x.2 with data1 := p } : Texture).params = x.2.params := rfl
  dsimp only at hr ⊢
  rw [hp]
  obtain ⟨w, hw, hr⟩ := bind_eq_ok.1 hr
  rw [hw, bind_ok]
  split at hr
  · rename_i hf
    rw [if_pos hf]
    obtain ⟨_, h3, hr⟩ := bind_eq_ok.1 hr
    obtain ⟨e, h4, hr⟩ := bind_eq_ok.1 hr
    cases hr
    rw [h2, h3, bind_ok, hs.compressed1, h4, bind_ok]
    refine ⟨_, rfl, hs.textures, ?_, ?_, ?_⟩
    · simp only [List.length_append, hs.compressed1, h2]
    · simp only [List.length_append, hs.compressed2]
    · simp only [hs.entries]
  · rename_i hf
    rw [if_neg hf]
    obtain ⟨e, h4, hr⟩ := bind_eq_ok.1 hr
    cases hr
    rw [hs.textures, h4, bind_ok]
    refine ⟨_, rfl, ?_, hs.compressed1, hs.compressed2, ?_⟩
    · simp only [List.length_append, hs.textures, h2]
    · simp only [hs.entries]

theorem saveTextures_same : ∀ {l m : List (Option Str × Texture)} {s s' r : SaveTex},
    (∀ k : Nat, (∃ x y, l[k]? = some x ∧ m[k]? = some y ∧ OtherPixels x y) ∨ (l[k]? = none ∧ m[k]? = none)) →
    SameSizes s s' → saveTextures s l = .ok r → ∃ r', saveTextures s' m = .ok r' ∧ SameSizes r r'
  | [], [], _, _, _, _, hs, h => by cases h; exact ⟨_, rfl, hs⟩
  | [], y :: _, _, _, _, hk, _, _ => by
    rcases hk 0 with ⟨x, _, h1, -⟩ | ⟨-, h2⟩
    · cases h1
    · cases h2
  | x :: _, [], _, _, _, hk, _, _ => by
    rcases hk 0 with ⟨_, y, -, h2, -⟩ | ⟨h1, -⟩
    · cases h2
    · cases h1
  | x :: l, y :: m, s, s', r, hk, hs, h => by
    have h0 : OtherPixels x y := by
      rcases hk 0 with ⟨_, _, h1, h2, h3⟩ | ⟨h1, -⟩
      · cases h1; cases h2; exact h3
      · cases h1
    unfold saveTextures at h ⊢
    obtain ⟨s1, h1, h⟩ := bind_eq_ok.1 h
    obtain ⟨s1', h2, hs1⟩ := saveTexture_same hs h0 h1
    rw [h2, bind_ok]
    exact saveTextures_same (fun k => hk (k + 1)) hs1 h

theorem savePaletteEntry_same {s s' r : Bytes × List InfoBlock.Entry} {x y : Option Str × Palette}
    (hs : s'.1.length = s.1.length ∧ s'.2 = s.2) (h : OtherColours x y) (hr : savePaletteEntry s x = .ok r) :
    ∃ r', savePaletteEntry s' y = .ok r' ∧ r'.1.length = r.1.length ∧ r'.2 = r.2 := by
  obtain ⟨n, z⟩ := y
  obtain ⟨h1, h2⟩ := h
  have e1 : n = x.1 := congrArg Prod.fst h1
  have e2 : z = { x.2 with colors := z.colors } := congrArg Prod.snd h1
  subst e1
  generalize z.colors = p at e2 h2
  subst e2
  change p.length = x.2.colors.length at h2
  have hl : ∀ c : List Color.Color, ((c.map fun c => leBytes 2 (Color.pack c.r c.g c.b c.a)).flatten).length =
      2 * c.length := by
    intro c
    induction c with
    | nil => rfl
    | cons c l ih => simp only [List.map_cons, List.flatten_cons, List.length_append, ih, leBytes_length,
        List.length_cons]; omega
  unfold savePaletteEntry at hr ⊢
  dsimp only at hr ⊢
  rw [Proofs.Color.savePalette_eq, bind_ok, hl] at hr ⊢
  obtain ⟨_, h3, hr⟩ := bind_eq_ok.1 hr
  obtain ⟨e, h4, hr⟩ := bind_eq_ok.1 hr
  cases hr
  rw [h2, h3, bind_ok, hs.1, h4, bind_ok]
  refine ⟨_, rfl, ?_, ?_⟩
  · simp only [List.length_append, hl, hs.1, h2]
  · simp only [hs.2]

theorem savePalettes_same : ∀ {l m : List (Option Str × Palette)} {s s' r : Bytes × List InfoBlock.Entry},
    (∀ k : Nat, (∃ x y, l[k]? = some x ∧ m[k]? = some y ∧ OtherColours x y) ∨ (l[k]? = none ∧ m[k]? = none)) →
    s'.1.length = s.1.length ∧ s'.2 = s.2 → savePalettes s l = .ok r →
    ∃ r', savePalettes s' m = .ok r' ∧ r'.1.length = r.1.length ∧ r'.2 = r.2
  | [], [], _, _, _, _, hs, h => by cases h; exact ⟨_, rfl, hs⟩
  | [], y :: _, _, _, _, hk, _, _ => by
    rcases hk 0 with ⟨x, _, h1, -⟩ | ⟨-, h2⟩
    · cases h1
    · cases h2
  | x :: _, [], _, _, _, hk, _, _ => by
    rcases hk 0 with ⟨_, y, -, h2, -⟩ | ⟨h1, -⟩
    · cases h2
    · cases h1
  | x :: l, y :: m, s, s', r, hk, hs, h => by
    have h0 : OtherColours x y := by
      rcases hk 0 with ⟨_, _, h1, h2, h3⟩ | ⟨h1, -⟩
      · cases h1; cases h2; exact h3
      · cases h1
    unfold savePalettes at h ⊢
    obtain ⟨s1, h1, h⟩ := bind_eq_ok.1 h
    obtain ⟨s1', h2, hs1⟩ := savePaletteEntry_same hs h0 h1
    rw [h2, bind_ok]
    exact savePalettes_same (fun k => hk (k + 1)) hs1 h

/-- With other pixels and colours, as many, a file can be saved if it could be before, and is as long. -/
theorem save_same {t : NSBTX} {l : List (Option Str × Texture)} {m : List (Option Str × Palette)} {b : Bytes}
    (hl : ∀ k : Nat, (∃ x y, t.textures[k]? = some x ∧ l[k]? = some y ∧ OtherPixels x y) ∨
      (t.textures[k]? = none ∧ l[k]? = none))
    (hm : ∀ k : Nat, (∃ x y, t.palettes[k]? = some x ∧ m[k]? = some y ∧ OtherColours x y) ∨
      (t.palettes[k]? = none ∧ m[k]? = none))
    (h : save t = .ok b) : ∃ g, save { t with textures := l, palettes := m } = .ok g ∧ g.length = b.length := by
  unfold save at h ⊢
  obtain ⟨x, h1, h⟩ := bind_eq_ok.1 h
  obtain ⟨hd, h2, h⟩ := bind_eq_ok.1 h
  cases h
  unfold saveTEX0 at h1 ⊢
  obtain ⟨tex, a1, h1⟩ := bind_eq_ok.1 h1
  obtain ⟨ti, a2, h1⟩ := bind_eq_ok.1 h1
  obtain ⟨pal, a3, h1⟩ := bind_eq_ok.1 h1
  obtain ⟨pi, a4, h1⟩ := bind_eq_ok.1 h1
  obtain ⟨hh, a5, h1⟩ := bind_eq_ok.1 h1
  obtain ⟨a6, rfl⟩ := packInto_eq_ok.1 h1
  obtain ⟨tex', b1, s1⟩ := saveTextures_same (s' := ⟨[], [], [], []⟩) hl ⟨rfl, rfl, rfl, rfl⟩ a1
  obtain ⟨pal', b2, s2, s3⟩ := savePalettes_same (s' := ([], [])) hm ⟨rfl, rfl⟩ a3
  dsimp only
  rw [b1, bind_ok, s1.entries, a2, bind_ok, b2, bind_ok, s3, a4, bind_ok]
  have hlen : (zeros 0x3C ++ ti ++ pi ++ tex'.textures ++ tex'.compressed1 ++ tex'.compressed2 ++ pal'.1).length =
      (zeros 0x3C ++ ti ++ pi ++ tex.textures ++ tex.compressed1 ++ tex.compressed2 ++ pal.1).length := by
    simp only [List.length_append, s1.textures, s1.compressed1, s1.compressed2, s2]
  have hf : headerFields { t with textures := l, palettes := m } tex' ti.length pi.length pal'.1 =
      headerFields t tex ti.length pi.length pal.1 := by
    unfold headerFields
    simp only [s1.textures, s1.compressed1, s1.compressed2, s2]
  rw [hlen, hf, a5, bind_ok]
  have hp : packInto (zeros 0x3C ++ ti ++ pi ++ tex'.textures ++ tex'.compressed1 ++ tex'.compressed2 ++ pal'.1) 0
      (TEX0 ++ hh) = .ok (patch _ 0 (TEX0 ++ hh)) := packInto_eq_ok.2 ⟨by rw [hlen]; exact a6, rfl⟩
  have hpl := (patch_length (by rw [hlen]; exact a6) : (patch (zeros 0x3C ++ ti ++ pi ++ tex'.textures ++ tex'.compressed1 ++
    tex'.compressed2 ++ pal'.1) 0 (TEX0 ++ hh)).length = _)
  rw [patch_length a6] at h2
  rw [hp, bind_ok, hpl, hlen, h2, bind_ok]
  refine ⟨_, rfl, ?_⟩
  simp only [List.length_append, hpl, patch_length a6, hlen] at *

/-- **C169.** If the file could be saved as it was, the program works, when all textures and colours that are changed are
there, and gives a file of the same length. -/
theorem retexture_works {ts : List (Int × Bytes)} {ps : List (Int × Nat × Color.Color)} {d b : Bytes} {t : NSBTX}
    (ht : load d = .ok t) (hs : save t = .ok b)
    (hts : ∀ e ∈ ts, ∃ k x, pyPos t.textures.length e.1 = some k ∧ t.textures[k]? = some x ∧
      e.2.length = x.2.data1.length)
    (hps : ∀ e ∈ ps, ∃ k x, pyPos t.palettes.length e.1 = some k ∧ t.palettes[k]? = some x ∧
      e.2.1 < x.2.colors.length) :
    ∃ g, retexture (ts.map fun e => (e.1, repaint e.2)) (ps.map fun e => (e.1, recolour e.2.1 e.2.2)) d = .ok g ∧
      g.length = b.length := by
  obtain ⟨l, h1⟩ := (changeAll_cases (ts.map fun e => (e.1, repaint e.2)) t.textures).1 (by
    intro c hc
    obtain ⟨e, he, rfl⟩ := List.mem_map.1 hc
    obtain ⟨k, -, hk, -⟩ := hts e he
    exact ⟨k, hk⟩)
  obtain ⟨m, h2⟩ := (changeAll_cases (ps.map fun e => (e.1, recolour e.2.1 e.2.2)) t.palettes).1 (by
    intro c hc
    obtain ⟨e, he, rfl⟩ := List.mem_map.1 hc
    obtain ⟨k, -, hk, -⟩ := hps e he
    exact ⟨k, hk⟩)
  unfold retexture
  rw [ht, bind_ok, h1, bind_ok, h2, bind_ok]
  refine save_same (changed_keeps (changeAll_ok h1) fun k x hx => ?_) (changed_keeps (changeAll_ok h2) fun k x hx => ?_) hs
  · refine becomes_keeps (P := fun y => y.2.data1.length = x.2.data1.length) (R := OtherPixels) (fun ⟨_, _⟩ => ⟨rfl, rfl⟩)
      (fun _ _ _ => OtherPixels.trans) (fun a b hp hr => hr.2.trans hp) ?_ x rfl
    intro c hc y hk hy
    obtain ⟨e, he, rfl⟩ := List.mem_map.1 hc
    obtain ⟨k', x', hk', hx', hl⟩ := hts e he
    rw [hk'] at hk
    cases hk
    rw [hx] at hx'
    cases hx'
    exact ⟨rfl, hl.trans hy.symm⟩
  · refine becomes_keeps (P := fun _ => True) (R := OtherColours) (fun ⟨_, _⟩ => ⟨rfl, rfl⟩) (fun _ _ _ => OtherColours.trans)
      (fun _ _ _ _ => trivial) ?_ x trivial
    intro c hc y _ _
    obtain ⟨e, he, rfl⟩ := List.mem_map.1 hc
    exact ⟨rfl, List.length_set⟩

/-- **C169.** The same for a file in archives, compressed files and ROMs; every other file is what it was. -/
theorem retexture_in_game {limit : Nat} (h0 : 0 < limit) {u : Bool} {path : List Layer} {ts : List (Int × Bytes)}
    {ps : List (Int × Nat × Color.Color)} {d d' f : Bytes} {t : NSBTX} (hf : Spec.Nested.read limit path d = .ok f)
    (ht : load f = .ok t) (hw : Whole t)
    (h : inGame limit u path (retexture (ts.map fun e => (e.1, repaint e.2))
      (ps.map fun e => (e.1, recolour e.2.1 e.2.2))) d = .ok d')
    (hts : ∀ e ∈ ts, ∀ (k : Nat) x, pyPos t.textures.length e.1 = some k → t.textures[k]? = some x →
      e.2.length = x.2.data1.length)
    (hps : ∀ e ∈ ps, InRange e.2.2 ∧ ∀ (k : Nat) x, pyPos t.palettes.length e.1 = some k → t.palettes[k]? = some x →
      e.2.1 < x.2.colors.length) :
    ∃ f' l m, Changed (ts.map fun e => (e.1, repaint e.2)) t.textures l ∧
      Changed (ps.map fun e => (e.1, recolour e.2.1 e.2.2)) t.palettes m ∧
      Spec.Nested.read limit path d' = .ok f' ∧ load f' = .ok { t with textures := l, palettes := m } ∧
      ∀ path', Apart limit path path' d → Spec.Nested.read limit path' d' = Spec.Nested.read limit path' d := by
  unfold inGame at h
  rw [hf, bind_ok] at h
  obtain ⟨g, h2, h⟩ := bind_eq_ok.1 h
  obtain ⟨l, m, h3, h4, h5⟩ := retexture_result ht hw h2 (repaint_keeps hts)
    (recolour_keeps fun e he => (hps e he).1)
  exact ⟨g, l, m, h3, h4, Nested.write_read h0 h, h5, fun path' ha => Nested.write_apart h0 ha h⟩

/-! ## Examples -/

/-- The pixels of the second texture are replaced, twice. -/
def pictures : List (Int × Bytes) := [(1, zeros 32), (-1, List.replicate 32 0xE4)]

/-- So are two colours. -/
def paints : List (Int × Nat × Color.Color) := [(0, 3, ⟨0, 0, 31, 1⟩), (-2, 0, ⟨9, 9, 9, 0⟩)]

/-- The sample with these changes. -/
def repainted : NSBTX := { Texture.sample with
  textures := [Texture.sample.textures[0], (some [0x62], ⟨3, 4, false, false, false, true, 8, 16, 2, false, 0, 7,
    List.replicate 32 0xE4, []⟩)]
  palettes := [(some [0x63], ⟨1, 2, 3, [⟨9, 9, 9, 0⟩, ⟨4, 5, 6, 0⟩, ⟨7, 8, 9, 0⟩, ⟨0, 0, 31, 1⟩]⟩),
    Texture.sample.palettes[1]] }

theorem sample_whole : Whole Texture.sample := ⟨by decide, by decide, by decide⟩

example : ∃ b g, save Texture.sample = .ok b ∧ load b = .ok Texture.sample ∧
    retexture (pictures.map fun e => (e.1, repaint e.2)) (paints.map fun e => (e.1, recolour e.2.1 e.2.2)) b = .ok g ∧
    inGame 1 false [] (retexture (pictures.map fun e => (e.1, repaint e.2))
      (paints.map fun e => (e.1, recolour e.2.1 e.2.2))) b = .ok g ∧ save repainted = .ok g := by
  cases h : save Texture.sample with
  | error e =>
    have : (save Texture.sample).isOk = true := by decide +kernel
    rw [h] at this
    cases this
  | ok b =>
    cases h2 : save repainted with
    | error e =>
      have : (save repainted).isOk = true := by decide +kernel
      rw [h2] at this
      cases this
    | ok g =>
      have hl := Texture.nsbtx_roundtrip h Texture.sample_representable
      have e : retexture (pictures.map fun e => (e.1, repaint e.2)) (paints.map fun e => (e.1, recolour e.2.1 e.2.2)) b =
          .ok g := by
        unfold retexture
        have c1 : changeAll Texture.sample.textures (pictures.map fun e => (e.1, repaint e.2)) =
          .ok repainted.textures := by decide +kernel
        have c2 : changeAll Texture.sample.palettes (paints.map fun e => (e.1, recolour e.2.1 e.2.2)) =
          .ok repainted.palettes := by decide +kernel
        rw [hl, bind_ok, c1, bind_ok, c2, bind_ok]
        exact h2
      refine ⟨b, g, rfl, hl, e, ?_, rfl⟩
      unfold inGame
      simp only [Spec.Nested.read, Spec.Nested.write, bind_ok]
      rw [e]
      rfl

example : (∀ e ∈ pictures, ∀ (k : Nat) x, pyPos Texture.sample.textures.length e.1 = some k →
      Texture.sample.textures[k]? = some x → e.2.length = x.2.data1.length) ∧
    ∀ e ∈ paints, InRange e.2.2 ∧ ∀ (k : Nat) x, pyPos Texture.sample.palettes.length e.1 = some k →
      Texture.sample.palettes[k]? = some x → e.2.1 < x.2.colors.length := by
  constructor
  · intro e he k x hk hx
    simp only [pictures, List.mem_cons, List.not_mem_nil, or_false] at he
    rcases he with rfl | rfl <;> cases hk <;> cases hx <;> decide
  · intro e he
    simp only [paints, List.mem_cons, List.not_mem_nil, or_false] at he
    rcases he with rfl | rfl
    · refine ⟨by unfold InRange; decide, fun k x hk hx => ?_⟩
      cases hk; cases hx; decide
    · refine ⟨by unfold InRange; decide, fun k x hk hx => ?_⟩
      cases hk; cases hx; decide

example : (∀ e ∈ pictures, ∃ k x, pyPos Texture.sample.textures.length e.1 = some k ∧
      Texture.sample.textures[k]? = some x ∧ e.2.length = x.2.data1.length) ∧
    ∀ e ∈ paints, ∃ k x, pyPos Texture.sample.palettes.length e.1 = some k ∧
      Texture.sample.palettes[k]? = some x ∧ e.2.1 < x.2.colors.length := by
  constructor
  · intro e he
    simp only [pictures, List.mem_cons, List.not_mem_nil, or_false] at he
    rcases he with rfl | rfl <;> exact ⟨1, _, by decide, rfl, by decide⟩
  · intro e he
    simp only [paints, List.mem_cons, List.not_mem_nil, or_false] at he
    rcases he with rfl | rfl <;> exact ⟨0, _, by decide, rfl, by decide⟩

end Verif.Props.Textures
