import Verif.Props.Bn
import Verif.Props.Nested
import Verif.Spec.Layouts

/-!
# C168: changing the buttons and pictures of a screen layout
-/

namespace Verif.Props.Layouts

open Verif Verif.Model Verif.Model.Bn Verif.Spec.Layouts
open Verif.Spec.Nested (Layer Apart)

/-! ## Lists -/

theorem change_step {α : Type} {l : List α} {i : Int} {k : Nat} (h : pyPos l.length i = some k) :
    ∃ t, l[k]? = some t ∧ pyIdxI l i = .ok t ∧ ∀ v, pySetI l i v = .ok (l.set k v) := by
  have hk := pyPos_lt h
  refine ⟨l[k], List.getElem?_eq_getElem hk, ?_, fun v => ?_⟩
  · rw [pyIdxI_eq, h]
    exact pyIdx_eq_ok.2 (List.getElem?_eq_getElem hk)
  · unfold pySetI; rw [h]

theorem changeAll_ok {α : Type} : ∀ {cs : List (Change α)} {l l' : List α}, changeAll l cs = .ok l' → Changed cs l l'
  | [], l, l', h => by
    cases h
    exact ⟨rfl, fun k t ht => ht⟩
  | (i, f) :: rest, l, l', h => by
    cases hp : pyPos l.length i with
    | none =>
      unfold changeAll at h
      rw [pyIdxI_eq, hp] at h
      cases h
    | some j =>
      obtain ⟨t0, h0, h1, h2⟩ := change_step hp
      unfold changeAll at h
      rw [h1, bind_ok, h2, bind_ok] at h
      obtain ⟨g1, g2⟩ := changeAll_ok h
      rw [List.length_set] at g1 g2
      refine ⟨g1, fun k t ht => ?_⟩
      unfold becomes
      by_cases hjk : j = k
      · subst hjk
        rw [h0] at ht
        cases ht
        rw [List.filter_cons_of_pos (by simpa using hp)]
        exact g2 j (f t0) (by rw [List.getElem?_set_self (pyPos_lt hp)])
      · rw [List.filter_cons_of_neg (by rw [hp]; simpa using hjk)]
        exact g2 k t (by rw [List.getElem?_set_ne hjk]; exact ht)

theorem changeAll_cases {α : Type} : ∀ (cs : List (Change α)) (l : List α),
    ((∀ c ∈ cs, ∃ k, pyPos l.length c.1 = some k) → ∃ l', changeAll l cs = .ok l') ∧
    ((∃ c ∈ cs, pyPos l.length c.1 = none) → changeAll l cs = .error .indexError)
  | [], l => ⟨fun _ => ⟨l, rfl⟩, fun ⟨_, h, _⟩ => by cases h⟩
  | (i, f) :: rest, l => by
    cases hp : pyPos l.length i with
    | none =>
      refine ⟨fun h => ?_, fun _ => ?_⟩
      · obtain ⟨k, hk⟩ := h (i, f) List.mem_cons_self
        rw [hp] at hk
        cases hk
      · unfold changeAll
        rw [pyIdxI_eq, hp]
        rfl
    | some j =>
      obtain ⟨t0, -, h1, h2⟩ := change_step hp
      obtain ⟨g1, g2⟩ := changeAll_cases rest (l.set j (f t0))
      rw [List.length_set] at g1 g2
      have e : changeAll l ((i, f) :: rest) = changeAll (l.set j (f t0)) rest := by
        rw [changeAll, h1, bind_ok, h2, bind_ok]
      rw [e]
      refine ⟨fun h => g1 fun c hc => h c (List.mem_cons_of_mem _ hc), ?_⟩
      rintro ⟨c, hc, hn⟩
      rcases List.mem_cons.1 hc with rfl | hc
      · rw [hp] at hn; cases hn
      · exact g2 ⟨c, hc, hn⟩

theorem changed_all {α : Type} {cs : List (Change α)} {l l' : List α} (h : Changed cs l l') {P : α → Prop}
    (hp : ∀ (k : Nat) t, l[k]? = some t → P (becomes l.length k cs t)) : ∀ t ∈ l', P t := by
  intro t ht
  obtain ⟨k, hk⟩ := List.mem_iff_getElem?.1 ht
  have hlt : k < l.length := by
    have := (List.getElem?_eq_some_iff.1 hk).1
    rwa [h.1] at this
  have h1 := List.getElem?_eq_getElem hlt
  have h2 := h.2 k _ h1
  rw [hk] at h2
  cases h2
  exact hp k _ h1

/-! ## Files -/

/-- **C168.** After changing touch areas of a BNBL file it loads with the changed areas, and nothing else has changed, if
the changed areas have coordinates and alignments that the file can hold. -/
theorem move_areas {cs : List (Change TouchArea)} {d g : Bytes} (h : moveAreas cs d = .ok g) :
    ∃ b l, BNBL.load d = .ok b ∧ Changed cs b.touchAreas l ∧
      ((∀ (k : Nat) t, b.touchAreas[k]? = some t → AreaFits (becomes b.touchAreas.length k cs t)) →
        BNBL.load g = .ok ⟨b.unk04, l⟩) ∧ g.length = 8 + 6 * b.touchAreas.length := by
  unfold moveAreas at h
  obtain ⟨b, h1, h⟩ := bind_eq_ok.1 h
  obtain ⟨l, h2, h⟩ := bind_eq_ok.1 h
  have hc := changeAll_ok h2
  refine ⟨b, l, h1, hc, fun hf => (Bn.bnbl_roundtrip _ _ h (changed_all hc hf)).1, ?_⟩
  obtain ⟨-, -, -, rfl⟩ := Proofs.Bn.bnbl_save_ok.1 h
  rw [← hc.1]
  have e : ∀ l : List TouchArea, ((l.map Proofs.Bn.areaBytes).flatten).length = 6 * l.length := by
    intro l
    induction l with
    | nil => rfl
    | cons t l ih => simp only [List.map_cons, List.flatten_cons, List.length_append, ih, Proofs.Bn.areaBytes_length,
        List.length_cons]; omega
  simp only [Proofs.Bn.bnblBytes, List.length_append, enBytes_length, e, show magicJNBL.length = 4 from rfl]

/-- **C168.** When that works: all areas that are changed are there, and all sizes in the end are between 0 and 255. -/
theorem move_areas_cases (cs : List (Change TouchArea)) (d : Bytes) (b : BNBL) (h : BNBL.load d = .ok b) :
    ((∃ c ∈ cs, pyPos b.touchAreas.length c.1 = none) → moveAreas cs d = .error .indexError) ∧
    ((∀ c ∈ cs, ∃ k, pyPos b.touchAreas.length c.1 = some k) →
      ((∃ g, moveAreas cs d = .ok g) ↔ ∀ (k : Nat) t, b.touchAreas[k]? = some t →
        (0 ≤ (becomes b.touchAreas.length k cs t).width ∧ (becomes b.touchAreas.length k cs t).width < 256) ∧
        (0 ≤ (becomes b.touchAreas.length k cs t).height ∧ (becomes b.touchAreas.length k cs t).height < 256))) := by
  obtain ⟨g1, g2⟩ := changeAll_cases cs b.touchAreas
  unfold moveAreas
  rw [h, bind_ok]
  refine ⟨fun hn => by rw [g2 hn]; rfl, fun hi => ?_⟩
  obtain ⟨l, hl⟩ := g1 hi
  have hc := changeAll_ok hl
  rw [hl, bind_ok, Bn.bnbl_save_iff]
  obtain ⟨h1, h2, -⟩ := Proofs.Bn.bnbl_loaded h
  constructor
  · rintro ⟨-, -, h3⟩ k t ht
    exact h3 _ (List.mem_iff_getElem?.2 ⟨k, hc.2 k t ht⟩)
  · intro h3
    exact ⟨h1, by rw [hc.1]; exact h2, changed_all hc h3⟩

/-- **C168** for image positions. -/
theorem move_images {cs : List (Change ImagePosition)} {d g : Bytes} (h : moveImages cs d = .ok g) :
    ∃ b l, BNCL.load d = .ok b ∧ Changed cs b.imagePositions l ∧
      ((∀ (k : Nat) t, b.imagePositions[k]? = some t → PositionFits (becomes b.imagePositions.length k cs t)) →
        BNCL.load g = .ok ⟨b.unk04, l⟩) ∧ g.length = 8 + 8 * b.imagePositions.length := by
  unfold moveImages at h
  obtain ⟨b, h1, h⟩ := bind_eq_ok.1 h
  obtain ⟨l, h2, h⟩ := bind_eq_ok.1 h
  have hc := changeAll_ok h2
  refine ⟨b, l, h1, hc, fun hf => (Bn.bncl_roundtrip _ _ h (changed_all hc hf)).1, ?_⟩
  obtain ⟨-, -, -, rfl⟩ := Proofs.Bn.bncl_save_ok.1 h
  rw [← hc.1]
  have e : ∀ l : List ImagePosition, ((l.map Proofs.Bn.posBytes).flatten).length = 8 * l.length := by
    intro l
    induction l with
    | nil => rfl
    | cons t l ih => simp only [List.map_cons, List.flatten_cons, List.length_append, ih, Proofs.Bn.posBytes_length,
        List.length_cons]; omega
  simp only [Proofs.Bn.bnclBytes, List.length_append, enBytes_length, e, show magicJNCL.length = 4 from rfl]

theorem move_images_cases (cs : List (Change ImagePosition)) (d : Bytes) (b : BNCL) (h : BNCL.load d = .ok b) :
    ((∃ c ∈ cs, pyPos b.imagePositions.length c.1 = none) → moveImages cs d = .error .indexError) ∧
    ((∀ c ∈ cs, ∃ k, pyPos b.imagePositions.length c.1 = some k) →
      ((∃ g, moveImages cs d = .ok g) ↔ ∀ (k : Nat) t, b.imagePositions[k]? = some t →
        0 ≤ (becomes b.imagePositions.length k cs t).imageID ∧
        (becomes b.imagePositions.length k cs t).imageID < 2 ^ 32)) := by
  obtain ⟨g1, g2⟩ := changeAll_cases cs b.imagePositions
  unfold moveImages
  rw [h, bind_ok]
  refine ⟨fun hn => by rw [g2 hn]; rfl, fun hi => ?_⟩
  obtain ⟨l, hl⟩ := g1 hi
  have hc := changeAll_ok hl
  rw [hl, bind_ok, Bn.bncl_save_iff]
  obtain ⟨h1, h2, -⟩ := Proofs.Bn.bncl_loaded h
  constructor
  · rintro ⟨-, -, h3⟩ k t ht
    exact h3 _ (List.mem_iff_getElem?.2 ⟨k, hc.2 k t ht⟩)
  · intro h3
    exact ⟨h1, by rw [hc.1]; exact h2, changed_all hc h3⟩

/-! ## Games -/

/-- **C168.** Touch areas of a file in archives, compressed files and ROMs are changed, and every other file is what it
was. -/
theorem move_areas_in_game {limit : Nat} (h0 : 0 < limit) {u : Bool} {path : List Layer} {cs : List (Change TouchArea)}
    {d d' : Bytes} (h : inGame limit u path (moveAreas cs) d = .ok d') :
    ∃ f f' b l, Spec.Nested.read limit path d = .ok f ∧ BNBL.load f = .ok b ∧ Changed cs b.touchAreas l ∧
      Spec.Nested.read limit path d' = .ok f' ∧
      ((∀ (k : Nat) t, b.touchAreas[k]? = some t → AreaFits (becomes b.touchAreas.length k cs t)) →
        BNBL.load f' = .ok ⟨b.unk04, l⟩) ∧
      ∀ path', Apart limit path path' d → Spec.Nested.read limit path' d' = Spec.Nested.read limit path' d := by
  unfold inGame at h
  obtain ⟨f, h1, h⟩ := bind_eq_ok.1 h
  obtain ⟨g, h2, h⟩ := bind_eq_ok.1 h
  obtain ⟨b, l, h3, h4, h5, -⟩ := move_areas h2
  exact ⟨f, g, b, l, h1, h3, h4, Nested.write_read h0 h, h5, fun path' ha => Nested.write_apart h0 ha h⟩

/-- **C168**, the same for image positions. -/
theorem move_images_in_game {limit : Nat} (h0 : 0 < limit) {u : Bool} {path : List Layer}
    {cs : List (Change ImagePosition)} {d d' : Bytes} (h : inGame limit u path (moveImages cs) d = .ok d') :
    ∃ f f' b l, Spec.Nested.read limit path d = .ok f ∧ BNCL.load f = .ok b ∧ Changed cs b.imagePositions l ∧
      Spec.Nested.read limit path d' = .ok f' ∧
      ((∀ (k : Nat) t, b.imagePositions[k]? = some t → PositionFits (becomes b.imagePositions.length k cs t)) →
        BNCL.load f' = .ok ⟨b.unk04, l⟩) ∧
      ∀ path', Apart limit path path' d → Spec.Nested.read limit path' d' = Spec.Nested.read limit path' d := by
  unfold inGame at h
  obtain ⟨f, h1, h⟩ := bind_eq_ok.1 h
  obtain ⟨g, h2, h⟩ := bind_eq_ok.1 h
  obtain ⟨b, l, h3, h4, h5, -⟩ := move_images h2
  exact ⟨f, g, b, l, h1, h3, h4, Nested.write_read h0 h, h5, fun path' ha => Nested.write_apart h0 ha h⟩

/-! ## Examples -/

/-- A layout with two buttons. -/
def buttons : BNBL := ⟨5, [⟨100, 4095, 7, 255, 0x42⟩, ⟨0, 1, 2, 3, 0x11⟩]⟩

/-- The second is moved and then made wider; the first is replaced. -/
def moves : List (Change TouchArea) :=
  [(-1, fun t => { t with x := 50, y := t.y + 1 }), (1, fun t => { t with width := t.width * 2 }),
   (0, fun _ => ⟨1, 2, 3, 4, 0x24⟩)]

/-- An archive with the layout, compressed, and another file. -/
def screen : Py Bytes := do
  let f ← buttons.save
  let f ← Lz10.compress f
  Narc.save ⟨.mk .nil [[97], [98]] 0, [f, [1, 2, 3]], .little⟩

example : (do
    let d ← screen
    let d' ← inGame 1 false [.narc [97], .lz10] (moveAreas moves) d
    let a ← Spec.Nested.read 1 [.narc [97], .lz10] d'
    let b ← Spec.Nested.read 1 [.narc [98]] d'
    let a ← BNBL.load a
    return (a, b)) = .ok (⟨5, [⟨1, 2, 3, 4, 0x24⟩, ⟨50, 2, 4, 3, 0x11⟩]⟩, [1, 2, 3]) := by decide +kernel

example : ∀ (k : Nat) t, buttons.touchAreas[k]? = some t → AreaFits (becomes buttons.touchAreas.length k moves t) := by
  intro k t h
  match k, h with
  | 0, h => cases h; exact ⟨by decide, by decide, 4, 32, by decide, by decide, by decide⟩
  | 1, h => cases h; exact ⟨by decide, by decide, 1, 16, by decide, by decide, by decide⟩

/-- Coordinates that the file cannot hold are cut off without a word. -/
example : (do
    let f ← buttons.save
    let g ← moveAreas [(0, fun t => { t with x := 4097 })] f
    BNBL.load g) = .ok ⟨5, [⟨1, 4095, 7, 255, 0x42⟩, ⟨0, 1, 2, 3, 0x11⟩]⟩ := by decide +kernel

example : (do
    let f ← BNCL.save ⟨5, [⟨100, 4095, 0x42, 70000⟩, ⟨0, 1, 0x11, 3⟩]⟩
    let g ← moveImages [(1, fun t => { t with imageID := 9 }), (-2, fun t => { t with x := t.x - 1 })] f
    BNCL.load g) = .ok ⟨5, [⟨99, 4095, 0x42, 70000⟩, ⟨0, 1, 0x11, 9⟩]⟩ := by decide +kernel

end Verif.Props.Layouts
