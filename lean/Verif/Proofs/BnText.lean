import Verif.Spec.BnText
import Verif.Proofs.EventText
import Verif.Base.Bits

/-!
# Lemmas about printed touch areas and image positions
-/

namespace Verif.Proofs.BnText

open Verif Verif.Model.Repr Verif.Model.BnText Verif.Spec.BnText Verif.Spec.EventText
open Verif.Model.Bn

/-! ## The canvas -/

/-- The cell of a canvas. -/
def cell (c : List Str) (x y : Int) : Option Str := c[(y * 32 + x).toNat]?

theorem setAt_length (c : List Str) (x y : Int) (s : Str) : (setAt c x y s).length = c.length := by
  unfold setAt; split
  · rfl
  · split
    · rfl
    · simp

/-- A cell of the screen. -/
def OnScreen (x y : Int) : Prop := 0 ≤ x ∧ x < 32 ∧ 0 ≤ y ∧ y < 12

theorem cell_setAt {c : List Str} (hc : c.length = 384) {cx cy : Int} (h : OnScreen cx cy) (x y : Int) (s : Str) :
    cell (setAt c x y s) cx cy = if x = cx ∧ y = cy then some s else cell c cx cy := by
  obtain ⟨h1, h2, h3, h4⟩ := h
  unfold setAt
  split
  · rw [if_neg (by omega)]
  · split
    · rw [if_neg (by omega)]
    · unfold cell
      rw [List.getElem?_set]
      by_cases he : x = cx ∧ y = cy
      · rw [if_pos he, if_pos (by rw [he.1, he.2]), if_pos (by omega)]
      · rw [if_neg he, if_neg (by omega)]

theorem fold_length {α : Type} (f : List Str → α → List Str) (hf : ∀ c a, (f c a).length = c.length) :
    ∀ (l : List α) (c : List Str), (l.foldl f c).length = c.length
  | [], _ => rfl
  | a :: l, c => by rw [List.foldl_cons, fold_length f hf l, hf]

theorem cell_fold {α : Type} {f : List Str → α → List Str} {P : α → Prop} [DecidablePred P] {s : Str} {cx cy : Int}
    (hl : ∀ c a, (f c a).length = c.length)
    (hf : ∀ c a, c.length = 384 → cell (f c a) cx cy = if P a then some s else cell c cx cy) :
    ∀ (l : List α) (c : List Str), c.length = 384 →
      cell (l.foldl f c) cx cy = if ∃ a ∈ l, P a then some s else cell c cx cy
  | [], c, _ => by simp
  | a :: l, c, hc => by
    rw [List.foldl_cons, cell_fold hl hf l _ (by rw [hl, hc]), hf _ _ hc]
    by_cases h : ∃ b ∈ l, P b
    · rw [if_pos h, if_pos]
      obtain ⟨b, hb, hp⟩ := h
      exact ⟨b, List.mem_cons_of_mem _ hb, hp⟩
    · rw [if_neg h]
      by_cases ha : P a
      · rw [if_pos ha, if_pos ⟨a, List.mem_cons_self .., ha⟩]
      · rw [if_neg ha, if_neg]
        rintro ⟨b, hb, hp⟩
        rcases List.mem_cons.1 hb with rfl | hb
        · exact ha hp
        · exact h ⟨b, hb, hp⟩

theorem mem_pyRange {a b j : Int} : j ∈ pyRange a b ↔ a ≤ j ∧ j < b := by
  unfold pyRange
  simp only [List.mem_map, List.mem_range]
  constructor
  · rintro ⟨n, hn, rfl⟩
    omega
  · rintro ⟨h1, h2⟩
    exact ⟨(j - a).toNat, by omega, by omega⟩

/-- What drawing a rectangle of cells puts into a cell. -/
def markOf (l r t b : Int) (s : Str) (cx cy : Int) : Option Str :=
  if cx = (l + r) / 2 ∧ cy = (t + b) / 2 then some s
  else if (cx = l ∨ cx = r) ∧ t < cy ∧ cy < b then some [124]
  else if (cy = t ∨ cy = b) ∧ l < cx ∧ cx < r then some [45]
  else if (cx = l ∨ cx = r) ∧ cy = b then some [39]
  else if (cx = l ∨ cx = r) ∧ cy = t then some [46]
  else none

theorem drawArea_length (c : List Str) (i : Nat) (t : TouchArea) : (drawArea c i t).length = c.length := by
  unfold drawArea
  simp only [setAt_length]
  rw [fold_length _ (by intro c a; simp only [setAt_length]), fold_length _ (by intro c a; simp only [setAt_length])]
  simp only [setAt_length]

theorem cell_drawArea {c : List Str} (hc : c.length = 384) {cx cy : Int} (h : OnScreen cx cy) (i : Nat) (t : TouchArea) :
    cell (drawArea c i t) cx cy = ((markOf (t.getTopLeft.1 / 8) ((t.getTopLeft.1 + t.width) / 8) (t.getTopLeft.2 / 16)
      ((t.getTopLeft.2 + t.height) / 16) (reprNat i) cx cy).or (cell c cx cy)) := by
  unfold drawArea markOf
  dsimp only
  generalize t.getTopLeft.1 / 8 = l
  generalize (t.getTopLeft.1 + t.width) / 8 = r
  generalize t.getTopLeft.2 / 16 = tp
  generalize (t.getTopLeft.2 + t.height) / 16 = b
  have L1 : ∀ (c : List Str) (j : Int), (setAt (setAt c l j (lit "|")) r j (lit "|")).length = c.length := by
    intro c a; simp only [setAt_length]
  have L2 : ∀ (c : List Str) (j : Int), (setAt (setAt c j tp (lit "-")) j b (lit "-")).length = c.length := by
    intro c a; simp only [setAt_length]
  have F1 : ∀ (c : List Str) (j : Int), c.length = 384 → cell (setAt (setAt c l j (lit "|")) r j (lit "|")) cx cy =
      if (cx = l ∨ cx = r) ∧ cy = j then some [124] else cell c cx cy := by
    intro c j hc
    rw [cell_setAt (by rw [setAt_length, hc]) h, cell_setAt hc h]
    by_cases h1 : (cx = l ∨ cx = r) ∧ cy = j
    · rw [if_pos h1]
      by_cases h2 : r = cx ∧ j = cy
      · rw [if_pos h2]; rfl
      · rw [if_neg h2, if_pos (by omega)]; rfl
    · rw [if_neg h1, if_neg (by omega), if_neg (by omega)]
  have F2 : ∀ (c : List Str) (j : Int), c.length = 384 → cell (setAt (setAt c j tp (lit "-")) j b (lit "-")) cx cy =
      if (cy = tp ∨ cy = b) ∧ cx = j then some [45] else cell c cx cy := by
    intro c j hc
    rw [cell_setAt (by rw [setAt_length, hc]) h, cell_setAt hc h]
    by_cases h1 : (cy = tp ∨ cy = b) ∧ cx = j
    · rw [if_pos h1]
      by_cases h2 : j = cx ∧ b = cy
      · rw [if_pos h2]; rfl
      · rw [if_neg h2, if_pos (by omega)]; rfl
    · rw [if_neg h1, if_neg (by omega), if_neg (by omega)]
  have e1 : (∃ a ∈ pyRange (tp + 1) b, (cx = l ∨ cx = r) ∧ cy = a) ↔ (cx = l ∨ cx = r) ∧ tp < cy ∧ cy < b := by
    simp only [mem_pyRange]
    constructor
    · rintro ⟨a, h1, h2, rfl⟩; omega
    · rintro ⟨h1, h2, h3⟩; exact ⟨cy, by omega, h1, rfl⟩
  have e2 : (∃ a ∈ pyRange (l + 1) r, (cy = tp ∨ cy = b) ∧ cx = a) ↔ (cy = tp ∨ cy = b) ∧ l < cx ∧ cx < r := by
    simp only [mem_pyRange]
    constructor
    · rintro ⟨a, h1, h2, rfl⟩; omega
    · rintro ⟨h1, h2, h3⟩; exact ⟨cx, by omega, h1, rfl⟩
  rw [cell_setAt (by rw [fold_length _ L1, fold_length _ L2]; simp only [setAt_length, hc]) h,
    cell_fold (P := fun j => (cx = l ∨ cx = r) ∧ cy = j) (s := [124]) L1 F1 _ _ (by rw [fold_length _ L2]; simp only [setAt_length, hc]),
    cell_fold (P := fun j => (cy = tp ∨ cy = b) ∧ cx = j) (s := [45]) L2 F2 _ _ (by simp only [setAt_length, hc]),
    cell_setAt (by simp only [setAt_length, hc]) h, cell_setAt (by simp only [setAt_length, hc]) h,
    cell_setAt (by simp only [setAt_length, hc]) h, cell_setAt hc h]
  simp only [e1, e2]
  by_cases hm : cx = (l + r) / 2 ∧ cy = (tp + b) / 2
  · rw [if_pos hm, if_pos (by omega)]; rfl
  rw [if_neg hm, if_neg (by omega)]
  by_cases h1 : (cx = l ∨ cx = r) ∧ tp < cy ∧ cy < b
  · rw [if_pos h1, if_pos h1]; rfl
  rw [if_neg h1, if_neg h1]
  by_cases h2 : (cy = tp ∨ cy = b) ∧ l < cx ∧ cx < r
  · rw [if_pos h2, if_pos h2]; rfl
  rw [if_neg h2, if_neg h2]
  by_cases h3 : (cx = l ∨ cx = r) ∧ cy = b
  · rw [if_pos h3]
    by_cases h4 : r = cx ∧ b = cy
    · rw [if_pos h4]; rfl
    · rw [if_neg h4, if_pos (by omega)]; rfl
  rw [if_neg h3, if_neg (by omega), if_neg (by omega)]
  by_cases h5 : (cx = l ∨ cx = r) ∧ cy = tp
  · rw [if_pos h5]
    by_cases h4 : r = cx ∧ tp = cy
    · rw [if_pos h4]; rfl
    · rw [if_neg h4, if_pos (by omega)]; rfl
  · rw [if_neg h5, if_neg (by omega), if_neg (by omega)]; rfl

/-- A cell is touched by the border of an area if it is one of those along its edges. -/
theorem border_iff {t : TouchArea} (hw : 0 ≤ t.width) (hh : 0 ≤ t.height) {cx cy : Int} :
    Border t cx cy ↔
      (t.getTopLeft.1 / 8 ≤ cx ∧ cx ≤ (t.getTopLeft.1 + t.width) / 8 ∧
        t.getTopLeft.2 / 16 ≤ cy ∧ cy ≤ (t.getTopLeft.2 + t.height) / 16 ∧
        (cx = t.getTopLeft.1 / 8 ∨ cx = (t.getTopLeft.1 + t.width) / 8 ∨ cy = t.getTopLeft.2 / 16 ∨
          cy = (t.getTopLeft.2 + t.height) / 16)) := by
  unfold Border OnBorder InCell
  generalize t.getTopLeft.1 = x
  generalize t.getTopLeft.2 = y
  generalize t.width = w at *
  generalize t.height = h at *
  constructor
  · rintro ⟨px, py, ⟨h1, h2, h3, h4, h5⟩, h6, h7, h8, h9⟩
    refine ⟨by omega, by omega, by omega, by omega, ?_⟩
    omega
  · rintro ⟨h1, h2, h3, h4, h5⟩
    -- a pixel of the columns and one of the rows in the cell
    have hx : ∃ px, x ≤ px ∧ px ≤ x + w ∧ 8 * cx ≤ px ∧ px < 8 * cx + 8 := by
      by_cases hc : 8 * cx ≤ x
      · exact ⟨x, by omega, by omega, by omega, by omega⟩
      · exact ⟨8 * cx, by omega, by omega, by omega, by omega⟩
    have hy : ∃ py, y ≤ py ∧ py ≤ y + h ∧ 16 * cy ≤ py ∧ py < 16 * cy + 16 := by
      by_cases hc : 16 * cy ≤ y
      · exact ⟨y, by omega, by omega, by omega, by omega⟩
      · exact ⟨16 * cy, by omega, by omega, by omega, by omega⟩
    obtain ⟨px, p1, p2, p3, p4⟩ := hx
    obtain ⟨py, q1, q2, q3, q4⟩ := hy
    rcases h5 with h5 | h5 | h5 | h5
    · exact ⟨x, py, by omega, by omega⟩
    · exact ⟨x + w, py, by omega, by omega⟩
    · exact ⟨px, y, by omega, by omega⟩
    · exact ⟨px, y + h, by omega, by omega⟩

/-- What is drawn is the mark. -/
theorem mark_of {t : TouchArea} (hw : 0 ≤ t.width) (hh : 0 ≤ t.height) (i : Nat) (cx cy : Int) :
    (∃ m, markOf (t.getTopLeft.1 / 8) ((t.getTopLeft.1 + t.width) / 8) (t.getTopLeft.2 / 16)
      ((t.getTopLeft.2 + t.height) / 16) (reprNat i) cx cy = some m ∧ (Border t cx cy ∨ Middle t cx cy) ∧ Mark i t cx cy m) ∨
    (markOf (t.getTopLeft.1 / 8) ((t.getTopLeft.1 + t.width) / 8) (t.getTopLeft.2 / 16)
      ((t.getTopLeft.2 + t.height) / 16) (reprNat i) cx cy = none ∧ ¬ (Border t cx cy ∨ Middle t cx cy)) := by
  rw [border_iff hw hh]
  have hlr : t.getTopLeft.1 / 8 ≤ (t.getTopLeft.1 + t.width) / 8 := by omega
  have htb : t.getTopLeft.2 / 16 ≤ (t.getTopLeft.2 + t.height) / 16 := by omega
  unfold markOf
  by_cases hm : Middle t cx cy
  · left
    refine ⟨reprNat i, ?_, .inr hm, .number hm⟩
    unfold Middle at hm
    rw [if_pos hm]
  have hm' := hm
  unfold Middle at hm'
  rw [if_neg hm']
  split
  · rename_i h
    left
    refine ⟨_, rfl, .inl (by omega), .side hm h.2.1 h.2.2⟩
  split
  · rename_i h1 h
    left
    refine ⟨_, rfl, .inl (by omega), .flat hm h.2.1 h.2.2 h.1⟩
  split
  · rename_i h1 h2 h
    left
    refine ⟨_, rfl, .inl (by omega), .lower hm h.1 h.2⟩
  split
  · rename_i h1 h2 h3 h
    left
    refine ⟨_, rfl, .inl (by omega), .upper hm h.1 h.2 (by omega)⟩
  · right
    refine ⟨rfl, ?_⟩
    rintro (h | h)
    · omega
    · exact hm h

theorem drawAreas_length : ∀ (ts : List TouchArea) (i : Nat) (c : List Str), (drawAreas c i ts).length = c.length
  | [], _, _ => rfl
  | t :: ts, i, c => by rw [drawAreas, drawAreas_length ts, drawArea_length]

theorem shows_cell : ∀ (ts : List TouchArea) (i : Nat) (c : List Str) {cx cy : Int}, c.length = 384 → OnScreen cx cy →
    (∀ t ∈ ts, 0 ≤ t.width ∧ 0 ≤ t.height) → ∀ {s : Str}, cell c cx cy = some s →
    ∃ r, cell (drawAreas c i ts) cx cy = some r ∧ Shows s i ts cx cy r
  | [], _, _, _, _, _, _, _, s, hs => ⟨s, hs, .none⟩
  | t :: ts, i, c, cx, cy, hc, h, hp, s, hs => by
    rw [drawAreas]
    have hd := cell_drawArea hc h i t
    obtain ⟨hw, hh⟩ := hp t (List.mem_cons_self ..)
    rcases mark_of hw hh i cx cy with ⟨m, h1, h2, h3⟩ | ⟨h1, h2⟩
    · rw [h1] at hd
      obtain ⟨r, h4, h5⟩ := shows_cell ts (i + 1) _ (by rw [drawArea_length, hc]) h
        (fun t ht => hp t (List.mem_cons_of_mem _ ht)) (s := m) hd
      exact ⟨r, h4, .over h2 h3 h5⟩
    · rw [h1, hs] at hd
      obtain ⟨r, h4, h5⟩ := shows_cell ts (i + 1) _ (by rw [drawArea_length, hc]) h
        (fun t ht => hp t (List.mem_cons_of_mem _ ht)) (s := s) hd
      exact ⟨r, h4, .past h2 h5⟩

/-! ## The texts in the cells -/

theorem setAt_all {P : Str → Prop} {c : List Str} (hc : ∀ s ∈ c, P s) {ch : Str} (h : P ch) (x y : Int) :
    ∀ s ∈ setAt c x y ch, P s := by
  unfold setAt
  split
  · exact hc
  · split
    · exact hc
    · intro s hs
      rcases List.mem_or_eq_of_mem_set hs with hs | rfl
      · exact hc s hs
      · exact h

theorem fold_all {α : Type} {P : Str → Prop} {f : List Str → α → List Str}
    (hf : ∀ c a, (∀ s ∈ c, P s) → ∀ s ∈ f c a, P s) : ∀ (l : List α) (c : List Str), (∀ s ∈ c, P s) → ∀ s ∈ l.foldl f c, P s
  | [], _, h => h
  | a :: l, c, h => fold_all hf l _ (hf c a h)

theorem drawArea_all {P : Str → Prop} (h1 : P (lit ".")) (h2 : P (lit "'")) (h3 : P (lit "-")) (h4 : P (lit "|")) {i : Nat}
    (hi : P (reprNat i)) {c : List Str} (hc : ∀ s ∈ c, P s) (t : TouchArea) : ∀ s ∈ drawArea c i t, P s := by
  unfold drawArea
  refine setAt_all (fold_all (fun c a h => setAt_all (setAt_all h h4 _ _) h4 _ _) _ _
    (fold_all (fun c a h => setAt_all (setAt_all h h3 _ _) h3 _ _) _ _
      (setAt_all (setAt_all (setAt_all (setAt_all hc h1 _ _) h1 _ _) h2 _ _) h2 _ _))) hi _ _

theorem drawAreas_all {P : Str → Prop} (h1 : P (lit ".")) (h2 : P (lit "'")) (h3 : P (lit "-")) (h4 : P (lit "|")) {n : Nat}
    (hi : ∀ i < n, P (reprNat i)) : ∀ (ts : List TouchArea) (i : Nat) (c : List Str), i + ts.length ≤ n → (∀ s ∈ c, P s) →
    ∀ s ∈ drawAreas c i ts, P s
  | [], _, _, _, hc => hc
  | t :: ts, i, c, hn, hc => by
    rw [List.length_cons] at hn
    rw [drawAreas]
    exact drawAreas_all h1 h2 h3 h4 hi ts (i + 1) _ (by omega) (drawArea_all h1 h2 h3 h4 (hi i (by omega)) hc t)

theorem canvas_all {P : Str → Prop} (h0 : P (lit " ")) (h1 : P (lit ".")) (h2 : P (lit "'")) (h3 : P (lit "-")) (h4 : P (lit "|"))
    (ts : List TouchArea) (hi : ∀ i < ts.length, P (reprNat i)) : ∀ s ∈ canvasOf ts, P s := by
  unfold canvasOf
  refine drawAreas_all h1 h2 h3 h4 hi ts 0 _ (by omega) ?_
  intro s hs
  obtain ⟨_, rfl⟩ := List.mem_replicate.1 hs
  exact h0

theorem canvas_length (ts : List TouchArea) : (canvasOf ts).length = 384 := by
  unfold canvasOf
  rw [drawAreas_length, List.length_replicate]

theorem draw_chars (ts : List TouchArea) : ∀ l ∈ draw ts, ∀ c ∈ l, c ≠ 10 ∧ c ≠ 60 := by
  have hp : ∀ s ∈ canvasOf ts, ∀ c ∈ s, c ≠ 10 ∧ c ≠ 60 := by
    refine canvas_all (P := fun s => ∀ c ∈ s, c ≠ 10 ∧ c ≠ 60) (by decide) (by decide) (by decide) (by decide) (by decide) ts ?_
    intro i _ c hc
    have := EventText.nat_chars i c hc
    omega
  intro l hl c hc
  unfold draw at hl
  simp only [List.cons_append, List.mem_cons, List.mem_append, List.mem_map, List.mem_range, List.not_mem_nil, or_false] at hl
  rcases hl with rfl | ⟨i, _, rfl⟩ | rfl
  · exact (by decide : ∀ c ∈ lit "." ++ List.replicate 34 61 ++ lit ".", c ≠ 10 ∧ c ≠ 60) c hc
  · simp only [List.mem_append, List.mem_flatten] at hc
    rcases hc with (hc | ⟨s, hs, hc⟩) | hc
    · exact (by decide : ∀ c ∈ lit "| ", c ≠ 10 ∧ c ≠ 60) c hc
    · refine hp s ?_ c hc
      unfold slice at hs
      exact List.mem_of_mem_drop (List.mem_of_mem_take hs)
    · exact (by decide : ∀ c ∈ lit " |", c ≠ 10 ∧ c ≠ 60) c hc
  · exact (by decide : ∀ c ∈ lit "'" ++ List.replicate 34 61 ++ lit "'", c ≠ 10 ∧ c ≠ 60) c hc

theorem nat_digit : ∀ i < 10, (reprNat i).length = 1 := by decide

theorem flatten_single : ∀ (l : List Str), (∀ s ∈ l, s.length = 1) → l.flatten.length = l.length ∧
    ∀ i : Nat, l[i]? = (l.flatten[i]?).map fun c => [c]
  | [], _ => ⟨rfl, fun i => by simp⟩
  | s :: l, h => by
    obtain ⟨h1, h2⟩ := flatten_single l fun x hx => h x (List.mem_cons_of_mem _ hx)
    have hs := h s (List.mem_cons_self ..)
    match s, hs with
    | [c], _ =>
      refine ⟨by simp [h1], fun i => ?_⟩
      cases i with
      | zero => rfl
      | succ i =>
        rw [List.getElem?_cons_succ, h2]
        simp

/-- Up to ten areas, each row of the drawing has one character for each cell. -/
theorem draw_row (ts : List TouchArea) (hn : ts.length ≤ 10) {cy : Nat} (hy : cy < 12) :
    ∃ l, (draw ts)[cy + 1]? = some l ∧ l.length = 36 ∧ ∀ cx : Nat, cx < 32 → cell (canvasOf ts) cx cy = (l[cx + 2]?).map fun c => [c] := by
  refine ⟨lit "| " ++ (slice (canvasOf ts) (cy * 32) (cy * 32 + 32)).flatten ++ lit " |", ?_, ?_⟩
  · unfold draw
    rw [List.cons_append, List.getElem?_cons_succ, List.getElem?_append_left (by simpa using hy)]
    simp [hy]
  have hs : ∀ s ∈ slice (canvasOf ts) (cy * 32) (cy * 32 + 32), s.length = 1 := by
    intro s hs
    unfold slice at hs
    exact canvas_all (P := fun s => s.length = 1) rfl rfl rfl rfl rfl ts (fun i hi => nat_digit i (by omega)) s
      (List.mem_of_mem_drop (List.mem_of_mem_take hs))
  have hl : (slice (canvasOf ts) (cy * 32) (cy * 32 + 32)).length = 32 := by
    unfold slice
    rw [List.length_take, List.length_drop, canvas_length]
    omega
  obtain ⟨h1, h2⟩ := flatten_single _ hs
  refine ⟨?_, fun cx hx => ?_⟩
  · rw [List.length_append, List.length_append, h1, hl]; rfl
  · rw [List.append_assoc, List.getElem?_append_right (by show 2 ≤ cx + 2; omega)]
    rw [show cx + 2 - (lit "| ").length = cx from by show cx + 2 - 2 = cx; omega]
    rw [List.getElem?_append_left (by rw [h1, hl]; exact hx), ← h2]
    unfold cell slice
    rw [List.getElem?_take, if_pos (by omega), List.getElem?_drop]
    congr 1

/-! ## Reading -/

open Verif.Model.EventText (padLeft)
open Verif.Proofs.EventText

theorem takeWhile_ne (c : Nat) : ∀ (u v : Str), c ∉ u → (u ++ c :: v).takeWhile (· ≠ c) = u
  | [], v, _ => by simp
  | a :: u, v, h => by
    have ha : a ≠ c := fun e => h (by simp [e])
    rw [List.cons_append, List.takeWhile_cons, if_pos (by simpa using ha), takeWhile_ne c u v (fun e => h (by simp [e]))]

theorem dropWhile_ne (c : Nat) : ∀ (u v : Str), c ∉ u → (u ++ c :: v).dropWhile (· ≠ c) = c :: v
  | [], v, _ => by simp
  | a :: u, v, h => by
    have ha : a ≠ c := fun e => h (by simp [e])
    rw [List.cons_append, List.dropWhile_cons, if_pos (by simpa using ha), dropWhile_ne c u v (fun e => h (by simp [e]))]

theorem between_text (a b : Nat) (pre mid post : Str) (h1 : a ∉ pre) (h2 : b ∉ mid) :
    between a b (pre ++ a :: (mid ++ b :: post)) = mid := by
  rw [between, dropWhile_ne a _ _ h1, List.drop_succ_cons, List.drop_zero, takeWhile_ne b _ _ h2]

theorem drop_spaces (k i : Nat) : (List.replicate k 32 ++ reprNat i).dropWhile (· = 32) = reprNat i := by
  induction k with
  | zero =>
    obtain ⟨c, t, h, _⟩ := PyExpr.reprNat_head i
    have hc : c ≠ 32 := by
      rintro rfl
      exact sp_nat i (by rw [h]; simp)
    rw [List.replicate_zero, List.nil_append, h, List.dropWhile_cons, if_neg (by simpa using hc)]
  | succ k ih => rw [List.replicate_succ, List.cons_append, List.dropWhile_cons, if_pos (by decide), ih]

theorem pad_chars (n i : Nat) : ∀ x ∈ padLeft n i, x = 32 ∨ 48 ≤ x ∧ x ≤ 57 := by
  intro x hx
  rw [padLeft, List.mem_append, List.mem_replicate] at hx
  rcases hx with h | h
  · exact Or.inl h.2
  · exact Or.inr (nat_chars i x h)

/-- A line of the list with something after it. -/
theorem read_item {α : Type} {read : Str → Option α} {t : Str} {v : α} (h : read t = some v) (h62 : 62 ∉ t) (n i : Nat) (post : Str) :
    readItem read (List.replicate 4 32 ++ lit "[" ++ padLeft n i ++ lit "] " ++ ([60] ++ t ++ [62]) ++ post) = some (i, v) := by
  have hp := pad_chars n i
  have e1 : List.replicate 4 32 ++ lit "[" ++ padLeft n i ++ lit "] " ++ ([60] ++ t ++ [62]) ++ post =
      [32, 32, 32, 32] ++ 91 :: (padLeft n i ++ 93 :: ([32, 60] ++ t ++ [62] ++ post)) := by
    have h2 : lit "[" = [91] := rfl
    have h3 : lit "] " = [93, 32] := rfl
    rw [h2, h3]
    simp [List.replicate]
  have e2 : [32, 32, 32, 32] ++ 91 :: (padLeft n i ++ 93 :: ([32, 60] ++ t ++ [62] ++ post)) =
      ([32, 32, 32, 32, 91] ++ padLeft n i ++ [93, 32]) ++ 60 :: (t ++ 62 :: post) := by simp
  have b1 : between 91 93 ([32, 32, 32, 32] ++ 91 :: (padLeft n i ++ 93 :: ([32, 60] ++ t ++ [62] ++ post))) = padLeft n i :=
    between_text 91 93 _ _ _ (by decide) (fun h => by have := hp _ h; omega)
  have b2 : between 60 62 (([32, 32, 32, 32, 91] ++ padLeft n i ++ [93, 32]) ++ 60 :: (t ++ 62 :: post)) = t := by
    refine between_text 60 62 _ _ _ ?_ h62
    simp only [List.mem_append, not_or]
    exact ⟨⟨by decide, fun h => by have := hp _ h; omega⟩, by decide⟩
  rw [readItem, e1, b1, e2, b2, h, padLeft, drop_spaces, nat_repr]
  rfl

theorem align_bit (a k : Nat) : (a &&& 2 ^ k ≠ 0) ↔ a.testBit k = true := by
  rw [← Bits.and_two_pow_ne a k]
  simp

theorem read_alignment (a : Nat) : readAlignment (alignmentName a) = some (likeAlignment a) ∧
    32 ∉ alignmentName a ∧ 62 ∉ alignmentName a ∧ 10 ∉ alignmentName a := by
  have h1 : (a &&& Model.Util.H_CENTER ≠ 0) ↔ a.testBit 2 = true := align_bit a 2
  have h2 : (a &&& Model.Util.RIGHT ≠ 0) ↔ a.testBit 1 = true := align_bit a 1
  have h3 : (a &&& Model.Util.V_CENTER ≠ 0) ↔ a.testBit 6 = true := align_bit a 6
  have h4 : (a &&& Model.Util.BOTTOM ≠ 0) ↔ a.testBit 5 = true := align_bit a 5
  unfold alignmentName likeAlignment
  simp only [h1, h2, h3, h4]
  cases a.testBit 2 <;> cases a.testBit 1 <;> cases a.testBit 6 <;> cases a.testBit 5 <;> decide

theorem open_int (x : Int) : openInt (40 :: (reprInt x ++ [44])) = some x := by
  have h : after [40] (40 :: (reprInt x ++ [44])) = some (reprInt x ++ [44]) := after_append [40] _
  rw [openInt, h]
  simp [int_repr]

theorem end_int (e : Str) (x : Int) : endInt e (reprInt x ++ e) = some x := by
  have : (reprInt x ++ e).length - e.length = (reprInt x).length := by simp
  rw [endInt, this]
  simp [int_repr]

/-- The inside of a printed touch area. -/
def areaInner (t : TouchArea) : Str :=
  join [32] [chars "bnbl", chars "touch", chars "area:", alignmentName t.alignment, chars "at", 40 :: (reprInt t.x ++ [44]),
    reprInt t.y ++ chars "),", chars "size", reprInt t.width ++ 120 :: reprInt t.height]

theorem area_text (t : TouchArea) : strTouchArea t = [60] ++ areaInner t ++ [62] := by
  have h1 : lit "<bnbl touch area: " = [60] ++ chars "bnbl" ++ [32] ++ chars "touch" ++ [32] ++ chars "area:" ++ [32] := rfl
  have h2 : lit " at (" = [32] ++ chars "at" ++ [32, 40] := rfl
  have h3 : lit ", " = [44, 32] := rfl
  have h4 : lit "), size " = chars ")," ++ [32] ++ chars "size" ++ [32] := rfl
  have h5 : lit "x" = [120] := rfl
  have h6 : lit ">" = [62] := rfl
  rw [strTouchArea, areaInner, h1, h2, h3, h4, h5, h6]
  simp [join]

theorem int_not (v : Int) {c : Nat} (h : c ≠ 45 ∧ (c < 48 ∨ 57 < c)) : c ∉ reprInt v := by
  intro hc
  have := int_chars v c hc
  omega

theorem area_words (t : TouchArea) {c : Nat} (hc : c = 10 ∨ c = 62 ∨ c = 32) :
    ∀ w ∈ [chars "bnbl", chars "touch", chars "area:", alignmentName t.alignment, chars "at", 40 :: (reprInt t.x ++ [44]),
      reprInt t.y ++ chars "),", chars "size", reprInt t.width ++ 120 :: reprInt t.height], c ∉ w := by
  have hn : ∀ v : Int, c ∉ reprInt v := fun v => int_not v (by omega)
  have ha : c ∉ alignmentName t.alignment := by
    have := read_alignment t.alignment
    rcases hc with rfl | rfl | rfl
    · exact this.2.2.2
    · exact this.2.2.1
    · exact this.2.1
  simp only [List.forall_mem_cons]
  have h1 := hn t.x
  have h2 := hn t.y
  have h3 := hn t.width
  have h4 := hn t.height
  rcases hc with rfl | rfl | rfl <;>
  exact ⟨by decide, by decide, by decide, ha, by decide, by simp [h1], by simp [h2, chars], by decide,
    by simp [h3, h4], by simp⟩

theorem join_not {c d : Nat} (h : c ≠ d) : ∀ (ws : List Str), (∀ w ∈ ws, c ∉ w) → c ∉ join [d] ws
  | [], _ => by simp [join]
  | [w], hw => by simpa [join] using hw w (by simp)
  | w :: v :: ws, hw => by
    rw [join]
    simp only [List.mem_append, not_or]
    exact ⟨⟨hw w (by simp), by simpa using h⟩, join_not h (v :: ws) (fun u hu => hw u (by simp [hu]))⟩

theorem read_area (t : TouchArea) : readArea (areaInner t) = some { t with alignment := likeAlignment t.alignment } := by
  have hs : splitOn 120 (reprInt t.width ++ 120 :: reprInt t.height) = [reprInt t.width, reprInt t.height] := by
    rw [split_cons _ _ _ (int_not _ (by omega)), split_one _ _ (int_not _ (by omega))]
  unfold readArea areaInner
  rw [split_join 32 _ (by simp) (area_words t (Or.inr (Or.inr rfl)))]
  simp only [and_self, if_true, (read_alignment t.alignment).1, open_int, end_int, hs, int_repr, Option.bind_some, Option.map_some]

/-- The inside of a printed image position. -/
def positionInner (t : ImagePosition) : Str :=
  join [32] [chars "bncl", chars "image", chars "position:", alignmentName t.alignment, chars "of", chars "image",
    reprInt t.imageID, chars "at", 40 :: (reprInt t.x ++ [44]), reprInt t.y ++ chars ")"]

theorem position_text (t : ImagePosition) : strImagePosition t = [60] ++ positionInner t ++ [62] := by
  have h1 : lit "<bncl image position: " = [60] ++ chars "bncl" ++ [32] ++ chars "image" ++ [32] ++ chars "position:" ++ [32] := rfl
  have h2 : lit " at (" = [32] ++ chars "at" ++ [32, 40] := rfl
  have h3 : lit ", " = [44, 32] := rfl
  have h4 : lit " of image " = [32] ++ chars "of" ++ [32] ++ chars "image" ++ [32] := rfl
  have h6 : lit ")>" = chars ")" ++ [62] := rfl
  rw [strImagePosition, positionInner, h1, h2, h3, h4, h6]
  simp [join]

theorem position_words (t : ImagePosition) {c : Nat} (hc : c = 10 ∨ c = 62 ∨ c = 32) :
    ∀ w ∈ [chars "bncl", chars "image", chars "position:", alignmentName t.alignment, chars "of", chars "image",
      reprInt t.imageID, chars "at", 40 :: (reprInt t.x ++ [44]), reprInt t.y ++ chars ")"], c ∉ w := by
  have hn : ∀ v : Int, c ∉ reprInt v := fun v => int_not v (by omega)
  have ha : c ∉ alignmentName t.alignment := by
    have := read_alignment t.alignment
    rcases hc with rfl | rfl | rfl
    · exact this.2.2.2
    · exact this.2.2.1
    · exact this.2.1
  simp only [List.forall_mem_cons]
  have h1 := hn t.x
  have h2 := hn t.y
  have h3 := hn t.imageID
  rcases hc with rfl | rfl | rfl <;>
  exact ⟨by decide, by decide, by decide, ha, by decide, by decide, h3, by decide, by simp [h1], by simp [h2, chars],
    by simp⟩

theorem read_position (t : ImagePosition) :
    readPosition (positionInner t) = some { t with alignment := likeAlignment t.alignment } := by
  unfold readPosition positionInner
  rw [split_join 32 _ (by simp) (position_words t (Or.inr (Or.inr rfl)))]
  simp only [and_self, if_true, (read_alignment t.alignment).1, open_int, end_int, int_repr, Option.bind_some, Option.map_some]

/-! ## The lines -/

/-- Items, their texts and what is read from these. -/
structure Reads {α β : Type} (text : β → Str) (inner : β → Str) (read : Str → Option α) (val : β → α) : Prop where
  shape : ∀ x, text x = [60] ++ inner x ++ [62]
  ends : ∀ x, 62 ∉ inner x
  line : ∀ x, 10 ∉ inner x
  value : ∀ x, read (inner x) = some (val x)

theorem area_reads : Reads strTouchArea areaInner readArea (fun t => { t with alignment := likeAlignment t.alignment }) where
  shape := area_text
  ends t := join_not (by decide) _ (area_words t (Or.inr (Or.inl rfl)))
  line t := join_not (by decide) _ (area_words t (Or.inl rfl))
  value := read_area

theorem position_reads :
    Reads strImagePosition positionInner readPosition (fun t => { t with alignment := likeAlignment t.alignment }) where
  shape := position_text
  ends t := join_not (by decide) _ (position_words t (Or.inr (Or.inl rfl)))
  line t := join_not (by decide) _ (position_words t (Or.inl rfl))
  value := read_position

section
variable {α β : Type} {text inner : β → Str} {read : Str → Option α} {val : β → α}

theorem item_line (h : Reads text inner read val) (n i : Nat) (x : β) (post : Str) :
    readItem read (List.replicate 4 32 ++ lit "[" ++ padLeft n i ++ lit "] " ++ text x ++ post) = some (i, val x) ∧
    (List.replicate 4 32 ++ lit "[" ++ padLeft n i ++ lit "] " ++ text x ++ post).contains 60 = true := by
  rw [h.shape]
  exact ⟨read_item (h.value x) (h.ends x) n i post, by simp⟩

theorem item_nl (h : Reads text inner read val) (n i : Nat) (x : β) :
    10 ∉ List.replicate 4 32 ++ lit "[" ++ padLeft n i ++ lit "] " ++ text x := by
  rw [h.shape]
  simp only [List.mem_append, not_or]
  refine ⟨⟨⟨⟨by decide, by decide⟩, ?_⟩, by decide⟩, ⟨by decide, h.line x⟩, by decide⟩
  intro hc
  have := pad_chars n i _ hc
  omega

theorem enumerated_nl (h : Reads text inner read val) (n : Nat) : ∀ (l : List β) (i : Nat),
    ∀ s ∈ enumeratedFrom n 4 i (l.map text), 10 ∉ s
  | [], _, s, hs => by simp [enumeratedFrom] at hs
  | x :: l, i, s, hs => by
    rw [List.map_cons, enumeratedFrom, List.mem_cons] at hs
    rcases hs with rfl | hs
    · exact item_nl h n i x
    · exact enumerated_nl h n l (i + 1) s hs

theorem beside_nl (col : Nat) : ∀ (ls ds : List Str), (∀ l ∈ ls, 10 ∉ l) → (∀ d ∈ ds, 10 ∉ d) → ∀ s ∈ beside col ls ds, 10 ∉ s
  | ls, [], hl, _, s, hs => by rw [beside] at hs; exact hl s hs
  | [], d :: ds, hl, hd, s, hs => by
    rw [beside, List.mem_cons] at hs
    rcases hs with rfl | hs
    · simp [hd d (by simp)]
    · exact beside_nl col [] ds hl (fun e he => hd e (by simp [he])) s hs
  | l :: ls, d :: ds, hl, hd, s, hs => by
    rw [beside, List.mem_cons] at hs
    rcases hs with rfl | hs
    · simp [hd d (by simp), hl l (by simp)]
    · exact beside_nl col ls ds (fun e he => hl e (by simp [he])) (fun e he => hd e (by simp [he])) s hs

theorem read_beside_nil (col : Nat) : ∀ (ds : List Str), (∀ d ∈ ds, 60 ∉ d) → (beside col [] ds).filter (·.contains 60) = []
  | [], _ => rfl
  | d :: ds, h => by
    rw [beside, List.filter_cons, if_neg, read_beside_nil col ds (fun e he => h e (by simp [he]))]
    have := h d (by simp)
    simp [this]

/-- The list is read from the lines, with the drawing beside it. -/
theorem read_beside (h : Reads text inner read val) (n col : Nat) : ∀ (l : List β) (i : Nat) (ds : List Str), (∀ d ∈ ds, 60 ∉ d) →
    all? (readItem read) ((beside col (enumeratedFrom n 4 i (l.map text)) ds).filter (·.contains 60)) =
      some (numberedFrom i (l.map val))
  | [], i, ds, hd => by
    rw [List.map_nil, enumeratedFrom, read_beside_nil col ds hd]
    rfl
  | x :: l, i, [], hd => by
    have ih := read_beside h n col l (i + 1) [] (by simp)
    have hx := item_line h n i x []
    rw [List.append_nil] at hx
    rw [beside] at ih ⊢
    rw [List.map_cons, enumeratedFrom, List.filter_cons, if_pos hx.2, all?, hx.1, ih]
    rfl
  | x :: l, i, d :: ds, hd => by
    have ih := read_beside h n col l (i + 1) ds (fun e he => hd e (by simp [he]))
    rw [List.map_cons, enumeratedFrom, beside]
    have hx := item_line h n i x
      (List.replicate (col - (List.replicate 4 32 ++ lit "[" ++ padLeft n i ++ lit "] " ++ text x).length) 32 ++ d)
    rw [← List.append_assoc (_ ++ text x)] at hx
    rw [List.filter_cons, if_pos hx.2, all?, hx.1, ih]
    rfl

theorem first_nl (name : String) (hn : 10 ∉ chars name) (u : Int) : 10 ∉ firstLine name u := by
  have : lit name = chars name := rfl
  unfold firstLine
  rw [this]
  split
  · simp [hn, lit]
  · simp only [List.mem_append, not_or]
    exact ⟨⟨⟨by decide, hn⟩, by decide⟩, nl_int u⟩

/-- The first line, with nothing or with at least two spaces after it. -/
theorem read_first (name full : String) (hf : chars full = 60 :: chars name) (hn : 32 ∉ chars name) (u : Int) (post : Str)
    (hp : post = [] ∨ ∃ r, post = 32 :: 32 :: r) : readFirst full (firstLine name u ++ post) = some u := by
  have hl : lit name = chars name := rfl
  have h32 : 32 ∉ chars full := by rw [hf]; simp [hn]
  have hb : 32 ∉ chars "unk04" ++ 61 :: reprInt u := by
    have := sp_int u
    simp only [List.mem_append, List.mem_cons, not_or]
    exact ⟨by decide, by decide, this⟩
  have hne : chars "unk04" ++ 61 :: reprInt u ≠ [] := by simp
  unfold firstLine
  rw [hl]
  by_cases hu : u = 0
  · subst hu
    have e : lit "<" ++ chars name = chars full := by rw [hf]; rfl
    rw [if_pos rfl, e]
    rcases hp with rfl | ⟨r, rfl⟩
    · rw [List.append_nil, readFirst, split_one _ _ h32]
      simp
    · rw [readFirst, split_cons 32 _ _ h32]
      have : splitOn 32 (32 :: r) = [] :: splitOn 32 r := split_cons 32 [] r (by simp)
      rw [this]
      simp
  · have e : lit "<" ++ chars name ++ lit " unk04=" ++ reprInt u = chars full ++ 32 :: (chars "unk04" ++ 61 :: reprInt u) := by
      rw [hf]
      have : lit " unk04=" = 32 :: (chars "unk04" ++ [61]) := rfl
      rw [this]
      simp [lit]
    rw [if_neg hu, e]
    rcases hp with rfl | ⟨r, rfl⟩
    · rw [List.append_nil, readFirst, split_cons 32 _ _ h32, split_one _ _ hb]
      simp only [if_true, if_neg hne, field_text]
    · rw [readFirst, List.append_assoc, List.cons_append, split_cons 32 _ _ h32, split_cons 32 _ _ hb]
      simp only [if_true, if_neg hne, field_text]

end

theorem max_ge : ∀ (l : List Nat) (x : Nat), x ∈ l → x ≤ l.foldr max 0
  | a :: l, x, h => by
    rw [List.foldr_cons]
    rcases List.mem_cons.1 h with rfl | h
    · omega
    · have := max_ge l x h
      omega

theorem filter_gt (l : List Str) : (l ++ [lit ">"]).filter (·.contains 60) = l.filter (·.contains 60) := by
  rw [List.filter_append]
  have : [lit ">"].filter (·.contains 60) = [] := rfl
  rw [this, List.append_nil]

theorem read_bnbl (b : BNBL) : readBNBL (strBNBL b) =
    some (b.unk04, numberedFrom 0 (b.touchAreas.map fun t => { t with alignment := likeAlignment t.alignment })) := by
  have hd := draw_chars b.touchAreas
  obtain ⟨d, ds, hds⟩ : ∃ d ds, draw b.touchAreas = d :: ds := ⟨_, _, rfl⟩
  rw [hds] at hd
  have hfirst : ((firstLine "bnbl" b.unk04).length : Nat) ≤
      ((firstLine "bnbl" b.unk04 :: enumerated (b.touchAreas.map strTouchArea)).map List.length).foldr max 0 :=
    max_ge _ _ (by simp)
  unfold readBNBL readText strBNBL
  dsimp only
  generalize hc : ((firstLine "bnbl" b.unk04 :: enumerated (b.touchAreas.map strTouchArea)).map List.length).foldr max 0 + 4 = col
  rw [hds, beside]
  have hnl : ∀ w ∈ (firstLine "bnbl" b.unk04 ++ List.replicate (col - (firstLine "bnbl" b.unk04).length) 32 ++ d) ::
      (beside col (enumerated (b.touchAreas.map strTouchArea)) ds ++ [lit ">"]), 10 ∉ w := by
    intro w hw
    rw [List.mem_cons, List.mem_append, List.mem_singleton] at hw
    rcases hw with rfl | hw | rfl
    · simp only [List.mem_append, not_or]
      exact ⟨⟨first_nl _ (by decide) _, by simp⟩, fun h => (hd d (by simp) 10 h).1 rfl⟩
    · exact beside_nl col _ _ (enumerated_nl area_reads _ _ _)
        (fun e he h => (hd e (by simp [he]) 10 h).1 rfl) w hw
    · decide
  rw [List.cons_append, split_join 10 _ (by simp) hnl]
  dsimp only
  rw [List.append_assoc, read_first "bnbl" "<bnbl" rfl (by decide) _ _ (Or.inr ?_), filter_gt]
  · unfold enumerated
    rw [read_beside area_reads _ col _ 0 ds (fun e he h => (hd e (by simp [he]) 60 h).2 rfl)]
    rfl
  · obtain ⟨k, hk⟩ : ∃ k, col - (firstLine "bnbl" b.unk04).length = k + 2 := ⟨col - (firstLine "bnbl" b.unk04).length - 2, by omega⟩
    rw [hk]
    exact ⟨List.replicate k 32 ++ d, by simp [List.replicate_succ]⟩

theorem read_bncl (b : BNCL) : readBNCL (strBNCL b) =
    some (b.unk04, numberedFrom 0 (b.imagePositions.map fun t => { t with alignment := likeAlignment t.alignment })) := by
  unfold readBNCL readText strBNCL
  have hnl : ∀ w ∈ firstLine "bncl" b.unk04 :: (enumerated (b.imagePositions.map strImagePosition) ++ [lit ">"]), 10 ∉ w := by
    intro w hw
    rw [List.mem_cons, List.mem_append, List.mem_singleton] at hw
    rcases hw with rfl | hw | rfl
    · exact first_nl _ (by decide) _
    · exact enumerated_nl position_reads _ _ _ w hw
    · decide
  rw [List.cons_append, split_join 10 _ (by simp) hnl]
  dsimp only
  have hf := read_first "bncl" "<bncl" rfl (by decide) b.unk04 [] (Or.inl rfl)
  have hb := read_beside position_reads (reprInt (((b.imagePositions.map strImagePosition).length : Int) - 1)).length 0
    b.imagePositions 0 [] (by simp)
  rw [List.append_nil] at hf
  rw [beside] at hb
  rw [hf, filter_gt]
  unfold enumerated
  rw [hb]
  rfl

/-! ## What the text says -/

theorem numbered_inj {α : Type} : ∀ (l m : List α) (i : Nat), numberedFrom i l = numberedFrom i m → l = m
  | [], [], _, _ => rfl
  | [], _ :: _, _, h => by simp [numberedFrom] at h
  | _ :: _, [], _, h => by simp [numberedFrom] at h
  | x :: l, y :: m, i, h => by
    simp only [numberedFrom, List.cons.injEq, Prod.mk.injEq, true_and] at h
    rw [h.1, numbered_inj l m _ h.2]

theorem mapE_map_like {α β : Type} {f : α → Py β} {g : α → α} (h : ∀ x, f x = f (g x)) : ∀ l : List α, mapE f l = mapE f (l.map g)
  | [] => rfl
  | x :: l => by simp only [List.map_cons, mapE, h x, mapE_map_like h l]

theorem mapE_of_map {α β : Type} {f : α → Py β} {g : α → α} (h : ∀ x, f x = f (g x)) {l m : List α} (e : l.map g = m.map g) :
    mapE f l = mapE f m := by rw [mapE_map_like h l, e, ← mapE_map_like h m]

/-- The bits that count are kept. -/
theorem like_bits (a : Nat) : ((likeAlignment a).testBit 2 = a.testBit 2 ∧ (likeAlignment a).testBit 6 = a.testBit 6) ∧
    (a.testBit 2 = false → (likeAlignment a).testBit 1 = a.testBit 1) ∧
    (a.testBit 6 = false → (likeAlignment a).testBit 5 = a.testBit 5) := by
  unfold likeAlignment
  cases a.testBit 2 <;> cases a.testBit 1 <;> cases a.testBit 6 <;> cases a.testBit 5 <;> decide

theorem pack_like (x y : Int) (a : Nat) : Model.Util.packAlignment x y (likeAlignment a) = Model.Util.packAlignment x y a := by
  have h1 : ∀ a, (a &&& Model.Util.H_CENTER ≠ 0) ↔ a.testBit 2 = true := fun a => align_bit a 2
  have h2 : ∀ a, (a &&& Model.Util.RIGHT ≠ 0) ↔ a.testBit 1 = true := fun a => align_bit a 1
  have h3 : ∀ a, (a &&& Model.Util.V_CENTER ≠ 0) ↔ a.testBit 6 = true := fun a => align_bit a 6
  have h4 : ∀ a, (a &&& Model.Util.BOTTOM ≠ 0) ↔ a.testBit 5 = true := fun a => align_bit a 5
  obtain ⟨⟨b1, b2⟩, b3, b4⟩ := like_bits a
  unfold Model.Util.packAlignment
  simp only [h1, h2, h3, h4, b1, b2]
  cases e1 : a.testBit 2 <;> cases e2 : a.testBit 6 <;> simp [e1, e2] at b3 b4 <;> simp [*]

theorem topLeft_like (x y w h : Int) (a : Nat) : Model.Util.topLeft x y w h (likeAlignment a) = Model.Util.topLeft x y w h a := by
  have h1 : ∀ a, (a &&& Model.Util.H_CENTER ≠ 0) ↔ a.testBit 2 = true := fun a => align_bit a 2
  have h2 : ∀ a, (a &&& Model.Util.RIGHT ≠ 0) ↔ a.testBit 1 = true := fun a => align_bit a 1
  have h3 : ∀ a, (a &&& Model.Util.V_CENTER ≠ 0) ↔ a.testBit 6 = true := fun a => align_bit a 6
  have h4 : ∀ a, (a &&& Model.Util.BOTTOM ≠ 0) ↔ a.testBit 5 = true := fun a => align_bit a 5
  obtain ⟨⟨b1, b2⟩, b3, b4⟩ := like_bits a
  unfold Model.Util.topLeft
  simp only [h1, h2, h3, h4, b1, b2]
  cases e1 : a.testBit 2 <;> cases e2 : a.testBit 6 <;> simp [e1, e2] at b3 b4 <;> simp [*]

theorem area_like (t : TouchArea) : TouchArea.save { t with alignment := likeAlignment t.alignment } = t.save ∧
    TouchArea.getTopLeft { t with alignment := likeAlignment t.alignment } = t.getTopLeft := by
  constructor
  · simp only [TouchArea.save, pack_like]
  · simp only [TouchArea.getTopLeft, topLeft_like]

theorem position_like (t : ImagePosition) : ImagePosition.save { t with alignment := likeAlignment t.alignment } = t.save := by
  simp only [ImagePosition.save, pack_like]

theorem unpack_like (x y : Nat) : likeAlignment (Model.Util.unpackAlignment x y).2.2 = (Model.Util.unpackAlignment x y).2.2 := by
  unfold Model.Util.unpackAlignment
  dsimp only
  split <;> split <;> decide

theorem mapE_all {α β : Type} {f : α → Py β} {P : β → Prop} (h : ∀ x y, f x = .ok y → P y) : ∀ (l : List α) (r : List β),
    mapE f l = .ok r → ∀ y ∈ r, P y
  | [], r, e, y, hy => by
    simp only [mapE, Except.ok.injEq] at e
    subst e
    simp at hy
  | x :: l, r, e, y, hy => by
    simp only [mapE, bind_eq_ok, pure_eq_ok] at e
    obtain ⟨z, hz, m, hm, rfl⟩ := e
    rcases List.mem_cons.1 hy with rfl | hy
    · exact h x _ hz
    · exact mapE_all h l m hm y hy

theorem loaded_areas {d : Bytes} {b : BNBL} (h : BNBL.load d = .ok b) :
    b.touchAreas.map (fun t => { t with alignment := likeAlignment t.alignment }) = b.touchAreas := by
  simp only [BNBL.load, bind_eq_ok, pure_eq_ok] at h
  obtain ⟨_, _, u, _, n, _, l, hl, rfl⟩ := h
  have := mapE_all (P := fun t : TouchArea => likeAlignment t.alignment = t.alignment) (fun i t ht => by
    simp only [TouchArea.fromData, bind_eq_ok, pure_eq_ok] at ht
    obtain ⟨x, _, y, _, w, _, h, _, rfl⟩ := ht
    exact unpack_like x y) _ _ hl
  dsimp only
  conv => rhs; rw [← List.map_id l]
  refine List.map_congr_left fun t ht => ?_
  rw [this t ht]
  rfl

theorem loaded_positions {d : Bytes} {b : BNCL} (h : BNCL.load d = .ok b) :
    b.imagePositions.map (fun t => { t with alignment := likeAlignment t.alignment }) = b.imagePositions := by
  simp only [BNCL.load, bind_eq_ok, pure_eq_ok] at h
  obtain ⟨_, _, u, _, n, _, l, hl, rfl⟩ := h
  have := mapE_all (P := fun t : ImagePosition => likeAlignment t.alignment = t.alignment) (fun i t ht => by
    simp only [ImagePosition.fromData, bind_eq_ok, pure_eq_ok] at ht
    obtain ⟨x, _, y, _, w, _, rfl⟩ := ht
    exact unpack_like x y) _ _ hl
  dsimp only
  conv => rhs; rw [← List.map_id l]
  refine List.map_congr_left fun t ht => ?_
  rw [this t ht]
  rfl

/-! ## The lines of the text -/

theorem enumerated_length (n : Nat) : ∀ (l : List Str) (i : Nat), (enumeratedFrom n 4 i l).length = l.length
  | [], _ => rfl
  | _ :: l, i => by rw [enumeratedFrom, List.length_cons, enumerated_length n l, List.length_cons]

theorem beside_length (col : Nat) : ∀ (ls ds : List Str), (beside col ls ds).length = max ls.length ds.length
  | ls, [] => by rw [beside]; simp
  | [], d :: ds => by
    have := beside_length col [] ds
    rw [beside, List.length_cons, this]; simp
  | l :: ls, d :: ds => by
    have := beside_length col ls ds
    rw [beside, List.length_cons, this]
    simp only [List.length_cons]
    omega

theorem beside_get (col : Nat) : ∀ (ls ds : List Str), (∀ l ∈ ls, l.length ≤ col) → ∀ (k : Nat) (d : Str), ds[k]? = some d →
    ∃ p, (beside col ls ds)[k]? = some (p ++ d) ∧ p.length = col
  | _, [], _, k, d, h => by simp at h
  | [], e :: ds, hl, 0, d, h => by
    simp only [List.getElem?_cons_zero, Option.some.injEq] at h
    subst h
    exact ⟨List.replicate col 32, by rw [beside, List.getElem?_cons_zero], by simp⟩
  | [], e :: ds, hl, k + 1, d, h => by
    rw [List.getElem?_cons_succ] at h
    rw [beside, List.getElem?_cons_succ]
    exact beside_get col [] ds hl k d h
  | l :: ls, e :: ds, hl, 0, d, h => by
    simp only [List.getElem?_cons_zero, Option.some.injEq] at h
    subst h
    have := hl l (by simp)
    exact ⟨l ++ List.replicate (col - l.length) 32, by rw [beside, List.getElem?_cons_zero], by simp; omega⟩
  | l :: ls, e :: ds, hl, k + 1, d, h => by
    rw [List.getElem?_cons_succ] at h
    rw [beside, List.getElem?_cons_succ]
    exact beside_get col ls ds (fun m hm => hl m (by simp [hm])) k d h

/-- The column of the drawing. -/
def column (b : BNBL) : Nat :=
  ((firstLine "bnbl" b.unk04 :: enumerated (b.touchAreas.map strTouchArea)).map List.length).foldr max 0 + 4

theorem bnbl_split (b : BNBL) : splitOn 10 (strBNBL b) =
    beside (column b) (firstLine "bnbl" b.unk04 :: enumerated (b.touchAreas.map strTouchArea)) (draw b.touchAreas) ++ [lit ">"] := by
  have hd := draw_chars b.touchAreas
  unfold strBNBL
  dsimp only
  rw [split_join 10]
  · rfl
  · simp
  · intro w hw
    rw [List.mem_append, List.mem_singleton] at hw
    rcases hw with hw | rfl
    · refine beside_nl _ _ _ ?_ (fun e he h => (hd e he 10 h).1 rfl) w hw
      simp only [List.forall_mem_cons]
      exact ⟨first_nl _ (by decide) _, enumerated_nl area_reads _ _ _⟩
    · decide

theorem draw_length (ts : List TouchArea) : (draw ts).length = 14 := by
  unfold draw
  simp

theorem bnbl_lines (a : BNBL) : (splitOn 10 (strBNBL a)).length = max (a.touchAreas.length + 1) 14 + 1 := by
  rw [bnbl_split, List.length_append, beside_length, draw_length, List.length_cons]
  unfold enumerated
  rw [enumerated_length]
  simp

theorem bncl_lines (b : BNCL) : (splitOn 10 (strBNCL b)).length = b.imagePositions.length + 2 := by
  unfold strBNCL
  rw [split_join 10]
  · unfold enumerated
    simp [enumerated_length]
  · simp
  · intro w hw
    rw [List.cons_append, List.mem_cons, List.mem_append, List.mem_singleton] at hw
    rcases hw with rfl | hw | rfl
    · exact first_nl _ (by decide) _
    · exact enumerated_nl position_reads _ _ _ w hw
    · decide

theorem mark_unique {i : Nat} {t : TouchArea} {cx cy : Int} {r s : Str} (h : Mark i t cx cy r) (h' : Mark i t cx cy s) : r = s := by
  cases h <;> cases h' <;> first | rfl | (exfalso; first | contradiction | omega)

theorem shows_unique {s : List Nat} {i : Nat} {ts : List TouchArea} {cx cy : Int} {r : List Nat} (h : Shows s i ts cx cy r) :
    ∀ {r'}, Shows s i ts cx cy r' → r' = r := by
  induction h with
  | none => intro r' h'; cases h'; rfl
  | over hb hm _ ih =>
    intro r' h'
    cases h' with
    | over hb' hm' h' =>
      rw [mark_unique hm' hm] at h'
      exact ih h'
    | past hb' _ => exact absurd hb hb'
  | past hb _ ih =>
    intro r' h'
    cases h' with
    | over hb' _ _ => exact absurd hb' hb
    | past _ h' => exact ih h'

theorem canvas_shows (ts : List TouchArea) (hs : ∀ t ∈ ts, 0 ≤ t.width ∧ 0 ≤ t.height) {cx cy : Int} (h : OnScreen cx cy) :
    ∃ s, cell (canvasOf ts) cx cy = some s ∧ Shows [32] 0 ts cx cy s := by
  refine shows_cell ts 0 _ List.length_replicate h hs (s := [32]) ?_
  obtain ⟨h1, h2, h3, h4⟩ := h
  unfold cell
  rw [List.getElem?_replicate, if_pos (by omega)]
  rfl

theorem bnbl_drawn (b : BNBL) (hn : b.touchAreas.length ≤ 10) (hs : ∀ t ∈ b.touchAreas, 0 ≤ t.width ∧ 0 ≤ t.height) :
    ∃ column, ∀ cx cy : Nat, cx < 32 → cy < 12 → ∃ line c, (splitOn 10 (strBNBL b))[cy + 1]? = some line ∧
      line[column + cx]? = some c ∧ ∀ r, Shows [32] 0 b.touchAreas cx cy r ↔ r = [c] := by
  refine ⟨column b + 2, fun cx cy hx hy => ?_⟩
  obtain ⟨l, hl, hlen, hcell⟩ := draw_row b.touchAreas hn hy
  obtain ⟨p, hp, hpl⟩ := beside_get (column b) (firstLine "bnbl" b.unk04 :: enumerated (b.touchAreas.map strTouchArea))
    (draw b.touchAreas) (fun l hl => by
      have := max_ge ((firstLine "bnbl" b.unk04 :: enumerated (b.touchAreas.map strTouchArea)).map List.length) l.length
        (List.mem_map_of_mem hl)
      unfold column
      omega) _ _ hl
  obtain ⟨s, hs1, hs2⟩ := canvas_shows b.touchAreas hs (cx := cx) (cy := cy) ⟨by omega, by omega, by omega, by omega⟩
  have hc := hcell cx hx
  rw [hs1] at hc
  obtain ⟨c, hc1, hc2⟩ := Option.map_eq_some_iff.1 hc.symm
  subst hc2
  refine ⟨p ++ l, c, ?_, ?_, fun r => ⟨fun h => shows_unique hs2 h, fun h => h ▸ hs2⟩⟩
  · rw [bnbl_split, List.getElem?_append_left, hp]
    rw [beside_length, draw_length]
    omega
  · rw [List.getElem?_append_right (by omega), show column b + 2 + cx - p.length = cx + 2 from by omega, hc1]

theorem mark_not_blank {i : Nat} {t : TouchArea} {cx cy : Int} : ¬ Mark i t cx cy [32] := by
  generalize hs : [32] = s
  intro h
  cases h <;> try (simp at hs)
  have := nat_chars i 32 (by rw [← hs]; simp)
  omega

theorem shows_blank_of {s : List Nat} {i : Nat} {ts : List TouchArea} {cx cy : Int} {r : List Nat} (h : Shows s i ts cx cy r) :
    r = [32] → s = [32] ∧ ∀ t ∈ ts, ¬ Border t cx cy ∧ ¬ Middle t cx cy := by
  induction h with
  | none => exact fun h => ⟨h, by simp⟩
  | over hb hm _ ih =>
    intro h
    obtain ⟨h1, _⟩ := ih h
    rw [h1] at hm
    exact absurd hm mark_not_blank
  | past hb _ ih =>
    intro h
    obtain ⟨h1, h2⟩ := ih h
    exact ⟨h1, by simp only [List.forall_mem_cons]; exact ⟨not_or.1 hb, h2⟩⟩

theorem shows_past {cx cy : Int} : ∀ (ts : List TouchArea) (i : Nat) (s : List Nat), (∀ t ∈ ts, ¬ Border t cx cy ∧ ¬ Middle t cx cy) →
    Shows s i ts cx cy s
  | [], _, _, _ => .none
  | t :: ts, i, s, h => .past (not_or.2 (h t (by simp))) (shows_past ts (i + 1) s (fun u hu => h u (by simp [hu])))

theorem shows_number {cx cy : Int} : ∀ (ts : List TouchArea), (∀ t ∈ ts, 0 ≤ t.width ∧ 0 ≤ t.height) → ∀ (i : Nat) (s : List Nat)
    (k : Nat) (t : TouchArea), ts[k]? = some t → Middle t cx cy →
    (∀ (j : Nat) (u : TouchArea), k < j → ts[j]? = some u → ¬ Border u cx cy ∧ ¬ Middle u cx cy) → Shows s i ts cx cy (reprNat (i + k))
  | [], _, _, _, _, _, h, _, _ => by simp at h
  | t :: ts, _, i, s, 0, u, h, hm, hl => by
    simp only [List.getElem?_cons_zero, Option.some.injEq] at h
    subst h
    refine .over (Or.inr hm) (.number hm) (shows_past ts _ _ fun u hu => ?_)
    obtain ⟨j, hj⟩ := List.getElem?_of_mem hu
    exact hl (j + 1) u (by omega) (by rw [List.getElem?_cons_succ]; exact hj)
  | t :: ts, hs, i, s, k + 1, u, h, hm, hl => by
    rw [List.getElem?_cons_succ] at h
    have ih : ∀ s, Shows s (i + 1) ts cx cy (reprNat (i + 1 + k)) := fun s =>
      shows_number ts (fun u hu => hs u (by simp [hu])) (i + 1) s k u h hm
        (fun j v hj hv => hl (j + 1) v (by omega) (by rw [List.getElem?_cons_succ]; exact hv))
    rw [show i + (k + 1) = i + 1 + k from by omega]
    obtain ⟨hw, hh⟩ := hs t (by simp)
    rcases mark_of hw hh i cx cy with ⟨m, _, h2, h3⟩ | ⟨_, h2⟩
    · exact .over h2 h3 (ih m)
    · exact .past h2 (ih s)

end Verif.Proofs.BnText
