import Verif.Proofs.BnText

/-!
# C132: printed touch areas and image positions
-/

namespace Verif.Props.BnText

open Verif Verif.Model.BnText Verif.Spec.BnText Verif.Spec.EventText
open Verif.Model.Bn (TouchArea ImagePosition BNBL BNCL)

/-- C132: what `print` shows of a BNBL can be read back: the unknown number, and the touch areas in order with their
numbers. -/
theorem bnbl_str (b : BNBL) : readBNBL (strBNBL b) =
    some (b.unk04, numberedFrom 0 (b.touchAreas.map fun t => { t with alignment := likeAlignment t.alignment })) :=
  Proofs.BnText.read_bnbl b

/-- C132: what `print` shows of a BNCL can be read back. -/
theorem bncl_str (b : BNCL) : readBNCL (strBNCL b) =
    some (b.unk04, numberedFrom 0 (b.imagePositions.map fun t => { t with alignment := likeAlignment t.alignment })) :=
  Proofs.BnText.read_bncl b

/-- C132: BNBLs that print alike save alike. -/
theorem bnbl_str_save (a b : BNBL) (h : strBNBL a = strBNBL b) : a.save = b.save := by
  have h1 := bnbl_str a
  rw [h, bnbl_str b] at h1
  simp only [Option.some.injEq, Prod.mk.injEq] at h1
  obtain ⟨hu, hl⟩ := h1
  have hl := Proofs.BnText.numbered_inj _ _ _ hl
  have hlen : a.touchAreas.length = b.touchAreas.length := by
    have := congrArg List.length hl
    simpa using this.symm
  have hm : mapE TouchArea.save a.touchAreas = mapE TouchArea.save b.touchAreas :=
    Proofs.BnText.mapE_of_map (fun t => (Proofs.BnText.area_like t).1.symm) hl.symm
  simp only [BNBL.save, hu, hlen, hm]

/-- C132: touch areas of BNBLs that print alike are in the same places. -/
theorem bnbl_str_topLeft (a b : BNBL) (h : strBNBL a = strBNBL b) :
    a.touchAreas.map TouchArea.getTopLeft = b.touchAreas.map TouchArea.getTopLeft := by
  have h1 := bnbl_str a
  rw [h, bnbl_str b] at h1
  simp only [Option.some.injEq, Prod.mk.injEq] at h1
  have hl := Proofs.BnText.numbered_inj _ _ _ h1.2
  have := congrArg (List.map TouchArea.getTopLeft) hl
  simp only [List.map_map] at this
  have e : (TouchArea.getTopLeft ∘ fun t => { t with alignment := likeAlignment t.alignment }) = TouchArea.getTopLeft :=
    funext fun t => (Proofs.BnText.area_like t).2
  rw [e] at this
  exact this.symm

/-- C132: BNCLs that print alike save alike. -/
theorem bncl_str_save (a b : BNCL) (h : strBNCL a = strBNCL b) : a.save = b.save := by
  have h1 := bncl_str a
  rw [h, bncl_str b] at h1
  simp only [Option.some.injEq, Prod.mk.injEq] at h1
  obtain ⟨hu, hl⟩ := h1
  have hl := Proofs.BnText.numbered_inj _ _ _ hl
  have hlen : a.imagePositions.length = b.imagePositions.length := by
    have := congrArg List.length hl
    simpa using this.symm
  have hm : mapE ImagePosition.save a.imagePositions = mapE ImagePosition.save b.imagePositions :=
    Proofs.BnText.mapE_of_map (fun t => (Proofs.BnText.position_like t).symm) hl.symm
  simp only [BNCL.save, hu, hlen, hm]

/-- C132: two loaded BNBLs that print alike are equal. -/
theorem bnbl_str_loaded (d e : Bytes) (a b : BNBL) (ha : BNBL.load d = .ok a) (hb : BNBL.load e = .ok b)
    (h : strBNBL a = strBNBL b) : a = b := by
  have h1 := bnbl_str a
  rw [h, bnbl_str b, Proofs.BnText.loaded_areas ha, Proofs.BnText.loaded_areas hb] at h1
  simp only [Option.some.injEq, Prod.mk.injEq] at h1
  have hl := Proofs.BnText.numbered_inj _ _ _ h1.2
  cases a; cases b
  simp only at h1 hl
  rw [h1.1, hl]

/-- C132: two loaded BNCLs that print alike are equal. -/
theorem bncl_str_loaded (d e : Bytes) (a b : BNCL) (ha : BNCL.load d = .ok a) (hb : BNCL.load e = .ok b)
    (h : strBNCL a = strBNCL b) : a = b := by
  have h1 := bncl_str a
  rw [h, bncl_str b, Proofs.BnText.loaded_positions ha, Proofs.BnText.loaded_positions hb] at h1
  simp only [Option.some.injEq, Prod.mk.injEq] at h1
  have hl := Proofs.BnText.numbered_inj _ _ _ h1.2
  cases a; cases b
  simp only at h1 hl
  rw [h1.1, hl]

/-- C132: how many lines are printed. -/
theorem str_lines (a : BNBL) (b : BNCL) :
    (splitOn 10 (strBNBL a)).length = max (a.touchAreas.length + 1) 14 + 1 ∧
    (splitOn 10 (strBNCL b)).length = b.imagePositions.length + 2 :=
  ⟨Proofs.BnText.bnbl_lines a, Proofs.BnText.bncl_lines b⟩

/-- The drawing is in the printed text, with the cell at the left of the first row in the column given. -/
def Drawn (b : BNBL) (column : Nat) : Prop :=
  ∀ cx cy : Nat, cx < 32 → cy < 12 → ∃ line c, (splitOn 10 (strBNBL b))[cy + 1]? = some line ∧ line[column + cx]? = some c ∧
    ∀ r, Shows [32] 0 b.touchAreas cx cy r ↔ r = [c]

/-- C132: beside the list is a drawing of the screen.  The cell for 8 by 16 pixels shows the number of an area at its
middle, a line where the border of an area is, and is blank otherwise; an area is drawn over the ones before it. -/
theorem bnbl_drawing (b : BNBL) (hn : b.touchAreas.length ≤ 10) (hs : ∀ t ∈ b.touchAreas, 0 ≤ t.width ∧ 0 ≤ t.height) :
    ∃ column, Drawn b column := Proofs.BnText.bnbl_drawn b hn hs

/-- C132: a cell is blank just if no area has its border or its middle there. -/
theorem bnbl_blank (b : BNBL) (cx cy : Int) :
    Shows [32] 0 b.touchAreas cx cy [32] ↔ ∀ t ∈ b.touchAreas, ¬ Border t cx cy ∧ ¬ Middle t cx cy :=
  ⟨fun h => (Proofs.BnText.shows_blank_of h rfl).2, fun h => Proofs.BnText.shows_past _ _ _ h⟩

/-- C132: the number of an area is shown at its middle, unless a later area is drawn over it. -/
theorem bnbl_number (b : BNBL) (hs : ∀ t ∈ b.touchAreas, 0 ≤ t.width ∧ 0 ≤ t.height) (i : Nat) (t : TouchArea)
    (hi : b.touchAreas[i]? = some t) (cx cy : Int) (hm : Middle t cx cy)
    (hl : ∀ (j : Nat) (u : TouchArea), i < j → b.touchAreas[j]? = some u → ¬ Border u cx cy ∧ ¬ Middle u cx cy) :
    Shows [32] 0 b.touchAreas cx cy (Model.Repr.reprNat i) := by
  have := Proofs.BnText.shows_number b.touchAreas hs 0 [32] i t hi hm hl
  rwa [Nat.zero_add] at this

/-- Ten areas beyond the right edge of the screen, and one on it. -/
def eleven : BNBL := ⟨0, List.replicate 10 ⟨300, 0, 8, 16, 0x11⟩ ++ [⟨96, 48, 48, 64, 0x11⟩]⟩

/-- C132 (where the code disagrees): with more than ten areas, a number of two digits moves what is to the right of it
out of its column. -/
theorem bnbl_drawing_eleven : eleven.touchAreas.length = 11 ∧ (∀ t ∈ eleven.touchAreas, 0 ≤ t.width ∧ 0 ≤ t.height) ∧
    ¬ ∃ column, Drawn eleven column := by
  refine ⟨rfl, by decide, ?_⟩
  rintro ⟨column, h⟩
  obtain ⟨l1, c1, hl1, hc1, h1⟩ := h 12 3 (by decide) (by decide)
  obtain ⟨l2, c2, hl2, hc2, h2⟩ := h 18 3 (by decide) (by decide)
  obtain ⟨l3, c3, hl3, hc3, h3⟩ := h 18 5 (by decide) (by decide)
  have s : ∀ cx cy : Nat, cx < 32 → cy < 12 → ∃ s, Proofs.BnText.cell (canvasOf eleven.touchAreas) cx cy = some s ∧
      Shows [32] 0 eleven.touchAreas cx cy s := by
    intro cx cy hx hy
    exact Proofs.BnText.canvas_shows _ (by decide) ⟨by omega, by omega, by omega, by omega⟩
  obtain ⟨s1, e1, w1⟩ := s 12 3 (by decide) (by decide)
  obtain ⟨s2, e2, w2⟩ := s 18 3 (by decide) (by decide)
  obtain ⟨s3, e3, w3⟩ := s 18 5 (by decide) (by decide)
  have k1 : Proofs.BnText.cell (canvasOf eleven.touchAreas) ((12 : Nat) : Int) ((3 : Nat) : Int) = some [46] := by decide +kernel
  have k2 : Proofs.BnText.cell (canvasOf eleven.touchAreas) ((18 : Nat) : Int) ((3 : Nat) : Int) = some [46] := by decide +kernel
  have k3 : Proofs.BnText.cell (canvasOf eleven.touchAreas) ((18 : Nat) : Int) ((5 : Nat) : Int) = some [124] := by decide +kernel
  rw [k1, Option.some.injEq] at e1
  rw [k2, Option.some.injEq] at e2
  rw [k3, Option.some.injEq] at e3
  subst e1; subst e2; subst e3
  have d1 := (h1 _).1 w1
  have d2 := (h2 _).1 w2
  have d3 := (h3 _).1 w3
  simp only [List.cons.injEq, and_true] at d1 d2 d3
  subst d1; subst d2; subst d3
  rw [hl1] at hl2
  obtain rfl := Option.some.inj hl2
  have q4 : (splitOn 10 (strBNBL eleven))[4]? = some (chars
      "    [ 3] <bnbl touch area: top-left at (300, 0), size 8x16>     |             .-----.              |") := by decide +kernel
  have q6 : (splitOn 10 (strBNBL eleven))[6]? = some (chars
      "    [ 5] <bnbl touch area: top-left at (300, 0), size 8x16>     |             |  10  |              |") := by decide +kernel
  rw [show 3 + 1 = 4 from rfl, q4, Option.some.injEq] at hl1
  rw [show 5 + 1 = 6 from rfl, q6, Option.some.injEq] at hl3
  subst hl1; subst hl3
  have all : ∀ k < 200, ¬ ((chars
      "    [ 3] <bnbl touch area: top-left at (300, 0), size 8x16>     |             .-----.              |")[k + 12]? = some 46 ∧ (chars
      "    [ 3] <bnbl touch area: top-left at (300, 0), size 8x16>     |             .-----.              |")[k + 18]? = some 46 ∧ (chars
      "    [ 5] <bnbl touch area: top-left at (300, 0), size 8x16>     |             |  10  |              |")[k + 18]? = some 124) := by decide +kernel
  have hk : column < 200 := by
    have h1 := (List.getElem?_eq_some_iff.1 hc1).1
    have h2 : (chars "    [ 3] <bnbl touch area: top-left at (300, 0), size 8x16>     |             .-----.              |").length < 200 := by decide +kernel
    omega
  exact all column hk ⟨hc1, hc2, hc3⟩

/-- The drawing of two areas. -/
example : draw [⟨8, 16, 60, 70, 0x11⟩, ⟨128, 96, 40, 40, 0x44⟩] = [
    chars ".==================================.",
    chars "|                                  |",
    chars "|  .------.                        |",
    chars "|  |      |                        |",
    chars "|  |  0   |                        |",
    chars "|  |      |    .----.              |",
    chars "|  '------'    | 1  |              |",
    chars "|              |    |              |",
    chars "|              '----'              |",
    chars "|                                  |",
    chars "|                                  |",
    chars "|                                  |",
    chars "|                                  |",
    chars "'=================================='"] := by decide +kernel

/-- The list beside it. -/
example : enumerated ([(⟨8, 16, 60, 70, 0x11⟩ : TouchArea), ⟨128, 96, 40, 40, 0x44⟩].map strTouchArea) = [
    chars "    [0] <bnbl touch area: top-left at (8, 16), size 60x70>",
    chars "    [1] <bnbl touch area: center at (128, 96), size 40x40>"] := by decide +kernel

/-- The areas meet the hypotheses of `bnbl_drawing` and `bnbl_number`, and the middle of the first one is where the 0 is. -/
example : (∀ t ∈ [(⟨8, 16, 60, 70, 0x11⟩ : TouchArea), ⟨128, 96, 40, 40, 0x44⟩], 0 ≤ t.width ∧ 0 ≤ t.height) ∧
    Middle ⟨8, 16, 60, 70, 0x11⟩ 4 3 ∧ ¬ Middle ⟨128, 96, 40, 40, 0x44⟩ 4 3 :=
  ⟨by decide, by unfold Middle; decide, by unfold Middle; decide⟩

/-- A printed BNCL. -/
example : strBNCL ⟨3, [⟨10, 20, 0x44, 5⟩, ⟨-1, 2, 0x21, 6⟩]⟩ = chars ("<bncl unk04=3\n" ++
    "    [0] <bncl image position: center of image 5 at (10, 20)>\n" ++
    "    [1] <bncl image position: bottom-left of image 6 at (-1, 2)>\n>") := by decide +kernel

/-- Two layouts that are not equal and print alike: an area with no alignment is taken for one with its corner there. -/
example : (⟨3, [⟨8, 16, 60, 70, 0⟩]⟩ : BNBL) ≠ ⟨3, [⟨8, 16, 60, 70, 0x11⟩]⟩ ∧
    strBNBL ⟨3, [⟨8, 16, 60, 70, 0⟩]⟩ = strBNBL ⟨3, [⟨8, 16, 60, 70, 0x11⟩]⟩ := by decide +kernel
example : (⟨3, [⟨8, 16, 0, 7⟩]⟩ : BNCL) ≠ ⟨3, [⟨8, 16, 0x11, 7⟩]⟩ ∧
    strBNCL ⟨3, [⟨8, 16, 0, 7⟩]⟩ = strBNCL ⟨3, [⟨8, 16, 0x11, 7⟩]⟩ := by decide +kernel
example : BNBL.load [74, 78, 66, 76, 5, 0, 1, 0, 100, 32, 255, 31, 7, 255] = .ok ⟨5, [⟨100, 4095, 7, 255, 0x42⟩]⟩ := by
  decide +kernel

end Verif.Props.BnText
