import Verif.Proofs.PyExpr
import Verif.Model.Constructors
import Verif.Spec.Repr

/-!
# Lemmas for `Props/Repr.lean`
-/

namespace Verif.Proofs.ReprClasses

open Verif Verif.Spec.PyExpr Verif.Spec.Repr Verif.Model.Util Verif.Model.Repr Verif.Model.ReprClasses Verif.Proofs.PyExpr

theorem lit_str (s : String) : lit s = str s := rfl

/-! ## Calls -/

def pos (ts : List (Str × Expr)) : List (Option Str × Expr) := ts.map fun x => (none, x.2)

theorem reads_call1 {name : String} (h : IsId (lit name)) (ts : List (Str × (Option Str × Expr)))
    (hts : ∀ x ∈ ts, ReadsItem x.1 x.2) : Reads (callText name (ts.map Prod.fst)) (.call [str name] (ts.map Prod.snd)) :=
  reads_call (.inl ⟨_, h, rfl, rfl⟩) ts hts

theorem reads_call2 {name a b : String} (ha : IsId (lit a)) (hb : IsId (lit b)) (hn : lit name = lit a ++ 46 :: lit b)
    (ts : List (Str × (Option Str × Expr))) (hts : ∀ x ∈ ts, ReadsItem x.1 x.2) :
    Reads (callText name (ts.map Prod.fst)) (.call [str a, str b] (ts.map Prod.snd)) :=
  reads_call (.inr ⟨_, _, ha, hb, rfl, hn⟩) ts hts

theorem readsItem_pos {t : Str} {e : Expr} (h : Reads t e) : ReadsItem t (none, e) := h

theorem readsItem_kw {k : String} {t : Str} {e : Expr} (hk : IsId (lit k)) (h : Reads t e) :
    ReadsItem (kw k t) (some (str k), e) := by
  refine ⟨t, ?_, hk, h⟩
  have : lit "=" = [61] := by decide
  unfold kw
  rw [this, List.append_assoc]
  rfl

theorem reads_list {α : Type} {f : α → Str} {g : α → Expr} (l : List α) (h : ∀ x ∈ l, Reads (f x) (g x)) :
    Reads (reprList f l) (.list (l.map g)) := by
  have := reads_items_list (sep := lit ", ") (.inr (by decide)) (l.map fun x => (f x, g x)) (by
    intro x hx
    obtain ⟨y, hy, rfl⟩ := List.mem_map.1 hx
    exact h y hy)
  rw [List.map_map, List.map_map] at this
  exact this

theorem reads_pair {a b : Str} {x y : Expr} (ha : Reads a x) (hb : Reads b y) : Reads (reprPair a b) (.tuple [x, y]) := by
  have := reads_items_tuple (sep := lit ", ") (.inr (by decide)) [(a, x), (b, y)] (by simp [ha, hb]) (by simp)
  simpa [join, reprPair] using this

theorem reads_set {α : Type} {f : α → Str} {g : α → Expr} (l : List α) (h : ∀ x ∈ l, Reads (f x) (g x)) :
    Reads (reprSet f l) (if l.isEmpty then .call [str "set"] [] else .set (l.map g)) := by
  unfold reprSet
  cases l with
  | nil => exact reads_call1 (name := "set") (by decide +kernel) [] (by simp)
  | cons a l =>
    have := reads_items_set (sep := lit ", ") (.inr (by decide)) ((a :: l).map fun x => (f x, g x)) (by
      intro x hx
      obtain ⟨y, hy, rfl⟩ := List.mem_map.1 hx
      exact h y hy) (by simp)
    rw [List.map_map, List.map_map] at this
    exact this

theorem reads_bool (b : Bool) : Reads (reprBool b) (.name [if b then str "True" else str "False"]) := by
  cases b
  · exact reads_name (by decide +kernel)
  · exact reads_name (by decide +kernel)

theorem reads_hexInt (n : Int) : Reads (reprHexInt n) (.int n) := by
  unfold reprHexInt
  split
  · refine ⟨1, fun m hm rest hr => ?_⟩
    cases m with
    | zero => omega
    | succ m =>
      rw [List.cons_append, expr, if_neg (by omega), if_neg (by omega), if_neg (by omega), if_neg (by omega),
        if_neg (by omega), if_pos rfl, number_hex _ hr]
      simp only [Option.map_some, Option.some.injEq, Prod.mk.injEq, and_true, Expr.int.injEq]
      omega
  · have := reads_hex n.natAbs
    rwa [show ((n.natAbs : Nat) : Int) = n by omega] at this

/-! ## Values -/

@[simp] theorem asInt_int (n : Int) : (Expr.int n).asInt = some n := rfl
@[simp] theorem asNat_int (n : Nat) : (Expr.int n).asNat = some n := by
  simp [Expr.asNat]
@[simp] theorem asText_text (s : Str) : (Expr.text s).asText = some s := rfl
@[simp] theorem asBytes_bytes (b : Bytes) : (Expr.bytes (b.map UInt8.toNat)).asBytes = some b := by
  simp [Expr.asBytes, List.map_map, Function.comp_def]

theorem allOf_map {α : Type} {f : Expr → Option α} {g : α → Expr} (l : List α) (h : ∀ x ∈ l, f (g x) = some x) :
    allOf f (l.map g) = some l := by
  induction l with
  | nil => rfl
  | cons a l ih =>
    rw [List.map_cons, allOf, h a (by simp), ih (fun x hx => h x (by simp [hx]))]
    rfl

theorem asList_map {α : Type} {f : Expr → Option α} {g : α → Expr} (l : List α) (h : ∀ x ∈ l, f (g x) = some x) :
    (Expr.list (l.map g)).asList f = some l := allOf_map l h

theorem asSet_map {α : Type} {f : Expr → Option α} {g : α → Expr} (l : List α) (h : ∀ x ∈ l, f (g x) = some x) :
    (if l.isEmpty then Expr.call [str "set"] [] else .set (l.map g)).asSet f = some l := by
  cases l with
  | nil => rfl
  | cons a l => exact allOf_map (a :: l) h

theorem evaluates_of {α : Type} {s : Str} {e : Expr} {f : Expr → Option α} {x : α} (h : Reads s e) (hf : f e = some x) :
    Evaluates s f x := ⟨e, h.parses, hf⟩

theorem evaluates_unique {α : Type} {s : Str} {f : Expr → Option α} {x y : α} (h : Evaluates s f x) (h' : Evaluates s f y) :
    x = y := by
  obtain ⟨e, h1, h2⟩ := h
  obtain ⟨e', h1', h2'⟩ := h'
  cases parses_unique h1 h1'
  rw [h2] at h2'
  cases h2'
  rfl

theorem not_evaluates {α : Type} {s : Str} {e : Expr} {f : Expr → Option α} (h : Reads s e) (hf : f e = none) (x : α) :
    ¬ Evaluates s f x := by
  rintro ⟨e', h1, h2⟩
  cases parses_unique h.parses h1
  rw [hf] at h2
  cases h2

/-! ## Buttons -/

def touchAreaE (t : Model.Bn.TouchArea) : Expr :=
  .call [str "BNBLTouchArea"] [(none, .int t.x), (none, .int t.y), (none, .int t.width), (none, .int t.height),
    (none, .int t.alignment)]

theorem reads_touchArea (t : Model.Bn.TouchArea) : Reads (reprTouchArea t) (touchAreaE t) :=
  reads_call1 (name := "BNBLTouchArea") (by decide +kernel) [(_, none, _), (_, none, _), (_, none, _), (_, none, _), (_, none, _)] (by
    simp only [List.mem_cons, List.not_mem_nil, or_false, forall_eq_or_imp, forall_eq]
    exact ⟨reads_int _, reads_int _, reads_int _, reads_int _, reads_nat _⟩)

theorem touchArea_eval (t : Model.Bn.TouchArea) : Model.Constructors.touchArea (touchAreaE t) = some t := by
  have : (touchAreaE t).asCall ["BNBLTouchArea"] [("x", some (.int 0)), ("y", some (.int 0)), ("width", some (.int 0)),
      ("height", some (.int 0)), ("alignment", some (.int 0x11))] =
      some [.int t.x, .int t.y, .int t.width, .int t.height, .int t.alignment] := rfl
  unfold Model.Constructors.touchArea
  rw [this]
  simp

def bnblE (b : Model.Bn.BNBL) : Expr :=
  .call [str "BNBL", str "fromTouchAreas"] ((none, .list (b.touchAreas.map touchAreaE)) ::
    if b.unk04 ≠ 0 then [(none, .int b.unk04)] else [])

theorem reads_bnbl (b : Model.Bn.BNBL) : Reads (reprBNBL b) (bnblE b) := by
  have hl := reads_list b.touchAreas (fun t _ => reads_touchArea t)
  unfold reprBNBL bnblE
  by_cases h : b.unk04 ≠ 0
  · rw [if_pos h, if_pos h]
    exact reads_call2 (a := "BNBL") (b := "fromTouchAreas") (by decide +kernel) (by decide +kernel) (by decide +kernel)
      [(_, none, _), (_, none, _)] (by
        simp only [List.mem_cons, List.not_mem_nil, or_false, forall_eq_or_imp, forall_eq]
        exact ⟨hl, reads_int _⟩)
  · rw [if_neg h, if_neg h]
    exact reads_call2 (a := "BNBL") (b := "fromTouchAreas") (by decide +kernel) (by decide +kernel) (by decide +kernel)
      [(_, none, _)] (by
        simp only [List.mem_cons, List.not_mem_nil, or_false, forall_eq]
        exact hl)

theorem bnbl_eval (b : Model.Bn.BNBL) : Model.Constructors.bnbl (bnblE b) = some b := by
  have hl := asList_map (f := Model.Constructors.touchArea) b.touchAreas (fun t _ => touchArea_eval t)
  have : (bnblE b).asCall ["BNBL", "fromTouchAreas"] [("touchAreas", none), ("unk04", some (.int 0))] =
      some [.list (b.touchAreas.map touchAreaE), .int b.unk04] := by
    unfold bnblE
    by_cases h : b.unk04 = 0
    · rw [if_neg (by simpa using h), h]
      rfl
    · rw [if_pos h]
      rfl
  unfold Model.Constructors.bnbl
  rw [this]
  simp only [hl]
  rfl

def imagePositionE (p : Model.Bn.ImagePosition) : Expr :=
  .call [str "BNCLImagePosition"] [(none, .int p.x), (none, .int p.y), (none, .int p.alignment), (none, .int p.imageID)]

theorem reads_imagePosition (p : Model.Bn.ImagePosition) : Reads (reprImagePosition p) (imagePositionE p) :=
  reads_call1 (name := "BNCLImagePosition") (by decide +kernel) [(_, none, _), (_, none, _), (_, none, _), (_, none, _)] (by
    simp only [List.mem_cons, List.not_mem_nil, or_false, forall_eq_or_imp, forall_eq]
    exact ⟨reads_int _, reads_int _, reads_nat _, reads_int _⟩)

theorem imagePosition_eval (p : Model.Bn.ImagePosition) :
    Model.Constructors.imagePosition (imagePositionE p) = some p := by
  have : (imagePositionE p).asCall ["BNCLImagePosition"] [("x", some (.int 0)), ("y", some (.int 0)),
      ("alignment", some (.int 0x11)), ("imageID", some (.int 0))] =
      some [.int p.x, .int p.y, .int p.alignment, .int p.imageID] := rfl
  unfold Model.Constructors.imagePosition
  rw [this]
  simp

def bnclE (b : Model.Bn.BNCL) : Expr :=
  .call [str "BNCL", str "fromImagePositions"] ((none, .list (b.imagePositions.map imagePositionE)) ::
    if b.unk04 ≠ 0 then [(none, .int b.unk04)] else [])

theorem reads_bncl (b : Model.Bn.BNCL) : Reads (reprBNCL b) (bnclE b) := by
  have hl := reads_list b.imagePositions (fun t _ => reads_imagePosition t)
  unfold reprBNCL bnclE
  by_cases h : b.unk04 ≠ 0
  · rw [if_pos h, if_pos h]
    exact reads_call2 (a := "BNCL") (b := "fromImagePositions") (by decide +kernel) (by decide +kernel) (by decide +kernel)
      [(_, none, _), (_, none, _)] (by
        simp only [List.mem_cons, List.not_mem_nil, or_false, forall_eq_or_imp, forall_eq]
        exact ⟨hl, reads_int _⟩)
  · rw [if_neg h, if_neg h]
    exact reads_call2 (a := "BNCL") (b := "fromImagePositions") (by decide +kernel) (by decide +kernel) (by decide +kernel)
      [(_, none, _)] (by
        simp only [List.mem_cons, List.not_mem_nil, or_false, forall_eq]
        exact hl)

theorem bncl_eval (b : Model.Bn.BNCL) : Model.Constructors.bncl (bnclE b) = some b := by
  have hl := asList_map (f := Model.Constructors.imagePosition) b.imagePositions (fun t _ => imagePosition_eval t)
  have : (bnclE b).asCall ["BNCL", "fromImagePositions"] [("imagePositions", none), ("unk04", some (.int 0))] =
      some [.list (b.imagePositions.map imagePositionE), .int b.unk04] := by
    unfold bnclE
    by_cases h : b.unk04 = 0
    · rw [if_neg (by simpa using h), h]
      rfl
    · rw [if_pos h]
      rfl
  unfold Model.Constructors.bncl
  rw [this]
  simp only [hl]
  rfl

/-! ## File names -/

open Verif.Model.Fnt (Folder Folders)

mutual

def folderE : Folder → Expr
  | .mk fs files i => .call [str "Folder"] [(none, .list (foldersE fs)), (none, .list (files.map .text)), (none, .int i)]

def foldersE : Folders → List Expr
  | .nil => []
  | .cons n f rest => .tuple [.text n, folderE f] :: foldersE rest

end

mutual

theorem reads_folder (printable : Nat → Bool) : ∀ f : Folder, folderOk f → Reads (reprFolder printable f) (folderE f)
  | .mk fs files i, h => by
    unfold folderOk at h
    obtain ⟨ts, e1, e2, hts⟩ := reads_folders printable fs h.1
    unfold reprFolder folderE
    rw [← e1, ← e2]
    exact reads_call1 (name := "Folder") (by decide +kernel) [(_, none, _), (_, none, _), (_, none, _)] (by
      simp only [List.mem_cons, List.not_mem_nil, or_false, forall_eq_or_imp, forall_eq]
      exact ⟨reads_items_list (sep := lit ", ") (.inr (by decide)) ts hts,
        reads_list files (fun n hn => reads_text printable n (h.2 n hn)), reads_int _⟩)

theorem reads_folders (printable : Nat → Bool) : ∀ fs : Folders, foldersOk fs →
    ∃ ts : List (Str × Expr), ts.map Prod.fst = reprFolders printable fs ∧ ts.map Prod.snd = foldersE fs ∧
      ∀ x ∈ ts, Reads x.1 x.2
  | .nil, _ => ⟨[], by unfold reprFolders; rfl, by unfold foldersE; rfl, by simp⟩
  | .cons n f rest, h => by
    unfold foldersOk at h
    obtain ⟨ts, e1, e2, hts⟩ := reads_folders printable rest h.2.2
    refine ⟨(reprPair (Model.Repr.reprStr printable n) (reprFolder printable f), .tuple [.text n, folderE f]) :: ts,
      ?_, ?_, ?_⟩
    rotate_left 2
    · intro x hx
      rcases List.mem_cons.1 hx with rfl | hx
      · exact reads_pair (reads_text printable n h.1) (reads_folder printable f h.2.1)
      · exact hts x hx
    · unfold reprFolders
      rw [← e1]
      rfl
    · unfold foldersE
      rw [← e2]
      rfl

end

theorem folder_call (a b c : Expr) : (Expr.call [str "Folder"] [(none, a), (none, b), (none, c)]).asCall ["Folder"]
    [("folders", some Model.Constructors.pyNone), ("files", some Model.Constructors.pyNone), ("firstID", some (.int 0))] =
      some [a, b, c] := rfl

theorem asOption_list {α : Type} (f : Expr → Option α) (l : List Expr) :
    (Expr.list l).asOption (Expr.asList f) = (allOf f l).map some := rfl

mutual

theorem folder_eval : ∀ f : Folder, ∃ n, ∀ m, n ≤ m → Model.Constructors.folder m (folderE f) = some f
  | .mk fs files i => by
    obtain ⟨n, hn⟩ := folders_eval fs
    refine ⟨n + 1, fun m hm => ?_⟩
    obtain ⟨m, rfl⟩ : ∃ k, m = k + 1 := ⟨m - 1, by omega⟩
    obtain ⟨l, e1, e2⟩ := hn m (by omega)
    unfold folderE Model.Constructors.folder
    rw [folder_call]
    simp only [asOption_list, e1, allOf_map (f := Expr.asText) files (fun x _ => asText_text x)]
    simp [e2]

theorem folders_eval : ∀ fs : Folders, ∃ n, ∀ m, n ≤ m → ∃ l,
    allOf (Expr.asPair Expr.asText (Model.Constructors.folder m)) (foldersE fs) = some l ∧ Model.Constructors.toFolders l = fs
  | .nil => ⟨0, fun m _ => ⟨[], by unfold foldersE; rfl, rfl⟩⟩
  | .cons name f rest => by
    obtain ⟨n, hn⟩ := folder_eval f
    obtain ⟨n', hn'⟩ := folders_eval rest
    refine ⟨n + n', fun m hm => ?_⟩
    obtain ⟨l, e1, e2⟩ := hn' m (by omega)
    refine ⟨(name, f) :: l, ?_, ?_⟩
    · unfold foldersE
      rw [allOf, e1]
      simp [Expr.asPair, hn m (by omega)]
    · unfold Model.Constructors.toFolders
      rw [e2]

end

/-- More fuel changes nothing. -/
theorem allOf_mono {α : Type} {f g : Expr → Option α} (h : ∀ e, Le (f e) (g e)) : ∀ l, Le (allOf f l) (allOf g l)
  | [] => .refl _
  | e :: l => .bind (h e) fun _ => .map _ (allOf_mono h l)

theorem folder_mono : ∀ n e, Le (Model.Constructors.folder n e) (Model.Constructors.folder (n + 1) e)
  | 0, _ => .bot _
  | n + 1, e => by
    rw [Model.Constructors.folder, Model.Constructors.folder]
    split
    · rename_i a b c _
      refine .bind ?_ fun _ => .refl _
      unfold Expr.asOption
      refine .ite (.refl _) (.map _ ?_)
      unfold Expr.asList
      split
      · refine allOf_mono (fun e => ?_) _
        unfold Expr.asPair
        split
        · exact .bind (.refl _) fun _ => .map _ (folder_mono n _)
        · exact .refl _
      · exact .refl _
    · exact .refl _

theorem folder_mono_le {m m' : Nat} (h : m ≤ m') (e : Expr) : Le (Model.Constructors.folder m e) (Model.Constructors.folder m' e) := by
  induction h with
  | refl => exact .refl _
  | step _ ih => exact fun r hr => folder_mono _ e r (ih r hr)

theorem narc_call (a b : Expr) : (Expr.call [str "NARC", str "fromFilesAndNames"] [(none, a), (none, b)]).asCall
    ["NARC", "fromFilesAndNames"] [("files", none), ("filenames", some Model.Constructors.pyNone)] = some [a, b] := rfl

theorem reads_narc (printable : Nat → Bool) (n : Model.Narc.NARC) (hl : n.files.length ≤ 1)
    (hf : ∀ f ∈ n.files, f.length ≤ 32 ∧ 0x27 ∉ f) (ho : folderOk n.filenames) :
    Reads (reprNARC printable n) (.call [str "NARC", str "fromFilesAndNames"]
      [(none, .list (n.files.map fun f => .bytes (f.map UInt8.toNat))), (none, folderE n.filenames)]) := by
  have h : Reads (match n.files with
      | [] => lit "[]"
      | f :: rest => lit "[" ++ shortBytesRepr f ++ (if rest.isEmpty then [] else lit ", ...") ++ lit "]")
      (.list (n.files.map fun f => .bytes (f.map UInt8.toNat))) := by
    match hm : n.files, hl with
    | [], _ => exact reads_items_list (sep := lit ", ") (.inr (by decide)) [] (by simp)
    | [f], _ =>
      have hf := hf f (by simp [hm])
      have := reads_items_list (sep := lit ", ") (.inr (by decide)) [(_, _)] (by simpa using reads_short f 32 hf.1 hf.2)
      simpa [join] using this
  exact reads_call2 (a := "NARC") (b := "fromFilesAndNames") (by decide +kernel) (by decide +kernel) (by decide +kernel)
    [(_, none, _), (_, none, _)] (by
      simp only [List.mem_cons, List.not_mem_nil, or_false, forall_eq_or_imp, forall_eq]
      exact ⟨h, reads_folder printable _ ho⟩)

theorem narc_eval (n : Model.Narc.NARC) (he : n.beginning = .little) : ∃ k, ∀ m, k ≤ m →
    Model.Constructors.narc m (.call [str "NARC", str "fromFilesAndNames"]
      [(none, .list (n.files.map fun f => .bytes (f.map UInt8.toNat))), (none, folderE n.filenames)]) = some n := by
  obtain ⟨k, hk⟩ := folder_eval n.filenames
  refine ⟨k, fun m hm => ?_⟩
  have hl := asList_map (f := Expr.asBytes) n.files (fun f _ => asBytes_bytes f)
  have hn : (folderE n.filenames).isName "None" = false := by
    cases hf : n.filenames
    unfold folderE
    rfl
  unfold Model.Constructors.narc
  rw [narc_call]
  simp only [hl]
  simp only [Expr.asOption, hn, hk m hm, Option.bind_some]
  obtain ⟨a, b, c⟩ := n
  cases he
  rfl

/-! ## Code -/

def overlayE (o : Model.Code.Overlay) : Expr :=
  .call [str "Overlay"] [(none, .bytes (o.data.map UInt8.toNat)), (none, .int o.ramAddress), (none, .int o.ramSize),
    (none, .int o.bssSize), (none, .int o.staticInitStart), (none, .int o.staticInitEnd), (none, .int o.fileID),
    (none, .int o.compressedSize), (none, .int o.flags)]

theorem reads_overlay (o : Model.Code.Overlay) (hl : o.data.length ≤ 32) (hq : 0x27 ∉ o.data) :
    Reads (reprOverlay o) (overlayE o) :=
  reads_call1 (name := "Overlay") (by decide +kernel) [(_, none, _), (_, none, _), (_, none, _), (_, none, _),
    (_, none, _), (_, none, _), (_, none, _), (_, none, _), (_, none, _)] (by
    simp only [List.mem_cons, List.not_mem_nil, or_false, forall_eq_or_imp, forall_eq]
    exact ⟨reads_short _ _ hl hq, reads_hex8 _, reads_hex_upper _, reads_hex_upper _, reads_hex8 _, reads_hex8 _, reads_nat _,
      reads_hex_upper _, reads_hex_upper _⟩)

theorem overlay_eval (o : Model.Code.Overlay) : Model.Constructors.overlay (overlayE o) =
    (Model.Code.Overlay.init o.data o.ramAddress o.ramSize o.bssSize o.staticInitStart o.staticInitEnd o.fileID
      o.compressedSize o.flags).toOption := by
  have : (overlayE o).asCall ["Overlay"] [("data", none), ("ramAddress", none), ("ramSize", none), ("bssSize", none),
      ("staticInitStart", none), ("staticInitEnd", none), ("fileID", none), ("compressedSize", none), ("flags", none)] =
      some [.bytes (o.data.map UInt8.toNat), .int o.ramAddress, .int o.ramSize, .int o.bssSize, .int o.staticInitStart,
        .int o.staticInitEnd, .int o.fileID, .int o.compressedSize, .int o.flags] := rfl
  unfold Model.Constructors.overlay
  rw [this]
  simp

def sectionE (s : Model.Code.Section) : Expr :=
  .call [str "Section"] ([(none, .bytes (s.data.map UInt8.toNat)), (none, .int s.ramAddress), (none, .int s.bssSize)] ++
    (if s.implicit then [(some (str "implicit"), .name [str "True"])] else []))

theorem reads_section (s : Model.Code.Section) (hl : s.data.length ≤ 32) (hq : 0x27 ∉ s.data) :
    Reads (reprSection s) (sectionE s) := by
  unfold reprSection sectionE
  cases s.implicit
  · exact reads_call1 (name := "Section") (by decide +kernel) [(_, none, _), (_, none, _), (_, none, _)] (by
      simp only [List.mem_cons, List.not_mem_nil, or_false, forall_eq_or_imp, forall_eq]
      exact ⟨reads_short _ _ hl hq, reads_hex8 _, reads_hex_upper _⟩)
  · exact reads_call1 (name := "Section") (by decide +kernel) [(_, none, _), (_, none, _), (_, none, _),
      (_, some (str "implicit"), _)] (by
      simp only [List.mem_cons, List.not_mem_nil, or_false, forall_eq_or_imp, forall_eq]
      exact ⟨reads_short _ _ hl hq, reads_hex8 _, reads_hex_upper _, readsItem_kw (by decide +kernel) (reads_name (by decide +kernel))⟩)

theorem section_eval (s : Model.Code.Section) : Model.Constructors.codeSection (sectionE s) = none := by
  unfold Model.Constructors.codeSection sectionE Expr.asCall
  dsimp only
  rw [if_neg (by simp)]

def mainCodeE (m : Model.Code.MainCodeFile) : Expr :=
  .call [str "MainCodeFile", str "fromSections"] [(none, .list (m.sections.map sectionE)), (none, .int m.ramAddress)]

theorem reads_mainCode (m : Model.Code.MainCodeFile) (h : ∀ s ∈ m.sections, s.data.length ≤ 32 ∧ 0x27 ∉ s.data) :
    Reads (reprMainCode m) (mainCodeE m) :=
  reads_call2 (a := "MainCodeFile") (b := "fromSections") (by decide +kernel) (by decide +kernel) (by decide +kernel)
    [(_, none, _), (_, none, _)] (by
      simp only [List.mem_cons, List.not_mem_nil, or_false, forall_eq_or_imp, forall_eq]
      exact ⟨reads_list m.sections (fun s hs => reads_section s (h s hs).1 (h s hs).2), reads_hex8 _⟩)

theorem mainCode_eval (m : Model.Code.MainCodeFile) : Model.Constructors.mainCode (mainCodeE m) =
    if m.sections.isEmpty then some ⟨[], m.ramAddress, none⟩ else none := by
  have : (mainCodeE m).asCall ["MainCodeFile", "fromSections"] [("sections", none), ("ramAddress", none)] =
      some [.list (m.sections.map sectionE), .int m.ramAddress] := rfl
  unfold Model.Constructors.mainCode
  rw [this]
  cases h : m.sections with
  | nil => simp [Expr.asList, allOf]
  | cons s l => simp [Expr.asList, allOf, section_eval]

/-! ## Colours -/

def colorE (c : Model.Color.Color) : Expr := .tuple [.int c.r, .int c.g, .int c.b, .int c.a]

theorem reads_color (c : Model.Color.Color) : Reads (reprColor c) (colorE c) :=
  reads_items_tuple (sep := lit ",") (.inl (by decide)) [(_, _), (_, _), (_, _), (_, _)] (by
    simp only [List.mem_cons, List.not_mem_nil, or_false, forall_eq_or_imp, forall_eq]
    exact ⟨reads_nat _, reads_nat _, reads_nat _, reads_nat _⟩) (by simp)

theorem color_eval (c : Model.Color.Color) : Model.Constructors.color (colorE c) = some c := by
  unfold colorE Model.Constructors.color
  simp

theorem reads_ellipsis : Reads (lit "...") .ellipsis := by
  refine ⟨1, fun m hm rest _ => ?_⟩
  obtain ⟨m, rfl⟩ : ∃ k, m = k + 1 := ⟨m - 1, by omega⟩
  have : lit "..." = [46, 46, 46] := by decide
  rw [this, List.cons_append, expr, if_neg (by omega), if_neg (by omega), if_neg (by omega), if_neg (by omega), if_pos rfl]
  simp

theorem join_append (sep : Str) : ∀ (l : List Str) (x : Str), l ≠ [] → join sep (l ++ [x]) = join sep l ++ sep ++ x
  | [a], x, _ => by simp [join]
  | a :: b :: l, x, _ => by
    have := join_append sep (b :: l) x (by simp)
    rw [List.cons_append, List.cons_append, join, join, ← List.cons_append, this]
    simp

theorem reads_colors (l : List Model.Color.Color) : Reads (shortColorsListRepr l)
    (.list ((l.take 20).map colorE ++ if 20 < l.length then [.ellipsis] else [])) := by
  unfold shortColorsListRepr
  by_cases h : 20 < l.length
  · rw [if_pos h, if_pos h]
    have := reads_items_list (sep := lit ", ") (.inr (by decide))
      ((l.take 20).map (fun c => (reprColor c, colorE c)) ++ [(lit "...", .ellipsis)]) (by
        intro x hx
        rcases List.mem_append.1 hx with hx | hx
        · obtain ⟨c, _, rfl⟩ := List.mem_map.1 hx
          exact reads_color c
        · cases List.mem_singleton.1 hx
          exact reads_ellipsis)
    rw [List.map_append, List.map_append, List.map_map, List.map_map] at this
    have e := join_append (lit ", ") ((l.take 20).map reprColor) (lit "...") (by
      intro e
      rw [List.map_eq_nil_iff, List.take_eq_nil_iff] at e
      rcases e with e | e
      · cases e
      · rw [e] at h
        exact absurd h (by simp))
    have e2 : lit ", ..." = lit ", " ++ lit "..." := by decide +kernel
    have e3 : lit "[" ++ join (lit ", ") ((l.take 20).map reprColor) ++ lit ", ..." ++ lit "]" =
        lit "[" ++ join (lit ", ") ((l.take 20).map reprColor ++ [lit "..."]) ++ lit "]" := by
      rw [e, e2]
      simp only [List.append_assoc]
    rw [e3]
    exact this
  · rw [if_neg h, if_neg h, List.append_nil, List.append_nil]
    exact reads_list (l.take 20) (fun c _ => reads_color c)

def paletteE (p : Model.Texture.Palette) : Expr :=
  .call [str "Palette", str "fromColors"] [(none, .int p.unk00), (none, .int p.unk02), (none, .int p.unkHeader02),
    (none, .list ((p.colors.take 20).map colorE ++ if 20 < p.colors.length then [.ellipsis] else []))]

theorem reads_palette (p : Model.Texture.Palette) : Reads (reprPalette p) (paletteE p) :=
  reads_call2 (a := "Palette") (b := "fromColors") (by decide +kernel) (by decide +kernel) (by decide +kernel)
    [(_, none, _), (_, none, _), (_, none, _), (_, none, _)] (by
      simp only [List.mem_cons, List.not_mem_nil, or_false, forall_eq_or_imp, forall_eq]
      exact ⟨reads_nat _, reads_nat _, reads_nat _, reads_colors _⟩)

theorem allOf_append_none {α : Type} {f : Expr → Option α} {e : Expr} (h : f e = none) : ∀ l, allOf f (l ++ [e]) = none
  | [] => by rw [List.nil_append, allOf, h]; rfl
  | x :: l => by
    rw [List.cons_append, allOf, allOf_append_none h l]
    cases f x <;> rfl

theorem palette_eval (p : Model.Texture.Palette) : Model.Constructors.palette (paletteE p) =
    if 20 < p.colors.length then none else some p := by
  have : (paletteE p).asCall ["Palette", "fromColors"] [("unk00", none), ("unk02", none), ("unkHeader02", none),
      ("colors", none)] = some [.int p.unk00, .int p.unk02, .int p.unkHeader02,
      .list ((p.colors.take 20).map colorE ++ if 20 < p.colors.length then [.ellipsis] else [])] := rfl
  unfold Model.Constructors.palette
  rw [this]
  by_cases h : 20 < p.colors.length
  · rw [if_pos h, if_pos h]
    simp only [Expr.asList, allOf_append_none (f := Model.Constructors.color) (e := .ellipsis) rfl]
    simp
  · rw [if_neg h, if_neg h, List.append_nil]
    have hl := asList_map (f := Model.Constructors.color) p.colors (fun c _ => color_eval c)
    simp only [List.take_of_length_le (Nat.le_of_not_lt h), hl]
    simp

/-! ## Messages -/

def partE : Model.Bmg.Part → Expr
  | .text s => .text s
  | .escape t d => .call [str "Escape"] [(none, .int t), (none, .bytes (d.map UInt8.toNat))]

theorem reads_part (printable : Nat → Bool) (p : Model.Bmg.Part) (h : partOk p) : Reads (reprPart printable p) (partE p) := by
  cases p with
  | text s => exact reads_text printable s h
  | escape t d =>
    exact reads_call1 (name := "Escape") (by decide +kernel) [(_, none, _), (_, none, _)] (by
      simp only [List.mem_cons, List.not_mem_nil, or_false, forall_eq_or_imp, forall_eq]
      exact ⟨reads_nat _, reads_bytes _⟩)

theorem part_eval_text (s : Str) : Model.Constructors.part (partE (.text s)) = some (.text s) := rfl

theorem part_eval_escape (t : Nat) (d : Bytes) : Model.Constructors.part (partE (.escape t d)) = none := by
  unfold Model.Constructors.part partE Expr.asCall
  dsimp only
  rw [if_neg (by simp)]

def messageE (m : Model.Bmg.Message) : Expr :=
  .call [str "Message"] [(none, .bytes (m.info.map UInt8.toNat)), (none, .list (m.parts.map partE))]

theorem reads_message (printable : Nat → Bool) (m : Model.Bmg.Message) (h : ∀ p ∈ m.parts, partOk p) :
    Reads (reprMessage printable m) (messageE m) :=
  reads_call1 (name := "Message") (by decide +kernel) [(_, none, _), (_, none, _)] (by
    simp only [List.mem_cons, List.not_mem_nil, or_false, forall_eq_or_imp, forall_eq]
    exact ⟨reads_bytes _, reads_list m.parts (fun p hp => reads_part printable p (h p hp))⟩)

theorem message_call (m : Model.Bmg.Message) : (messageE m).asCall ["Message"] [("info", some (.bytes [])),
    ("stringParts", some Model.Constructors.pyNone), ("isNull", some (.name [str "False"]))] =
      some [.bytes (m.info.map UInt8.toNat), .list (m.parts.map partE), .name [str "False"]] := rfl

theorem asBool_false : (Expr.name [str "False"]).asBool = some false := by decide +kernel

theorem stringParts_list (l : List Expr) : Model.Constructors.stringParts (.list l) = allOf Model.Constructors.part l := by
  show ((Expr.list l).asOption (Expr.asList Model.Constructors.part)).map (fun l => l.getD []) = _
  rw [asOption_list]
  cases allOf Model.Constructors.part l <;> rfl

theorem message_eval (m : Model.Bmg.Message) (h : allTexts m) :
    Model.Constructors.message (messageE m) = some { m with isNull := false } := by
  unfold Model.Constructors.message
  rw [message_call]
  have hl := allOf_map (f := Model.Constructors.part) (g := partE) m.parts (by
    intro p hp
    obtain ⟨s, rfl⟩ := h p hp
    rfl)
  simp only [stringParts_list, hl, asBool_false]
  simp

theorem allOf_none {α : Type} {f : Expr → Option α} {e : Expr} (h : f e = none) : ∀ l, e ∈ l → allOf f l = none
  | x :: l, hm => by
    rcases List.mem_cons.1 hm with rfl | hm
    · rw [allOf, h]; rfl
    · rw [allOf, allOf_none h l hm]
      cases f x <;> rfl

theorem message_eval_escape (m : Model.Bmg.Message) (t : Nat) (d : Bytes) (h : .escape t d ∈ m.parts) :
    Model.Constructors.message (messageE m) = none := by
  unfold Model.Constructors.message
  rw [message_call]
  have hl : allOf Model.Constructors.part (m.parts.map partE) = none :=
    allOf_none (part_eval_escape t d) _ (List.mem_map.2 ⟨_, h, rfl⟩)
  simp only [stringParts_list, hl]
  simp

def pairE (p : Int × Int) : Expr := .tuple [.int p.1, .int p.2]
def pairNE (p : Nat × Nat) : Expr := .tuple [.int p.1, .int p.2]

theorem pair_eval (p : Int × Int) : (pairE p).asPair Expr.asInt Expr.asInt = some p := rfl
theorem pairN_eval (p : Nat × Nat) : (pairNE p).asPair Expr.asNat Expr.asNat = some p := by
  simp [pairNE, Expr.asPair]

def bmgE (b : Model.Bmg.BMG) : Expr :=
  .call [str "BMG", str "fromMessages"] (
    (none, .list (b.messages.map messageE)) ::
    (if b.instructions.isEmpty then [] else [(none, .list (b.instructions.map fun i => .bytes (i.map UInt8.toNat)))]) ++
    (if b.labels.isEmpty then [] else [(if b.instructions.isEmpty then some (str "labels") else none, .list (b.labels.map pairE))]) ++
    (if b.scripts.isEmpty then [] else
      [(if b.instructions.isEmpty ∨ b.labels.isEmpty then some (str "scripts") else none, .list (b.scripts.map pairNE))]) ++
    [(some (str "id"), .int b.id)])

theorem reads_bmg (printable : Nat → Bool) (b : Model.Bmg.BMG) (h : ∀ m ∈ b.messages, ∀ p ∈ m.parts, partOk p) :
    Reads (reprBMG printable b) (bmgE b) := by
  have r1 := reads_list b.messages (fun m hm => reads_message printable m (h m hm))
  have r2 := reads_list b.instructions (fun i _ => reads_bytes i)
  have r3 := reads_list (f := fun l : Int × Int => reprPair (reprInt l.1) (reprInt l.2)) (g := pairE) b.labels
    (fun l _ => reads_pair (reads_int _) (reads_int _))
  have r4 := reads_list (f := fun l : Nat × Nat => reprPair (reprNat l.1) (reprNat l.2)) (g := pairNE) b.scripts
    (fun l _ => reads_pair (reads_nat _) (reads_nat _))
  have r5 := readsItem_kw (k := "id") (by decide +kernel) (reads_hex b.id)
  have r3k := readsItem_kw (k := "labels") (by decide +kernel) r3
  have r4k := readsItem_kw (k := "scripts") (by decide +kernel) r4
  have go : ∀ ts : List (Str × (Option Str × Expr)), (∀ x ∈ ts, ReadsItem x.1 x.2) →
      Reads (callText "BMG.fromMessages" (ts.map Prod.fst)) (.call [str "BMG", str "fromMessages"] (ts.map Prod.snd)) :=
    fun ts hts => reads_call2 (a := "BMG") (b := "fromMessages") (by decide +kernel) (by decide +kernel) (by decide +kernel)
      ts hts
  unfold reprBMG bmgE
  cases hi : b.instructions.isEmpty <;> cases hl : b.labels.isEmpty <;> cases hs : b.scripts.isEmpty
  · exact go [(_, none, _), (_, none, _), (_, none, _), (_, none, _), (_, some _, _)] (by
      simp only [List.mem_cons, List.not_mem_nil, or_false, forall_eq_or_imp, forall_eq]
      exact ⟨r1, r2, r3, r4, r5⟩)
  · exact go [(_, none, _), (_, none, _), (_, none, _), (_, some _, _)] (by
      simp only [List.mem_cons, List.not_mem_nil, or_false, forall_eq_or_imp, forall_eq]
      exact ⟨r1, r2, r3, r5⟩)
  · exact go [(_, none, _), (_, none, _), (_, some _, _), (_, some _, _)] (by
      simp only [List.mem_cons, List.not_mem_nil, or_false, forall_eq_or_imp, forall_eq]
      exact ⟨r1, r2, r4k, r5⟩)
  · exact go [(_, none, _), (_, none, _), (_, some _, _)] (by
      simp only [List.mem_cons, List.not_mem_nil, or_false, forall_eq_or_imp, forall_eq]
      exact ⟨r1, r2, r5⟩)
  · exact go [(_, none, _), (_, some _, _), (_, some _, _), (_, some _, _)] (by
      simp only [List.mem_cons, List.not_mem_nil, or_false, forall_eq_or_imp, forall_eq]
      exact ⟨r1, r3k, r4k, r5⟩)
  · exact go [(_, none, _), (_, some _, _), (_, some _, _)] (by
      simp only [List.mem_cons, List.not_mem_nil, or_false, forall_eq_or_imp, forall_eq]
      exact ⟨r1, r3k, r5⟩)
  · exact go [(_, none, _), (_, some _, _), (_, some _, _)] (by
      simp only [List.mem_cons, List.not_mem_nil, or_false, forall_eq_or_imp, forall_eq]
      exact ⟨r1, r4k, r5⟩)
  · exact go [(_, none, _), (_, some _, _)] (by
      simp only [List.mem_cons, List.not_mem_nil, or_false, forall_eq_or_imp, forall_eq]
      exact ⟨r1, r5⟩)

theorem optList {α : Type} {f : Expr → Option α} {g : α → Expr} (l : List α) (h : ∀ x ∈ l, f (g x) = some x) :
    ∃ o, (if l.isEmpty then Model.Constructors.pyNone else .list (l.map g)).asOption (Expr.asList f) = some o ∧ o.getD [] = l := by
  cases l with
  | nil => exact ⟨none, rfl, rfl⟩
  | cons a l => exact ⟨some (a :: l), by
      show (Expr.list ((a :: l).map g)).asOption (Expr.asList f) = _
      rw [asOption_list, allOf_map _ h]
      rfl, rfl⟩

theorem bmg_eval (b : Model.Bmg.BMG) (h : ∀ m ∈ b.messages, allTexts m) : Model.Constructors.bmg (bmgE b) =
    some ⟨b.messages.map fun m => { m with isNull := false }, b.instructions, b.labels, b.scripts, b.id, .utf16, .little,
      0, 0, 0⟩ := by
  have c : (bmgE b).asCall ["BMG", "fromMessages"] [("messages", none), ("instructions", some Model.Constructors.pyNone),
      ("labels", some Model.Constructors.pyNone), ("scripts", some Model.Constructors.pyNone)] [("id", some (.int 0))] =
      some [.list (b.messages.map messageE),
        if b.instructions.isEmpty then Model.Constructors.pyNone else .list (b.instructions.map fun i => .bytes (i.map UInt8.toNat)),
        if b.labels.isEmpty then Model.Constructors.pyNone else .list (b.labels.map pairE),
        if b.scripts.isEmpty then Model.Constructors.pyNone else .list (b.scripts.map pairNE), .int b.id] := by
    unfold bmgE
    cases hi : b.instructions.isEmpty <;> cases hl : b.labels.isEmpty <;> cases hs : b.scripts.isEmpty <;> rfl
  obtain ⟨o2, h2, e2⟩ := optList (f := Expr.asBytes) (g := fun i => .bytes (i.map UInt8.toNat)) b.instructions
    (fun i _ => asBytes_bytes i)
  obtain ⟨o3, h3, e3⟩ := optList (f := Expr.asPair Expr.asInt Expr.asInt) (g := pairE) b.labels (fun i _ => pair_eval i)
  obtain ⟨o4, h4, e4⟩ := optList (f := Expr.asPair Expr.asNat Expr.asNat) (g := pairNE) b.scripts (fun i _ => pairN_eval i)
  have h1 : (Expr.list (b.messages.map messageE)).asList Model.Constructors.message =
      some (b.messages.map fun m => { m with isNull := false }) := by
    show allOf _ _ = _
    generalize b.messages = l at h
    induction l with
    | nil => rfl
    | cons a l ih =>
      rw [List.map_cons, allOf, message_eval a (h a (by simp)), ih (fun m hm => h m (by simp [hm]))]
      rfl
  unfold Model.Constructors.bmg
  rw [c]
  simp only [h1, h2, h3, h4, Option.bind_some, asNat_int, Option.map_some, e2, e3, e4]

/-! ## Sound -/

theorem inOrder_perm {l l' : List Nat} (hs : l.Pairwise (· < ·)) (hp : l'.Perm l) : Model.Constructors.inOrder l' = l := by
  unfold Model.Constructors.inOrder
  refine List.Perm.eq_of_pairwise (le := fun a b => a < b) (fun a b _ _ h1 h2 => by omega)
    (List.Pairwise.filter _ List.pairwise_lt_range) hs ?_
  refine (List.perm_ext_iff_of_nodup ((List.Pairwise.filter _ List.pairwise_lt_range).imp (fun h => by omega)) (hs.imp (fun h => by omega))).2 fun a => ?_
  have hm : ∀ (l : List Nat) a, a ∈ l → a ≤ l.foldr max 0 := by
    intro l
    induction l with
    | nil => simp
    | cons b l ih =>
      intro a ha
      rw [List.foldr_cons]
      rcases List.mem_cons.1 ha with rfl | ha
      · omega
      · have := ih a ha
        omega
  simp only [List.mem_filter, List.mem_range, List.contains_iff_mem, hp.mem_iff]
  constructor
  · exact fun h => h.2
  · exact fun h => ⟨by have := hm l' a (hp.mem_iff.2 h); omega, h⟩

def setE (l : List Nat) : Expr := if l.isEmpty then .call [str "set"] [] else .set (l.map fun n : Nat => .int n)

theorem reads_natSet (l : List Nat) : Reads (reprSet reprNat l) (setE l) := reads_set l (fun n _ => reads_nat n)

theorem set_eval (l : List Nat) : (setE l).asSet Expr.asNat = some l := asSet_map l (fun n _ => asNat_int n)

theorem set_not_none (l : List Nat) : (setE l).isName "None" = false := by
  cases l <;> rfl

def seqPlayerE (order : List Nat → List Nat) (p : Model.SoundArchive.SeqPlayer) : Expr :=
  .call [str "SequencePlayer"] [(none, .int p.maxSequences), (none, setE (order p.channels)), (none, .int p.heapSize)]

theorem reads_seqPlayer (order : List Nat → List Nat) (p : Model.SoundArchive.SeqPlayer) :
    Reads (reprSeqPlayer order p) (seqPlayerE order p) :=
  reads_call1 (name := "SequencePlayer") (by decide +kernel) [(_, none, _), (_, none, _), (_, none, _)] (by
    simp only [List.mem_cons, List.not_mem_nil, or_false, forall_eq_or_imp, forall_eq]
    exact ⟨reads_nat _, reads_natSet _, reads_nat _⟩)

theorem seqPlayer_eval (order : List Nat → List Nat) (p : Model.SoundArchive.SeqPlayer) :
    Model.Constructors.seqPlayer (seqPlayerE order p) =
      some ⟨p.maxSequences, Model.Constructors.inOrder (order p.channels), p.heapSize⟩ := by
  have c : (seqPlayerE order p).asCall ["SequencePlayer"] [("maxSequences", some (.int 1)),
      ("channels", some Model.Constructors.pyNone), ("heapSize", some (.int 0))] =
      some [.int p.maxSequences, setE (order p.channels), .int p.heapSize] := rfl
  unfold Model.Constructors.seqPlayer
  rw [c]
  simp only [Expr.asOption, set_not_none, set_eval]
  simp

def streamPlayerE (channels : List Nat) : Expr :=
  .call [str "StreamPlayer"] (if channels.isEmpty then [(none, .list [])] else [])

theorem reads_streamPlayer (channels : List Nat) : Reads (reprStreamPlayer channels) (streamPlayerE channels) := by
  unfold reprStreamPlayer streamPlayerE
  cases channels with
  | nil => exact reads_call1 (name := "StreamPlayer") (by decide +kernel) [(_, none, _)] (by
      simp only [List.mem_cons, List.not_mem_nil, or_false, forall_eq]
      exact reads_list (g := fun n : Nat => .int n) [] (by simp))
  | cons a l => exact reads_call1 (name := "StreamPlayer") (by decide +kernel) [] (by simp)

theorem streamPlayer_eval (channels : List Nat) : Model.Constructors.streamPlayer (streamPlayerE channels) = some [] := by
  cases channels <;> rfl

def noteE (n : Model.SoundBank.Note) : Expr :=
  .call [str "NoteDefinition"] [(none, .int n.waveID), (none, .int n.waveArchiveIDID), (none, .int n.pitch),
    (none, .int n.attack), (none, .int n.decay), (none, .int n.sustain), (none, .int n.release), (none, .int n.pan),
    (none, .int n.type)]

theorem reads_note (n : Model.SoundBank.Note) (h : ¬ (n.type = 1 ∨ n.type = 2 ∨ n.type = 3)) : Reads (reprNote n) (noteE n) := by
  unfold reprNote reprNoteType
  rw [if_neg h]
  exact reads_call1 (name := "NoteDefinition") (by decide +kernel) [(_, none, _), (_, none, _), (_, none, _), (_, none, _),
    (_, none, _), (_, none, _), (_, none, _), (_, none, _), (_, none, _)] (by
    simp only [List.mem_cons, List.not_mem_nil, or_false, forall_eq_or_imp, forall_eq]
    exact ⟨reads_nat _, reads_nat _, reads_nat _, reads_nat _, reads_nat _, reads_nat _, reads_nat _, reads_nat _, reads_nat _⟩)

theorem note_eval (n : Model.SoundBank.Note) : Model.Constructors.noteDefinition (noteE n) = some n := by
  have c : (noteE n).asCall ["NoteDefinition"] [("waveID_dutyCycle", some (.int 0)), ("waveArchiveIDID", some (.int 0)),
      ("pitch", some (.int 60)), ("attack", some (.int 127)), ("decay", some (.int 127)), ("sustain", some (.int 127)),
      ("release", some (.int 127)), ("pan", some (.int 64)), ("type", some (.int 1))] =
      some [.int n.waveID, .int n.waveArchiveIDID, .int n.pitch, .int n.attack, .int n.decay, .int n.sustain,
        .int n.release, .int n.pan, .int n.type] := rfl
  unfold Model.Constructors.noteDefinition
  rw [c]
  simp

/-! ## Sequence events -/

open Verif.Model.SoundSequence (Ev Arith Simple)

def valueE (k : Simple) (v : Int) : Expr :=
  if (k = .tie ∨ k = .portamentoOnOff) ∧ (v = 0 ∨ v = 1) then .name [if v = 1 then str "True" else str "False"] else .int v

theorem reads_value (k : Simple) (v : Int) : Reads (reprValue k v) (valueE k v) := by
  unfold reprValue valueE
  split
  · have := reads_bool (decide (v = 1))
    simpa using this
  · exact reads_int v

theorem value_eval (k : Simple) (v : Int) : (valueE k v).asInt = some v := by
  unfold valueE
  split
  · rename_i h
    rcases h.2 with rfl | rfl <;> decide +kernel
  · rfl

/-- The expression that the events without references and members of an `enum` are printed as. -/
def eventE (order : List Nat → List Nat) : Ev → Expr
  | .note p v flag d => .call [str "NoteSequenceEvent"] [(none, .int p), (none, .int (velocityValue v flag)), (none, .int d)]
  | .rest d => .call [str "RestSequenceEvent"] [(none, .int d)]
  | .instrumentSwitch b i => .call [str "InstrumentSwitchSequenceEvent"] [(none, .int b), (none, .int i)]
  | .random s l a b => .call [str "RandomSequenceEvent"] [(none, .int s), (none, .list (l.map .int)), (none, .int a), (none, .int b)]
  | .fromVariable s v u => .call [str "FromVariableSequenceEvent"] ([(none, .int s), (none, .int v)] ++
      match u with
      | some u => [(none, .int u)]
      | none => [])
  | .ifE => .call [str "IfSequenceEvent"] []
  | .arith op v x => .call [str (arithName op)] [(none, .int v), (none, .int x)]
  | .simple k v => .call [str (simpleName k)] [(none, valueE k v)]
  | .tempo v => .call [str "TempoSequenceEvent"] [(none, .int v)]
  | .sweepPitch v => .call [str "SweepPitchSequenceEvent"] [(none, .int v)]
  | .endLoop => .call [str "EndLoopSequenceEvent"] []
  | .ret => .call [str "ReturnSequenceEvent"] []
  | .defineTracks l => .call [str "DefineTracksSequenceEvent"] [(none, setE (order l))]
  | .endTrack => .call [str "EndTrackSequenceEvent"] []
  | .raw d => .call [str "RawDataSequenceEvent"] [(none, .bytes (d.map UInt8.toNat))]
  | _ => .ellipsis

theorem arith_id (a : Arith) : IsId (lit (arithName a)) := by cases a <;> decide +kernel
theorem simple_id (k : Simple) : IsId (lit (simpleName k)) := by cases k <;> decide +kernel

theorem reads_event (order : List Nat → List Nat) (obj : Nat → Ev) (addr : Nat → Nat) (f : Nat) (e : Ev)
    (h : plainEvent e = true) : ∃ s, reprEv order obj addr (f + 1) e = .ok s ∧ Reads s (eventE order e) := by
  cases e with
  | beginTrack | jump | call | monoPoly | vibratoType => cases h
  | note p v flag d =>
    exact ⟨_, rfl, reads_call1 (name := "NoteSequenceEvent") (by decide +kernel) [(_, none, _), (_, none, _), (_, none, _)] (by
      simp only [List.mem_cons, List.not_mem_nil, or_false, forall_eq_or_imp, forall_eq]
      exact ⟨reads_int _, reads_int _, reads_int _⟩)⟩
  | rest d =>
    exact ⟨_, rfl, reads_call1 (name := "RestSequenceEvent") (by decide +kernel) [(_, none, _)] (by
      simp only [List.mem_cons, List.not_mem_nil, or_false, forall_eq]
      exact reads_int _)⟩
  | instrumentSwitch b i =>
    exact ⟨_, rfl, reads_call1 (name := "InstrumentSwitchSequenceEvent") (by decide +kernel) [(_, none, _), (_, none, _)] (by
      simp only [List.mem_cons, List.not_mem_nil, or_false, forall_eq_or_imp, forall_eq]
      exact ⟨reads_nat _, reads_nat _⟩)⟩
  | random s l a b =>
    exact ⟨_, rfl, reads_call1 (name := "RandomSequenceEvent") (by decide +kernel)
      [(_, none, _), (_, none, _), (_, none, _), (_, none, _)] (by
      simp only [List.mem_cons, List.not_mem_nil, or_false, forall_eq_or_imp, forall_eq]
      exact ⟨reads_hexInt _, reads_list l (fun x _ => reads_int x), reads_int _, reads_int _⟩)⟩
  | fromVariable s v u =>
    cases u with
    | none =>
      exact ⟨_, rfl, reads_call1 (name := "FromVariableSequenceEvent") (by decide +kernel) [(_, none, _), (_, none, _)] (by
        simp only [List.mem_cons, List.not_mem_nil, or_false, forall_eq_or_imp, forall_eq]
        exact ⟨reads_hexInt _, reads_int _⟩)⟩
    | some u =>
      exact ⟨_, rfl, reads_call1 (name := "FromVariableSequenceEvent") (by decide +kernel)
        [(_, none, _), (_, none, _), (_, none, _)] (by
        simp only [List.mem_cons, List.not_mem_nil, or_false, forall_eq_or_imp, forall_eq]
        exact ⟨reads_hexInt _, reads_int _, reads_int _⟩)⟩
  | ifE => exact ⟨_, rfl, reads_call1 (name := "IfSequenceEvent") (by decide +kernel) [] (by simp)⟩
  | arith op v x =>
    exact ⟨_, rfl, reads_call1 (arith_id op) [(_, none, _), (_, none, _)] (by
      simp only [List.mem_cons, List.not_mem_nil, or_false, forall_eq_or_imp, forall_eq]
      exact ⟨reads_int _, reads_int _⟩)⟩
  | simple k v =>
    exact ⟨_, rfl, reads_call1 (simple_id k) [(_, none, _)] (by
      simp only [List.mem_cons, List.not_mem_nil, or_false, forall_eq]
      exact reads_value k v)⟩
  | tempo v =>
    exact ⟨_, rfl, reads_call1 (name := "TempoSequenceEvent") (by decide +kernel) [(_, none, _)] (by
      simp only [List.mem_cons, List.not_mem_nil, or_false, forall_eq]
      exact reads_int _)⟩
  | sweepPitch v =>
    exact ⟨_, rfl, reads_call1 (name := "SweepPitchSequenceEvent") (by decide +kernel) [(_, none, _)] (by
      simp only [List.mem_cons, List.not_mem_nil, or_false, forall_eq]
      exact reads_int _)⟩
  | endLoop => exact ⟨_, rfl, reads_call1 (name := "EndLoopSequenceEvent") (by decide +kernel) [] (by simp)⟩
  | ret => exact ⟨_, rfl, reads_call1 (name := "ReturnSequenceEvent") (by decide +kernel) [] (by simp)⟩
  | defineTracks l =>
    exact ⟨_, rfl, reads_call1 (name := "DefineTracksSequenceEvent") (by decide +kernel) [(_, none, _)] (by
      simp only [List.mem_cons, List.not_mem_nil, or_false, forall_eq]
      exact reads_natSet _)⟩
  | endTrack => exact ⟨_, rfl, reads_call1 (name := "EndTrackSequenceEvent") (by decide +kernel) [] (by simp)⟩
  | raw d =>
    exact ⟨_, rfl, reads_call1 (name := "RawDataSequenceEvent") (by decide +kernel) [(_, none, _)] (by
      simp only [List.mem_cons, List.not_mem_nil, or_false, forall_eq]
      exact reads_bytes _)⟩

/-- What the constructors make of the printed values: the velocity of a note is taken modulo 128. -/
def eventV (order : List Nat → List Nat) : Ev → Ev
  | .note p v flag d => .note p (velocityValue v flag % 128) (decide (velocityValue v flag / 128 % 2 = 1)) d
  | .defineTracks l => .defineTracks (Model.Constructors.inOrder (order l))
  | e => e

theorem one_call (name param : String) (v : Expr) : Model.Constructors.one (.call [str name] [(none, v)]) name param = v.asInt := by
  have : (Expr.call [str name] [(none, v)]).asCall [name] [(param, none)] = some [v] := by
    unfold Expr.asCall
    dsimp only
    rw [if_pos (by simp)]
    rfl
  unfold Model.Constructors.one
  rw [this]

theorem event_eval (order : List Nat → List Nat) (e : Ev) (h : plainEvent e = true) :
    Model.Constructors.event (eventE order e) = some (eventV order e) := by
  cases e with
  | beginTrack | jump | call | monoPoly | vibratoType => cases h
  | note p v flag d => rfl
  | rest d => rfl
  | instrumentSwitch b i =>
    show ((Expr.int b).asNat.bind fun b => (Expr.int i).asNat.map fun i => Ev.instrumentSwitch b i) = _
    simp [eventV]
  | random s l a b =>
    have hl := asList_map (f := Expr.asInt) (g := .int) l (fun x _ => rfl)
    show ((Expr.list (l.map .int)).asList Expr.asInt).bind (fun l => some (Ev.random s l a b)) = _
    rw [hl]
    rfl
  | fromVariable s v u =>
    cases u with
    | none => rfl
    | some u => rfl
  | ifE => rfl
  | arith op v x => cases op <;> rfl
  | simple k v =>
    have hv := value_eval k v
    have : Model.Constructors.event (eventE order (.simple k v)) =
        (Model.Constructors.one (.call [str (simpleName k)] [(none, valueE k v)]) (simpleName k)
          (Model.Constructors.simpleParam k)).map (.simple k) := by cases k <;> rfl
    rw [this, one_call, hv]
    rfl
  | tempo v => rfl
  | sweepPitch v => rfl
  | endLoop => rfl
  | ret => rfl
  | defineTracks l =>
    show ((setE (order l)).asSet Expr.asNat).map (fun l => Ev.defineTracks (Model.Constructors.inOrder l)) = _
    rw [set_eval]
    rfl
  | endTrack => rfl
  | raw d =>
    show (Expr.bytes (d.map UInt8.toNat)).asBytes.map Ev.raw = _
    rw [asBytes_bytes]
    rfl

/-! ## Texts that are no expressions -/

/-- Not the beginning of an expression. -/
def Bad (t : Str) : Prop := ∀ m rest, expr m (t ++ rest) = none

/-- Not the beginning of items. -/
def BadItems (t : Str) : Prop := ∀ m close rest, Close close → items m close (t ++ rest) = none

theorem Bad.not_parses {t : Str} (h : Bad t) (e : Expr) : ¬ Parses t e := by
  rintro ⟨m, hm⟩
  have := h m []
  rw [List.append_nil, hm] at this
  cases this

theorem badItems_of_large {t : Str} (h : ∀ close rest, Close close → ∃ n, ∀ m, n ≤ m → items m close (t ++ rest) = none) :
    BadItems t := by
  intro m close rest hc
  obtain ⟨n, hn⟩ := h close rest hc
  cases hi : items m close (t ++ rest) with
  | none => rfl
  | some r =>
    have := items_mono_le (Nat.le_max_left m n) close _ r hi
    rw [hn _ (Nat.le_max_right m n)] at this
    cases this

theorem bad_lt (t : Str) : Bad (60 :: t) := by
  intro m rest
  cases h : expr m (60 :: t ++ rest) with
  | none => rfl
  | some r => exact absurd rfl (expr_head h).2.2.2.2.2

/-- An item that is no expression. -/
theorem badItems_of_bad {t : Str} (h : Bad t) {c : Nat} {u : Str} (e : t = c :: u) (h32 : c ≠ 32) (hcl : ¬ Close c) (x : Str) :
    BadItems (t ++ x) := by
  intro m close rest hc
  cases m with
  | zero => rfl
  | succ m =>
    have h1 := h m (x ++ rest)
    rw [List.append_assoc, items]
    rw [e, List.cons_append] at h1 ⊢
    rw [skip_id h32, if_neg, h1]
    · rfl
    · rw [List.head?_cons]
      intro e
      cases e
      exact hcl hc

/-- An expression with something after it that is neither a comma nor the end. -/
theorem badItems_at {t : Str} {e : Expr} (h : Reads t e) {d : Nat} (x : Str) (hd : d ≠ 32 ∧ d ≠ 44 ∧ ¬ Close d) :
    BadItems (t ++ 32 :: d :: x) := by
  refine badItems_of_large fun close rest hc => ?_
  obtain ⟨c, u, et, h1, h2, h3, h4, _⟩ := h.cons
  obtain ⟨n, hn⟩ := h
  refine ⟨n + 1, fun m hm => ?_⟩
  obtain ⟨m, rfl⟩ : ∃ k, m = k + 1 := ⟨m - 1, by omega⟩
  have hx := hn m (by omega) (32 :: d :: (x ++ rest)) (by intro c hc; cases hc; omega)
  have es : skip (t ++ 32 :: d :: (x ++ rest)) = t ++ 32 :: d :: (x ++ rest) := by
    rw [et, List.cons_append, skip_id h1]
  have ek : keyword (e, 32 :: d :: (x ++ rest)) = none := by
    unfold keyword
    split
    · rename_i heq
      simp at heq
    · rfl
  rw [List.append_assoc, List.cons_append, List.cons_append, items, es, if_neg, hx]
  · simp only [Option.bind_some, ek, skip_space, skip_id hd.1]
    rw [if_neg hd.2.1, if_neg]
    rintro rfl
    exact hd.2.2 hc
  · rw [et, List.cons_append, List.head?_cons]
    intro e
    cases e
    unfold Close at hc
    omega

/-- A good item before. -/
theorem badItems_cons {t u : Str} {x : Option Str × Expr} (h : ReadsItem t x) (hu : BadItems u) :
    BadItems (t ++ 44 :: 32 :: u) := by
  refine badItems_of_large fun close rest hc => ?_
  obtain ⟨n, hn⟩ := items_step h
  refine ⟨n + 1, fun m hm => ?_⟩
  obtain ⟨m, rfl⟩ : ∃ k, m = k + 1 := ⟨m - 1, by omega⟩
  rw [List.append_assoc, List.cons_append, hn m (by omega) close 44 _ hc (.inl rfl), if_pos rfl, List.cons_append,
    items_space, hu m close rest hc]
  rfl

/-- A call with such items. -/
theorem bad_call {s : Str} (hs : IsId s) {t : Str} (ht : BadItems t) : Bad (s ++ 40 :: t) := by
  intro m rest
  cases m with
  | zero => rfl
  | succ m =>
    have hd : ∀ r, dotted m (s ++ 40 :: (t ++ rest)) = some r → r = ([s], 40 :: (t ++ rest)) := by
      intro r hr
      cases m with
      | zero => cases hr
      | succ m =>
        rw [dotted_one hs (by intro c hc; cases hc; rfl) (by simp)] at hr
        cases hr
        rfl
    obtain ⟨c, u, es, hc⟩ := hs.1
    have e' : s ++ 40 :: (t ++ rest) = c :: (u ++ 40 :: (t ++ rest)) := by rw [es]; rfl
    have e3 := expr_dotted (m := m) hc (id_not_bytes hs (rest := 40 :: (t ++ rest)) (by simp) e')
    rw [← e'] at e3
    rw [List.append_assoc, List.cons_append, e3]
    cases hm : dotted m (s ++ 40 :: (t ++ rest)) with
    | none => rfl
    | some r =>
      cases hd r hm
      simp only [Option.bind_some]
      rw [ht m 41 rest (.inr (.inl rfl))]
      rfl

/-- The same with a dotted name. -/
theorem bad_call2 {s s' : Str} (hs : IsId s) (hs' : IsId s') {t : Str} (ht : BadItems t) : Bad (s ++ 46 :: s' ++ 40 :: t) := by
  intro m rest
  cases m with
  | zero => rfl
  | succ m =>
    have e0 : s ++ 46 :: s' ++ 40 :: t ++ rest = s ++ 46 :: (s' ++ 40 :: (t ++ rest)) := by simp
    have hd : ∀ r, dotted m (s ++ 46 :: (s' ++ 40 :: (t ++ rest))) = some r → r = ([s, s'], 40 :: (t ++ rest)) := by
      intro r hr
      have : dotted (m + 2) (s ++ 46 :: (s' ++ 40 :: (t ++ rest))) = some r :=
        dotted_mono _ _ r (dotted_mono _ _ r hr)
      rw [dotted_two hs hs' (by intro c hc; cases hc; rfl) (by simp)] at this
      cases this
      rfl
    obtain ⟨c, u, es, hc⟩ := hs.1
    rw [e0]
    generalize hY : 46 :: (s' ++ 40 :: (t ++ rest)) = Y at hd ⊢
    have e' : s ++ Y = c :: (u ++ Y) := by rw [es]; rfl
    have e3 := expr_dotted (m := m) hc (id_not_bytes hs (rest := Y) (by rw [← hY]; simp) e')
    rw [← e'] at e3
    rw [e3]
    cases hm : dotted m (s ++ Y) with
    | none => rfl
    | some r =>
      cases hd r hm
      simp only [Option.bind_some]
      rw [ht m 41 rest (.inr (.inl rfl))]
      rfl

theorem badItems_more {t : Str} (h : BadItems t) (x : Str) : BadItems (t ++ x) := by
  intro m close rest hc
  rw [List.append_assoc]
  exact h m close (x ++ rest) hc

theorem join_cons (sep t : Str) (l : List Str) : ∃ x, join sep (t :: l) = t ++ x := by
  cases l with
  | nil => exact ⟨[], by simp [join]⟩
  | cons a l => exact ⟨sep ++ join sep (a :: l), by simp [join]⟩

theorem badItems_join {t : Str} (h : BadItems t) (l : List Str) : BadItems (join (lit ", ") (t :: l)) := by
  obtain ⟨x, e⟩ := join_cons (lit ", ") t l
  rw [e]
  exact badItems_more h x

theorem badItems_join_cons {t u : Str} {x : Option Str × Expr} {l : List Str} (h : ReadsItem t x)
    (hu : BadItems (join (lit ", ") (u :: l))) : BadItems (join (lit ", ") (t :: u :: l)) := by
  have e : join (lit ", ") (t :: u :: l) = t ++ 44 :: 32 :: join (lit ", ") (u :: l) := by
    have : lit ", " = [44, 32] := by decide
    rw [join, this]
    simp
  rw [e]
  exact badItems_cons h hu

theorem bad_callText {name : String} (h : IsId (lit name)) {l : List Str} (hl : BadItems (join (lit ", ") l)) :
    Bad (callText name l) := by
  have e : callText name l = lit name ++ 40 :: (join (lit ", ") l ++ lit ")") := by
    have : lit "(" = [40] := by decide
    unfold callText
    rw [this]
    simp
  rw [e]
  exact bad_call h (badItems_more hl _)

theorem bad_callText2 {name a b : String} (ha : IsId (lit a)) (hb : IsId (lit b)) (hn : lit name = lit a ++ 46 :: lit b)
    {l : List Str} (hl : BadItems (join (lit ", ") l)) : Bad (callText name l) := by
  have e : callText name l = lit a ++ 46 :: lit b ++ 40 :: (join (lit ", ") l ++ lit ")") := by
    have : lit "(" = [40] := by decide
    unfold callText
    rw [this, hn]
    simp
  rw [e]
  exact bad_call2 ha hb (badItems_more hl _)

theorem badItems_enum (cls member : String) (v : Nat) : BadItems (reprEnum cls member v) := by
  have e : ∃ t, reprEnum cls member v = 60 :: t := ⟨_, by
    unfold reprEnum
    rw [show lit "<" = [60] by decide]
    simp only [List.append_assoc, List.cons_append, List.nil_append]
    rfl⟩
  obtain ⟨t, e⟩ := e
  rw [e, ← List.append_nil (60 :: t)]
  exact badItems_of_bad (bad_lt t) rfl (by decide) (by unfold Close; decide) []

theorem bad_groupEntry (g : Model.SoundStream.GroupEntry) : Bad (reprGroupEntry g) := by
  unfold reprGroupEntry
  simp only [List.cons_append, List.nil_append]
  exact bad_callText2 (a := "GroupEntry") (b := "fromFlags") (by decide +kernel) (by decide +kernel) (by decide +kernel)
    (badItems_join (badItems_enum _ _ _) _)

theorem bad_note (n : Model.SoundBank.Note) (h : n.type = 1 ∨ n.type = 2 ∨ n.type = 3) : Bad (reprNote n) := by
  unfold reprNote reprNoteType
  rw [if_pos h]
  have r : ∀ k : Nat, ReadsItem (reprNat k) (none, .int k) := fun k => reads_nat k
  exact bad_callText (name := "NoteDefinition") (by decide +kernel)
    (badItems_join_cons (r _) (badItems_join_cons (r _) (badItems_join_cons (r _) (badItems_join_cons (r _)
      (badItems_join_cons (r _) (badItems_join_cons (r _) (badItems_join_cons (r _) (badItems_join_cons (r _)
        (badItems_join (badItems_enum _ _ _) _)))))))))

/-! ### Members of an `enum` as numbers -/

open Verif.Spec.Repr (enumNumbers)

theorem enumNumbers_plain : ∀ {s : Str}, (∀ c ∈ s, c ≠ 60 ∧ c ≠ 62) → ∀ t, enumNumbers false (s ++ t) = s ++ enumNumbers false t
  | [], _, _ => rfl
  | c :: s, h, t => by
    have hc := h c (by simp)
    rw [List.cons_append, enumNumbers, if_neg hc.1, if_neg hc.2, enumNumbers_plain (fun x hx => h x (by simp [hx])), List.cons_append]

theorem enumNumbers_skip : ∀ {s : Str}, 32 ∉ s → ∀ t, enumNumbers true (s ++ 32 :: t) = enumNumbers false t
  | [], _, t => by simp [enumNumbers]
  | c :: s, h, t => by
    rw [List.cons_append, enumNumbers, if_neg (fun e => h (by simp [e])), enumNumbers_skip (fun x => h (by simp [x]))]

theorem plain_nat (n : Nat) : ∀ c ∈ reprNat n, c ≠ 60 ∧ c ≠ 62 := fun c hc => by
  have : isDigit c = true := digitsF_all (b := 10) (digit := hexDigit) (p := fun c => isDigit c = true) (by omega) (fun d hd => by
      rw [hexDigit_dec hd]; simp [isDigit]; omega) (n + 1) n c hc
  simp [isDigit] at this
  omega

theorem plain_lit {x : String} (h : (lit x).all (fun c => decide (c ≠ 60 ∧ c ≠ 62)) = true) : ∀ c ∈ lit x, c ≠ 60 ∧ c ≠ 62 := by
  simpa using h

theorem enumNumbers_enum {cls member : String} (hc : 32 ∉ lit cls) (hm : 32 ∉ lit member) (v : Nat) (t : Str) :
    enumNumbers false (reprEnum cls member v ++ t) = reprNat v ++ enumNumbers false t := by
  have e : reprEnum cls member v ++ t = 60 :: ((lit cls ++ 46 :: lit member ++ [58]) ++ 32 :: (reprNat v ++ 62 :: t)) := by
    unfold reprEnum
    rw [show lit "<" = [60] by decide, show lit "." = [46] by decide, show lit ": " = [58, 32] by decide, show lit ">" = [62] by decide]
    simp
  rw [e, enumNumbers, if_pos rfl, enumNumbers_skip (by simp [hc, hm]), enumNumbers_plain (plain_nat v)]
  simp [enumNumbers]

/-- One argument after another. -/
def Numbers (s s' : Str) : Prop := ∀ t, enumNumbers false (s ++ t) = s' ++ enumNumbers false t

theorem Numbers.append {a a' b b' : Str} (ha : Numbers a a') (hb : Numbers b b') : Numbers (a ++ b) (a' ++ b') := fun t => by
  rw [List.append_assoc, ha, hb, List.append_assoc]

theorem numbers_nat (n : Nat) : Numbers (reprNat n) (reprNat n) := enumNumbers_plain (plain_nat n)

theorem numbers_lit {x : String} (h : (lit x).all (fun c => decide (c ≠ 60 ∧ c ≠ 62)) = true) : Numbers (lit x) (lit x) :=
  enumNumbers_plain (plain_lit h)

theorem numbers_kw {x : String} (h : (lit x).all (fun c => decide (c ≠ 60 ∧ c ≠ 62)) = true) {s s' : Str} (hs : Numbers s s') :
    Numbers (kw x s) (kw x s') :=
  ((numbers_lit h).append (numbers_lit (by decide))).append hs

theorem numbers_bool (b : Bool) : Numbers (reprBool b) (reprBool b) := by
  cases b <;> exact enumNumbers_plain (by decide)

theorem numbers_join : ∀ (l : List (Str × Str)), (∀ x ∈ l, Numbers x.1 x.2) →
    Numbers (join (lit ", ") (l.map Prod.fst)) (join (lit ", ") (l.map Prod.snd))
  | [], _ => fun _ => rfl
  | [a], h => h a (by simp)
  | a :: b :: l, h =>
    ((h a (by simp)).append (numbers_lit (by decide))).append (numbers_join (b :: l) fun x hx => h x (by simp [hx]))

theorem numbers_call {name : String} (h : (lit name).all (fun c => decide (c ≠ 60 ∧ c ≠ 62)) = true) {l l' : List Str}
    (hl : Numbers (join (lit ", ") l) (join (lit ", ") l')) : enumNumbers false (callText name l) = callText name l' := by
  have := (((numbers_lit h).append (numbers_lit (x := "(") (by decide))).append hl).append (numbers_lit (x := ")") (by decide)) []
  simpa [callText, enumNumbers] using this

/-- The arguments of a printed group entry: what is printed, the same with numbers, and what that is read as. -/
def groupEntryArgs (g : Model.SoundStream.GroupEntry) : List (Str × Str × (Option Str × Expr)) :=
  [(reprEnum "GroupEntryType" (groupEntryTypeName g.type) g.type, reprNat g.type, none, .int g.type),
    (reprNat g.id, reprNat g.id, none, .int g.id)] ++
  (if g.loadSSEQ then [(kw "loadSSEQ" (reprBool g.loadSSEQ), kw "loadSSEQ" (reprBool true), some (str "loadSSEQ"), .name [str "True"])] else []) ++
  (if g.loadSBNKSWARsFrom ≠ 1 then [(kw "loadSBNKSWARsFrom" (reprEnum "SWARLoadMethod" "FILE_IDS" g.loadSBNKSWARsFrom),
    kw "loadSBNKSWARsFrom" (reprNat g.loadSBNKSWARsFrom), some (str "loadSBNKSWARsFrom"), .int g.loadSBNKSWARsFrom)] else []) ++
  (if g.loadSWAR then [(kw "loadSWAR" (reprBool g.loadSWAR), kw "loadSWAR" (reprBool true), some (str "loadSWAR"), .name [str "True"])] else []) ++
  (if g.loadSSAR then [(kw "loadSSAR" (reprBool g.loadSSAR), kw "loadSSAR" (reprBool true), some (str "loadSSAR"), .name [str "True"])] else [])

theorem groupEntryArgs_text (g : Model.SoundStream.GroupEntry) :
    reprGroupEntry g = callText "GroupEntry.fromFlags" ((groupEntryArgs g).map Prod.fst) := by
  obtain ⟨type, id, a, m, b, c⟩ := g
  unfold reprGroupEntry groupEntryArgs
  dsimp only
  by_cases hm : m = 1 <;> cases a <;> cases b <;> cases c <;> simp [hm]

theorem groupEntryTypeName_space (n : Nat) : 32 ∉ lit (groupEntryTypeName n) := by
  unfold groupEntryTypeName
  split <;> decide

theorem groupEntryArgs_ok (g : Model.SoundStream.GroupEntry) : ∀ x ∈ groupEntryArgs g, Numbers x.1 x.2.1 ∧ ReadsItem x.2.1 x.2.2 := by
  have h1 : Numbers (reprEnum "GroupEntryType" (groupEntryTypeName g.type) g.type) (reprNat g.type) :=
    enumNumbers_enum (by decide) (groupEntryTypeName_space _) _
  have h2 : Numbers (reprEnum "SWARLoadMethod" "FILE_IDS" g.loadSBNKSWARsFrom) (reprNat g.loadSBNKSWARsFrom) :=
    enumNumbers_enum (by decide) (by decide) _
  have t := reads_bool true
  obtain ⟨type, id, a, m, b, c⟩ := g
  intro x hx
  unfold groupEntryArgs at hx
  simp only [List.mem_append, List.mem_cons, List.not_mem_nil, or_false] at hx
  rcases hx with (((hx | hx) | hx) | hx) | hx
  · rcases hx with rfl | rfl
    · exact ⟨h1, reads_nat _⟩
    · exact ⟨numbers_nat _, reads_nat _⟩
  · cases a <;> simp at hx
    subst hx
    exact ⟨numbers_kw (by decide) (numbers_bool _), readsItem_kw (by decide +kernel) t⟩
  · split at hx <;> simp at hx
    subst hx
    exact ⟨numbers_kw (by decide) h2, readsItem_kw (by decide +kernel) (reads_nat _)⟩
  · cases b <;> simp at hx
    subst hx
    exact ⟨numbers_kw (by decide) (numbers_bool _), readsItem_kw (by decide +kernel) t⟩
  · cases c <;> simp at hx
    subst hx
    exact ⟨numbers_kw (by decide) (numbers_bool _), readsItem_kw (by decide +kernel) t⟩

theorem reads_groupEntry (g : Model.SoundStream.GroupEntry) : Reads (enumNumbers false (reprGroupEntry g))
    (.call [str "GroupEntry", str "fromFlags"] ((groupEntryArgs g).map fun x => x.2.2)) := by
  have hn := numbers_join ((groupEntryArgs g).map fun x => (x.1, x.2.1)) (by
    intro x hx
    obtain ⟨y, hy, rfl⟩ := List.mem_map.1 hx
    exact (groupEntryArgs_ok g y hy).1)
  simp only [List.map_map] at hn
  rw [groupEntryArgs_text, numbers_call (by decide +kernel) (l' := ((groupEntryArgs g).map fun x => x.2).map Prod.fst) (by
    rw [List.map_map]
    exact hn)]
  have := reads_call2 (name := "GroupEntry.fromFlags") (a := "GroupEntry") (b := "fromFlags") (by decide +kernel) (by decide +kernel)
    (by decide +kernel) ((groupEntryArgs g).map fun x => x.2) (by
      intro x hx
      obtain ⟨y, hy, rfl⟩ := List.mem_map.1 hx
      exact (groupEntryArgs_ok g y hy).2)
  have e : ((groupEntryArgs g).map fun x => x.2).map Prod.snd = (groupEntryArgs g).map fun x => x.2.2 := by rw [List.map_map]; rfl
  rwa [e] at this

theorem groupEntry_eval (g : Model.SoundStream.GroupEntry) (h : g.type ≤ 3) :
    Model.Constructors.groupEntry (.call [str "GroupEntry", str "fromFlags"] ((groupEntryArgs g).map fun x => x.2.2)) = some g := by
  obtain ⟨type, id, a, m, b, c⟩ := g
  have hc : (Expr.call [str "GroupEntry", str "fromFlags"] ((groupEntryArgs ⟨type, id, a, m, b, c⟩).map fun x => x.2.2)).asCall
      ["GroupEntry", "fromFlags"] [("type", none), ("id", none), ("loadSSEQ", some (.name [str "False"])),
      ("loadSBNKSWARsFrom", some (.int 1)), ("loadSWAR", some (.name [str "False"])), ("loadSSAR", some (.name [str "False"]))] =
      some [.int type, .int id, .name [if a then str "True" else str "False"], .int m, .name [if b then str "True" else str "False"],
        .name [if c then str "True" else str "False"]] := by
    by_cases hm : m = 1
    · subst hm
      cases a <;> cases b <;> cases c <;> rfl
    · have e : groupEntryArgs ⟨type, id, a, m, b, c⟩ = groupEntryArgs ⟨type, id, a, m, b, c⟩ := rfl
      conv at e => rhs; unfold groupEntryArgs
      rw [if_pos hm] at e
      rw [e]
      cases a <;> cases b <;> cases c <;> rfl
  unfold Model.Constructors.groupEntry
  rw [hc]
  have h3 : ¬ 3 < type := Nat.not_lt.2 h
  have bt : ∀ x : Bool, Expr.asBool (.name [if x then str "True" else str "False"]) = some x := by intro x; cases x <;> rfl
  simp only [bt, Option.bind_some, Expr.asNat, Expr.asInt]
  simp [Model.SoundStream.GroupEntry.fromFlags, Model.SoundStream.GroupEntry.init, raiseIf, h3]
  rfl

theorem noteTypeName_space (n : Nat) : 32 ∉ lit (noteTypeName n) := by
  unfold noteTypeName
  split <;> decide

theorem reads_noteNumbers (n : Model.SoundBank.Note) : Reads (enumNumbers false (reprNote n)) (noteE n) := by
  have ht : Numbers (reprNoteType n.type) (reprNat n.type) := by
    unfold reprNoteType
    split
    · exact enumNumbers_enum (by decide) (noteTypeName_space _) _
    · exact numbers_nat _
  have hn := numbers_join [(reprNat n.waveID, reprNat n.waveID), (reprNat n.waveArchiveIDID, reprNat n.waveArchiveIDID),
    (reprNat n.pitch, reprNat n.pitch), (reprNat n.attack, reprNat n.attack), (reprNat n.decay, reprNat n.decay),
    (reprNat n.sustain, reprNat n.sustain), (reprNat n.release, reprNat n.release), (reprNat n.pan, reprNat n.pan),
    (reprNoteType n.type, reprNat n.type)] (by
      simp only [List.mem_cons, List.not_mem_nil, or_false, forall_eq_or_imp, forall_eq]
      exact ⟨numbers_nat _, numbers_nat _, numbers_nat _, numbers_nat _, numbers_nat _, numbers_nat _, numbers_nat _, numbers_nat _, ht⟩)
  simp only [List.map_cons, List.map_nil] at hn
  unfold reprNote
  rw [numbers_call (by decide +kernel) hn]
  exact reads_call1 (name := "NoteDefinition") (by decide +kernel) [(_, none, _), (_, none, _), (_, none, _), (_, none, _),
    (_, none, _), (_, none, _), (_, none, _), (_, none, _), (_, none, _)] (by
    simp only [List.mem_cons, List.not_mem_nil, or_false, forall_eq_or_imp, forall_eq]
    exact ⟨reads_nat _, reads_nat _, reads_nat _, reads_nat _, reads_nat _, reads_nat _, reads_nat _, reads_nat _, reads_nat _⟩)

/-- What `reprEv` prints is an expression or not, and never stops in between. -/
theorem event_text (order : List Nat → List Nat) (obj : Nat → Ev) (addr : Nat → Nat) : ∀ f e s,
    reprEv order obj addr f e = .ok s → if plainEvent e then Reads s (eventE order e) else Bad s
  | 0, _, _, h => by cases h
  | f + 1, e, s, h => by
    by_cases hp : plainEvent e = true
    · rw [if_pos hp]
      obtain ⟨s', h', hr⟩ := reads_event order obj addr f e hp
      rw [h] at h'
      cases h'
      exact hr
    · rw [if_neg hp]
      have hat : ∀ i t, reprEv order obj addr f (obj i) = .ok t → BadItems (t ++ lit " at " ++ reprNat (addr i)) := by
        intro i t ht
        have := event_text order obj addr f (obj i) t ht
        have e1 : lit " at " = [32, 97, 116, 32] := by decide +kernel
        rw [e1]
        by_cases hpi : plainEvent (obj i) = true
        · rw [if_pos hpi] at this
          have := badItems_at this (d := 97) ([116, 32] ++ reprNat (addr i)) ⟨by decide, by decide, by unfold Close; decide⟩
          simpa using this
        · rw [if_neg hpi] at this
          obtain ⟨c, u, rfl, hc⟩ : ∃ c u, t = c :: u ∧ isIdStart c = true := by
            cases f with
            | zero => cases ht
            | succ f =>
              cases ho : obj i <;> rw [ho] at ht hpi <;> first
                | exact absurd rfl hpi
                | (cases ht; exact ⟨_, _, rfl, rfl⟩)
                | (rw [reprEv] at ht
                   simp only [bind_eq_ok, pure_eq_ok] at ht
                   obtain ⟨_, _, rfl⟩ := ht
                   exact ⟨_, _, rfl, rfl⟩)
          rw [List.append_assoc]
          refine badItems_of_bad this rfl ?_ ?_ _
          · rintro rfl; cases hc
          · rintro (rfl | rfl | rfl) <;> cases hc
      cases e with
      | monoPoly v =>
        cases h
        exact bad_callText (name := "MonoPolySequenceEvent") (by decide +kernel) (badItems_join (badItems_enum _ _ _) _)
      | vibratoType v =>
        cases h
        exact bad_callText (name := "VibratoTypeSequenceEvent") (by decide +kernel) (badItems_join (badItems_enum _ _ _) _)
      | beginTrack n i =>
        rw [reprEv] at h
        simp only [bind_eq_ok, pure_eq_ok] at h
        obtain ⟨_, ⟨t, ht, rfl⟩, rfl⟩ := h
        exact bad_callText (name := "BeginTrackSequenceEvent") (by decide +kernel)
          (badItems_join_cons (x := (none, .int n)) (reads_int n) (badItems_join (hat i t ht) _))
      | jump i =>
        rw [reprEv] at h
        simp only [bind_eq_ok, pure_eq_ok] at h
        obtain ⟨_, ⟨t, ht, rfl⟩, rfl⟩ := h
        exact bad_callText (name := "JumpSequenceEvent") (by decide +kernel) (badItems_join (hat i t ht) _)
      | call i =>
        rw [reprEv] at h
        simp only [bind_eq_ok, pure_eq_ok] at h
        obtain ⟨_, ⟨t, ht, rfl⟩, rfl⟩ := h
        exact bad_callText (name := "CallSequenceEvent") (by decide +kernel) (badItems_join (hat i t ht) _)
      | _ => exact absurd rfl hp

/-! ## Long data -/

theorem badItems_long (b : Bytes) (hl : 32 < b.length) (hq : 0x27 ∉ b.take 32) : BadItems (shortBytesRepr b) := by
  refine badItems_of_large fun close rest hc => ⟨36, fun m hm => ?_⟩
  obtain ⟨m, rfl⟩ : ∃ k, m = k + 2 := ⟨m - 2, by omega⟩
  have hx : expr (m + 1) (shortBytesRepr b ++ rest) = some (.bytes ((b.take 32).map UInt8.toNat), 46 :: 46 :: 46 :: rest) := by
    unfold shortBytesRepr
    dsimp only
    rw [if_pos hl, List.append_assoc, List.append_assoc, List.append_assoc, List.cons_append, List.cons_append,
      List.nil_append, List.cons_append, List.nil_append, expr_bytes (.inl rfl), literal_short 32 b hq _ m (by omega)]
    rfl
  obtain ⟨t, et⟩ : ∃ t, shortBytesRepr b ++ rest = 98 :: t := ⟨_, by
    unfold shortBytesRepr
    dsimp only
    rw [if_pos hl]
    rfl⟩
  have ek : keyword (.bytes ((b.take 32).map UInt8.toNat), 46 :: 46 :: 46 :: rest) = none := rfl
  rw [items, et, skip_id (by decide), if_neg, ← et, hx]
  · simp only [Option.bind_some, ek]
    rw [skip_id (by decide)]
    dsimp only
    rw [if_neg (by decide), if_neg]
    rintro rfl
    revert hc
    unfold Close
    decide
  · rw [List.head?_cons]
    intro e
    cases e
    revert hc
    unfold Close
    decide

theorem bad_overlay (o : Model.Code.Overlay) (hl : 32 < o.data.length) (hq : 0x27 ∉ o.data.take 32) : Bad (reprOverlay o) :=
  bad_callText (name := "Overlay") (by decide +kernel) (badItems_join (badItems_long _ hl hq) _)

theorem bad_section (s : Model.Code.Section) (hl : 32 < s.data.length) (hq : 0x27 ∉ s.data.take 32) : Bad (reprSection s) :=
  bad_callText (name := "Section") (by decide +kernel) (badItems_join (badItems_long _ hl hq) _)

/-- A list with such items. -/
theorem bad_list {t : Str} (ht : BadItems t) : Bad (91 :: t) := by
  intro m rest
  cases m with
  | zero => rfl
  | succ m =>
    rw [List.cons_append, expr]
    simp [ht m 93 rest (.inl rfl)]

theorem narcFiles_many (f : Bytes) (hl : f.length ≤ 32) (hq : 0x27 ∉ f) :
    Reads (lit "[" ++ shortBytesRepr f ++ lit ", ..." ++ lit "]") (.list [.bytes (f.map UInt8.toNat), .ellipsis]) := by
  have := reads_items_list (sep := lit ", ") (.inr (by decide)) [(_, _), (_, _)] (by
    simp only [List.mem_cons, List.not_mem_nil, or_false, forall_eq_or_imp, forall_eq]
    exact ⟨reads_short f 32 hl hq, reads_ellipsis⟩)
  have e : lit ", ..." = lit ", " ++ lit "..." := by decide +kernel
  rw [e]
  simpa [join] using this

theorem narc_many (printable : Nat → Bool) (n : Model.Narc.NARC) (h2 : 2 ≤ n.files.length)
    (hf : ∀ f, n.files.head? = some f → 0x27 ∉ f.take 32) (ho : folderOk n.filenames) (k : Nat) (x : Model.Narc.NARC) :
    ¬ Evaluates (reprNARC printable n) (Model.Constructors.narc k) x := by
  match hm : n.files, h2 with
  | f :: g :: l, _ =>
    have hf := hf f (by rw [hm]; rfl)
    have e : reprNARC printable n = callText "NARC.fromFilesAndNames"
        [lit "[" ++ shortBytesRepr f ++ lit ", ..." ++ lit "]", reprFolder printable n.filenames] := by
      unfold reprNARC
      rw [hm]
      rfl
    by_cases hl : f.length ≤ 32
    · have ht : f.take 32 = f := List.take_of_length_le hl
      rw [ht] at hf
      have := reads_call2 (name := "NARC.fromFilesAndNames") (a := "NARC") (b := "fromFilesAndNames") (by decide +kernel)
        (by decide +kernel) (by decide +kernel) [(_, none, _), (_, none, _)] (by
          simp only [List.mem_cons, List.not_mem_nil, or_false, forall_eq_or_imp, forall_eq]
          exact ⟨narcFiles_many f hl hf, reads_folder printable _ ho⟩)
      rw [e]
      refine not_evaluates this ?_ x
      unfold Model.Constructors.narc
      dsimp only [List.map]
      rw [narc_call]
      simp [Expr.asList, allOf, Expr.asBytes]
    · have hb : Bad (lit "[" ++ shortBytesRepr f ++ lit ", ..." ++ lit "]") := by
        have := bad_list (badItems_more (badItems_long f (by omega) hf) (lit ", ..." ++ lit "]"))
        simpa [show lit "[" = [91] by decide] using this
      have : Bad (reprNARC printable n) := by
        rw [e]
        refine bad_callText2 (a := "NARC") (b := "fromFilesAndNames") (by decide +kernel) (by decide +kernel) (by decide +kernel)
          (badItems_join ?_ _)
        have h := badItems_of_bad hb (c := 91) (u := shortBytesRepr f ++ lit ", ..." ++ lit "]") (by
          simp [show lit "[" = [91] by decide]) (by decide) (by unfold Close; decide) []
        simpa using h
      rintro ⟨e', hp, _⟩
      exact this.not_parses e' hp

/-- Events of which each refers to one of them cannot be printed. -/
theorem event_cycle (order : List Nat → List Nat) (obj : Nat → Ev) (addr : Nat → Nat) (C : Nat → Prop)
    (h : ∀ i, C i → ∃ j, C j ∧ ((∃ t, obj i = .beginTrack t j) ∨ obj i = .jump j ∨ obj i = .call j)) :
    ∀ f i, C i → reprEv order obj addr f (obj i) = .error .recursionError
  | 0, _, _ => rfl
  | f + 1, i, hi => by
    obtain ⟨j, hj, hr⟩ := h i hi
    have ih := event_cycle order obj addr C h f j hj
    rcases hr with ⟨t, e⟩ | e | e <;> rw [e, reprEv] <;> simp only [ih] <;> rfl

theorem eventV_eq {order : List Nat → List Nat} (ho : ∀ l, (order l).Perm l) (e : Ev) (hs : ∀ l, e = .defineTracks l → l.Pairwise (· < ·)) :
    eventV order e = e ↔ ∀ p v flag d, e = .note p v flag d → 0 ≤ v ∧ v < 128 := by
  cases e with
  | note p v flag d =>
    have : eventV order (.note p v flag d) = .note p v flag d ↔
        velocityValue v flag % 128 = v ∧ decide (velocityValue v flag / 128 % 2 = 1) = flag := by
      simp [eventV]
    rw [this]
    constructor
    · intro h p' v' flag' d' e
      cases e
      omega
    · intro h
      have h := h p v flag d rfl
      unfold velocityValue
      cases flag
      · rw [if_neg (by simp)]
        exact ⟨by omega, by simp; omega⟩
      · rw [if_pos ⟨rfl, by omega⟩]
        exact ⟨by omega, by simp; omega⟩
  | defineTracks l =>
    simp [eventV, inOrder_perm (hs l rfl) (ho l)]
  | _ => simp [eventV]

end Verif.Proofs.ReprClasses
