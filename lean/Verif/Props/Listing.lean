import Verif.Proofs.Listing
import Verif.Props.Fnt

/-!
# C128: the printed list of a folder or an archive shows every file with its ID
-/

namespace Verif.Props.Listing

open Verif Verif.Model.Listing Verif.Spec.Listing Verif.Spec.Fnt
open Verif.Model.Fnt (Folder Folders idOf)
open Verif.Model.Util (shortBytesRepr)

/-- C128: what `print(folder)` shows can be read back as the list of all files and folders, with paths and IDs. -/
theorem folder_str (f : Folder) (h : Shown f) : ∃ s, strFolder f = .ok s ∧ Spec.Listing.read s = some (listed [] f) :=
  ⟨_, Proofs.Listing.strFolder_eq f, Proofs.Listing.read_str f h⟩

/-- C128: two folders that print alike have the same files and the same folders, with all that is in them. -/
theorem folder_str_tree (f g : Folder) (hf : Shown f) (hg : Shown g) (h : strFolder f = strFolder g) :
    f.files = g.files ∧ f.folders = g.folders := by
  rw [Proofs.Listing.strFolder_eq, Proofs.Listing.strFolder_eq] at h
  have h1 := Proofs.Listing.read_str f hf
  rw [Except.ok.inj h, Proofs.Listing.read_str g hg] at h1
  exact Proofs.Listing.listed_inj f g [] (Option.some.inj h1).symm

/-- C128: the ID shown for a path is the one `idOf` returns, and every file that `idOf` finds is shown. -/
theorem folder_str_ids (f : Folder) (hw : WellNamed f) (path : Str) (dirs : List Str) (name : Str)
    (hp : Denotes path (dirs ++ [name])) (id : Int) :
    (⟨dirs ++ [name], id, false⟩ : Listed) ∈ listed [] f ↔ idOf f path = .ok (some id) := by
  rw [Props.Fnt.idOf_iff f path dirs name hp id]
  exact Proofs.Listing.file_mem f [] hw dirs name id

/-- C128: an archive prints as the same list, with the first bytes of every file behind, all in one column at least four
spaces to the right of every name. -/
theorem narc_str (n : Model.Narc.NARC) (h : Shown n.filenames) (s : Str) (hs : strNARC n = .ok s) :
    ∃ (ls lines : List Str) (column : Nat), readNARC s = some (decide (n.beginning = .big), ls) ∧
      readLines [] lines = some (listed [] n.filenames) ∧
      ls.length = lines.length ∧ lines.length = (listed [] n.filenames).length ∧
      ∀ (i : Nat) (l line : Str) (e : Listed), ls[i]? = some l → lines[i]? = some line → (listed [] n.filenames)[i]? = some e →
        line.length + 4 ≤ column ∧
        l = match fileOf n.files e with
          | none => line
          | some d => line ++ List.replicate (column - line.length) 32 ++ shortBytesRepr d 16 := by
  unfold strNARC at hs
  simp only [bind_eq_ok, pure_eq_ok] at hs
  obtain ⟨ls, hl, rfl⟩ := hs
  have h10 := Proofs.Listing.strList_no10 _ h _ _ hl
  unfold strList at hl
  simp only [bind_eq_ok, pure_eq_ok] at hl
  obtain ⟨u, hu, hls⟩ := hl
  have hp := Proofs.Listing.uncombined_plain _ _ _ _ hu
  have hx : ∀ e ∈ listed [] n.filenames, e.isFolder = false → -(n.files.length : Int) ≤ e.id := by
    intro e he hf
    have : ¬ e.id < -(n.files.length : Int) := fun hlt => by
      rw [(Proofs.Listing.uncombined_some n.files n.filenames 0 []).2 ⟨e, he, hf, hlt⟩] at hu
      cases hu
    omega
  obtain ⟨u', hu', hsnd⟩ := (Proofs.Listing.uncombined_some n.files n.filenames 0 []).1 hx
  rw [hu'] at hu
  cases hu
  have hlen : u.length = (listed [] n.filenames).length := by simpa using congrArg List.length hsnd
  refine ⟨ls, u.map Prod.fst, previewColumn u, ?_, ?_, ?_, by simpa using hlen, ?_⟩
  · refine Proofs.Listing.readNARC_text _ _ ?_ _ h10 ?_
    · cases n.beginning <;> rfl
    · intro l hl
      rw [← hls] at hl
      obtain ⟨p, hpm, rfl⟩ := List.mem_map.1 hl
      have h1 : p.1 ≠ [] := (Proofs.Listing.plain_lines n.filenames 0 h p.1 (by rw [← hp]; exact List.mem_map_of_mem hpm)).2
      split
      · exact h1
      · simp [h1]
  · rw [hp]
    exact Proofs.Listing.readLines_plain _ h
  · rw [← hls, List.length_map, List.length_map]
  · intro i l line e h1 h2 h3
    rw [← hls, List.getElem?_map] at h1
    rw [List.getElem?_map] at h2
    cases hi : u[i]? with
    | none => rw [hi] at h1; cases h1
    | some p =>
      rw [hi] at h1 h2
      cases h2
      have h4 : (u.map Prod.snd)[i]? = some p.2 := by rw [List.getElem?_map, hi]; rfl
      rw [hsnd, List.getElem?_map, h3] at h4
      have h4 : (fileOf n.files e).map (fun d => shortBytesRepr d 16) = p.2 := Option.some.inj h4
      refine ⟨Proofs.Listing.column_ge u p (List.mem_of_getElem? hi), ?_⟩
      have h1 := (Option.some.inj h1).symm
      rw [h1]
      dsimp only
      rw [← h4]
      cases fileOf n.files e <;> rfl

/-- C128: printing an archive works exactly if no ID is too far below zero; else it raises `IndexError`. -/
theorem narc_str_returns (n : Model.Narc.NARC) :
    ((∀ e ∈ listed [] n.filenames, e.isFolder = false → -(n.files.length : Int) ≤ e.id) → ∃ s, strNARC n = .ok s) ∧
    ((∃ e ∈ listed [] n.filenames, e.isFolder = false ∧ e.id < -(n.files.length : Int)) → strNARC n = .error .indexError) := by
  obtain ⟨h1, h2⟩ := Proofs.Listing.uncombined_some n.files n.filenames 0 []
  unfold strNARC strList
  refine ⟨fun h => ?_, fun h => ?_⟩
  · obtain ⟨l, e, _⟩ := h1 h
    rw [e]
    exact ⟨_, rfl⟩
  · rw [h2 h]
    rfl

/-! ## An example -/

/-- Two files `a` and `b`, and a folder `d` with the file `cc`; the IDs begin with 7. -/
def tree : Folder := .mk (.cons [100] (.mk .nil [[99, 99]] 9) .nil) [[97], [98]] 7

theorem tree_shown : Shown tree := by simp [tree, Shown, ShownIn, NameShown]

theorem tree_wellNamed : WellNamed tree := by
  simp [tree, WellNamed, All, AllIn, Spec.Fnt.names, Model.Fnt.Folder.folders, Model.Fnt.Folder.files]

example : strFolder tree = .ok ("0007 a\n0008 b\n0009 d/\n0009     cc".toList.map Char.toNat) := by decide +kernel
example : ∃ s, strFolder tree = .ok s ∧ Spec.Listing.read s =
    some [⟨[[97]], 7, false⟩, ⟨[[98]], 8, false⟩, ⟨[[100]], 9, true⟩, ⟨[[100], [99, 99]], 9, false⟩] := folder_str tree tree_shown
example : ∀ g, Shown g → strFolder tree = strFolder g → tree.files = g.files ∧ tree.folders = g.folders :=
  fun g hg h => folder_str_tree tree g tree_shown hg h
example : idOf tree [100, 47, 99, 99] = .ok (some 9) :=
  (folder_str_ids tree tree_wellNamed [100, 47, 99, 99] [[100]] [99, 99]
    ⟨⟨by simp, ⟨[100], [[99, 99]], rfl, by simp⟩, ⟨[[100]], [99, 99], rfl, by simp⟩⟩, 0, 0, by decide +kernel⟩ 9).1
    (by simp [tree, listed, listedIn])

example : strNARC ⟨.mk (.cons [100] (.mk .nil [[99, 99]] 1) .nil) [[97]] 0, [[1, 2], [65, 10]], .big⟩ =
    .ok ("<narc endiannessOfBeginning='>'\n    0000 a         b'\\1\\2'\n    0001 d/\n    0001     cc    b'A\\n'\n>".toList.map Char.toNat) := by
  decide +kernel
example : ∃ s, strNARC ⟨tree, [[1], [2], [3]], .little⟩ = .ok s := by
  refine (narc_str_returns ⟨tree, [[1], [2], [3]], .little⟩).1 ?_
  simp [tree, listed, listedIn]
example : strNARC ⟨.mk .nil [[97]] (-1), [], .little⟩ = .error .indexError :=
  (narc_str_returns ⟨.mk .nil [[97]] (-1), [], .little⟩).2 (by simp [listed, listedIn])

/-! ## Names with spaces in front -/

/-- A folder `y` in the folder `x` prints like a folder `x` beside a folder whose name is four spaces and a `y`. -/
theorem not_tree_of_str : ∃ f g, strFolder f = strFolder g ∧ f.folders ≠ g.folders := by
  refine ⟨.mk (.cons [120] (.mk (.cons [121] (.mk .nil [] 1) .nil) [] 0) .nil) [] 0,
    .mk (.cons [120] (.mk .nil [] 0) (.cons [32, 32, 32, 32, 121] (.mk .nil [] 1) .nil)) [] 0, by decide +kernel, ?_⟩
  simp [Model.Fnt.Folder.folders]

end Verif.Props.Listing
