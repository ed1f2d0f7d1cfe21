import Verif.Proofs.FntLoad
import Verif.Proofs.FntLookup

/-!
# Properties of filename tables (C08–C11, C53)
-/

namespace Verif.Props.Fnt

open Verif Verif.Model.Fnt Verif.Spec.Fnt

/-- A tree with nested folders, used as a concrete case throughout:
`a.b`, `d/` with `c`, and `d/e/` with nothing. -/
def sample : Folder :=
  .mk (.cons [100] (.mk (.cons [101] (.mk .nil [] 2) .nil) [[99]] 1) .nil) [[97, 46, 98]] 0

/-- C08: a saved tree without empty file names loads back as exactly the same tree, at any nesting that the
recursion limit allows, also when padding follows the table. -/
theorem fnt_roundtrip (root : Folder) (b padding : Bytes) (h : save root = .ok b) (hne : NoEmptyFileName root)
    (limit : Nat) (hd : depth root ≤ limit) : load limit (b ++ padding) = .ok root :=
  Proofs.Fnt.load_save h hne padding hd

example : save sample = .ok [24, 0, 0, 0, 0, 0, 3, 0, 33, 0, 0, 0, 1, 0, 0, 240, 40, 0, 0, 0, 2, 0, 1, 240,
    3, 97, 46, 98, 129, 100, 1, 240, 0, 1, 99, 129, 101, 2, 240, 0, 0] := by decide +kernel
example : NoEmptyFileName sample ∧ depth sample = 3 := by
  unfold sample NoEmptyFileName
  simp [All, AllIn, Folder.files, depth, depthIn]
example : (save sample >>= load 3) = .ok sample := by decide +kernel

/-- The hypothesis of C08 is needed: an empty file name ends the table early. -/
theorem fnt_empty_name_lost :
    (save (.mk .nil [[], [97]] 0) >>= load 5) = .ok (.mk .nil [] 0) := by decide +kernel

/-- C09: saving succeeds exactly when every name fits (at most 127 Latin-1 characters), every first ID fits 16
bits and there are at most 4096 folders, as long as the table is not larger than 4 GiB.  Otherwise it raises
`ValueError`, `UnicodeEncodeError` or `struct.error`.  On success the length is what the format prescribes. -/
theorem fnt_save_ok_iff (root : Folder) (hs : byteSize root ≤ 2 ^ 32) :
    ((∃ b, save root = .ok b) ↔ NamesOk root ∧ FirstIDsOk root ∧ folderCount root ≤ 4096) ∧
    (∀ b, save root = .ok b → b.length = byteSize root) ∧
    (∀ e, save root = .error e → e = .valueError ∨ e = .unicodeError ∨ e = .structError) := by
  refine ⟨⟨?_, ?_⟩, ?_, ?_⟩
  · rintro ⟨b, h⟩
    obtain ⟨h1, h2, h3, _⟩ := Proofs.Fnt.save_inv h
    exact ⟨h1, h3, h2⟩
  · rintro ⟨h1, h2, h3⟩
    obtain ⟨b, h, _⟩ := Proofs.Fnt.save_ok h1 h3 h2 hs
    exact ⟨b, h⟩
  · intro b h
    exact (Proofs.Fnt.save_inv h).2.2.2
  · intro e h
    exact Proofs.Fnt.save_err h

/-- C09 without any bound on the size: a tree that the format cannot express is never saved. -/
theorem fnt_save_rejects (root : Folder)
    (h : ¬ NamesOk root ∨ ¬ FirstIDsOk root ∨ 4096 < folderCount root) :
    ∃ e, save root = .error e ∧ (e = .valueError ∨ e = .unicodeError ∨ e = .structError) := by
  cases hs : save root with
  | error e => exact ⟨e, rfl, Proofs.Fnt.save_err hs⟩
  | ok b =>
    obtain ⟨h1, h2, h3, _⟩ := Proofs.Fnt.save_inv hs
    rcases h with h | h | h
    · exact absurd h1 h
    · exact absurd h3 h
    · omega

example : byteSize sample = 41 := by decide +kernel
example : save (.mk .nil [List.replicate 128 97] 0) = .error .valueError := by decide +kernel
example : (save (.mk .nil [List.replicate 127 97] 0)).isOk := by decide +kernel
example : save (.mk .nil [[0x3042]] 0) = .error .unicodeError := by decide +kernel
example : save (.mk .nil [] 65536) = .error .structError := by decide +kernel
example : save (.mk .nil [] (-1)) = .error .structError := by decide +kernel

/-- C10: a path obtained from an ID leads back to that ID. -/
theorem id_of_filename (root : Folder) (hw : WellNamed root) (id : Int) (path : Str)
    (h : filenameOf root id = some path) : idOf root path = .ok (some id) := by
  unfold filenameOf at h
  rw [Option.map_eq_some_iff] at h
  obtain ⟨cs, hcs, rfl⟩ := h
  obtain ⟨h1, h2, h3⟩ := Proofs.FntLookup.nameInFolder_comps id hw hcs
  have hd : Denotes (pyJoin 47 cs) cs := by
    refine ⟨⟨fun c hc => (h2 c hc).2, ?_, ?_⟩, 0, 0, by simp⟩
    · cases cs with
      | nil => exact absurd rfl h1
      | cons c rest => exact ⟨c, rest, rfl, (h2 c (by simp)).1⟩
    · exact ⟨cs.dropLast, cs.getLast h1, (List.dropLast_concat_getLast h1).symm,
        (h2 _ (List.getLast_mem h1)).1⟩
  unfold idOf
  rw [Proofs.FntLookup.pathList_of_denotes hd, bind_ok, h3]
  rfl

example : WellNamed sample := by
  unfold sample WellNamed
  simp [All, AllIn, Folder.folders, Folder.files, names]
example : filenameOf sample 1 = some [100, 47, 99] ∧ idOf sample [100, 47, 99] = .ok (some 1) := by
  decide +kernel

/-- The hypothesis of C10 is needed: with two files of the same name the path of the second one leads to the
first. -/
example : filenameOf (.mk .nil [[97], [97]] 5) 6 = some [97] ∧
    idOf (.mk .nil [[97], [97]] 5) [97] = .ok (some 5) := by decide +kernel

/-- C11: `idOf` finds exactly the first file with the final name in the folder that the directory names lead
to, whatever slashes surround the path. -/
theorem idOf_iff (root : Folder) (path : Str) (dirs : List Str) (name : Str)
    (hp : Denotes path (dirs ++ [name])) (i : Int) :
    idOf root path = .ok (some i) ↔
      ∃ g k, Leads root dirs g ∧ FileAt g name k ∧ i = g.firstID + (k : Int) := by
  unfold idOf
  rw [Proofs.FntLookup.pathList_of_denotes hp, bind_ok, pure_eq_ok]
  exact Proofs.FntLookup.idInFolder_iff

/-- C11: `subfolder` finds exactly the folder that the names lead to. -/
theorem subfolder_iff (root : Folder) (path : Str) (dirs : List Str) (hp : Denotes path dirs) (g : Folder) :
    subfolder root path = .ok (some g) ↔ Leads root dirs g := by
  unfold subfolder
  rw [Proofs.FntLookup.pathList_of_denotes hp, bind_ok, pure_eq_ok]
  exact Proofs.FntLookup.subInFolder_iff (Proofs.FntLookup.components_ne_nil hp.1)

/-- C11: every path either consists of slashes only, and then all lookups raise `IndexError`, or denotes a
list of components, and then no lookup raises anything (`Folder[...]` apart). -/
theorem path_total (root : Folder) (path : Str) :
    ((∃ n, path = List.replicate n 47) ∧ idOf root path = .error .indexError ∧
      subfolder root path = .error .indexError ∧ containsStr root path = false) ∨
    (∃ cs, Denotes path cs) ∧ ∃ i s, idOf root path = .ok i ∧ subfolder root path = .ok s := by
  rcases Proofs.FntLookup.path_cases path with ⟨n, hn, he⟩ | ⟨cs, hcs⟩
  · left
    have h1 : idOf root path = .error .indexError := by unfold idOf; rw [he, bind_error]
    have h2 : subfolder root path = .error .indexError := by unfold subfolder; rw [he, bind_error]
    refine ⟨⟨n, hn⟩, h1, h2, ?_⟩
    unfold containsStr getStr
    rw [h1, bind_error]
    rfl
  · right
    refine ⟨⟨cs, hcs⟩, ?_⟩
    unfold idOf subfolder
    rw [Proofs.FntLookup.pathList_of_denotes hcs]
    exact ⟨_, _, rfl, rfl⟩

/-- C11: `Folder[path]` and `in` agree with `idOf` and `subfolder`, files taking precedence. -/
theorem getitem_str (root : Folder) (path : Str) (i : Option Int) (s : Option Folder)
    (hi : idOf root path = .ok i) (hs : subfolder root path = .ok s) :
    (∀ n, i = some n → getStr root path = .ok (.id n)) ∧
    (∀ f, i = none → s = some f → getStr root path = .ok (.folder f)) ∧
    (i = none → s = none → getStr root path = .error .keyError) ∧
    (containsStr root path = true ↔ i.isSome ∨ s.isSome) := by
  unfold containsStr getStr
  rw [hi, bind_ok]
  cases i with
  | some n => simp [Except.isOk, Except.toBool, pure_def]
  | none =>
    simp only [hs, bind_ok]
    cases s <;> simp [Except.isOk, Except.toBool, pure_def, raise]

/-- C11: `Folder[id]` and `in` agree with `filenameOf`. -/
theorem getitem_int (root : Folder) (id : Int) :
    (∀ p, filenameOf root id = some p → getInt root id = .ok (.path p)) ∧
    (filenameOf root id = none → getInt root id = .error .keyError) ∧
    (containsInt root id = true ↔ (filenameOf root id).isSome) := by
  unfold containsInt getInt
  cases filenameOf root id <;> simp [Except.isOk, Except.toBool]

example : Denotes [47, 100, 47, 99, 47, 47] ([[100]] ++ [[99]]) := by
  refine ⟨⟨by simp, ⟨[100], [[99]], rfl, by simp⟩, [[100]], [99], rfl, by simp⟩, 1, 2, rfl⟩
example : idOf sample [47, 100, 47, 99, 47, 47] = .ok (some 1) ∧ idOf sample [47, 47] = .error .indexError ∧
    getStr sample [100, 47, 101] = .ok (.folder (.mk .nil [] 2)) ∧ containsStr sample [120] = false := by
  decide +kernel

/-- C53: loading any bytes returns a tree or raises `struct.error` or `RecursionError`; it never loops. -/
theorem fnt_load_total (limit : Nat) (data : Bytes) :
    (∃ root, load limit data = .ok root) ∨ load limit data = .error .structError ∨
    load limit data = .error .recursionError := by
  cases h : load limit data with
  | ok root => exact Or.inl ⟨root, rfl⟩
  | error e =>
    right
    rcases Proofs.FntLoad.loadFolder_err h with rfl | rfl | rfl
    · exact Or.inl rfl
    · exact Or.inr rfl
    · exact absurd h Proofs.FntLoad.loadFolder_fuel

/-- C53: whatever the bytes were, a loaded tree with at most 4096 folders can be saved again (up to 4 GiB), and
loading the result gives the same tree. -/
theorem fnt_resave (limit : Nat) (data : Bytes) (root : Folder) (h : load limit data = .ok root)
    (hc : folderCount root ≤ 4096) (hs : byteSize root ≤ 2 ^ 32) :
    ∃ b, save root = .ok b ∧ load limit b = .ok root := by
  obtain ⟨h1, h2, h3, h4⟩ := Proofs.FntLoad.loadFolder_loaded h
  obtain ⟨b, hb, _⟩ := Proofs.Fnt.save_ok h1 hc h3 hs
  refine ⟨b, hb, ?_⟩
  have := fnt_roundtrip root b [] hb h2 limit h4
  simpa using this

/-- A table whose only folder contains itself: the recursion limit stops it. -/
example : load 50 [8, 0, 0, 0, 0, 0, 1, 0, 129, 97, 0, 240, 0] = .error .recursionError := by decide +kernel

end Verif.Props.Fnt
