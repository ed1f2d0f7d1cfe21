import Verif.Model.Fnt

/-!
# Specification vocabulary for filename tables

These definitions only look at the folder tree, not at any function of the model.
-/

namespace Verif.Spec.Fnt

open Verif Verif.Model.Fnt

/-- The names of the subfolders. -/
def names : Folders → List Str
  | .nil => []
  | .cons n _ rest => n :: names rest

mutual
/-- `p` holds of the folder and of every folder below it. -/
def All (p : Folder → Prop) : Folder → Prop
  | .mk folders files firstID => p (.mk folders files firstID) ∧ AllIn p folders
/-- `p` holds of every folder in the list and below. -/
def AllIn (p : Folder → Prop) : Folders → Prop
  | .nil => True
  | .cons _ f rest => All p f ∧ AllIn p rest
end

/-- A name that the format can hold: at most 127 characters, all Latin-1. -/
def NameOk (n : Str) : Prop := n.length ≤ 127 ∧ ∀ c ∈ n, c < 256

/-- All names in the tree can be held by the format. -/
def NamesOk : Folder → Prop :=
  All fun f => (∀ n ∈ f.files, NameOk n) ∧ ∀ n ∈ names f.folders, NameOk n

/-- All first IDs in the tree are 16-bit numbers. -/
def FirstIDsOk : Folder → Prop := All fun f => 0 ≤ f.firstID ∧ f.firstID < 2 ^ 16

/-- No file has the empty name. -/
def NoEmptyFileName : Folder → Prop := All fun f => [] ∉ f.files

mutual
/-- Number of folders, including the root. -/
def folderCount : Folder → Nat
  | .mk folders _ _ => 1 + folderCountIn folders
/-- Number of folders in a list of folders. -/
def folderCountIn : Folders → Nat
  | .nil => 0
  | .cons _ f rest => folderCount f + folderCountIn rest
end

mutual
/-- Nesting depth; a folder without subfolders has depth 1. -/
def depth : Folder → Nat
  | .mk folders _ _ => 1 + depthIn folders
/-- Greatest depth in a list of folders. -/
def depthIn : Folders → Nat
  | .nil => 0
  | .cons _ f rest => max (depth f) (depthIn rest)
end

mutual
/-- Size of the saved table in bytes: 8 for the folder's record, 1 for the end mark, one length byte and the
name per file, and one length byte, the name and two ID bytes per subfolder. -/
def byteSize : Folder → Nat
  | .mk folders files _ => 9 + (files.map (fun n => 1 + n.length)).sum + byteSizeIn folders
/-- Size of the part that belongs to a list of subfolders. -/
def byteSizeIn : Folders → Nat
  | .nil => 0
  | .cons n f rest => 3 + n.length + byteSize f + byteSizeIn rest
end

/-! ## Lookups -/

/-- `sub` is the first entry named `name` in the list of folders. -/
inductive FirstNamed (name : Str) : Folders → Folder → Prop where
  | here (f : Folder) (rest : Folders) : FirstNamed name (.cons name f rest) f
  | there (n : Str) (f g : Folder) (rest : Folders) : n ≠ name → FirstNamed name rest g →
      FirstNamed name (.cons n f rest) g

/-- Following directory names from `f` leads to `g`. -/
inductive Leads : Folder → List Str → Folder → Prop where
  | nil (f : Folder) : Leads f [] f
  | cons (name : Str) (rest : List Str) (f g h : Folder) : FirstNamed name f.folders g → Leads g rest h →
      Leads f (name :: rest) h

/-- `name` is the `k`-th file name of `f` and occurs there first. -/
def FileAt (f : Folder) (name : Str) (k : Nat) : Prop :=
  f.files[k]? = some name ∧ ∀ j < k, f.files[j]? ≠ some name

/-- Path components as they can come out of splitting a path: no slash inside, the first and the last one not
empty. -/
def Components (cs : List Str) : Prop :=
  (∀ c ∈ cs, 47 ∉ c) ∧ (∃ c rest, cs = c :: rest ∧ c ≠ []) ∧ ∃ init c, cs = init ++ [c] ∧ c ≠ []

/-- A string that denotes the components: joined with slashes, with any number of slashes around. -/
def Denotes (path : Str) (cs : List Str) : Prop :=
  Components cs ∧ ∃ m n, path = List.replicate m 47 ++ pyJoin 47 cs ++ List.replicate n 47

/-- Names are non-empty, contain no slash, and siblings of one kind have different names. -/
def WellNamed : Folder → Prop :=
  All fun f => (names f.folders).Nodup ∧ f.files.Nodup ∧
    (∀ n ∈ names f.folders, n ≠ [] ∧ 47 ∉ n) ∧ ∀ n ∈ f.files, n ≠ [] ∧ 47 ∉ n

end Verif.Spec.Fnt
