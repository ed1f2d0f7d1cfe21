import Verif.Spec.Fnt

/-!
# The numbers of files in a filename table (C157)

The files of a folder have ascending numbers that begin with its first ID (docs/source/api/fnt.rst 42–77).
-/

namespace Verif.Spec.Numbering

open Verif
open Verif.Model.Fnt (Folder Folders)

mutual
/-- All files of a tree with their paths and numbers: the files of the folder, then those of each subfolder. -/
def entries : Folder → List (List Str × Int)
  | .mk folders files firstID => (files.zipIdx.map fun p => ([p.1], firstID + (p.2 : Int))) ++ entriesIn folders
/-- All files of a list of folders. -/
def entriesIn : Folders → List (List Str × Int)
  | .nil => []
  | .cons name f rest => (entries f).map (fun e => (name :: e.1, e.2)) ++ entriesIn rest
end

/-- The paths of the files. -/
def paths (f : Folder) : List (List Str) := (entries f).map (·.1)

/-- Their numbers. -/
def ids (f : Folder) : List Int := (entries f).map (·.2)

/-- No two files have the same number. -/
def Distinct (f : Folder) : Prop := (ids f).Nodup

/-- The files have the numbers `n`, `n + 1`, … in this order, as in the table of the documentation. -/
def Numbered (n : Int) (f : Folder) : Prop := ∀ (k : Nat) (i : Int), (ids f)[k]? = some i → i = n + k

mutual
/-- How to number the files this way: the first ID of a folder is the number of files before it.  Returns the number of
files in it as well. -/
def number (n : Int) : Folder → Folder × Nat
  | .mk folders files _ =>
    let r := numberIn (n + files.length) folders
    (.mk r.1 files n, files.length + r.2)
/-- The same for the folders in a folder, one after another. -/
def numberIn (n : Int) : Folders → Folders × Nat
  | .nil => (.nil, 0)
  | .cons name f rest =>
    let r := number n f
    let s := numberIn (n + r.2) rest
    (.cons name r.1 s.1, r.2 + s.2)
end

end Verif.Spec.Numbering
