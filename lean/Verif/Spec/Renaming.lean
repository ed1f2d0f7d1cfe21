import Verif.Spec.Adding

/-!
# Renaming files and folders (C165)
-/

namespace Verif.Spec.Renaming

open Verif Verif.Model Verif.Model.Fnt Verif.Spec.Adding

/-- `folder.files[k] = new` -/
def renameFile (k : Nat) (new : Str) : Folder → Folder
  | .mk folders files firstID => .mk folders (files.set k new) firstID

/-- `folders[k] = (new, folders[k][1])` -/
def renameAt (new : Str) : Nat → Folders → Folders
  | _, .nil => .nil
  | 0, .cons _ f rest => .cons new f rest
  | k + 1, .cons n f rest => .cons n f (renameAt new k rest)

/-- `folder.folders[k] = (new, folder.folders[k][1])` -/
def renameFolder (k : Nat) (new : Str) : Folder → Folder
  | .mk folders files firstID => .mk (renameAt new k folders) files firstID

/-- The change of a folder of a NARC. -/
def narcChange (n : Narc.NARC) (dirs : List Str) (change : Folder → Folder) : Option Narc.NARC :=
  (changeAt dirs change n.filenames).map fun f => { n with filenames := f }

/-- The change of a folder of a ROM. -/
def romChange (r : Rom.Rom) (dirs : List Str) (change : Folder → Folder) : Option Rom.Rom :=
  (changeAt dirs change r.filenames).map fun f => { r with filenames := f }

/-- In the list, the name is at place `k` and nowhere else. -/
def OnlyAt (l : List Str) (name : Str) (k : Nat) : Prop := ∀ j, l[j]? = some name ↔ j = k

/-- The files by name after a file has been renamed. -/
structure FileRenamed (dirs : List Str) (old new : Str) (get get' : Str → Py Bytes) : Prop where
  /-- The new name has the file. -/
  moved : ∀ s s', Spec.Fnt.Denotes s (dirs ++ [new]) → Spec.Fnt.Denotes s' (dirs ++ [old]) → get' s = get s'
  /-- The old name has none. -/
  gone : ∀ s, Spec.Fnt.Denotes s (dirs ++ [old]) → get' s = .error .valueError
  /-- All other names have what they had. -/
  same : ∀ s, ¬ Spec.Fnt.Denotes s (dirs ++ [old]) → ¬ Spec.Fnt.Denotes s (dirs ++ [new]) → get' s = get s

/-- The files by name after a folder has been renamed; `q` is a path inside the folder. -/
structure FolderRenamed (dirs : List Str) (old new : Str) (get get' : Str → Py Bytes) : Prop where
  moved : ∀ q s s', q ≠ [] → Spec.Fnt.Denotes s (dirs ++ new :: q) → Spec.Fnt.Denotes s' (dirs ++ old :: q) → get' s = get s'
  gone : ∀ q s, q ≠ [] → Spec.Fnt.Denotes s (dirs ++ old :: q) → get' s = .error .valueError
  same : ∀ s, (∀ q, q ≠ [] → ¬ Spec.Fnt.Denotes s (dirs ++ old :: q) ∧ ¬ Spec.Fnt.Denotes s (dirs ++ new :: q)) → get' s = get s

end Verif.Spec.Renaming
