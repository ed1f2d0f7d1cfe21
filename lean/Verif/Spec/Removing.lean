import Verif.Spec.Renaming

/-!
# Removing the names of files and folders (C166)
-/

namespace Verif.Spec.Removing

open Verif Verif.Model Verif.Model.Fnt

/-- `del folder.files[k]` -/
def removeFile (k : Nat) : Folder → Folder
  | .mk folders files firstID => .mk folders (files.eraseIdx k) firstID

/-- `del folders[k]` -/
def removeAt : Nat → Folders → Folders
  | _, .nil => .nil
  | 0, .cons _ _ rest => rest
  | k + 1, .cons n f rest => .cons n f (removeAt k rest)

/-- `del folder.folders[k]` -/
def removeFolder (k : Nat) : Folder → Folder
  | .mk folders files firstID => .mk (removeAt k folders) files firstID

/-- The files by name after name `k` of the folder `g` has been removed. -/
structure NameRemoved (g : Folder) (dirs : List Str) (k : Nat) (get get' : Str → Py Bytes) : Prop where
  /-- The name has no file. -/
  gone : ∀ x s, g.files[k]? = some x → Spec.Fnt.Denotes s (dirs ++ [x]) → get' s = .error .valueError
  /-- The names in front of it have the files they had. -/
  before : ∀ (j : Nat) x s, j < k → g.files[j]? = some x → Spec.Fnt.Denotes s (dirs ++ [x]) → get' s = get s
  /-- Each name behind it has the file that the name in front of that one had. -/
  behind : ∀ (j : Nat) w x s s', k ≤ j → g.files[j]? = some w → g.files[j + 1]? = some x →
    Spec.Fnt.Denotes s (dirs ++ [w]) → Spec.Fnt.Denotes s' (dirs ++ [x]) → get' s' = get s
  /-- All other names have what they had. -/
  same : ∀ s, (∀ x ∈ g.files, ¬ Spec.Fnt.Denotes s (dirs ++ [x])) → get' s = get s

/-- The files by name after a folder has been removed. -/
structure FolderRemoved (dirs : List Str) (old : Str) (get get' : Str → Py Bytes) : Prop where
  gone : ∀ q s, q ≠ [] → Spec.Fnt.Denotes s (dirs ++ old :: q) → get' s = .error .valueError
  same : ∀ s, (∀ q, q ≠ [] → ¬ Spec.Fnt.Denotes s (dirs ++ old :: q)) → get' s = get s

end Verif.Spec.Removing
