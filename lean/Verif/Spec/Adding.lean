import Verif.Spec.Fnt
import Verif.Model.Narc
import Verif.Model.Rom

/-!
# Adding files (C162)

What a program does to add files to an archive or a ROM: it appends a name to a folder, or a folder with names to a folder, and
the files to the list of files.
-/

namespace Verif.Spec.Adding

open Verif Verif.Model Verif.Model.Fnt

/-- A change of the first folder with that name in a list. -/
def changeFirst (name : Str) (change : Folder → Option Folder) : Folders → Option Folders
  | .nil => none
  | .cons n f rest => if n = name then (change f).map fun f => .cons n f rest else (changeFirst name change rest).map (.cons n f)

/-- A change of the folder that `x.filenames.subfolder('a/b')` gives, or of `x.filenames` for the empty list. -/
def changeAt : List Str → (Folder → Folder) → Folder → Option Folder
  | [], change, f => some (change f)
  | name :: rest, change, .mk folders files firstID =>
    (changeFirst name (changeAt rest change) folders).map fun folders => .mk folders files firstID

/-- `folder.files.append(name)` -/
def withFile (name : Str) : Folder → Folder
  | .mk folders files firstID => .mk folders (files ++ [name]) firstID

/-- `folders.append((name, new))` -/
def appendFolder (name : Str) (new : Folder) : Folders → Folders
  | .nil => .cons name new .nil
  | .cons n f rest => .cons n f (appendFolder name new rest)

/-- `folder.folders.append((name, new))` -/
def withFolder (name : Str) (new : Folder) : Folder → Folder
  | .mk folders files firstID => .mk (appendFolder name new folders) files firstID

/-- `Folder(files=names, firstID=len(x.files))` -/
def newFolder (names : List Str) (count : Nat) : Folder := .mk .nil names count

/-- `folder.files.append(name)` and `x.files.append(data)` for a NARC. -/
def narcAddFile (n : Narc.NARC) (dirs : List Str) (name : Str) (data : Bytes) : Option Narc.NARC :=
  (changeAt dirs (withFile name) n.filenames).map fun f => { n with filenames := f, files := n.files ++ [data] }

/-- The same for a ROM. -/
def romAddFile (r : Rom.Rom) (dirs : List Str) (name : Str) (data : Bytes) : Option Rom.Rom :=
  (changeAt dirs (withFile name) r.filenames).map fun f => { r with filenames := f, files := r.files ++ [data] }

/-- `folder.folders.append((name, Folder(files=names, firstID=len(x.files))))` and `x.files.extend(datas)` for a NARC. -/
def narcAddFolder (n : Narc.NARC) (dirs : List Str) (name : Str) (names : List Str) (datas : List Bytes) : Option Narc.NARC :=
  (changeAt dirs (withFolder name (newFolder names n.files.length)) n.filenames).map fun f =>
    { n with filenames := f, files := n.files ++ datas }

/-- The same for a ROM. -/
def romAddFolder (r : Rom.Rom) (dirs : List Str) (name : Str) (names : List Str) (datas : List Bytes) : Option Rom.Rom :=
  (changeAt dirs (withFolder name (newFolder names r.files.length)) r.filenames).map fun f =>
    { r with filenames := f, files := r.files ++ datas }

/-! ## What that is to do -/

/-- The files by name after a name has been appended to the folder `g`. -/
structure FileAdded (g : Folder) (dirs : List Str) (name : Str) (data : Bytes) (old : List Bytes) (get get' : Str → Py Bytes) :
    Prop where
  /-- The other files are there by their names still. -/
  same : ∀ s d, ¬ Spec.Fnt.Denotes s (dirs ++ [name]) → get s = .ok d → get' s = .ok d
  /-- The new name has the new file, if the folder is the one with the last files. -/
  new : g.firstID + g.files.length = old.length → ∀ s, Spec.Fnt.Denotes s (dirs ++ [name]) → get' s = .ok data
  /-- Otherwise it has one of the old files. -/
  wrong : ∀ (k : Nat) d, g.firstID + g.files.length = k → old[k]? = some d →
    ∀ s, Spec.Fnt.Denotes s (dirs ++ [name]) → get' s = .ok d

/-- The files by name after a folder with new names has been appended. -/
structure FolderAdded (dirs : List Str) (name : Str) (new : List Str) (datas : List Bytes) (get get' : Str → Py Bytes) :
    Prop where
  same : ∀ s d, (¬ ∃ x ∈ new, Spec.Fnt.Denotes s (dirs ++ [name, x])) → get s = .ok d → get' s = .ok d
  new : ∀ (j : Nat) x d s, new[j]? = some x → datas[j]? = some d → Spec.Fnt.Denotes s (dirs ++ [name, x]) → get' s = .ok d

end Verif.Spec.Adding
