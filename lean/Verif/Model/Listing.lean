import Verif.Model.Fnt
import Verif.Model.Narc
import Verif.Model.Repr

/-!
# Printed lists of files

`Folder._strListUncombined`, `_strList` and `__str__` of `ndspy/fnt.py`, and `NARC.__str__` of `ndspy/narc.py`.
-/

namespace Verif.Model.Listing

open Verif Verif.Model.Util Verif.Model.Repr Verif.Model.Fnt

/-- `f'{n:04d}'`: a sign counts as one of the four characters. -/
def pad4 (n : Int) : Str :=
  if n < 0 then 45 :: (List.replicate (3 - (reprNat n.natAbs).length) 48 ++ reprNat n.natAbs)
  else List.replicate (4 - (reprNat n.natAbs).length) 48 ++ reprNat n.natAbs

/-- The preview of a file (fnt.py 216–219).  A negative ID counts from the end of the list. -/
def preview (fileList : Option (List Bytes)) (fid : Int) : Py (Option Str) :=
  match fileList with
  | none => .ok none
  | some l =>
    if (l.length : Int) ≤ fid then .ok none
    else do
      let d ← if 0 ≤ fid then pyIdx l fid.toNat
        else if 0 ≤ fid + l.length then pyIdx l (fid + l.length).toNat
        else .error .indexError
      return some (shortBytesRepr d 0x10)

mutual

/-- `Folder._strListUncombined(indent, fileList)` (fnt.py 195–227). -/
def uncombined (fileList : Option (List Bytes)) (indent : Nat) : Folder → Py (List (Str × Option Str))
  | .mk folders files firstID => do
    let own ← mapE (fun p : Str × Nat => do
      let pre ← preview fileList (firstID + (p.2 : Int))
      return (pad4 (firstID + (p.2 : Int)) ++ List.replicate (indent + 1) 32 ++ p.1, pre)) files.zipIdx
    let rest ← uncombinedIn fileList indent folders
    return own ++ rest

/-- The loop over the folders (fnt.py 223–225). -/
def uncombinedIn (fileList : Option (List Bytes)) (indent : Nat) : Folders → Py (List (Str × Option Str))
  | .nil => .ok []
  | .cons name f rest => do
    let inner ← uncombined fileList (indent + 4) f
    let others ← uncombinedIn fileList indent rest
    return (pad4 f.firstID ++ List.replicate (indent + 1) 32 ++ name ++ [47], none) :: (inner ++ others)

end

/-- The column of the previews (fnt.py 244–247). -/
def previewColumn (l : List (Str × Option Str)) : Nat := (l.map fun p => p.1.length).foldr max 0 + 4

/-- `Folder._strList(indent, fileList)` (fnt.py 230–255). -/
def strList (f : Folder) (indent : Nat) (fileList : Option (List Bytes)) : Py (List Str) := do
  let l ← uncombined fileList indent f
  return l.map fun p =>
    match p.2 with
    | none => p.1
    | some pre => p.1 ++ List.replicate (previewColumn l - p.1.length) 32 ++ pre

/-- `Folder.__str__` (fnt.py 258–259). -/
def strFolder (f : Folder) : Py Str := do
  let l ← strList f 0 none
  return join [10] l

/-- `NARC.__str__` (narc.py 198–208). -/
def strNARC (n : Narc.NARC) : Py Str := do
  let notes := if n.beginning = .little then [] else lit " endiannessOfBeginning='>'"
  let l ← strList n.filenames 0 (some n.files)
  return lit "<narc" ++ notes ++ lit "\n    " ++ join (lit "\n    ") l ++ lit "\n>"

end Verif.Model.Listing
