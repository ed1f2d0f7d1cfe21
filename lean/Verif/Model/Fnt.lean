import Verif.Base.Str
import Verif.Base.Sort

/-!
# Model of `ndspy/fnt.py`

Folder trees, lookups by path and by ID, and the binary filename table.

Not modelled: `__iter__` (always raises; fnt.py 55–56).  `_strListUncombined`, `_strList` and `__str__` are in
`Listing.lean`, `__repr__` is in `ReprClasses.lean`.  Folders are values: a Python program could put the same `Folder` object at two
places, which behaves like two equal trees in everything modelled here, or build a cycle, which is not
modelled.
-/

namespace Verif.Model.Fnt

open Verif

mutual
/-- `Folder` (fnt.py 29–52): named subfolders, file names and the first file ID. -/
inductive Folder where
  | mk (folders : Folders) (files : List Str) (firstID : Int)
/-- The list of `(name, Folder)` pairs `Folder.folders` (fnt.py 34). -/
inductive Folders where
  | nil
  | cons (name : Str) (folder : Folder) (rest : Folders)
end

deriving instance DecidableEq, Repr for Folder, Folders

/-- `Folder.folders`. -/
def Folder.folders : Folder → Folders | .mk fs _ _ => fs
/-- `Folder.files`. -/
def Folder.files : Folder → List Str | .mk _ fs _ => fs
/-- `Folder.firstID`. -/
def Folder.firstID : Folder → Int | .mk _ _ i => i

/-- The default `Folder()` (fnt.py 38–52). -/
def emptyFolder : Folder := .mk .nil [] 0

/-! ## Lookups -/

/-- `while not pathList[-1]: pathList = pathList[:-1]` (fnt.py 123, 153): raises `IndexError` when nothing is
left. -/
def stripEnd (l : List Str) : Py (List Str) :=
  match (l.reverse.dropWhile (·.isEmpty)).reverse with
  | [] => .error .indexError
  | l => .ok l

/-- `while not pathList[0]: pathList = pathList[1:]` (fnt.py 124, 154). -/
def stripStart (l : List Str) : Py (List Str) :=
  match l.dropWhile (·.isEmpty) with
  | [] => .error .indexError
  | l => .ok l

/-- `path.split('/')` and the removal of empty components at both ends (fnt.py 122–124, 152–154). -/
def pathList (path : Str) : Py (List Str) := do
  let l ← stripEnd (pySplit 47 path)
  stripStart l

/-- `files.index(name)`, as an option: the index of the first occurrence. -/
def indexOf (name : Str) (files : List Str) : Option Nat := files.findIdx? (· = name)

/-- `for subfolderName, subfolder in searchFolder.folders: if subfolderName == pathPart` (fnt.py 115–118):
the first subfolder with the name. -/
def Folders.find (name : Str) : Folders → Option Folder
  | .nil => none
  | .cons n f rest => if n = name then some f else rest.find name

/-- `findInFolder` inside `idOf` (fnt.py 99–120).  The empty path cannot occur. -/
def idInFolder : List Str → Folder → Option Int
  | [], _ => none
  | [name], f =>
    match indexOf name f.files with
    | some i => some (f.firstID + i)
    | none => none
  | part :: rest, f =>
    match f.folders.find part with
    | some sub => idInFolder rest sub
    | none => none

/-- `Folder.idOf` (fnt.py 93–125). -/
def idOf (f : Folder) (path : Str) : Py (Option Int) := do
  let l ← pathList path
  return idInFolder l f

/-- `findInFolder` inside `subfolder` (fnt.py 135–150). -/
def subInFolder : List Str → Folder → Option Folder
  | [], _ => none
  | [name], f => f.folders.find name
  | part :: rest, f =>
    match f.folders.find part with
    | some sub => subInFolder rest sub
    | none => none

/-- `Folder.subfolder` (fnt.py 128–155). -/
def subfolder (f : Folder) (path : Str) : Py (Option Folder) := do
  let l ← pathList path
  return subInFolder l f

mutual
/-- `findInFolder` inside `filenameOf` (fnt.py 165–186).  Returns the path below the folder; the Python code
carries the prefix `pathSoFar` along instead, which gives the same list. -/
def nameInFolder (id : Int) : Folder → Option (List Str)
  | .mk folders files firstID =>
    if firstID ≤ id ∧ id < firstID + files.length then
      some [files[(id - firstID).toNat]?.getD []]
    else nameInFolders id folders
/-- The loop over the subfolders (fnt.py 178–183). -/
def nameInFolders (id : Int) : Folders → Option (List Str)
  | .nil => none
  | .cons n f rest =>
    match nameInFolder id f with
    | some p => some (n :: p)
    | none => nameInFolders id rest
end

/-- `Folder.filenameOf` (fnt.py 158–192). -/
def filenameOf (f : Folder) (id : Int) : Option Str := (nameInFolder id f).map (pyJoin 47)

/-- What `Folder.__getitem__` returns: a folder, a path or an ID. -/
inductive Item where
  | folder (f : Folder)
  | path (p : Str)
  | id (i : Int)
  deriving DecidableEq

/-- `Folder[path]` (fnt.py 59–83, string key). -/
def getStr (f : Folder) (path : Str) : Py Item := do
  match ← idOf f path with
  | some i => return .id i
  | none =>
    match ← subfolder f path with
    | some s => return .folder s
    | none => raise .keyError

/-- `Folder[id]` (fnt.py 59–83, integer key). -/
def getInt (f : Folder) (id : Int) : Py Item :=
  match filenameOf f id with
  | some p => .ok (.path p)
  | none => raise .keyError

/-- `path in folder` (fnt.py 86–91): true if `__getitem__` does not raise. -/
def containsStr (f : Folder) (path : Str) : Bool := (getStr f path).isOk

/-- `id in folder` (fnt.py 86–91). -/
def containsInt (f : Folder) (id : Int) : Bool := (getInt f id).isOk

/-! ## Loading -/

/-- The `while True` loop of `loadFolder` (fnt.py 287–306).  `rec` loads a subfolder; the fuel bounds the
number of entries, each of which takes at least one byte. -/
def loadEntries (fnt : Bytes) (rec : Nat → Py Folder) : (fuel : Nat) → (off : Nat) → Py (Folders × List Str)
  | 0, _ => .error .outOfFuel
  | fuel + 1, off => do
    let control ← unpackU .little 1 fnt off
    if control = 0 then return (.nil, [])
    else
      let len := control % 128
      let name := latin1Decode (slice fnt (off + 1) (off + 1 + len))
      if 128 ≤ control then
        let id ← unpackU .little 2 fnt (off + 1 + len)
        let sub ← rec id
        let r ← loadEntries fnt rec fuel (off + 1 + len + 2)
        return (.cons name sub r.1, r.2)
      else
        let r ← loadEntries fnt rec fuel (off + 1 + len)
        return (r.1, name :: r.2)

/-- `loadFolder` (fnt.py 272–306).  `depth` bounds the nesting, as Python's recursion limit does; running out
of it is a `RecursionError`. -/
def loadFolder (fnt : Bytes) : (depth : Nat) → (id : Nat) → Py Folder
  | 0, _ => .error .recursionError
  | depth + 1, id => do
    let off := 8 * (id % 4096)
    let entriesOff ← unpackU .little 4 fnt off
    let fileID ← unpackU .little 2 fnt (off + 4)
    let r ← loadEntries fnt (loadFolder fnt depth) (fnt.length + 1) entriesOff
    return .mk r.1 r.2 (fileID : Int)

/-- `fnt.load` (fnt.py 267–309), with the recursion limit as a parameter. -/
def load (depth : Nat) (fnt : Bytes) : Py Folder := loadFolder fnt depth 0xF000

/-! ## Saving -/

/-- One value of the dict `folderEntries` with its key (fnt.py 318–322). -/
structure Entry where
  id : Nat
  firstID : Int
  parent : Nat
  table : Bytes
  deriving DecidableEq, Repr

/-- `nextFolderID` and `folderEntries`, in insertion order (fnt.py 326–330). -/
structure SaveSt where
  next : Nat
  entries : List Entry

/-- The loop over the files of a folder (fnt.py 345–353). -/
def fileEntries : List Str → Py Bytes
  | [] => .ok []
  | file :: rest => do
    raiseIf (127 < file.length) .valueError
    let enc ← latin1Encode file
    let more ← fileEntries rest
    return UInt8.ofNat file.length :: enc ++ more

mutual
/-- `parseFolder` (fnt.py 332–377). -/
def parseFolder : Folder → (parent : Nat) → SaveSt → Py (Nat × SaveSt)
  | .mk folders files firstID, parent, st => do
    let id := st.next
    let t ← fileEntries files
    let r ← parseFolders folders id { st with next := id + 1 }
    return (id, { r.2 with entries := r.2.entries ++ [⟨id, firstID, parent, t ++ r.1 ++ [0]⟩] })
/-- The loop over the subfolders (fnt.py 355–370): the bytes that it appends to the entries table. -/
def parseFolders : Folders → (id : Nat) → SaveSt → Py (Bytes × SaveSt)
  | .nil, _, st => .ok ([], st)
  | .cons name folder rest, id, st => do
    let r ← parseFolder folder id st
    raiseIf (127 < name.length) .valueError
    let enc ← latin1Encode name
    let w ← packU .little 2 r.1
    let r' ← parseFolders rest id r.2
    return (UInt8.ofNat (name.length + 128) :: enc ++ w ++ r'.1, r'.2)
end

mutual
/-- `countFoldersIn` (fnt.py 380–384). -/
def countFolders : Folder → Nat
  | .mk folders _ _ => countFoldersIn folders + 1
/-- The loop of `countFoldersIn` (fnt.py 381–383). -/
def countFoldersIn : Folders → Nat
  | .nil => 0
  | .cons _ f rest => countFolders f + countFoldersIn rest
end

/-- The final loop (fnt.py 395–405) over the entries in order of increasing ID. -/
def writeEntries : List Entry → Bytes → Py Bytes
  | [], fnt => .ok fnt
  | e :: es, fnt => do
    let a ← packU .little 4 fnt.length
    let b ← packUInt .little 2 e.firstID
    let c ← packU .little 2 e.parent
    let fnt ← packInto fnt (8 * (e.id % 4096)) (a ++ b ++ c)
    writeEntries es (fnt ++ e.table)

/-- `fnt.save` (fnt.py 312–407). -/
def save (root : Folder) : Py Bytes := do
  let rootParent := countFolders root
  let r ← parseFolder root rootParent ⟨0xF000, []⟩
  pyAssert (r.1 = 0xF000)
  let entries := r.2.entries
  let fnt := zeros (entries.length * 8)
  writeEntries (sortBy Entry.id entries) fnt

end Verif.Model.Fnt
