import Verif.Model.Files
import Verif.Spec.Nested

/-!
# The programs of the documentation that work on the files of a ROM (C156)

The programs are written with the calls of the library that they make; what they do besides (going through a list, printing,
opening files) is written out here.  The vocabulary for what they are to do comes after them.
-/

namespace Verif.Spec.Programs

open Verif Verif.Model Verif.Model.Files

/-! ## The programs -/

/-- Going through the files and printing the names of some (docs/source/index.rst 150–158):

    for i, file in enumerate(rom.files):
        if file.startswith(magic):
            print(rom.filenames[i] + suffix)

Returns the lines that are printed, and how the program ends.  The list is what is left of the files, and `i` the number of
the first of them.  (That `rom.filenames[i]` could be something other than a string is kept open here.) -/
def search (names : Fnt.Folder) (magic : Bytes) (suffix : Str) : Nat → List Bytes → List Str × Py Unit
  | _, [] => ([], .ok ())
  | i, file :: rest =>
    if magic.isPrefixOf file then
      match Fnt.getInt names i with
      | .ok (.path p) =>
        let (lines, result) := search names magic suffix (i + 1) rest
        ((p ++ suffix) :: lines, result)
      | .ok _ => ([], .error .typeError)
      | .error e => ([], .error e)
    else search names magic suffix (i + 1) rest

/-- The other program (docs/source/api/rom.rst 82–87) prints `rom.filenames.filenameOf(i)`; `none` stands for `None`. -/
def searchNames (names : Fnt.Folder) (magic : Bytes) : Nat → List Bytes → List (Option Str)
  | _, [] => []
  | i, file :: rest =>
    if magic.isPrefixOf file then Fnt.filenameOf names i :: searchNames names magic (i + 1) rest
    else searchNames names magic (i + 1) rest

/-- Something that changes no file, and with its result something that may. -/
def andThen {α : Type} (x : Py α) (save : α → FS → Py Unit × FS) (fs : FS) : Py Unit × FS :=
  match x with
  | .error e => (.error e, fs)
  | .ok a => save a fs

/-- Extracting a file (docs/source/tutorials/rom-editing.rst 339–346):

    rom = NintendoDSRom.fromFile(source)
    data = rom.getFileByName(name)
    with open(target, 'wb') as f:
        f.write(data) -/
def extract (limit : Nat) (source : Path) (name : Str) (target : Path) (fs : FS) : Py Unit × FS :=
  writeWith (do
    let r ← romFromFile limit source fs
    Rom.getFileByName r name) target fs

/-- Putting a file into a ROM (docs/source/tutorials/rom-editing.rst 438–447, api/rom.rst 63–71):

    rom = NintendoDSRom.fromFile(source)
    with open(new, 'rb') as f:
        data = f.read()
    rom.setFileByName(name, data)
    rom.saveToFile(target) -/
def replace (limit : Nat) (source new : Path) (name : Str) (target : Path) (fs : FS) : Py Unit × FS :=
  andThen (do
    let r ← romFromFile limit source fs
    let data ← fs.read new
    Rom.setFileByName r name data)
    (fun r => romSaveToFile r target false) fs

/-- Loading a ROM and saving it again. -/
def resave (limit : Nat) (source target : Path) (fs : FS) : Py Unit × FS :=
  andThen (romFromFile limit source fs) (fun r => romSaveToFile r target false) fs

/-- `rom.files[rom.filenames[name]]` (docs/source/tutorials/rom-editing.rst 279–284).  A folder is no index. -/
def getById (r : Rom.Rom) (name : Str) : Py Bytes := do
  match ← Fnt.getStr r.filenames name with
  | .id i => pyIdxI r.files i
  | _ => .error .typeError

/-- `rom.files[rom.filenames[name]] = data` (docs/source/tutorials/rom-editing.rst 390). -/
def setById (r : Rom.Rom) (name : Str) (data : Bytes) : Py Rom.Rom := do
  match ← Fnt.getStr r.filenames name with
  | .id i =>
    let files ← pySetI r.files i data
    return { r with files := files }
  | _ => .error .typeError

/-- Several calls of `setFileByName`, one after another (docs/source/tutorials/narc-editing.rst 285–286). -/
def setAll (n : Narc.NARC) : List (Str × Bytes) → Py Narc.NARC
  | [] => .ok n
  | (name, data) :: rest => do
    let n ← Narc.setFileByName n name data
    setAll n rest

/-- Reading several files, for each of the names the one that is to be put there (docs/source/tutorials/narc-editing.rst
262–265). -/
def readAll (fs : FS) : List (Str × Path) → Py (List (Str × Bytes))
  | [] => .ok []
  | (name, p) :: rest => do
    let d ← fs.read p
    let ds ← readAll fs rest
    return (name, d) :: ds

/-- Editing an archive (docs/source/tutorials/narc-editing.rst 326–338): `NARC.fromFile`, reading the new files,
`setFileByName` for each, `saveToFile`. -/
def editNarc (limit : Nat) (source : Path) (edits : List (Str × Path)) (target : Path) (fs : FS) : Py Unit × FS :=
  andThen (do
    let n ← narcFromFile limit source fs
    let datas ← readAll fs edits
    setAll n datas)
    (fun n => narcSaveToFile n target) fs

/-- Editing an archive in a ROM (docs/source/api/narc.rst 68–95):

    rom = NintendoDSRom.fromFile(source)
    narc = NARC(rom.getFileByName(archive))
    narc.setFileByName(name, data)
    rom.setFileByName(archive, narc.save())
    rom.saveToFile(target)

with any number of calls of `narc.setFileByName`. -/
def editNarcInRom (limit : Nat) (source : Path) (archive : Str) (edits : List (Str × Bytes)) (target : Path) (fs : FS) :
    Py Unit × FS :=
  andThen (do
    let r ← romFromFile limit source fs
    let f ← Rom.getFileByName r archive
    let n ← Narc.load limit f
    let n ← setAll n edits
    let b ← Narc.save n
    Rom.setFileByName r archive b)
    (fun r => romSaveToFile r target false) fs

/-! ## What they are to do -/

/-- The file with that number begins with these bytes. -/
def Matches (files : List Bytes) (magic : Bytes) (i : Nat) : Prop := ∃ t, files[i]? = some (magic ++ t)

/-- The numbers of all files that begin with these bytes, from the lowest to the highest. -/
def AllMatches (files : List Bytes) (magic : Bytes) (ids : List Nat) : Prop :=
  ids.Pairwise (· < ·) ∧ ∀ i, i ∈ ids ↔ Matches files magic i

/-- The last of the changes whose name denotes this file of the archive. -/
def Last (names : Fnt.Folder) (count : Nat) (edits : List (Str × Bytes)) (k : Nat) (data : Bytes) : Prop :=
  ∃ before name after, edits = before ++ (name, data) :: after ∧ Nested.Denotes names count name k ∧
    ∀ e ∈ after, ¬ Nested.Denotes names count e.1 k

/-- None of the changes is for this file. -/
def Untouched (names : Fnt.Folder) (count : Nat) (edits : List (Str × Bytes)) (k : Nat) : Prop :=
  ∀ e ∈ edits, ¬ Nested.Denotes names count e.1 k

end Verif.Spec.Programs
