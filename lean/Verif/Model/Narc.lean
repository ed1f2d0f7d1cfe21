import Verif.Model.Common
import Verif.Model.Fnt

/-!
# Model of `ndspy/narc.py`

Not modelled here: `fromFile`, `saveToFile` (see `Files.lean`), `__str__` (see
`Listing.lean`).  `__repr__` is in `ReprClasses.lean`.
-/

namespace Verif.Model.Narc

open Verif Verif.Model.Common Verif.Model.Fnt

/-- `NARC` (narc.py 35–47).  `beginning` is `endiannessOfBeginning`. -/
structure NARC where
  filenames : Folder
  files : List Bytes
  beginning : Endian
  deriving DecidableEq

/-- `fromFilesAndNames` (narc.py 96–107). -/
def fromFilesAndNames (files : List Bytes) (filenames : Option Folder) : NARC :=
  ⟨filenames.getD emptyFolder, files, .little⟩

/-- `b'NARC'`. -/
def magicNARC : Bytes := [0x4E, 0x41, 0x52, 0x43]
/-- `b'FATB'[::-1]`. -/
def magicFATB : Bytes := [0x42, 0x54, 0x41, 0x46]
/-- `b'FNTB'[::-1]`. -/
def magicFNTB : Bytes := [0x42, 0x54, 0x4E, 0x46]
/-- `b'FIMG'[::-1]`. -/
def magicFIMG : Bytes := [0x47, 0x4D, 0x49, 0x46]

/-- One iteration of the loop over the files (narc.py 86–88). -/
def loadFile (data : Bytes) (rawDataOffset i : Nat) : Py Bytes := do
  let startOffset ← unpackU .little 4 data (0x1C + 8 * i)
  let endOffset ← unpackU .little 4 data (0x1C + 8 * i + 4)
  return slice data (rawDataOffset + startOffset) (rawDataOffset + endOffset)

/-- `NARC._initFromData` (narc.py 50–93).  `limit` is the recursion limit for `fnt.load`. -/
def load (limit : Nat) (data : Bytes) : Py NARC := do
  let h ← unpackStdHeader data 0
  let big := h.bom = 0xFFFE
  let version := if big then h.version % 256 * 256 + h.version / 256 else h.version
  raiseIf (version ≠ 1) .valueError
  raiseIf (h.magic ≠ magicNARC) .valueError
  let fatbMagic ← unpackStr 4 data 0x10
  let fatbSize ← unpackU .little 4 data 0x14
  let fileCount ← unpackU .little 4 data 0x18
  pyAssert (fatbMagic = magicFATB)
  let fntbOffset := 0x10 + fatbSize
  let fntbMagic ← unpackStr 4 data fntbOffset
  let fntbSize ← unpackU .little 4 data (fntbOffset + 4)
  pyAssert (fntbMagic = magicFNTB)
  let fimgOffset := fntbOffset + fntbSize
  let fimgMagic ← unpackStr 4 data fimgOffset
  let _gmifSize ← unpackU .little 4 data (fimgOffset + 4)
  pyAssert (fimgMagic = magicFIMG)
  let rawDataOffset := fimgOffset + 8
  let files ← mapE (loadFile data rawDataOffset) (List.range fileCount)
  let filenames ← Fnt.load limit (slice data (fntbOffset + 8) (fntbOffset + fntbSize))
  return ⟨filenames, files, if big then .big else .little⟩

/-- The loop that writes files into the FIMG and FAT blocks (narc.py 133–139).  `fimg` begins with the eight
bytes reserved at narc.py 126. -/
def writeFiles : List Bytes → (fimg fatb : Bytes) → Py (Bytes × Bytes)
  | [], fimg, fatb => .ok (fimg, fatb)
  | fd :: rest, fimg, fatb => do
    let startOff := fimg.length - 8
    let endOff := startOff + fd.length
    let a ← packU .little 4 startOff
    let b ← packU .little 4 endOff
    writeFiles rest (padTo (fimg ++ fd) 4 0) (fatb ++ (a ++ b))

/-- `NARC.save` (narc.py 120–164). -/
def save (n : NARC) : Py Bytes := do
  let fatbSize ← packU .little 4 (0x0C + 8 * n.files.length)
  let fatbCount ← packU .little 4 n.files.length
  let r ← writeFiles n.files (zeros 8) (magicFATB ++ fatbSize ++ fatbCount)
  let fimgSize ← packU .little 4 r.1.length
  let fimgData ← packInto r.1 0 (magicFIMG ++ fimgSize)
  let names ← Fnt.save n.filenames
  let nameTable := padTo names 4 0xFF
  let fntbSize ← packU .little 4 (nameTable.length + 8)
  let fntbData := magicFNTB ++ fntbSize ++ nameTable
  let data := zeros 0x10 ++ r.2 ++ fntbData ++ fimgData
  let bom := if n.beginning = .big then 0xFFFE else 0xFEFF
  let version := if n.beginning = .big then 0x100 else 1
  let h ← packStdHeader ⟨magicNARC, bom, version, data.length, 0x10, 3⟩
  packInto data 0 h

/-- `NARC.getFileByName` (narc.py 175–183). -/
def getFileByName (n : NARC) (name : Str) : Py Bytes := do
  match ← idOf n.filenames name with
  | none => raise .valueError
  | some fid => pyIdxI n.files fid

/-- `NARC.setFileByName` (narc.py 186–194): returns the changed archive. -/
def setFileByName (n : NARC) (name : Str) (data : Bytes) : Py NARC := do
  match ← idOf n.filenames name with
  | none => raise .valueError
  | some fid =>
    let files ← pySetI n.files fid data
    return { n with files := files }

end Verif.Model.Narc
