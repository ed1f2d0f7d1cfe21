import Verif.Base.Dict
import Verif.Base.Sort
import Verif.Base.Struct
import Verif.Model.Fnt
import Verif.Model.InfoBlock
import Verif.Model.Util

/-!
# Model of `ndspy/rom.py`

Numbers of the header are natural numbers, except the device capacity, which `save` can compute to be negative, and the
sorted file IDs, which a user may set to anything.  Not modelled here: `fromFile`, `saveToFile` (see `Files.lean`), the `load*` functions (see `RomCode.lean`), `__str__` (see `Summary.lean`),
`__repr__` (see `ReprArchive.lean`).
-/

namespace Verif.Model.Rom

open Verif Verif.Model.Fnt Verif.Model.Util

/-- `NintendoDSRom` (rom.py 42–88, 126–127). -/
structure Rom where
  name : Bytes
  idCode : Bytes
  developerCode : Bytes
  unitCode : Nat
  encryptionSeedSelect : Nat
  deviceCapacity : Int
  pad015 : Nat
  pad016 : Nat
  pad017 : Nat
  pad018 : Nat
  pad019 : Nat
  pad01A : Nat
  pad01B : Nat
  pad01C : Nat
  region : Nat
  version : Nat
  autostart : Nat
  arm9EntryAddress : Nat
  arm9RamAddress : Nat
  arm7EntryAddress : Nat
  arm7RamAddress : Nat
  normalCardControlRegisterSettings : Nat
  secureCardControlRegisterSettings : Nat
  secureAreaChecksum : Nat
  secureTransferDelay : Nat
  arm9CodeSettingsPointerAddress : Nat
  arm7CodeSettingsPointerAddress : Nat
  secureAreaDisable : Bytes
  pad088 : Bytes
  nintendoLogo : Bytes
  debugRomAddress : Nat
  pad16C : Bytes
  pad200 : Bytes
  rsaSignature : Bytes
  arm9 : Bytes
  arm9PostData : Bytes
  arm7 : Bytes
  arm9OverlayTable : Bytes
  arm7OverlayTable : Bytes
  iconBanner : Bytes
  debugRom : Bytes
  filenames : Folder
  files : List Bytes
  sortedFileIds : List Int
  deriving DecidableEq

/-- The logo of a new ROM (rom.py 134–141). -/
def logo : Bytes :=
  [0x24, 0xFF, 0xAE, 0x51, 0x69, 0x9A, 0xA2, 0x21, 0x3D, 0x84, 0x82, 0x0A, 0x84, 0xE4, 0x09, 0xAD,
   0x11, 0x24, 0x8B, 0x98, 0xC0, 0x81, 0x7F, 0x21, 0xA3, 0x52, 0xBE, 0x19, 0x93, 0x09, 0xCE, 0x20,
   0x10, 0x46, 0x4A, 0x4A, 0xF8, 0x27, 0x31, 0xEC, 0x58, 0xC7, 0xE8, 0x33, 0x82, 0xE3, 0xCE, 0xBF,
   0x85, 0xF4, 0xDF, 0x94, 0xCE, 0x4B, 0x09, 0xC1, 0x94, 0x56, 0x8A, 0xC0, 0x13, 0x72, 0xA7, 0xFC,
   0x9F, 0x84, 0x4D, 0x73, 0xA3, 0xCA, 0x9A, 0x61, 0x58, 0x97, 0xA3, 0x27, 0xFC, 0x03, 0x98, 0x76,
   0x23, 0x1D, 0xC7, 0x61, 0x03, 0x04, 0xAE, 0x56, 0xBF, 0x38, 0x84, 0x00, 0x40, 0xA7, 0x0E, 0xFD,
   0xFF, 0x52, 0xFE, 0x03, 0x6F, 0x95, 0x30, 0xF1, 0x97, 0xFB, 0xC0, 0x85, 0x60, 0xD6, 0x80, 0x25,
   0xA9, 0x63, 0xBE, 0x03, 0x01, 0x4E, 0x38, 0xE2, 0xF9, 0xA2, 0x34, 0xFF, 0xBB, 0x3E, 0x03, 0x44,
   0x78, 0x00, 0x90, 0xCB, 0x88, 0x11, 0x3A, 0x94, 0x65, 0xC0, 0x7C, 0x63, 0x87, 0xF0, 0x3C, 0xAF,
   0xD6, 0x25, 0xE4, 0x8B, 0x38, 0x0A, 0xAC, 0x72, 0x21, 0xD4, 0xF8, 0x07]

/-- `_initAsNew` (rom.py 100–158). -/
def new : Rom where
  name := []
  idCode := [0x23, 0x23, 0x23, 0x23]
  developerCode := [0, 0]
  unitCode := 0
  encryptionSeedSelect := 0
  deviceCapacity := 9
  pad015 := 0
  pad016 := 0
  pad017 := 0
  pad018 := 0
  pad019 := 0
  pad01A := 0
  pad01B := 0
  pad01C := 0
  region := 0
  version := 0
  autostart := 0
  arm9EntryAddress := 0x2000800
  arm9RamAddress := 0x2000000
  arm7EntryAddress := 0x2380000
  arm7RamAddress := 0x2380000
  normalCardControlRegisterSettings := 0x0416657
  secureCardControlRegisterSettings := 0x81808f8
  secureAreaChecksum := 0x0000
  secureTransferDelay := 0x0D7E
  arm9CodeSettingsPointerAddress := 0
  arm7CodeSettingsPointerAddress := 0
  secureAreaDisable := zeros 8
  pad088 := zeros 0x38
  nintendoLogo := logo
  debugRomAddress := 0
  pad16C := zeros 0x94
  pad200 := zeros 0x3E00
  rsaSignature := []
  arm9 := []
  arm9PostData := []
  arm7 := []
  arm9OverlayTable := []
  arm7OverlayTable := []
  iconBanner := []
  debugRom := []
  filenames := emptyFolder
  files := []
  sortedFileIds := []

/-! ## Saving -/

/-- `_ICON_BANNER_LENGTHS.get(version, _ICON_BANNER_LENGTHS[1])` (rom.py 33–39, 279, 405). -/
def iconBannerLength (version : Nat) : Nat :=
  match [(0x0001, 0x840), (0x0002, 0x940), (0x0003, 0x1240), (0x0103, 0x23C0)].lookup version with
  | some n => n
  | none => 0x840

/-- The image while it is built and `fileOffsets` (rom.py 334, 337). -/
structure St where
  data : Bytes
  offsets : List (Int × Nat)
  deriving DecidableEq, Repr

/-- One overlay (rom.py 365–368, 385–388). -/
def packOverlay (files : List Bytes) (table : Bytes) (s : St) (i : Nat) : Py St := do
  let fileId ← unpackU .little 4 table (i + 0x18)
  let file ← pyIdx files fileId
  return ⟨padTo (s.data ++ file) 0x200 0xFF, dictSet s.offsets (fileId : Int) s.data.length⟩

/-- A loop over a list. -/
def forEach {σ α : Type} (body : σ → α → Py σ) : List α → σ → Py σ
  | [], s => .ok s
  | a :: as, s => do
    let s ← body s a
    forEach body as s

/-- `for i in range(0, len(table), 32)` (rom.py 364–368, 384–388). -/
def packOverlays (files : List Bytes) (table : Bytes) (s : St) : Py St :=
  forEach (packOverlay files table) ((List.range ((table.length + 31) / 32)).map (32 * ·)) s

/-- A part that is left out if it is empty, and then has the offset 0 (rom.py 356–361, 376–381, 403–411, 416–421). -/
def optionalPart (part data : Bytes) : Nat × Bytes :=
  if part = [] then (0, data) else (data.length, padTo (data ++ part) 0x200 0xFF)

/-- The test of the banner's length (rom.py 403–406). -/
def checkIconBanner (iconBanner : Bytes) : Py Unit :=
  if iconBanner = [] then .ok ()
  else do
    let version ← unpackU .little 2 iconBanner 0
    pyAssert (iconBanner.length = iconBannerLength version)

/-- One file number of `iterFilenums` and the body of the loop over it (rom.py 424–437).  The generator is lazy, so it
sees the offsets of the files placed before. -/
def placeFile (files : List Bytes) (s : St) (fileNum : Int) : Py St :=
  if (s.offsets.lookup fileNum).isSome = true ∨ (files.length : Int) ≤ fileNum then .ok s
  else do
    let file ← pyIdxI files fileNum
    return ⟨padTo s.data 0x200 0xFF ++ file, dictSet s.offsets fileNum (padTo s.data 0x200 0xFF).length⟩

/-- The loop over all the file numbers (rom.py 424–437).  The second part of the generator only yields numbers below the
number of files. -/
def placeFiles (files : List Bytes) (sortedFileIds : List Int) (s : St) : Py St :=
  forEach (placeFile files) (sortedFileIds ++ (List.range files.length).map Int.ofNat) s

/-- One entry of the file allocation table (rom.py 440–444). -/
def fatEntry (offsets : List (Int × Nat)) (x : Nat × Bytes) : Py Bytes :=
  match offsets.lookup (x.1 : Int) with
  | none => .error .assertionError
  | some start => packUs .little [(4, start), (4, start + x.2.length)]

/-- The offsets that the header needs (local variables of `save`, rom.py 350–448). -/
structure Offsets where
  arm9 : Nat
  arm9OvT : Nat
  arm7 : Nat
  arm7OvT : Nat
  fnt : Nat
  fntLen : Nat
  fat : Nat
  iconBanner : Nat
  debugRom : Nat
  rsaSignature : Nat
  deriving DecidableEq, Repr

/-- `data[headerOffset] = value` (rom.py 470–473). -/
def write8 (v : Int) : Py Bytes :=
  if 0 ≤ v ∧ v < 256 then .ok [UInt8.ofNat v.toNat] else .error .valueError

/-- `value.ljust(n, b'\0')[:n]` (rom.py 484, 531). -/
def fixed (n : Nat) (b : Bytes) : Bytes := (b ++ zeros (n - b.length)).take n

/-- The bytes from 0x12 to 0x1F (rom.py 489–503). -/
def headerSmall (r : Rom) (deviceCapacity : Int) : List Int :=
  [r.unitCode, r.encryptionSeedSelect, deviceCapacity, r.pad015, r.pad016, r.pad017, r.pad018, r.pad019, r.pad01A,
    r.pad01B, r.pad01C, r.region, r.version, r.autostart]

/-- The words from 0x20 to 0x5F (rom.py 505–521). -/
def headerWords1 (r : Rom) (o : Offsets) : List (Nat × Nat) :=
  [(4, o.arm9), (4, r.arm9EntryAddress), (4, r.arm9RamAddress), (4, r.arm9.length), (4, o.arm7),
    (4, r.arm7EntryAddress), (4, r.arm7RamAddress), (4, r.arm7.length), (4, o.fnt), (4, o.fntLen), (4, o.fat),
    (4, r.files.length * 8), (4, o.arm9OvT), (4, r.arm9OverlayTable.length), (4, o.arm7OvT),
    (4, r.arm7OverlayTable.length)]

/-- The words from 0x60 to 0x77 (rom.py 523–530). -/
def headerWords2 (r : Rom) (o : Offsets) : List (Nat × Nat) :=
  [(4, r.normalCardControlRegisterSettings), (4, r.secureCardControlRegisterSettings), (4, o.iconBanner),
    (2, r.secureAreaChecksum), (2, r.secureTransferDelay), (4, r.arm9CodeSettingsPointerAddress),
    (4, r.arm7CodeSettingsPointerAddress)]

/-- The words from 0x160 to 0x16B (rom.py 542–544). -/
def headerWords3 (r : Rom) (o : Offsets) : List (Nat × Nat) :=
  [(4, o.debugRom), (4, r.debugRom.length), (4, r.debugRomAddress)]

/-- The header up to 0x15D (rom.py 484–539), with the checksum of the logo. -/
def headerFront (r : Rom) (deviceCapacity : Int) (o : Offsets) : Py Bytes := do
  pyAssert (r.idCode.length = 4)
  pyAssert (r.developerCode.length = 2)
  let small ← mapE write8 (headerSmall r deviceCapacity)
  let w1 ← packUs .little (headerWords1 r o)
  let w2 ← packUs .little (headerWords2 r o)
  let w3 ← packUs .little [(4, o.rsaSignature), (4, 0x4000)]
  pyAssert (r.pad088.length = 0x38)
  pyAssert (r.nintendoLogo.length = 0x9C)
  let crc ← packU .little 2 (crc16 r.nintendoLogo)
  return fixed 12 r.name ++ r.idCode ++ r.developerCode ++ small.flatten ++ w1 ++ w2 ++ fixed 8 r.secureAreaDisable ++
    w3 ++ r.pad088 ++ r.nintendoLogo ++ crc

/-- The whole header (rom.py 484–547).  It is written into the first 0x200 bytes from left to right, so when the checksum
is computed, the bytes before it are the final ones. -/
def header (r : Rom) (deviceCapacity : Int) (o : Offsets) : Py Bytes := do
  let front ← headerFront r deviceCapacity o
  let crc ← packU .little 2 (crc16 front)
  let w ← packUs .little (headerWords3 r o)
  pyAssert (r.pad16C.length = 0x94)
  return front ++ crc ++ w ++ r.pad16C

/-- The image up to the files that are not overlays, without the contents of the file allocation table (rom.py 336–421),
and the offsets. -/
def buildFront (r : Rom) : Py (St × Offsets) := do
  let d0 := padTo (zeros 0x200 ++ r.pad200) 0x4000 0
  let d1 := padTo (d0 ++ r.arm9 ++ r.arm9PostData) 0x200 0xFF
  let p9 := optionalPart r.arm9OverlayTable d1
  let s2 ← packOverlays r.files r.arm9OverlayTable ⟨p9.2, []⟩
  let d3 := padTo (s2.data ++ r.arm7) 0x200 0xFF
  let p7 := optionalPart r.arm7OverlayTable d3
  let s4 ← packOverlays r.files r.arm7OverlayTable ⟨p7.2, s2.offsets⟩
  let fnt ← Fnt.save r.filenames
  let d5 := padTo (s4.data ++ fnt) 0x200 0xFF
  let d6 := padTo (d5 ++ zeros (8 * r.files.length)) 0x200 0xFF
  checkIconBanner r.iconBanner
  let pi := optionalPart r.iconBanner d6
  let pd := optionalPart r.debugRom pi.2
  return (⟨pd.2, s4.offsets⟩, ⟨d0.length, p9.1, s2.data.length, p7.1, s4.data.length, fnt.length, d5.length, pi.1, pd.1, 0⟩)

/-- `math.ceil(math.log2(n)) - 17` (rom.py 461), for `n` from 2; the lengths that occur are too small for rounding to
matter. -/
def capacity (n : Nat) : Int := (Nat.log2 (n - 1) + 1 : Nat) - 17

/-- The image with everything but the header, and the offsets (rom.py 336–456). -/
def buildImage (r : Rom) : Py (Bytes × Offsets) := do
  let f ← buildFront r
  let s ← placeFiles r.files r.sortedFileIds f.1
  let fat ← mapE (fatEntry s.offsets) ((List.range r.files.length).zip r.files)
  let d1 ← packInto s.data f.2.fat fat.flatten
  let d2 := padTo d1 0x20 0
  let sig ← packU .little 4 d2.length
  let d3 ← packInto (d2 ++ r.rsaSignature) 0x1000 sig
  return (padTo d3 0x400 0, { f.2 with rsaSignature := d2.length })

/-- `NintendoDSRom.save(updateDeviceCapacity=...)` (rom.py 329–549): the image and the ROM afterwards, whose device capacity
may have changed. -/
def save (r : Rom) (updateDeviceCapacity : Bool) : Py (Bytes × Rom) := do
  let i ← buildImage r
  let c := if updateDeviceCapacity = true then capacity i.1.length else r.deviceCapacity
  let h ← header r c i.2
  return (patch i.1 0 h, { r with deviceCapacity := c })

/-! ## Loading -/

/-- `b'\x21\x06\xC0\xDE'` (rom.py 296). -/
def postMagic : Bytes := [0x21, 0x06, 0xC0, 0xDE]

/-- The loop that reads the data behind ARM9 (rom.py 293–299).  Each round begins inside the data, so as many rounds as
there are bytes suffice. -/
def readPostData (data : Bytes) : (fuel : Nat) → (off : Nat) → Bytes
  | 0, _ => []
  | fuel + 1, off =>
    if slice data off (off + 4) = postMagic then slice data off (off + 12) ++ readPostData data fuel (off + 12) else []

/-- The offset of the signature (rom.py 259–263). -/
def sigOffset (data : Bytes) (romSizeOrRsaSigOffset : Nat) : Py Nat := do
  let o ← if 0x1004 ≤ data.length then unpackU .little 4 data 0x1000 else .ok 0
  if o = 0 ∧ romSizeOrRsaSigOffset < data.length then return romSizeOrRsaSigOffset else return o

/-- The banner (rom.py 277–283). -/
def readIconBanner (data : Bytes) (off : Nat) : Py Bytes :=
  if off = 0 then .ok []
  else do
    let version ← unpackU .little 2 data off
    return slice data off (off + iconBannerLength version)

/-- One entry of the file allocation table: the start offset and the file (rom.py 313–314). -/
def readFile (data fat : Bytes) (i : Nat) : Py (Nat × Bytes) := do
  let f ← unpackUs .little [4, 4] fat (8 * i)
  match f with
  | [startOffset, endOffset] => return (startOffset, slice data startOffset endOffset)
  | _ => .error .structError

/-- The file IDs in order of their offsets; of several with the same offset the last one (rom.py 308–317). -/
def sortIds (starts : List Nat) : List Int :=
  (sortBy Prod.fst (((List.range starts.length).zip starts).foldl
    (fun (d : List (Nat × Int)) (x : Nat × Nat) => dictSet d x.2 (x.1 : Int)) [])).map Prod.snd

/-- `_initFromData` (rom.py 161–317).  The name is read with `readRaw(12).rstrip(b'\0')` (rom.py 196).  `limit` is the recursion limit for `fnt.load`. -/
def load (limit : Nat) (raw : Bytes) : Py Rom := do
  let data := raw ++ zeros (0x200 - raw.length)
  let small ← unpackUs .little [1, 1, 1, 1, 1, 1, 1, 1, 1, 1, 1, 1, 1, 1] data 0x12
  let w1 ← unpackUs .little [4, 4, 4, 4, 4, 4, 4, 4, 4, 4, 4, 4, 4, 4, 4, 4] data 0x20
  let w2 ← unpackUs .little [4, 4, 4, 2, 2, 4, 4] data 0x60
  let w3 ← unpackUs .little [4, 4] data 0x80
  let w4 ← unpackUs .little [4, 4, 4] data 0x160
  match small, w1, w2, w3, w4 with
  | [unitCode, encryptionSeedSelect, deviceCapacity, pad015, pad016, pad017, pad018, pad019, pad01A, pad01B, pad01C,
      region, version, autostart],
    [arm9Offset, arm9EntryAddress, arm9RamAddress, arm9Len, arm7Offset, arm7EntryAddress, arm7RamAddress, arm7Len,
      fntOffset, fntLen, fatOffset, fatLen, arm9OvTOffset, arm9OvTLen, arm7OvTOffset, arm7OvTLen],
    [normalSettings, secureSettings, iconBannerOffset, secureAreaChecksum, secureTransferDelay, arm9CodeSettings,
      arm7CodeSettings],
    [romSizeOrRsaSigOffset, _],
    [debugRomOffset, debugRomSize, debugRomAddress] => do
    let realSigOffset ← sigOffset data romSizeOrRsaSigOffset
    let iconBanner ← readIconBanner data iconBannerOffset
    let filenames ← if slice data fntOffset (fntOffset + fntLen) = [] then .ok emptyFolder
      else Fnt.load limit (slice data fntOffset (fntOffset + fntLen))
    let entries ← mapE (readFile data (slice data fatOffset (fatOffset + fatLen)))
      (List.range ((slice data fatOffset (fatOffset + fatLen)).length / 8))
    return {
      name := InfoBlock.rstripZero (slice data 0 12)
      idCode := slice data 12 16
      developerCode := slice data 16 18
      unitCode, encryptionSeedSelect
      deviceCapacity := (deviceCapacity : Int)
      pad015, pad016, pad017, pad018, pad019, pad01A, pad01B, pad01C, region, version, autostart
      arm9EntryAddress, arm9RamAddress, arm7EntryAddress, arm7RamAddress
      normalCardControlRegisterSettings := normalSettings
      secureCardControlRegisterSettings := secureSettings
      secureAreaChecksum, secureTransferDelay
      arm9CodeSettingsPointerAddress := arm9CodeSettings
      arm7CodeSettingsPointerAddress := arm7CodeSettings
      secureAreaDisable := slice data 0x78 0x80
      pad088 := slice data 0x88 0xC0
      nintendoLogo := slice data 0xC0 0x15C
      debugRomAddress
      pad16C := slice data 0x16C 0x200
      pad200 := slice data 0x200 (min arm9Offset data.length)
      rsaSignature := if realSigOffset = 0 then [] else slice data realSigOffset (min data.length (realSigOffset + 0x88))
      arm9 := slice data arm9Offset (arm9Offset + arm9Len)
      arm9PostData := readPostData data data.length (arm9Offset + arm9Len)
      arm7 := slice data arm7Offset (arm7Offset + arm7Len)
      arm9OverlayTable := slice data arm9OvTOffset (arm9OvTOffset + arm9OvTLen)
      arm7OverlayTable := slice data arm7OvTOffset (arm7OvTOffset + arm7OvTLen)
      iconBanner
      debugRom := if debugRomOffset = 0 then [] else slice data debugRomOffset (debugRomOffset + debugRomSize)
      filenames
      files := entries.map Prod.snd
      sortedFileIds := sortIds (entries.map Prod.fst) }
  | _, _, _, _, _ => .error .structError

/-! ## Files by name -/

/-- `getFileByName` (rom.py 605–613). -/
def getFileByName (r : Rom) (name : Str) : Py Bytes := do
  match ← idOf r.filenames name with
  | none => raise .valueError
  | some fid => pyIdxI r.files fid

/-- `setFileByName` (rom.py 616–624): returns the changed ROM. -/
def setFileByName (r : Rom) (name : Str) (data : Bytes) : Py Rom := do
  match ← idOf r.filenames name with
  | none => raise .valueError
  | some fid =>
    let files ← pySetI r.files fid data
    return { r with files := files }

end Verif.Model.Rom
