import Verif.Base.Dict
import Verif.Base.Sort
import Verif.Model.CodeCompression

/-!
# Model of `ndspy/code.py`

Addresses, sizes, IDs and flags are natural numbers (a negative one would make `struct.pack` raise, or
for flags is not a meaningful value).  Not modelled here: `fromFile`, `saveToFile`, `fromCompressed` (see `Files.lean`), `__str__`,
`__repr__` (see `ReprClasses.lean`).
-/

namespace Verif.Model.Code

open Verif
open Verif.Model

/-! ## Overlays -/

/-- `Overlay` (code.py 318–332). -/
structure Overlay where
  data : Bytes
  ramAddress : Nat
  ramSize : Nat
  bssSize : Nat
  staticInitStart : Nat
  staticInitEnd : Nat
  fileID : Nat
  compressedSize : Nat
  flags : Nat
  deriving DecidableEq, Repr

/-- `x & ~m` for non-negative numbers (code.py 369, 380). -/
def andNot (x m : Nat) : Nat := x ^^^ (x &&& m)

/-- The getter `Overlay.compressed` (code.py 361–363), as a function of the flags. -/
def compressedFlag (flags : Nat) : Bool := flags &&& 1 != 0

/-- The setter `Overlay.compressed` (code.py 364–369), as a function on the flags. -/
def setCompressedFlag (flags : Nat) (value : Bool) : Nat := if value then flags ||| 1 else andNot flags 1

/-- The getter `Overlay.verifyHash` (code.py 372–374). -/
def verifyHashFlag (flags : Nat) : Bool := flags &&& 2 != 0

/-- The setter `Overlay.verifyHash` (code.py 375–380). -/
def setVerifyHashFlag (flags : Nat) (value : Bool) : Nat := if value then flags ||| 2 else andNot flags 2

/-- `Overlay.__init__` (code.py 334–359). -/
def Overlay.init (data : Bytes) (ramAddress ramSize bssSize staticInitStart staticInitEnd fileID
    compressedSize flags : Nat) : Py Overlay := do
  let d ← if compressedFlag flags then CodeCompression.decompress data else pure data
  return ⟨d, ramAddress, ramSize, bssSize, staticInitStart, staticInitEnd, fileID, compressedSize, flags⟩

/-- `Overlay.save` (code.py 383–396): the returned bytes and the changed object. -/
def Overlay.save (ov : Overlay) (compress : Bool) : Py (Bytes × Overlay) := do
  let data ← if compress then CodeCompression.compress ov.data false else pure ov.data
  return (data, { ov with
    ramSize := ov.data.length
    compressedSize := data.length
    flags := setCompressedFlag ov.flags compress })

/-- One iteration of the loop of `loadOverlayTable` (code.py 433–443). -/
def loadOverlayEntry (tableData : Bytes) (fileCallback : Nat → Nat → Py Bytes)
    (idsToLoad : Option (Nat → Bool)) (i : Nat) (ovs : List (Nat × Overlay)) :
    Py (List (Nat × Overlay)) := do
  let ovID ← unpackU .little 4 tableData i
  let ramAddr ← unpackU .little 4 tableData (i + 4)
  let ramSize ← unpackU .little 4 tableData (i + 8)
  let bssSize ← unpackU .little 4 tableData (i + 12)
  let staticInitStart ← unpackU .little 4 tableData (i + 16)
  let staticInitEnd ← unpackU .little 4 tableData (i + 20)
  let fileID ← unpackU .little 4 tableData (i + 24)
  let w ← unpackU .little 4 tableData (i + 28)
  if idsToLoad.all (fun f => f ovID) then do
    let fileData ← fileCallback ovID fileID
    let ov ← Overlay.init fileData ramAddr ramSize bssSize staticInitStart staticInitEnd fileID
      (w &&& 0xFFFFFF) (w >>> 24)
    return dictSet ovs ovID ov
  else
    return ovs

/-- The loop of `loadOverlayTable` over `n` entries from offset `i` on. -/
def loadOverlays (tableData : Bytes) (fileCallback : Nat → Nat → Py Bytes)
    (idsToLoad : Option (Nat → Bool)) : Nat → Nat → List (Nat × Overlay) → Py (List (Nat × Overlay))
  | 0, _, ovs => .ok ovs
  | n + 1, i, ovs => do
    let ovs ← loadOverlayEntry tableData fileCallback idsToLoad i ovs
    loadOverlays tableData fileCallback idsToLoad n (i + 32) ovs

/-- `loadOverlayTable` (code.py 422–445).  `range(0, len(tableData), 32)` has `⌈len / 32⌉` elements. -/
def loadOverlayTable (tableData : Bytes) (fileCallback : Nat → Nat → Py Bytes)
    (idsToLoad : Option (Nat → Bool)) : Py (List (Nat × Overlay)) :=
  loadOverlays tableData fileCallback idsToLoad ((tableData.length + 31) / 32) 0 []

/-- One table entry (code.py 461–472). -/
def saveOverlayEntry (p : Nat × Overlay) : Py Bytes := do
  let a ← packU .little 4 p.1
  let b ← packU .little 4 p.2.ramAddress
  let c ← packU .little 4 p.2.ramSize
  let d ← packU .little 4 p.2.bssSize
  let e ← packU .little 4 p.2.staticInitStart
  let f ← packU .little 4 p.2.staticInitEnd
  let g ← packU .little 4 p.2.fileID
  let h ← packU .little 4 (p.2.compressedSize ||| p.2.flags <<< 24)
  return a ++ b ++ c ++ d ++ e ++ f ++ g ++ h

/-- `saveOverlayTable` (code.py 448–474).  Iterating over the sorted keys and looking each one up visits the
items sorted by key. -/
def saveOverlayTable (table : List (Nat × Overlay)) : Py Bytes := do
  if table = [] then return []
  let es ← mapE saveOverlayEntry (sortBy Prod.fst table)
  return es.flatten

/-! ## Main code files -/

/-- The start offset CPython's `unpack_from`/`pack_into` use for a possibly negative offset into a buffer of
`len` bytes; `size` is the size of the format. -/
def structOffset (len size : Nat) (off : Int) : Py Nat :=
  if 0 ≤ off then .ok off.toNat
  else if off + size > 0 then .error .structError
  else if off + len < 0 then .error .structError
  else .ok (off + len).toNat

/-- `struct.unpack_from('<I', data, off)`. -/
def unpackI (data : Bytes) (off : Int) : Py Nat := do
  let o ← structOffset data.length 4 off
  unpackU .little 4 data o

/-- `struct.unpack_from('<3I', data, off)`. -/
def unpack3I (data : Bytes) (off : Int) : Py (Nat × Nat × Nat) := do
  let o ← structOffset data.length 12 off
  let a ← unpackU .little 4 data o
  let b ← unpackU .little 4 data (o + 4)
  let c ← unpackU .little 4 data (o + 8)
  return (a, b, c)

/-- `setInt` (code.py 231–232). -/
def setInt (data : Bytes) (addr : Int) (val : Nat) : Py Bytes := do
  let bs ← packU .little 4 val
  let o ← structOffset data.length 4 addr
  packInto data o bs

/-- The index a slice bound `i` stands for in a list of `n` elements. -/
def sliceBound (n : Nat) (i : Int) : Nat := if i < 0 then (i + n).toNat else i.toNat

/-- `data[a:b]` with possibly negative bounds. -/
def pySliceI (data : Bytes) (a b : Int) : Bytes := slice data (sliceBound data.length a) (sliceBound data.length b)

/-- `MainCodeFile.Section` (code.py 50–81). -/
structure Section where
  data : Bytes
  ramAddress : Nat
  bssSize : Nat
  implicit : Bool
  deriving DecidableEq, Repr

/-- `MainCodeFile` (code.py 96–98). -/
structure MainCodeFile where
  sections : List Section
  ramAddress : Nat
  codeSettingsOffs : Option Int
  deriving DecidableEq, Repr

/-- `21 06 C0 DE DE C0 06 21` (code.py 273). -/
def settingsMagic : Bytes := [0x21, 0x06, 0xC0, 0xDE, 0xDE, 0xC0, 0x06, 0x21]

/-- The loop over the occurrences of `expectedTableEndBytes` (code.py 286–304), over the candidate positions
`ms` in order.  `data.index(x, start)` finds the first candidate from `start` on that holds `x`. -/
def searchTableEnd (data : Bytes) (tableEnd : Nat) (endBytes : Bytes) : List Nat → Py (Option Int)
  | [] => .ok none
  | m :: ms =>
    if slice data m (m + 4) = endBytes then do
      let start ← unpackI data ((m : Int) - 4)
      if start % 4 = 0 ∧ ((tableEnd : Int) - start) % 12 = 0 ∧ (tableEnd : Int) - start < 0x100 then
        return some ((m : Int) - 4)
      else searchTableEnd data tableEnd endBytes ms
    else searchTableEnd data tableEnd endBytes ms

/-- `_searchForCodeSettingsOffs` (code.py 266–304). -/
def searchForCodeSettingsOffs (ramAddress : Nat) (data : Bytes) : Py (Option Int) :=
  match (List.range 0x2000).find? (fun i => slice data (4 * i) (4 * i + 8) = settingsMagic) with
  | some i => .ok (some (4 * (i : Int) - 0x1C))
  | none => do
    let endBytes ← packU .little 4 (ramAddress + data.length)
    searchTableEnd data (ramAddress + data.length) endBytes (List.range (data.length + 1))

/-- The code-settings offset by way of the pointer (code.py 108–120); `none` on any exception. -/
def settingsByPointer (data : Bytes) (ramAddress : Nat) : Option Nat → Option Int
  | none => none
  | some p =>
    if p = 0 then none
    else match unpackI data ((p : Int) - ramAddress - 4) with
      | .error _ => none
      | .ok addr =>
        let o := (addr : Int) - ramAddress
        if 0 ≤ o ∧ o < (data.length : Int) - 4 then some o else none

/-- Where the constructor finds the code settings (code.py 106–124). -/
def findSettings (data : Bytes) (ramAddress : Nat) (ptr : Option Nat) : Py (Option Int) :=
  match settingsByPointer data ramAddress ptr with
  | some o => .ok (some o)
  | none => searchForCodeSettingsOffs ramAddress data

/-- The loop over the section table (code.py 153–159), `n` entries from `pos` on. -/
def loadSections (data : Bytes) : Nat → Int → Int → Py (List Section)
  | 0, _, _ => .ok []
  | n + 1, pos, dataBegin => do
    let w ← unpack3I data pos
    let s : Section := ⟨pySliceI data dataBegin (dataBegin + w.2.1), w.1, w.2.2, false⟩
    let rest ← loadSections data n (pos + 12) (dataBegin + w.2.1)
    return s :: rest

/-- `copyTableBegin`, `copyTableEnd` and `dataBegin` (code.py 126–135). -/
def tableBounds (data : Bytes) (ramAddress : Nat) : Option Int → Py (Int × Int × Int)
  | some o => do
    let w ← unpack3I data o
    return ((w.1 : Int) - ramAddress, (w.2.1 : Int) - ramAddress, (w.2.2 : Int) - ramAddress)
  | none => .ok (0, 0, data.length)

/-- `MainCodeFile.__init__` (code.py 101–159).  The `while` loop advances by 12 up to a fixed end, so it runs
`⌈(end - begin) / 12⌉` times. -/
def MainCodeFile.load (data : Bytes) (ramAddress : Nat) (ptr : Option Nat) : Py MainCodeFile := do
  let data ← CodeCompression.decompress data
  let cso ← findSettings data ramAddress ptr
  let w ← tableBounds data ramAddress cso
  let first : Section := ⟨pySliceI data 0 w.2.2, ramAddress, 0, true⟩
  let rest ← loadSections data ((w.2.1 - w.1 + 11) / 12).toNat w.1 w.2.2
  return ⟨first :: rest, ramAddress, cso⟩

/-- `MainCodeFile.fromSections` (code.py 180–186). -/
def MainCodeFile.fromSections (sections : List Section) (ramAddress : Nat) : Py MainCodeFile := do
  let f ← MainCodeFile.load [] ramAddress none
  return { f with sections := sections }

/-- The first loop of `save` (code.py 203–207). -/
def joinSections (sections : List Section) : Bytes :=
  sections.foldl (fun d s => padTo (d ++ s.data) 4 0) []

/-- One entry of the section table (code.py 217–218, 223–224). -/
def sectionEntry (s : Section) : Py Bytes := do
  let a ← packU .little 4 s.ramAddress
  let b ← packU .little 4 s.data.length
  let c ← packU .little 4 s.bssSize
  return a ++ b ++ c

/-- The section table (code.py 213–224): non-empty sections, then empty ones, without the implicit ones. -/
def sectionTable (sections : List Section) : Py Bytes := do
  let a ← mapE sectionEntry (sections.filter fun s => !s.implicit && s.data.length != 0)
  let b ← mapE sectionEntry (sections.filter fun s => !s.implicit && s.data.length == 0)
  return a.flatten ++ b.flatten

/-- The part of `save` that writes the table location into the code settings (code.py 234–244). -/
def writeSettings (f : MainCodeFile) (data : Bytes) (tableAddr tableEnd : Nat) : Py Bytes :=
  match f.codeSettingsOffs with
  | some cso => do
    let data ← setInt data (cso + 0) tableAddr
    let data ← setInt data (cso + 4) tableEnd
    let s0 ← pyIdx f.sections 0
    setInt data (cso + 8) (f.ramAddress + s0.data.length)
  | none => .ok data

/-- `setInt(cso + 0x14, val)` (code.py 248, 250); without code settings, `None + 0x14` is a `TypeError`. -/
def setCompressedEnd (f : MainCodeFile) (data : Bytes) (val : Nat) : Py Bytes :=
  match f.codeSettingsOffs with
  | some cso => setInt data (cso + 0x14) val
  | none => .error .typeError

/-- `MainCodeFile.save` (code.py 198–252). -/
def MainCodeFile.save (f : MainCodeFile) (compress : Bool) : Py Bytes := do
  let joined := joinSections f.sections
  let table ← sectionTable f.sections
  let tableAddr := f.ramAddress + joined.length
  let data ← writeSettings f (joined ++ table) tableAddr (tableAddr + table.length)
  if compress then do
    let data ← CodeCompression.compress data true
    setCompressedEnd f data (f.ramAddress + data.length)
  else
    setCompressedEnd f data 0

end Verif.Model.Code
