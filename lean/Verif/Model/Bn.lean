import Verif.Model.Util

/-!
# Model of `ndspy/bnbl.py` and `ndspy/bncl.py`

Not modelled here: `fromFile`, `saveToFile` (see `Files.lean`), `_draw` and `__str__` (see `BnText.lean`).  `__repr__` is in `ReprClasses.lean`.
-/

namespace Verif.Model.Bn

open Verif Verif.Model.Util

/-- `BNBLTouchArea` (bnbl.py 17–23). -/
structure TouchArea where
  x : Int
  y : Int
  width : Int
  height : Int
  alignment : Nat
  deriving DecidableEq, Repr

/-- `BNBLTouchArea.fromData` (bnbl.py 26–30). -/
def TouchArea.fromData (data : Bytes) : Py TouchArea := do
  let xPack ← unpackU .little 2 data 0
  let yPack ← unpackU .little 2 data 2
  let w ← unpackU .little 1 data 4
  let h ← unpackU .little 1 data 5
  let r := unpackAlignment xPack yPack
  return ⟨r.1, r.2.1, w, h, r.2.2⟩

/-- `BNBLTouchArea.getTopLeft` (bnbl.py 33–36). -/
def TouchArea.getTopLeft (t : TouchArea) : Int × Int := topLeft t.x t.y t.width t.height t.alignment

/-- `BNBLTouchArea.save` (bnbl.py 39–42). -/
def TouchArea.save (t : TouchArea) : Py Bytes := do
  let r := packAlignment t.x t.y t.alignment
  let a ← packU .little 2 r.1
  let b ← packU .little 2 r.2
  let c ← packUInt .little 1 t.width
  let d ← packUInt .little 1 t.height
  return a ++ b ++ c ++ d

/-- `BNBL` (bnbl.py 58–64). -/
structure BNBL where
  unk04 : Int
  touchAreas : List TouchArea
  deriving DecidableEq, Repr

/-- `b'JNBL'`. -/
def magicJNBL : Bytes := [0x4A, 0x4E, 0x42, 0x4C]

/-- `BNBL._initFromData` (bnbl.py 67–75). -/
def BNBL.load (data : Bytes) : Py BNBL := do
  raiseIf (slice data 0 4 ≠ magicJNBL) .valueError
  let unk04 ← unpackU .little 2 data 4
  let numEntries ← unpackU .little 2 data 6
  let areas ← mapE (fun i => TouchArea.fromData (slice data (8 + i * 6) (8 + i * 6 + 6))) (List.range numEntries)
  return ⟨unk04, areas⟩

/-- `BNBL.save` (bnbl.py 95–103). -/
def BNBL.save (b : BNBL) : Py Bytes := do
  let u ← packUInt .little 2 b.unk04
  let n ← packU .little 2 b.touchAreas.length
  let parts ← mapE TouchArea.save b.touchAreas
  return magicJNBL ++ u ++ n ++ parts.flatten

/-- `BNCLImagePosition` (bncl.py 17–22). -/
structure ImagePosition where
  x : Int
  y : Int
  alignment : Nat
  imageID : Int
  deriving DecidableEq, Repr

/-- `BNCLImagePosition.fromData` (bncl.py 25–29). -/
def ImagePosition.fromData (data : Bytes) : Py ImagePosition := do
  let xPack ← unpackU .little 2 data 0
  let yPack ← unpackU .little 2 data 2
  let imageID ← unpackU .little 4 data 4
  let r := unpackAlignment xPack yPack
  return ⟨r.1, r.2.1, r.2.2, imageID⟩

/-- `BNCLImagePosition.save` (bncl.py 32–35). -/
def ImagePosition.save (p : ImagePosition) : Py Bytes := do
  let r := packAlignment p.x p.y p.alignment
  let a ← packU .little 2 r.1
  let b ← packU .little 2 r.2
  let c ← packUInt .little 4 p.imageID
  return a ++ b ++ c

/-- `BNCL` (bncl.py 51–57). -/
structure BNCL where
  unk04 : Int
  imagePositions : List ImagePosition
  deriving DecidableEq, Repr

/-- `b'JNCL'`. -/
def magicJNCL : Bytes := [0x4A, 0x4E, 0x43, 0x4C]

/-- `BNCL._initFromData` (bncl.py 60–68). -/
def BNCL.load (data : Bytes) : Py BNCL := do
  raiseIf (slice data 0 4 ≠ magicJNCL) .valueError
  let unk04 ← unpackU .little 2 data 4
  let numEntries ← unpackU .little 2 data 6
  let l ← mapE (fun i => ImagePosition.fromData (slice data (8 + i * 8) (8 + i * 8 + 8))) (List.range numEntries)
  return ⟨unk04, l⟩

/-- `BNCL.save` (bncl.py 88–96). -/
def BNCL.save (b : BNCL) : Py Bytes := do
  let u ← packUInt .little 2 b.unk04
  let n ← packU .little 2 b.imagePositions.length
  let parts ← mapE ImagePosition.save b.imagePositions
  return magicJNCL ++ u ++ n ++ parts.flatten

end Verif.Model.Bn
