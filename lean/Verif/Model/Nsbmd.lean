import Verif.Model.Texture

/-!
# Model of `ndspy/model.py`

NSBMD files.  The model block (MDL0) is kept as bytes and written back as it is; what is read from it besides the names of the
models is thrown away, but reading it can fail.  Not modelled: that `importNSBTX` and `exportNSBTX` share the lists of textures
and palettes between both objects, and the warnings that are printed for unknown geometry commands.
-/

namespace Verif.Model.Nsbmd

open Verif Verif.Model.Common Verif.Model.InfoBlock Verif.Model.Texture

/-- `b'BMD0'`. -/
def BMD0 : Bytes := [0x42, 0x4D, 0x44, 0x30]

/-- `b'MDL0'`. -/
def MDL0 : Bytes := [0x4D, 0x44, 0x4C, 0x30]

/-! ## Display lists -/

/-- `_COMMANDS_BY_ID` with the `PARAM_COUNT` of each class (model.py 396–745). -/
def commandTable : List (Nat × Nat) :=
  [(0x00, 0), (0x10, 1), (0x11, 0), (0x12, 1), (0x13, 1), (0x14, 1), (0x15, 0), (0x16, 16), (0x17, 12), (0x18, 16), (0x19, 12),
    (0x1A, 9), (0x1B, 3), (0x1C, 3), (0x20, 1), (0x21, 1), (0x22, 1), (0x23, 2), (0x24, 1), (0x25, 1), (0x26, 1), (0x27, 1),
    (0x28, 1), (0x29, 1), (0x2A, 1), (0x2B, 1), (0x30, 1), (0x31, 1), (0x32, 1), (0x33, 1), (0x34, 32), (0x40, 1), (0x41, 0),
    (0x50, 1), (0x60, 1), (0x70, 3), (0x71, 2), (0x72, 3)]

/-- The class of a geometry command, as the number under which it is found; `none` is the base class `GeometryCommand`, which is
used for unknown numbers.  `fromData` ignores the parameters (model.py 400–402), and the attribute `type` of every object is set
to its class (model.py 292), so the class is all there is. -/
abbrev Command := Option Nat

/-- The loop over the command numbers of a group (model.py 279–293); `i` is the position in the data. -/
def parseIds : Bytes → Nat → List Command × Nat
  | [], i => ([], i)
  | id :: ids, i =>
    match commandTable.lookup id.toNat with
    | none => let r := parseIds ids i; (none :: r.1, r.2)
    | some paramCount => let r := parseIds ids (i + 4 * paramCount); (some id.toNat :: r.1, r.2)

/-- The loop of `_parseDisplayList` (model.py 276–293). -/
def parseLoop (data : Bytes) : Nat → Nat → Py (List Command)
  | 0, i => if i < data.length then .error .outOfFuel else .ok []
  | fuel + 1, i =>
    if i < data.length then do
      let r := parseIds (slice data i (i + 4)) (i + 4)
      let rest ← parseLoop data fuel r.2
      return r.1 ++ rest
    else .ok []

/-- `_parseDisplayList(data)` (model.py 268–294).  Every round of the loop moves on by at least 4 bytes. -/
def parseDisplayList (data : Bytes) : Py (List Command) := parseLoop data data.length 0

/-! ## The model block -/

/-- A section with names: the words and names in it, and where it ends. -/
structure Section where
  words : List Nat
  names : List Str
  stop : Nat
  deriving DecidableEq, Repr

/-- The parts of the MDL0 block that look alike: the list of the models (model.py 78–101, where the length of the header of the
words is not checked), the materials (124–151), the textures (153–180), the palettes (182–209) and the polygons (220–248).  `off` is
where the number of entries is.  The textures and palettes have words `<HBx`, which are read here as 32-bit numbers; they are not used. -/
def readSection (checkWords : Bool) (data : Bytes) (off : Nat) : Py Section := do
  let a ← unpackUs .little [1, 1, 2] data off
  let b ← unpackUs .little [2, 2, 4] data (off + 4)
  match a, b with
  | [_, count, _], [unkBlockHeaderLen, _, unkBlockUnk04] => do
    pyAssert (unkBlockHeaderLen = 8)
    pyAssert (unkBlockUnk04 = 0x17F)
    let _ ← mapE (fun i => unpackUs .little [2, 2] data (off + 12 + 4 * i)) (List.range count)
    let c ← unpackUs .little [2, 2] data (off + 12 + 4 * count)
    match c with
    | [wordsHeaderLen, _] => do
      pyAssert (checkWords = true → wordsHeaderLen = 4)
      let words ← mapE (fun i => unpackU .little 4 data (off + 16 + 4 * count + 4 * i)) (List.range count)
      let nameOff := off + 16 + 8 * count
      return ⟨words, (List.range count).map fun i => latin1Decode (rstripZero (slice data (nameOff + 16 * i) (nameOff + 16 * i + 16))),
        nameOff + 16 * count⟩
    | _ => .error .structError
  | _, _ => .error .structError

/-- Reading a polygon (model.py 251–257). -/
def readPolygon (data : Bytes) (polyDefOffset : Nat) : Py Unit := do
  let f ← unpackUs .little [4, 4, 4, 4] data polyDefOffset
  match f with
  | [_, _, displayListOff, displayListLen] =>
    let _ ← parseDisplayList
      (slice data (polyDefOffset + displayListOff) (polyDefOffset + displayListOff + displayListLen))
    return ()
  | _ => .error .structError

/-- Reading a model (model.py 105–262).  Of the fields only two are used; the rest just has to be there. -/
def readModel (data : Bytes) (modelOff : Nat) : Py Unit := do
  let f ← unpackUs .little [4, 4, 4, 4, 4] data modelOff
  let _ ← unpackStr 0x2C data (modelOff + 0x14)
  match f with
  | [_, _, materialsOffset, polygonsBeginOffset, _] => do
    let materials ← readSection true data (modelOff + materialsOffset + 4)
    let textures ← readSection true data materials.stop
    let _ ← readSection true data textures.stop
    let polygons ← readSection true data (modelOff + polygonsBeginOffset)
    let _ ← mapE (fun polyOffset => readPolygon data (modelOff + polygonsBeginOffset + polyOffset)) polygons.words
    return ()
  | _ => .error .structError

/-- `_parseMDL0(data)` (model.py 72–265): the names of the models. -/
def readMDL0 (data : Bytes) : Py (List Str) := do
  pyAssert (data.take 4 = MDL0)
  let models ← readSection false data 8
  let _ ← mapE (readModel data) models.words
  return models.names

/-! ## Files -/

/-- `NSBMD` (model.py 25–43).  The attributes `texUnk08` … `palettes` are the fields of `tex`.  The attributes `_MDL0` and `models`
do not exist before a model block is parsed; both come into being together, except that `models` is set first if parsing fails. -/
structure NSBMD where
  tex : NSBTX
  mdl0 : Option Bytes
  models : Option (List Str)
  deriving DecidableEq, Repr

/-- `NSBMD()` (model.py 29–43). -/
def NSBMD.new : NSBMD := ⟨⟨0, 0, 0, 0, 0, 0, [], []⟩, none, none⟩

/-- The body of the loop over the blocks (model.py 60–70, with `_parseTEX0`, 297–311). -/
def parseBlock (data : Bytes) (m : NSBMD) (off : Nat) : Py NSBMD := do
  let blockMagic ← unpackStr 4 data off
  let blockLen ← unpackU .little 4 data (off + 4)
  let blockData := slice data off (off + blockLen)
  if blockMagic = MDL0 then do
    let models ← readMDL0 blockData
    return { m with mdl0 := some blockData, models := some models }
  else if blockMagic = TEX0 then do
    let tex ← readTEX0 blockData
    return { m with tex := tex }
  else .error .valueError

/-- The loop over the blocks (model.py 59–70). -/
def parseBlocks (data : Bytes) : NSBMD → List Nat → Py NSBMD
  | m, [] => .ok m
  | m, off :: offs => do
    let m ← parseBlock data m off
    parseBlocks data m offs

/-- `NSBMD(data)` (model.py 42–70). -/
def NSBMD.load (data : Bytes) : Py NSBMD := do
  raiseIf (data.take 4 ≠ BMD0) .valueError
  let h ← unpackStdHeader data 0
  raiseIf (h.version ≠ 2) .valueError
  let offs ← unpackUs .little (List.replicate h.numBlocks 4) data 0x10
  parseBlocks data NSBMD.new offs

/-- `NSBMD.save()` (model.py 337–362, with `_saveMDL0` and `_saveTEX0`, 314–334).  The order of writing does not matter: header and offsets lie in the first 0x18 bytes and
do not overlap. -/
def NSBMD.save (m : NSBMD) : Py Bytes := do
  match m.mdl0 with
  | none => .error .attributeError
  | some mdl0 => do
    let tex0 ← saveTEX0 m.tex
    let offs ← packUs .little [(4, 0x18), (4, 0x18 + mdl0.length)]
    let header ← packStdHeader ⟨BMD0, 0xFEFF, 2, 0x18 + mdl0.length + tex0.length, 0x10, 2⟩
    return header ++ offs ++ mdl0 ++ tex0

/-- `exportNSBTX()` (model.py 365–377) with `NSBTX.fromTexturesAndPalettes` (texture.py 323–334). -/
def NSBMD.exportNSBTX (m : NSBMD) : NSBTX :=
  ⟨m.tex.unk08, m.tex.unk10, m.tex.unk18, m.tex.unk20, m.tex.unk2C, m.tex.unk32, m.tex.textures, m.tex.palettes⟩

/-- `importNSBTX(nsbtx)` (model.py 380–392). -/
def NSBMD.importNSBTX (m : NSBMD) (t : NSBTX) : NSBMD :=
  { m with tex := ⟨t.unk08, t.unk10, t.unk18, t.unk20, t.unk2C, t.unk32, t.textures, t.palettes⟩ }

end Verif.Model.Nsbmd
