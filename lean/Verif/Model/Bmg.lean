import Verif.Model.Text

/-!
# Model of `ndspy/bmg.py`

The attribute `encoding` is a string in the code, compared without regard to case; the model has an enumeration.
Instructions are byte strings (objects with a `save` method are the caller's).  Script indices, the ID and the
unknown header words are natural numbers (a negative one makes `struct.pack` raise).
-/

namespace Verif.Model.Bmg

open Verif Verif.Model.Text

/-- `_ENCODINGS` without its first entry (bmg.py 33–39). -/
inductive Encoding where
  | cp1252
  | utf16
  | shiftJis
  | utf8
  deriving DecidableEq, Repr

/-- A part of a message: a piece of text or a `Message.Escape` (bmg.py 389–400, 424). -/
inductive Part where
  | text (s : Str)
  | escape (type : Nat) (data : Bytes)
  deriving DecidableEq, Repr

/-- `Message` (bmg.py 423–439). -/
structure Message where
  info : Bytes
  parts : List Part
  isNull : Bool
  deriving DecidableEq, Repr

/-- `BMG` (bmg.py 42–76). -/
structure BMG where
  messages : List Message
  instructions : List Bytes
  labels : List (Int × Int)
  scripts : List (Nat × Nat)
  id : Nat
  encoding : Encoding
  endianness : Endian
  unk14 : Nat
  unk18 : Nat
  unk1C : Nat
  deriving DecidableEq, Repr

/-- `BMG.fullEncoding` (bmg.py 78–82) and the codec it names; `sjis` is Python's Shift-JIS codec. -/
def codecOf (sjis : Codec) : Encoding → Endian → Codec
  | .cp1252, _ => Text.cp1252
  | .utf16, e => Text.utf16 e
  | .shiftJis, _ => sjis
  | .utf8, _ => Text.utf8

/-- `_ENCODINGS[enc]` for `enc ≠ 0` (bmg.py 101–104). -/
def encodingOf : Nat → Py Encoding
  | 1 => .ok .cp1252
  | 2 => .ok .utf16
  | 3 => .ok .shiftJis
  | 4 => .ok .utf8
  | _ => .error .valueError

/-- `_ENCODINGS.index(self.encoding.lower())` (bmg.py 339). -/
def Encoding.index : Encoding → Nat
  | .cp1252 => 1
  | .utf16 => 2
  | .shiftJis => 3
  | .utf8 => 4

def magicMESG : Bytes := [0x4D, 0x45, 0x53, 0x47, 0x62, 0x6D, 0x67, 0x31]
def magicINF1 : Bytes := [0x49, 0x4E, 0x46, 0x31]
def magicDAT1 : Bytes := [0x44, 0x41, 0x54, 0x31]
def magicFLW1 : Bytes := [0x46, 0x4C, 0x57, 0x31]
def magicFLI1 : Bytes := [0x46, 0x4C, 0x49, 0x31]

/-! ## Reading -/

/-- `if currentStringStart and currentStringStart != offset: stringParts.append(DAT1[...].decode(...))`
(bmg.py 187–188, 199–200). -/
def flush (c : Codec) (dat : Bytes) (start offset : Nat) (acc : List Part) : Py (List Part) :=
  if start ≠ 0 ∧ start ≠ offset then do
    let s ← c.dec (slice dat start offset)
    return acc ++ [.text s]
  else .ok acc

/-- The two bytes after the start of an escape sequence (bmg.py 189). -/
def escapeHead (c : Codec) (dat : Bytes) (offset : Nat) : Py (Nat × Nat) :=
  match slice dat (offset + c.sub.length) (offset + c.sub.length + 2) with
  | [l, t] => .ok (l.toNat, t.toNat)
  | _ => .error .valueError

/-- The loop over one message (bmg.py 184–200): the parts and the final offset.  The loop has no bound in the code;
the model gives up with `outOfFuel` after the given number of rounds. -/
def readParts (c : Codec) (dat : Bytes) : Nat → Nat → Nat → List Part → Py (List Part × Nat)
  | 0, _, _, _ => .error .outOfFuel
  | fuel + 1, start, offset, acc =>
    if slice dat offset (offset + c.null.length) = c.null then do
      let acc ← flush c dat start offset acc
      return (acc, offset)
    else if slice dat offset (offset + c.null.length) = c.sub then do
      let acc ← flush c dat start offset acc
      let h ← escapeHead c dat offset
      readParts c dat fuel (offset + h.1) (offset + h.1)
        (acc ++ [.escape h.2 (slice dat (offset + c.sub.length + 2) (offset + h.1))])
    else readParts c dat fuel start (offset + c.null.length) acc

/-- One message (bmg.py 174–202). -/
def readMessage (c : Codec) (dat : Bytes) (fuel : Nat) (entry : Nat × Bytes) : Py Message := do
  let r ← readParts c dat fuel entry.1 entry.1 []
  return ⟨entry.2, r.1, decide (r.2 = 0)⟩

/-- What the section parsers collect (bmg.py 106, 116, 121–122, 143 and `self.id`). -/
structure Raw where
  inf1 : List (Nat × Bytes)
  dat1 : Bytes
  instructions : List Bytes
  labels : List (Int × Int)
  scripts : List (Nat × Nat)
  id : Nat

/-- One entry of INF1 (bmg.py 111–114). -/
def infEntry (e : Endian) (data : Bytes) (offset entryLength i : Nat) : Py (Nat × Bytes) := do
  let o ← unpackU e 4 data (offset + 16 + i * entryLength)
  return (o, slice data (offset + 16 + i * entryLength + 4) (offset + 16 + i * entryLength + entryLength))

/-- `parseINF1` (bmg.py 107–114). -/
def parseINF1 (e : Endian) (data : Bytes) (offset : Nat) (r : Raw) : Py Raw := do
  let fields ← unpackUs e [2, 2, 4] data (offset + 8)
  match fields with
  | [count, entryLength, id] => do
    let es ← mapE (infEntry e data offset entryLength) (List.range count)
    return { r with inf1 := r.inf1 ++ es, id := id }
  | _ => .error .structError

/-- One label (bmg.py 138–139): BMG ID and index. -/
def labelAt (e : Endian) (data : Bytes) (indices ids i : Nat) : Py (Int × Int) := do
  let index ← unpackS e 2 data (indices + i * 2)
  let bmgID ← unpackS e 1 data (ids + i)
  return (bmgID, index)

/-- `parseFLW1` (bmg.py 123–141). -/
def parseFLW1 (e : Endian) (data : Bytes) (offset : Nat) (r : Raw) : Py Raw := do
  let fields ← unpackUs e [2, 2, 4] data (offset + 8)
  match fields with
  | [instructionsCount, labelsCount, _] => do
    let cmds := (List.range instructionsCount).map fun i =>
      slice data (offset + 16 + i * 8) (offset + 16 + i * 8 + 8)
    let ls ← mapE (labelAt e data (offset + 16 + instructionsCount * 8)
      (offset + 16 + instructionsCount * 8 + labelsCount * 2)) (List.range labelsCount)
    return { r with
      instructions := r.instructions ++ cmds.filter (fun cmd => cmd ≠ zeros 8)
      labels := r.labels ++ ls.filter (fun l => l.1 ≠ 0 ∨ l.2 ≠ 0) }
  | _ => .error .structError

/-- One script (bmg.py 150–151): `'IHxx'`. -/
def scriptAt (e : Endian) (data : Bytes) (offset i : Nat) : Py (Nat × Nat) := do
  let fields ← unpackUs e [4, 2, 1, 1] data (offset + 16 + i * 8)
  match fields with
  | [id, index, _, _] => return (id, index)
  | _ => .error .structError

/-- `parseFLI1` (bmg.py 144–151). -/
def parseFLI1 (e : Endian) (data : Bytes) (offset : Nat) (r : Raw) : Py Raw := do
  let fields ← unpackUs e [2, 2, 4] data (offset + 8)
  match fields with
  | [count, entryLength, _] => do
    pyAssert (entryLength = 8)
    let ss ← mapE (scriptAt e data offset) (List.range count)
    return { r with scripts := r.scripts ++ ss }
  | _ => .error .structError

/-- One section (bmg.py 155–165). -/
def parseSection (e : Endian) (data : Bytes) (offset : Nat) (magic : Bytes) (len : Nat) (r : Raw) : Py Raw :=
  if magic = magicINF1 then parseINF1 e data offset r
  else if magic = magicDAT1 then .ok { r with dat1 := slice data (offset + 8) (offset + len) }
  else if magic = magicFLW1 then parseFLW1 e data offset r
  else if magic = magicFLI1 then parseFLI1 e data offset r
  else .error .valueError

/-- The loop over the sections (bmg.py 153–166). -/
def parseSections (e : Endian) (data : Bytes) : Nat → Nat → Raw → Py Raw
  | 0, _, r => .ok r
  | n + 1, offset, r => do
    let magic ← unpackStr 4 data offset
    let len ← unpackU e 4 data (offset + 4)
    let r ← parseSection e data offset magic len r
    parseSections e data n (offset + len) r

/-- `self.endianness = '<' if dataLenLE < dataLenBE else '>'` (bmg.py 94–96). -/
def guessEndian (le be : Nat) : Endian := if le < be then .little else .big

/-- The rest of `BMG._initFromData` with byte order `e` (bmg.py 99–202), with at most `fuel` rounds of the loop for
each message. -/
def BMG.loadAs (sjis : Codec) (fuel : Nat) (data : Bytes) (id0 : Nat) (e : Endian) : Py BMG := do
  let fields ← unpackUs e [4, 4, 1, 4, 4, 4] data 8
  match fields with
  | [_, sectionCount, enc, unk14, unk18, unk1C] => do
    let encoding ← encodingOf enc
    let r ← parseSections e data sectionCount 0x20 ⟨[], [], [], [], [], id0⟩
    let messages ← mapE (readMessage (codecOf sjis encoding e) r.dat1 fuel) r.inf1
    return ⟨messages, r.instructions, r.labels, r.scripts, r.id, encoding, e, unk14, unk18, unk1C⟩
  | _ => .error .structError

/-- `BMG(data, id=id0)` (bmg.py 59–76, 85–202). -/
def BMG.load (sjis : Codec) (fuel : Nat) (data : Bytes) (id0 : Nat) : Py BMG := do
  raiseIf (data.take 8 ≠ magicMESG) .valueError
  let le ← unpackU .little 4 data 8
  let be ← unpackU .big 4 data 8
  BMG.loadAs sjis fuel data id0 (guessEndian le be)

/-! ## Saving -/

/-- `Message.Escape.save` (bmg.py 406–415). -/
def saveEscape (c : Codec) (type : Nat) (data : Bytes) : Py Bytes := do
  let l ← byteOf (data.length + 2 + c.sub.length)
  let t ← byteOf type
  return c.sub ++ [l] ++ [t] ++ data

/-- One part of a message (bmg.py 448–456). -/
def savePart (c : Codec) : Part → Py Bytes
  | .text s => do
    raiseIf (0 ∈ s) .valueError
    raiseIf (0x1A ∈ s) .valueError
    c.enc s
  | .escape type data => saveEscape c type data

/-- `Message.save` (bmg.py 441–458). -/
def Message.save (c : Codec) (m : Message) : Py Bytes :=
  if m.isNull = true then .ok []
  else do
    let ps ← mapE (savePart c) m.parts
    return ps.flatten ++ c.null

/-- The loop over the messages (bmg.py 272–284): the entries of INF1, and DAT1 without its 8-byte header, to which
`dat` has been written so far. -/
def saveMessages (c : Codec) (e : Endian) (infoLen : Nat) : List Message → Bytes → Py (Bytes × Bytes)
  | [], dat => .ok ([], dat)
  | m :: ms, dat => do
    raiseIf (m.info.length ≠ infoLen) .valueError
    let o ← packU e 4 (if m.isNull = true then 0 else dat.length)
    let d ← m.save c
    let r ← saveMessages c e infoLen ms (dat ++ d)
    return (o ++ m.info ++ r.1, r.2)

/-- `inf1EntryLen - 4` (bmg.py 267–270). -/
def infoLength (ms : List Message) : Nat :=
  match ms with
  | [] => 0
  | m :: _ => m.info.length

/-- The loop over the instructions (bmg.py 286–291). -/
def saveInstruction (inst : Bytes) : Py Bytes := do
  raiseIf (inst.length ≠ 8) .valueError
  return inst

/-- `instructionsCount` (bmg.py 254–255). -/
def evenCount (n : Nat) : Nat := n + n % 2

/-- `labelsCount` (bmg.py 257–258). -/
def labelsCount (n : Nat) : Nat := n + padLen n 8

/-- FLW1 after its 16-byte header, before the padding to 32 (bmg.py 286–299). -/
def flwBody (b : BMG) : Py Bytes := do
  let insts ← mapE saveInstruction b.instructions
  let idxs ← mapE (fun l => packS b.endianness 2 l.2) b.labels
  let ids ← mapE (fun l => packS b.endianness 1 l.1) b.labels
  return insts.flatten ++ zeros (padLen (16 + insts.flatten.length) 16) ++ idxs.flatten
    ++ zeros (2 * (labelsCount b.labels.length - b.labels.length)) ++ ids.flatten

/-- FLI1 after its 16-byte header (bmg.py 301–302): `'II'`. -/
def fliBody (b : BMG) : Py Bytes := do
  let ss ← mapE (fun (s : Nat × Nat) => packUs b.endianness [(4, s.1), (4, s.2)]) b.scripts
  return ss.flatten

/-- `len` rounded up to a multiple of 32. -/
def up32 (n : Nat) : Nat := n + padLen n 32

/-- A section with a 16-byte header (bmg.py 260–263, 304–321): magic, length, two counts and a word; `pad` bytes of
padding follow the body (the code adds the padding first and packs the header into place). -/
def sectionOf (e : Endian) (magic : Bytes) (c1 c2 word : Nat) (body : Bytes) (pad : Nat) : Py Bytes := do
  let h ← packUs e [(4, up32 (16 + body.length)), (2, c1), (2, c2), (4, word)]
  return magic ++ h ++ body ++ zeros pad

/-- The DAT1 section (bmg.py 261, 306, 317). -/
def datSection (e : Endian) (dat : Bytes) : Py Bytes := do
  let h ← packU e 4 (up32 (8 + dat.length))
  return magicDAT1 ++ h ++ dat ++ zeros (padLen (8 + dat.length) 32)

/-- The 0x20-byte header of the file (bmg.py 252, 334–339); 3 bytes stay zero. -/
def fileHeader (b : BMG) (total sections : Nat) : Py Bytes := do
  let h ← packUs b.endianness [(4, total), (4, sections), (1, b.encoding.index), (4, b.unk14), (4, b.unk18),
    (4, b.unk1C)]
  return magicMESG ++ h ++ zeros 3

/-- The sections in the file (bmg.py 323–332): their number and bytes. -/
def insertSections (b : BMG) (inf dat flw fli : Bytes) : Nat × Bytes :=
  let r := (2, inf ++ dat)
  let r := if b.instructions ≠ [] ∨ b.labels ≠ [] then (r.1 + 1, r.2 ++ flw) else r
  if b.scripts ≠ [] then (r.1 + 1, r.2 ++ fli) else r

/-- `BMG.save` (bmg.py 240–341). -/
def BMG.save (sjis : Codec) (b : BMG) : Py Bytes := do
  let c := codecOf sjis b.encoding b.endianness
  let m ← saveMessages c b.endianness (infoLength b.messages) b.messages c.null
  let flw ← flwBody b
  let fli ← fliBody b
  let INF1 ← sectionOf b.endianness magicINF1 b.messages.length (4 + infoLength b.messages) b.id m.1
    (padLen (16 + m.1.length) 32)
  let DAT1 ← datSection b.endianness m.2
  let FLW1 ← sectionOf b.endianness magicFLW1 (evenCount b.instructions.length) (labelsCount b.labels.length) 0
    flw (padLen (16 + flw.length) 32)
  let FLI1 ← sectionOf b.endianness magicFLI1 b.scripts.length 8 0 fli 0
  let r := insertSections b INF1 DAT1 FLW1 FLI1
  let h ← fileHeader b (up32 (0x20 + r.2.length)) r.1
  return h ++ r.2

end Verif.Model.Bmg
