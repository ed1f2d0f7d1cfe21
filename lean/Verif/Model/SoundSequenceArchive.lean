import Verif.Model.SoundSequence
import Verif.Base.Struct

/-!
# Model of `ndspy/soundSequenceArchive.py`

The numeric attributes of sequences are natural numbers (negative ones would make `struct.pack` raise).  Not
modelled here: `fromFile`, `saveToFile` (see `Files.lean`), `__str__` (see `EventText.lean`), `__repr__` (see
`ReprArchive.lean`), `dataMergeOptimizationID` (which is not part of a file),
and a sequence object that occurs twice in the list.
-/

namespace Verif.Model.SoundSequenceArchive

open Verif Verif.Model.Common Verif.Model.SoundSequence

/-- Where a sequence begins (soundSequenceArchive.py 270–310): an unparsed one has an offset or none, a parsed one
a first event (given by its identity) or none. -/
inductive First where
  | unparsed (offset : Option Int)
  | parsed (event : Option Nat)
  deriving DecidableEq, Repr

/-- `SSARSequence` (soundSequenceArchive.py 265–288). -/
structure Sequence where
  first : First
  bankID : Nat
  volume : Nat
  channelPressure : Nat
  polyphonicPressure : Nat
  playerID : Nat
  deriving DecidableEq, Repr

/-- The events of an `SSAR` object: unparsed data, or parsed event objects. -/
inductive Events where
  | unparsed (data : Bytes)
  | parsed (events : List (Nat × Ev))
  deriving DecidableEq, Repr

/-- `SSAR` (soundSequenceArchive.py 27–87). -/
structure SSAR where
  unk02 : Nat
  sequences : List (Option Str × Sequence)
  events : Events
  deriving DecidableEq, Repr

def magicSSAR : Bytes := [0x53, 0x53, 0x41, 0x52]

/-- `SSARSequence(sequenceOffset, ..., parsed=False)`: the offset -1 means none
(soundSequenceArchive.py 279–281). -/
def firstOf (offset : Int) : First := .unparsed (if offset = -1 then none else some offset)

/-- `struct.unpack_from('<iH4B', file, pos)` and the construction of the sequence
(soundSequenceArchive.py 73–80). -/
def loadSequence (file : Bytes) (pos : Nat) : Py Sequence := do
  let offset ← unpackS .little 4 file pos
  let fields ← unpackUs .little [2, 1, 1, 1, 1] file (pos + 4)
  match fields with
  | [b, v, c, p, pl] => return ⟨firstOf offset, b, v, c, p, pl⟩
  | _ => .error .structError

/-- `SSAR(file, unk02, names)` (soundSequenceArchive.py 41–84).  Missing names are `None`. -/
def SSAR.load (file : Bytes) (unk02 : Nat) (names : List (Option Str)) : Py SSAR := do
  raiseIf (file.take 4 ≠ magicSSAR) .valueError
  let h ← unpackStdHeader file 0
  raiseIf (h.version ≠ 0x100) .valueError
  pyAssert (h.magic = magicSSAR)
  let dataMagic ← unpackStr 4 file 0x10
  let _ ← unpackU .little 4 file 0x14
  let dataOffset ← unpackU .little 4 file 0x18
  let dataCount ← unpackU .little 4 file 0x1C
  pyAssert (dataMagic = magicDATA)
  let seqs ← mapE (fun i => loadSequence file (0x20 + 0xC * i)) (List.range dataCount)
  return ⟨unk02, (List.range dataCount).zip seqs |>.map (fun p => (names.getD p.1 none, p.2)),
    .unparsed (slice file dataOffset h.fileSize)⟩

/-- The offsets at which parsing starts (soundSequenceArchive.py 149–159).  Accessing the offset of a sequence that
was already parsed raises ValueError.  A negative offset other than -1 counts from the end of the data in Python;
this is not modelled: the model raises NotImplementedError, and no theorem relies on it. -/
def startOffsets : List (Option Str × Sequence) → Py (List Nat)
  | [] => .ok []
  | s :: ss => do
    let r ← startOffsets ss
    match s.2.first with
    | .parsed _ => .error .valueError
    | .unparsed none => return r
    | .unparsed (some o) =>
      if o = -1 then return r else if o < 0 then .error .notImplementedError else return o.toNat :: r

/-- The sequence after parsing: its first event is the event at its offset; a sequence without offset is left
alone (soundSequenceArchive.py 164–168). -/
def Sequence.attach (s : Sequence) : Sequence :=
  match s.first with
  | .unparsed (some o) => if o = -1 then s else { s with first := .parsed (some o.toNat) }
  | _ => s

/-- `SSAR.parse()` (soundSequenceArchive.py 133–168). -/
def SSAR.parse (depth : Nat) (a : SSAR) : Py SSAR :=
  match a.events with
  | .parsed _ => .ok a
  | .unparsed d => do
    let offs ← startOffsets a.sequences
    let r ← readSequenceEvents depth d offs
    return { a with sequences := a.sequences.map (fun s => (s.1, s.2.attach)), events := .parsed r.1 }

/-- `struct.pack('<iH4B2x', off, *seq.save()[1:])` (soundSequenceArchive.py 199, 211, 313–325). -/
def packSequence (off : Int) (s : Sequence) : Py Bytes := do
  let a ← packS .little 4 off
  let b ← packUs .little [(2, s.bankID), (1, s.volume), (1, s.channelPressure), (1, s.polyphonicPressure),
    (1, s.playerID)]
  return a ++ b ++ [0, 0]

/-- The first events of the sequences, for a parsed archive (soundSequenceArchive.py 181–190). -/
def startEvents : List (Option Str × Sequence) → Py (List Nat)
  | [] => .ok []
  | s :: ss =>
    match s.2.first with
    | .unparsed _ => .error .valueError
    | .parsed none => startEvents ss
    | .parsed (some e) => do
      let r ← startEvents ss
      return e :: r

/-- The value stored for a sequence of a parsed archive: the offset of its first event, or -1.  The offsets come
in the order of the first events; `index` finds the first occurrence (soundSequenceArchive.py 194–200). -/
def parsedOffset (starts offs : List Nat) (s : Sequence) : Py Int :=
  match s.first with
  | .parsed (some e) => do
    let o ← pyIdx offs (starts.idxOf e)
    return o
  | _ => .ok (-1)

/-- The value stored for a sequence of an unparsed archive (soundSequenceArchive.py 204–210). -/
def unparsedOffset (s : Sequence) : Py Int :=
  match s.first with
  | .parsed _ => .error .valueError
  | .unparsed none => .ok (-1)
  | .unparsed (some o) => .ok o

/-- The record of a sequence whose stored offset is given by `off`. -/
def record (off : Sequence → Py Int) (s : Option Str × Sequence) : Py Bytes := do
  let o ← off s.2
  packSequence o s.2

/-- The event data and the table that are written (soundSequenceArchive.py 178–212). -/
def SSAR.parts (a : SSAR) : Py (Bytes × Bytes) :=
  match a.events with
  | .parsed events => do
    let starts ← startEvents a.sequences
    let r ← saveSequenceEvents events starts
    let table ← mapE (record (parsedOffset starts r.2)) a.sequences
    return (r.1, table.flatten)
  | .unparsed d => do
    let table ← mapE (record unparsedOffset) a.sequences
    return (d, table.flatten)

/-- `SSAR.save()` (soundSequenceArchive.py 171–228): the file, `unk02` and the names. -/
def SSAR.save (a : SSAR) : Py (Bytes × Nat × List (Option Str)) := do
  let p ← a.parts
  let h ← packStdHeader ⟨magicSSAR, 0xFEFF, 0x100, 0x20 + a.sequences.length * 0xC + p.1.length, 0x10, 1⟩
  let x ← packU .little 4 (0x20 + a.sequences.length * 0xC + p.1.length - 0x10)
  let y ← packU .little 4 (0x20 + a.sequences.length * 0xC)
  let z ← packU .little 4 a.sequences.length
  return (h ++ (magicDATA ++ x ++ y ++ z) ++ p.2 ++ p.1, a.unk02, a.sequences.map Prod.fst)

end Verif.Model.SoundSequenceArchive
