import Verif.Model.SoundSequenceArchive

/-!
# Model of `SSEQ` and `SSAR` objects with their properties

`Model/SoundSequence.lean` and `Model/SoundSequenceArchive.lean` model an object by what it can be in: unparsed with its
data, or parsed with its events.  The objects of the code have both attributes at all times; this file models them with
the getters and setters, including what an operation leaves behind when it raises.  A list taken from `.events` and
changed in place counts as an assignment to `.events`.
-/

namespace Verif.Model.SequenceObject

open Verif Verif.Model.SoundSequence Verif.Model.SoundSequenceArchive

/-! ## SSEQ -/

/-- The attributes of an `SSEQ` object that take part (soundSequence.py 48–64); `_eventsData` is missing in an object
made without a file. -/
structure SSEQObj where
  events : List (Nat × Ev)
  eventsData : Option Bytes
  parsed : Bool
  deriving DecidableEq, Repr

/-- What can be done with an `SSEQ` object. -/
inductive SSEQOp where
  | getEvents
  | setEvents (value : List (Nat × Ev))
  | getEventsData
  | setEventsData (value : Bytes)
  | getParsed
  | setParsed (value : Bool)
  | parse
  | save
  deriving DecidableEq, Repr

/-- What an operation returns. -/
inductive Out where
  | none
  | events (value : List (Nat × Ev))
  | data (value : Bytes)
  | flag (value : Bool)
  | file (value : Bytes)
  deriving DecidableEq, Repr

/-- `SSEQ(file)`, or `SSEQ()` (soundSequence.py 38–64). -/
def SSEQObj.init : Option Bytes → Py SSEQObj
  | none => .ok ⟨[], none, true⟩
  | some file => do
    raiseIf (file.take 4 ≠ magicSSEQ) .valueError
    let version ← unpackU .little 2 file 6
    let totalFileLen ← unpackU .little 4 file 8
    raiseIf (version ≠ 0x100) .valueError
    let dataOffs ← unpackU .little 4 file 0x18
    return ⟨[], some (slice file dataOffs totalFileLen), false⟩

/-- The getter `events` (soundSequence.py 89–94). -/
def SSEQObj.getEvents (o : SSEQObj) : Py (List (Nat × Ev)) :=
  if !o.parsed then .error .valueError else .ok o.events

/-- The getter `eventsData` (soundSequence.py 100–105). -/
def SSEQObj.getEventsData (o : SSEQObj) : Py Bytes :=
  if o.parsed then .error .valueError
  else match o.eventsData with
    | some d => .ok d
    | none => .error .attributeError

/-- `SSEQ.fromEvents` (soundSequence.py 67–76). -/
def SSEQObj.fromEvents (events : List (Nat × Ev)) : Py SSEQObj := do
  let o ← SSEQObj.init none
  return { o with events := events }

/-- The event data that `save` writes (soundSequence.py 136–139). -/
def SSEQObj.seqEv (o : SSEQObj) : Py Bytes :=
  if o.parsed then do
    let es ← o.getEvents
    let r ← saveSequenceEvents es []
    return r.1
  else match o.eventsData with
    | some d => .ok d
    | none => .error .attributeError

/-- `SSEQ.save()` (soundSequence.py 129–155), the file. -/
def SSEQObj.save (o : SSEQObj) : Py Bytes := do
  let seqEv ← o.seqEv
  let h ← Common.packStdHeader ⟨magicSSEQ, 0xFEFF, 0x100, 0x1C + seqEv.length, 0x10, 1⟩
  let a ← packU .little 4 (0x1C + seqEv.length - 0x10)
  let b ← packU .little 4 0x1C
  return h ++ (magicDATA ++ a ++ b) ++ seqEv

/-- `SSEQ.parse()` (soundSequence.py 119–126): what it raises, if anything, and the object it leaves behind. -/
def SSEQObj.parse (depth : Nat) (o : SSEQObj) : Py Unit × SSEQObj :=
  if o.parsed then (.ok (), o)
  else match o.eventsData with
    | none => (.error .attributeError, o)
    | some d =>
      match readSequenceEvents depth d [] with
      | .error e => (.error e, o)
      | .ok r => (.ok (), { o with events := r.1, parsed := true })

/-- One operation (soundSequence.py 88–155): what it returns or raises, and the object it leaves behind. -/
def SSEQObj.step (depth : Nat) (o : SSEQObj) : SSEQOp → Py Out × SSEQObj
  | .getEvents => (o.getEvents.map .events, o)
  | .setEvents v => (.ok .none, { o with events := v })
  | .getEventsData => (o.getEventsData.map .data, o)
  | .setEventsData v => (.ok .none, { o with eventsData := some v })
  | .getParsed => (.ok (.flag o.parsed), o)
  | .setParsed _ => (.error .runtimeError, o)
  | .parse => ((o.parse depth).1.map fun _ => .none, (o.parse depth).2)
  | .save => (o.save.map .file, o)

/-- A run of operations, each one continued after whatever the one before raised. -/
def SSEQObj.run (depth : Nat) (o : SSEQObj) : List SSEQOp → List (Py Out) × SSEQObj
  | [] => ([], o)
  | op :: ops =>
    ((o.step depth op).1 :: ((o.step depth op).2.run depth ops).1, ((o.step depth op).2.run depth ops).2)

/-! ## SSAR -/

/-- The attributes of an `SSAR` object that take part (soundSequenceArchive.py 38–91). -/
structure SSARObj where
  unk02 : Nat
  sequences : List (Option Str × Sequence)
  events : Option (List (Nat × Ev))
  eventsData : Option Bytes
  parsed : Bool
  deriving DecidableEq, Repr

/-- What can be done with an `SSAR` object.  Assigning to its plain attribute `parsed` by hand is left out. -/
inductive SSAROp where
  | getEvents
  | setEvents (value : List (Nat × Ev))
  | getEventsData
  | setEventsData (value : Bytes)
  | getSequences
  | setSequences (value : List (Option Str × Sequence))
  | parse
  | save
  deriving DecidableEq, Repr

/-- What an operation on an `SSAR` object returns; `.events` of a parsed object is a list. -/
inductive SSAROut where
  | none
  | events (value : Option (List (Nat × Ev)))
  | data (value : Bytes)
  | sequences (value : List (Option Str × Sequence))
  | saved (value : Bytes × Nat × List (Option Str))
  deriving DecidableEq, Repr

/-- `SSAR(file, unk02, names)` (soundSequenceArchive.py 41–91): the parts are read as in `SSAR.load`; without a file the
object is empty and parsed. -/
def SSARObj.init (file : Option Bytes) (unk02 : Nat) (names : List (Option Str)) : Py SSARObj :=
  match file with
  | none => .ok ⟨unk02, [], some [], none, true⟩
  | some file => do
    let a ← SSAR.load file unk02 names
    match a.events with
    | .unparsed d => return ⟨unk02, a.sequences, none, some d, false⟩
    | .parsed _ => .error .runtimeError

/-- `SSAR.fromEventsAndSequences` (soundSequenceArchive.py 90–99). -/
def SSARObj.fromEventsAndSequences (events : List (Nat × Ev)) (sequences : List (Option Str × Sequence))
    (unk02 : Nat) : Py SSARObj := do
  let o ← SSARObj.init none unk02 []
  return { o with events := some events, sequences := sequences }

/-- The getter `events` (soundSequenceArchive.py 111–116). -/
def SSARObj.getEvents (o : SSARObj) : Py (Option (List (Nat × Ev))) :=
  if !o.parsed then .error .valueError else .ok o.events

/-- The getter `eventsData` (soundSequenceArchive.py 122–127). -/
def SSARObj.getEventsData (o : SSARObj) : Py Bytes :=
  if o.parsed then .error .valueError
  else match o.eventsData with
    | some d => .ok d
    | none => .error .attributeError

/-- `SSAR.parse()` and `_initFromData` (soundSequenceArchive.py 133–168): what it raises, if anything, and the object it
leaves behind. -/
def SSARObj.parse (depth : Nat) (o : SSARObj) : Py Unit × SSARObj :=
  if o.parsed then (.ok (), o)
  else match o.eventsData with
    | none => (.error .attributeError, o)
    | some d =>
      match startOffsets o.sequences with
      | .error e => (.error e, o)
      | .ok offs =>
        match readSequenceEvents depth d offs with
        | .error e => (.error e, o)
        | .ok r => (.ok (), { o with
            sequences := o.sequences.map (fun s => (s.1, s.2.attach)), events := some r.1, parsed := true
            eventsData := none })

/-- The event data and the table that are written (soundSequenceArchive.py 178–212). -/
def SSARObj.parts (o : SSARObj) : Py (Bytes × Bytes) :=
  if o.parsed then do
    let starts ← startEvents o.sequences
    match ← o.getEvents with
    | none => .error .typeError
    | some events => do
      let r ← saveSequenceEvents events starts
      let table ← mapE (record (parsedOffset starts r.2)) o.sequences
      return (r.1, table.flatten)
  else do
    let d ← o.getEventsData
    let table ← mapE (record unparsedOffset) o.sequences
    return (d, table.flatten)

/-- `SSAR.save()` (soundSequenceArchive.py 171–228). -/
def SSARObj.save (o : SSARObj) : Py (Bytes × Nat × List (Option Str)) := do
  let p ← o.parts
  let h ← Common.packStdHeader ⟨magicSSAR, 0xFEFF, 0x100, 0x20 + o.sequences.length * 0xC + p.1.length, 0x10, 1⟩
  let x ← packU .little 4 (0x20 + o.sequences.length * 0xC + p.1.length - 0x10)
  let y ← packU .little 4 (0x20 + o.sequences.length * 0xC)
  let z ← packU .little 4 o.sequences.length
  return (h ++ (magicDATA ++ x ++ y ++ z) ++ p.2 ++ p.1, o.unk02, o.sequences.map Prod.fst)

/-- One operation (soundSequenceArchive.py 110–228): what it returns or raises, and the object it leaves behind. -/
def SSARObj.step (depth : Nat) (o : SSARObj) : SSAROp → Py SSAROut × SSARObj
  | .getEvents => (o.getEvents.map .events, o)
  | .setEvents v => (.ok .none, { o with events := some v })
  | .getEventsData => (o.getEventsData.map .data, o)
  | .setEventsData v => (.ok .none, { o with eventsData := some v })
  | .getSequences => (.ok (.sequences o.sequences), o)
  | .setSequences v => (.ok .none, { o with sequences := v })
  | .parse => ((o.parse depth).1.map fun _ => .none, (o.parse depth).2)
  | .save => (o.save.map .saved, o)

/-- A run of operations, each one continued after whatever the one before raised. -/
def SSARObj.run (depth : Nat) (o : SSARObj) : List SSAROp → List (Py SSAROut) × SSARObj
  | [] => ([], o)
  | op :: ops =>
    ((o.step depth op).1 :: ((o.step depth op).2.run depth ops).1, ((o.step depth op).2.run depth ops).2)

end Verif.Model.SequenceObject
