import Verif.Model.SequenceObject
import Verif.Model.NoteName
import Verif.Model.ReprClasses

/-!
# Printed sequence events

`__str__` of the sequence events, `printSequenceEventList`, and `__str__` of `SSEQ` and `SSAR`
(`ndspy/soundSequence.py`, `ndspy/soundSequenceArchive.py`).
-/

namespace Verif.Model.EventText

open Verif Verif.Model.Repr Verif.Model.ReprClasses Verif.Model.NoteName Verif.Model.SoundSequence
open Verif.Model.SequenceObject Verif.Model.SoundSequenceArchive

/-! ## One event -/

/-- The symbols of the arithmetic events in lower case (soundSequence.py 677–730). -/
def symbol : Arith → String
  | .assign => "="
  | .add => "+="
  | .sub => "-="
  | .mul => "*="
  | .div => "/="
  | .shift => "<<="
  | .rand => "[rand]"
  | .unkB7 => "[nop]"
  | .eq => "=="
  | .ge => ">="
  | .gt => ">"
  | .le => "<="
  | .lt => "<"
  | .ne => "!="

/-- The short names of the events with one value in lower case (soundSequence.py 770–794, 887–893, 937, 973–991,
1021–1029), and what the four other classes print before the value (soundSequence.py 856, 881, 967, 1015). -/
def shortName : Simple → String
  | .pan => "pan"
  | .trackVolume => "track volume"
  | .globalVolume => "global volume"
  | .transpose => "transpose"
  | .portamento => "portamento"
  | .portamentoRange => "portamento range"
  | .trackPriority => "track priority"
  | .tie => "tie"
  | .portamentoFrom => "portamento from"
  | .vibratoDepth => "vibrato depth"
  | .vibratoSpeed => "vibrato speed"
  | .vibratoRange => "vibrato range"
  | .portamentoOnOff => "portamento"
  | .portamentoDuration => "portamento duration"
  | .attackRate => "attack rate"
  | .decayRate => "decay rate"
  | .sustainRate => "sustain rate"
  | .releaseRate => "release rate"
  | .beginLoop => "begin loop"
  | .expression => "expression"
  | .printVariable => "print variable"
  | .vibratoDelay => "vibrato delay"

/-- The printed value of an event with one value (soundSequence.py 754, 851–856, 881, 962–967, 1015). -/
def valueText (k : Simple) (v : Int) : Str :=
  match k with
  | .tie | .portamentoOnOff => if v = 0 then lit "off" else if v = 1 then lit "on" else reprInt v
  | .portamentoFrom => noteName v
  | _ => reprInt v

/-- `__str__` of the sequence events (soundSequence.py 359–361, 390, 425, 450, 472, 495, 555–559, 613–615, 633, 660, 753,
819, 851, 880, 919–926, 962, 1014, 1050, 1074, 1093, 1113, 1147, 1166, 1189); `ref` is what is printed for a destination. -/
def evText (ref : Nat → Str) : Ev → Str
  | .note p v flag d =>
    lit "<" ++ noteName p ++ lit " velocity=" ++ reprInt v ++ lit " duration=" ++ reprInt d ++
      (if flag then lit " unknown-flag" else []) ++ lit ">"
  | .rest d => lit "<rest " ++ reprInt d ++ lit ">"
  | .instrumentSwitch b i => lit "<instrument " ++ reprNat b ++ lit "/" ++ reprNat i ++ lit ">"
  | .beginTrack n i => lit "<begin track " ++ reprInt n ++ lit " " ++ ref i ++ lit ">"
  | .jump i => lit "<jump " ++ ref i ++ lit ">"
  | .call i => lit "<call " ++ ref i ++ lit ">"
  | .random s args lo hi =>
    lit "<random " ++ reprHexInt s ++ lit " " ++ join (lit " ") (args.map reprInt) ++ (if args.isEmpty then [] else lit " ") ++
      lit "(" ++ reprInt lo ++ lit ", " ++ reprInt hi ++ lit ")>"
  | .fromVariable s v u =>
    lit "<from variable " ++ reprHexInt s ++ lit " " ++ reprInt v ++
      (match u with
        | some u => lit " " ++ reprInt u
        | none => []) ++ lit ">"
  | .ifE => lit "<if>"
  | .arith op v x => lit "<(var " ++ reprInt v ++ lit ") " ++ lit (symbol op) ++ lit " " ++ reprInt x ++ lit ">"
  | .simple k v => lit "<" ++ lit (shortName k) ++ lit " " ++ valueText k v ++ lit ">"
  | .monoPoly v => if v ≠ 0 then lit "<mono>" else lit "<poly>"
  | .vibratoType v =>
    lit "<vibrato type " ++
      (if v = 0 then lit "pitch" else if v = 1 then lit "volume" else if v = 2 then lit "pan" else reprInt v) ++ lit ">"
  | .tempo v => lit "<tempo " ++ reprInt v ++ lit ">"
  | .sweepPitch v => lit "<sweep pitch " ++ reprInt v ++ lit ">"
  | .endLoop => lit "<end loop>"
  | .ret => lit "<return>"
  | .defineTracks l => lit "<define tracks " ++ join (lit " ") (l.map reprNat) ++ lit ">"
  | .endTrack => lit "<end track>"
  | .raw d => lit "<raw data " ++ reprBytes d ++ lit ">"

/-- `str(event)`; `addr` is `id()`. -/
def strEvent (addr : Nat → Nat) (e : Ev) : Str := evText (fun i => lit "id=" ++ reprNat (addr i)) e

/-! ## A list of events -/

/-- What the texts need to know about objects: the order of printing sets, the event with an identity, its `id()`, and how
deep `repr` can recurse. -/
structure World where
  order : List Nat → List Nat
  obj : Nat → Ev
  addr : Nat → Nat
  depth : Nat

/-- `repr(event)`. -/
def World.repr (w : World) (i : Nat) : Py Str := reprEv w.order w.obj w.addr w.depth (w.obj i)

/-- `str(name)` within an f-string. -/
def nameText : Option Str → Str
  | some n => n
  | none => lit "None"

/-- `events.index(event)`, if the event is in the list.  Events are compared by identity. -/
def indexIn (events : List Nat) (i : Nat) : Option Nat := if i ∈ events then some (events.idxOf i) else none

/-- The loop over the labels (soundSequence.py 1441–1459): warnings, lines, `i2SfxName` and `maxNameLen`. -/
def labelLoop (w : World) (pre : Str) (events : List Nat) :
    List (Option Str × Option Nat) → List Str → List Str → List (Nat × Str) → Nat → Py (List Str × List Str × List (Nat × Str) × Nat)
  | [], warnings, lines, names, len => .ok (warnings, lines, names, len)
  | (name, event) :: rest, warnings, lines, names, len =>
    match event with
    | none => labelLoop w pre events rest warnings (lines ++ [pre ++ nameText name ++ lit ": (none)"]) names len
    | some e =>
      match indexIn events e with
      | none => do
        let t ← w.repr e
        labelLoop w pre events rest
          (warnings ++ [pre ++ lit "(WARNING: " ++ t ++ lit " (" ++ nameText name ++ lit ") not in events list!)"]) lines names len
      | some i =>
        let name := name.getD (reprNat i)
        let new := match names.lookup i with
          | none => name
          | some old => old ++ lit ", " ++ name
        labelLoop w pre events rest warnings lines (dictSet names i new) (max len new.length)

/-- `label[:n]`, `label[n:]` until nothing is left (soundSequence.py 1475–1477).  The first argument bounds the rounds. -/
def chunks (n : Nat) : Nat → Str → List Str
  | 0, _ => []
  | f + 1, label => if label = [] then [] else label.take n :: chunks n f (label.drop n)

/-- The label as it is printed (soundSequence.py 1473–1482). -/
def labelText (pre : Str) (width : Nat) (label : Option Str) : Str :=
  let l := match label with
    | some name => name ++ lit ":"
    | none => []
  let parts := chunks width l.length l
  let parts := match parts.getLast? with
    | some last => parts.dropLast ++ [last ++ List.replicate (width - last.length) 32]
    | none => [List.replicate width 32]
  join (10 :: pre) parts

/-- `getDestinationStr` (soundSequence.py 1465–1470): the text, and the warning. -/
def destination (w : World) (pre : Str) (events : List Nat) (primary dest : Nat) : Py (Str × List Str) :=
  match indexIn events dest with
  | some i => .ok (lit "@" ++ reprNat i, [])
  | none => do
    let a ← w.repr dest
    let b ← w.repr primary
    return (lit "@NOWHERE", [pre ++ lit "(WARNING: " ++ a ++ lit " (target of " ++ b ++ lit ") not in events list!)"])

/-- The text of an event within the list, and a warning (soundSequence.py 1484–1491).  The text of the destination does not
matter for other events. -/
def eventText (w : World) (pre : Str) (events : List Nat) (e : Nat) : Py (Str × List Str) :=
  match w.obj e with
  | .jump d | .call d | .beginTrack _ d => do
    let r ← destination w pre events e d
    return (evText (fun _ => r.1) (w.obj e), r.2)
  | _ => .ok (strEvent w.addr (w.obj e), [])

/-- `f'{i:{n}}'`. -/
def padLeft (n i : Nat) : Str := List.replicate (n - (reprNat i).length) 32 ++ reprNat i

/-- The loop over the events (soundSequence.py 1495–1496), from the event with the number `i`: lines and warnings. -/
def eventLoop (w : World) (pre : Str) (events : List Nat) (names : List (Nat × Str)) (width numLen : Nat) :
    Nat → List Nat → Py (List Str × List Str)
  | _, [] => .ok ([], [])
  | i, e :: rest => do
    let t ← eventText w pre events e
    let r ← eventLoop w pre events names width numLen (i + 1) rest
    return ((pre ++ labelText pre width (names.lookup i) ++ lit "  [" ++ padLeft numLen i ++ lit "] " ++ t.1 ++ lit ",") :: r.1,
      t.2 ++ r.2)

/-- `linesList[-1] = linesList[-1][:-1]` (soundSequence.py 1499–1500). -/
def cutLast (lines : List Str) : List Str :=
  match lines.getLast? with
  | none => []
  | some l => lines.dropLast ++ [l.dropLast]

/-- `printSequenceEventList(events, labels, linePrefix)` (soundSequence.py 1431–1502).  The events are given by their
identities; `labels` are the items of the dictionary. -/
def printList (w : World) (events : List Nat) (labels : List (Option Str × Option Nat)) (pre : Str) : Py Str := do
  let (warnings, lines, names, len) ← labelLoop w pre events labels [] [] [] 0
  let width := min len 48 + 1
  let numLen := (reprNat (events.length - 1)).length
  let (lines', warnings') ← eventLoop w pre events names width numLen 0 events
  let all := if events.isEmpty then lines ++ lines' else cutLast (lines ++ lines')
  return join [10] (warnings ++ warnings' ++ all)

/-! ## Sequences -/

/-- The attributes of an `SSEQ` that are printed besides the events. -/
structure Fields where
  bankID : Int
  volume : Int
  channelPressure : Int
  polyphonicPressure : Int
  playerID : Int
  deriving DecidableEq, Repr

/-- `fields` in `SSEQ.__str__` (soundSequence.py 169–172). -/
def fieldsText (f : Fields) : Str :=
  lit "bankID=" ++ reprInt f.bankID ++ lit " volume=" ++ reprInt f.volume ++ lit " channelPressure=" ++
    reprInt f.channelPressure ++ lit " polyphonicPressure=" ++ reprInt f.polyphonicPressure ++ lit " playerID=" ++
    reprInt f.playerID

/-- `SSEQ.__str__` (soundSequence.py 168–179); `none` stands for an unparsed sequence. -/
def strSSEQ (w : World) (f : Fields) (events : Option (List Nat)) : Py Str :=
  match events with
  | none => .ok (lit "<sseq unparsed " ++ fieldsText f ++ lit ">")
  | some events => do
    let t ← printList w events [] (lit "  ")
    return join [10] [lit "<sseq " ++ fieldsText f, t, lit ">"]

/-- `SSEQMusic.Track.__str__` (extras/music.py 643–648). -/
def strTrack (w : World) (events : List Nat) : Py Str := do
  let t ← printList w events [] (lit "  ")
  return join [10] [lit "<track", t, lit ">"]

/-- The dictionary of labels in `SSAR.__str__` (soundSequenceArchive.py 249). -/
def labelsOf (sequences : List (Option Str × Option Nat)) : List (Option Str × Option Nat) :=
  sequences.foldl (fun d s => dictSet d s.1 s.2) []

/-- `SSAR.__str__` (soundSequenceArchive.py 241–252): the sequences are given by their names and first events; `none`
stands for unparsed events. -/
def strSSAR (w : World) (sequences : List (Option Str × Option Nat)) (events : Option (List Nat)) : Py Str :=
  match events with
  | none => .ok (lit "<ssar unparsed [" ++ join (lit ", ") (sequences.map fun s => nameText s.1) ++ lit "]>")
  | some events => do
    let t ← printList w events (labelsOf sequences) (lit "    ")
    return join [10] [lit "<ssar", t, lit ">"]

end Verif.Model.EventText
