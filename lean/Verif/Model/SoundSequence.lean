import Verif.Model.Common
import Verif.Base.Dict

/-!
# Model of `ndspy/soundSequence.py`

Sequence events, variable-length integers, `readSequenceEvents`, `saveSequenceEvents` and the SSEQ container.

Events are Python objects with an identity: jump, call and begin-track events hold a reference to another event.
An object is modelled as a pair of an identity (a natural number) and its contents; references hold identities.
`readSequenceEvents` creates at most one object for each offset of the data, so the offset is its identity there.

`__repr__` of the events is in `ReprClasses.lean`.  `__str__` and `printSequenceEventList` are in
`EventText.lean`.  The deprecated aliases are not modelled.  The `unk02`,
`bankID`, `volume`, `channelPressure`, `polyphonicPressure` and `playerID` attributes of an SSEQ are not part of
the file; the constructor stores them and `save` returns them.
-/

namespace Verif.Model.SoundSequence

open Verif Verif.Model.Common

/-! ## Variable-length integers -/

/-- The loop of `_readVariableLengthInt` (soundSequence.py 261–265); `room` is `limit - length`, and the value
is checked after each further byte. -/
def readVarLoop (d : Bytes) : Nat → Nat → Nat → Py Nat
  | room, off, value => do
    let prev ← pyIdx d (off - 1)
    if prev.toNat &&& 0x80 = 0 then .ok value
    else do
      let b ← pyIdx d off
      match room with
      | 0 => .error .valueError
      | room + 1 => readVarLoop d room (off + 1) ((value <<< 7) ||| (b.toNat &&& 0x7F))

/-- `_readVariableLengthInt(data, startOffset)` with the default limit 4 (soundSequence.py 242–266). -/
def readVar (d : Bytes) (off : Nat) : Py Nat := do
  let b ← pyIdx d off
  readVarLoop d 4 (off + 1) (b.toNat &&& 0x7F)

/-- `int.bit_length()`. -/
def bitLength (n : Nat) : Nat := if n = 0 then 0 else Nat.log2 n + 1

/-- The loop of `_lengthOfVariableLengthInt` (soundSequence.py 278–281): how often 7 can be taken from `bits`.
The first argument bounds the number of rounds; `bits` itself is enough. -/
def groupLoop : Nat → Nat → Nat
  | 0, _ => 0
  | f + 1, bits => if bits = 0 then 0 else 1 + groupLoop f (bits - 7)

/-- `_lengthOfVariableLengthInt(x)` (soundSequence.py 269–282). -/
def lenVar (x : Int) : Py Nat :=
  if x < 0 then .error .valueError
  else .ok (max 1 (groupLoop (bitLength x.toNat) (bitLength x.toNat)))

/-- The loop of `_writeVariableLengthInt` (soundSequence.py 296–300): the 7-bit digits of `x`, least significant
first.  The first argument bounds the number of rounds; `x` itself is enough. -/
def varDigits : Nat → Nat → List Nat
  | 0, x => [x &&& 0x7F]
  | f + 1, x => (x &&& 0x7F) :: if x >>> 7 = 0 then [] else varDigits f (x >>> 7)

/-- `for i, v in enumerate(ret[:-1]): ret[i] = v | 0x80` (soundSequence.py 304–305). -/
def markDigits : List Nat → List Nat
  | [] => []
  | [v] => [v]
  | v :: w :: r => (v ||| 0x80) :: markDigits (w :: r)

/-- `_writeVariableLengthInt(x)` (soundSequence.py 285–307). -/
def writeVar (x : Int) : Py Bytes :=
  if x < 0 then .error .valueError
  else .ok ((markDigits (varDigits x.toNat x.toNat).reverse).map UInt8.ofNat)

/-! ## Event classes -/

/-- The classes made by `_make_arithmetic_sequence_event_class` (soundSequence.py 677–730). -/
inductive Arith where
  | assign | add | sub | mul | div | shift | rand | unkB7 | eq | ge | gt | le | lt | ne
  deriving DecidableEq, Repr

/-- The type number of an arithmetic event class (soundSequence.py 677–730). -/
def Arith.code : Arith → Nat
  | assign => 0xB0 | add => 0xB1 | sub => 0xB2 | mul => 0xB3 | div => 0xB4 | shift => 0xB5 | rand => 0xB6
  | unkB7 => 0xB7 | eq => 0xB8 | ge => 0xB9 | gt => 0xBA | le => 0xBB | lt => 0xBC | ne => 0xBD

/-- The classes with a single one-byte parameter: those made by `_make_simple_sequence_event_class`
(soundSequence.py 770–794, 887–893, 937, 973–991, 1021–1029), and the tie, portamento-from, portamento on/off and
begin-loop classes, which behave the same.  (The tie and portamento on/off constructors turn the values 0 and 1
into `False` and `True`, which are equal to 0 and 1.) -/
inductive Simple where
  | pan | trackVolume | globalVolume | transpose | portamento | portamentoRange | trackPriority | tie
  | portamentoFrom | vibratoDepth | vibratoSpeed | vibratoRange | portamentoOnOff | portamentoDuration
  | attackRate | decayRate | sustainRate | releaseRate | beginLoop | expression | printVariable | vibratoDelay
  deriving DecidableEq, Repr

/-- The type number of a one-parameter event class (soundSequence.py 770–1029). -/
def Simple.code : Simple → Nat
  | pan => 0xC0 | trackVolume => 0xC1 | globalVolume => 0xC2 | transpose => 0xC3 | portamento => 0xC4
  | portamentoRange => 0xC5 | trackPriority => 0xC6 | tie => 0xC8 | portamentoFrom => 0xC9
  | vibratoDepth => 0xCA | vibratoSpeed => 0xCB | vibratoRange => 0xCD | portamentoOnOff => 0xCE
  | portamentoDuration => 0xCF | attackRate => 0xD0 | decayRate => 0xD1 | sustainRate => 0xD2
  | releaseRate => 0xD3 | beginLoop => 0xD4 | expression => 0xD5 | printVariable => 0xD6 | vibratoDelay => 0xE0

/-- The event classes of `_EVENT_TYPES`. -/
inductive Cls where
  | rest | instrumentSwitch | beginTrack | jump | call | random | fromVariable | ifE
  | arith (a : Arith) | simple (s : Simple) | monoPoly | vibratoType | tempo | sweepPitch
  | endLoop | ret | defineTracks | endTrack
  deriving DecidableEq, Repr

/-- `_EVENT_TYPES` (soundSequence.py 1196–1249). -/
def clsOf : Nat → Option Cls
  | 0x80 => some .rest
  | 0x81 => some .instrumentSwitch
  | 0x93 => some .beginTrack
  | 0x94 => some .jump
  | 0x95 => some .call
  | 0xA0 => some .random
  | 0xA1 => some .fromVariable
  | 0xA2 => some .ifE
  | 0xB0 => some (.arith .assign)
  | 0xB1 => some (.arith .add)
  | 0xB2 => some (.arith .sub)
  | 0xB3 => some (.arith .mul)
  | 0xB4 => some (.arith .div)
  | 0xB5 => some (.arith .shift)
  | 0xB6 => some (.arith .rand)
  | 0xB7 => some (.arith .unkB7)
  | 0xB8 => some (.arith .eq)
  | 0xB9 => some (.arith .ge)
  | 0xBA => some (.arith .gt)
  | 0xBB => some (.arith .le)
  | 0xBC => some (.arith .lt)
  | 0xBD => some (.arith .ne)
  | 0xC0 => some (.simple .pan)
  | 0xC1 => some (.simple .trackVolume)
  | 0xC2 => some (.simple .globalVolume)
  | 0xC3 => some (.simple .transpose)
  | 0xC4 => some (.simple .portamento)
  | 0xC5 => some (.simple .portamentoRange)
  | 0xC6 => some (.simple .trackPriority)
  | 0xC7 => some .monoPoly
  | 0xC8 => some (.simple .tie)
  | 0xC9 => some (.simple .portamentoFrom)
  | 0xCA => some (.simple .vibratoDepth)
  | 0xCB => some (.simple .vibratoSpeed)
  | 0xCC => some .vibratoType
  | 0xCD => some (.simple .vibratoRange)
  | 0xCE => some (.simple .portamentoOnOff)
  | 0xCF => some (.simple .portamentoDuration)
  | 0xD0 => some (.simple .attackRate)
  | 0xD1 => some (.simple .decayRate)
  | 0xD2 => some (.simple .sustainRate)
  | 0xD3 => some (.simple .releaseRate)
  | 0xD4 => some (.simple .beginLoop)
  | 0xD5 => some (.simple .expression)
  | 0xD6 => some (.simple .printVariable)
  | 0xE0 => some (.simple .vibratoDelay)
  | 0xE1 => some .tempo
  | 0xE3 => some .sweepPitch
  | 0xFC => some .endLoop
  | 0xFD => some .ret
  | 0xFE => some .defineTracks
  | 0xFF => some .endTrack
  | _ => none

/-- The contents of a sequence event object (soundSequence.py 310–1193).  `beginTrack`, `jump` and `call` hold
the identity of the event they refer to.  The `type` attribute is the class's number (for notes: the pitch); it
is not reassigned.  The two fields of an instrument switch are taken to be non-negative.  The set of track numbers
is the list of its elements in increasing order. -/
inductive Ev where
  | note (pitch velocity : Int) (unknownFlag : Bool) (duration : Int)
  | rest (duration : Int)
  | instrumentSwitch (bankID instrumentID : Nat)
  | beginTrack (trackNumber : Int) (firstEvent : Nat)
  | jump (destination : Nat)
  | call (destination : Nat)
  | random (subType : Int) (args : List Int) (randMin randMax : Int)
  | fromVariable (subType variableID : Int) (unknown : Option Int)
  | ifE
  | arith (op : Arith) (variableID value : Int)
  | simple (kind : Simple) (value : Int)
  | monoPoly (value : Int)
  | vibratoType (value : Int)
  | tempo (value : Int)
  | sweepPitch (value : Int)
  | endLoop
  | ret
  | defineTracks (trackNumbers : List Nat)
  | endTrack
  | raw (data : Bytes)
  deriving DecidableEq, Repr

/-- `NoteSequenceEvent.__init__(type, velocityAndFlag, duration)` (soundSequence.py 317–321). -/
def noteInit (type velocityAndFlag : Nat) (duration : Int) : Ev :=
  .note type (velocityAndFlag &&& 0x7F : Nat) (velocityAndFlag &&& 0x80 != 0) duration

/-- The declared data length of the object that `_EVENT_TYPES[subType](0, *([0] * i))` creates for the first `i`
below 5 for which the constructor accepts that many arguments, if any (soundSequence.py 525–530).  Classes
without parameters accept none. -/
def zeroLength : Cls → Option Nat
  | .rest => some 2
  | .instrumentSwitch => some 2
  | .beginTrack => some 5
  | .jump => some 4
  | .call => some 4
  | .random => some 7
  | .fromVariable => some 3
  | .arith _ => some 4
  | .simple _ => some 2
  | .monoPoly => some 2
  | .vibratoType => some 2
  | .tempo => some 3
  | .sweepPitch => some 3
  | .defineTracks => some 3
  | .ifE => none
  | .endLoop => none
  | .ret => none
  | .endTrack => none

/-- `RandomSequenceEvent._dataLength_for_subtype(subType)` (soundSequence.py 519–533). -/
def randomLength (subType : Int) : Py Nat :=
  if subType ≤ 0x7F then .ok 7
  else match clsOf subType.toNat with
    | none => .error .keyError
    | some c => match zeroLength c with
      | some n => .ok (4 + n)
      | none => .error .valueError

/-- The `dataLength` attribute or property of each class (soundSequence.py 206, 328, 379, 410, 438, 462, 485, 516,
578, 674, 767, 802, 836, 867, 901, 947, 1001, 1037, 1061, 1125, 1179). -/
def Ev.dataLength : Ev → Py Nat
  | .note _ _ _ duration => do
    let n ← lenVar duration
    return 2 + n
  | .rest duration => do
    let n ← lenVar duration
    return 1 + n
  | .instrumentSwitch bankID instrumentID => do
    let n ← lenVar ((bankID <<< 7 ||| instrumentID : Nat) : Int)
    return 1 + n
  | .beginTrack _ _ => .ok 5
  | .jump _ => .ok 4
  | .call _ => .ok 4
  | .random subType _ _ _ => randomLength subType
  | .fromVariable subType _ _ => .ok (if 0xB0 ≤ subType ∧ subType ≤ 0xBD then 4 else 3)
  | .ifE => .ok 1
  | .arith _ _ _ => .ok 4
  | .simple _ _ => .ok 2
  | .monoPoly _ => .ok 2
  | .vibratoType _ => .ok 2
  | .tempo _ => .ok 3
  | .sweepPitch _ => .ok 3
  | .endLoop => .ok 1
  | .ret => .ok 1
  | .defineTracks _ => .ok 3
  | .endTrack => .ok 1
  | .raw data => .ok data.length

/-- `x.to_bytes(k, 'little')`. -/
def toBytes (k : Nat) (x : Int) : Py Bytes :=
  if 0 ≤ x ∧ x < (256 ^ k : Nat) then .ok (leBytes k x.toNat) else .error .overflowError

/-- `bytes([x, ...])` of a list of ints. -/
def bytesOf (l : List Int) : Py Bytes :=
  mapE (fun x => if 0 ≤ x ∧ x < 256 then .ok (UInt8.ofNat x.toNat) else .error .valueError) l

/-- `eventsToOffsets[event]`. -/
def offsetOf (offs : Nat → Option Nat) (id : Nat) : Py Nat :=
  match offs id with
  | some o => .ok o
  | none => .error .keyError

/-- `struct.pack` of one field `B` whose value may be negative. -/
def packByte (x : Int) : Py Bytes := packUInt .little 1 x

/-- The bit field of `DefineTracksSequenceEvent.save` (soundSequence.py 1132–1135). -/
def tracksBits (trackNumbers : List Nat) : Nat :=
  (List.range 16).foldl (fun bits i => if i ∈ trackNumbers then bits ||| (1 <<< i) else bits) 0

/-- The velocity byte of a note (soundSequence.py 348–350).  A negative velocity stays negative when the flag is
or-ed into it. -/
def velocityByte (velocity : Int) (unknownFlag : Bool) : Py Bytes :=
  if velocity < 0 then .error .overflowError
  else toBytes 1 ((velocity.toNat ||| (if unknownFlag then 0x80 else 0) : Nat) : Int)

/-- `save(eventsToOffsets)` of each class (soundSequence.py 213, 338–351, 382, 414, 445, 468, 491, 535,
587–599, 651, 746, 812, 844, 873, 912, 955, 1007, 1043, 1067, 1131–1136, 1186).  Where the type byte is fixed it
always fits. -/
def Ev.save (offs : Nat → Option Nat) : Ev → Py Bytes
  | .note pitch velocity unknownFlag duration => do
    raiseIf (pitch < 0) .valueError
    raiseIf (pitch > 127) .valueError
    raiseIf (velocity > 127) .valueError
    let t ← toBytes 1 pitch
    let v ← velocityByte velocity unknownFlag
    let l ← writeVar duration
    return t ++ v ++ l
  | .rest duration => do
    let l ← writeVar duration
    return [0x80] ++ l
  | .instrumentSwitch bankID instrumentID => do
    let l ← writeVar (((instrumentID &&& 0x7F) ||| (bankID <<< 7) : Nat) : Int)
    return [0x81] ++ l
  | .beginTrack trackNumber firstEvent => do
    let t ← toBytes 1 trackNumber
    let o ← offsetOf offs firstEvent
    let b ← toBytes 3 o
    return [0x93] ++ t ++ b
  | .jump destination => do
    let o ← offsetOf offs destination
    let b ← toBytes 3 o
    return [0x94] ++ b
  | .call destination => do
    let o ← offsetOf offs destination
    let b ← toBytes 3 o
    return [0x95] ++ b
  | .random subType args randMin randMax => do
    let s ← bytesOf (subType :: args)
    let a ← packS .little 2 randMin
    let b ← packS .little 2 randMax
    return [0xA0] ++ s ++ (a ++ b)
  | .fromVariable subType variableID unknown =>
    if 0xB0 ≤ subType ∧ subType ≤ 0xBD then
      match unknown with
      | none => .error .valueError
      | some u => do
        let s ← packByte subType
        let a ← packS .little 1 u
        let b ← packS .little 1 variableID
        return [0xA1] ++ (s ++ a ++ b ++ [0, 0])
    else do
      let s ← packByte subType
      let b ← packS .little 2 variableID
      return [0xA1] ++ (s ++ b)
  | .ifE => .ok [0xA2]
  | .arith op variableID value => do
    let v ← packByte variableID
    let b ← packS .little 2 value
    return [UInt8.ofNat op.code] ++ (v ++ b)
  | .simple kind value => do
    let b ← toBytes 1 value
    return [UInt8.ofNat kind.code] ++ b
  | .monoPoly value => do
    let b ← toBytes 1 value
    return [0xC7] ++ b
  | .vibratoType value => do
    let b ← toBytes 1 value
    return [0xCC] ++ b
  | .tempo value => do
    let b ← packUInt .little 2 value
    return [0xE1] ++ b
  | .sweepPitch value => do
    let b ← packUInt .little 2 value
    return [0xE3] ++ b
  | .endLoop => .ok [0xFC]
  | .ret => .ok [0xFD]
  | .defineTracks trackNumbers => do
    let b ← packU .little 2 (tracksBits trackNumbers)
    return [0xFE] ++ b
  | .endTrack => .ok [0xFF]
  | .raw data => .ok data

/-- `RandomSequenceEvent.fromData` (soundSequence.py 540–553). -/
def randomFromData (d : Bytes) (off : Nat) : Py Ev := do
  let subType ← pyIdx d (off + 1)
  let length ← randomLength subType.toNat
  let args ← mapE (fun i => pyIdx d (off + 2 + i)) (List.range (length - 6))
  let randMin ← unpackS .little 2 d (off + 2 + (length - 6))
  let randMax ← unpackS .little 2 d (off + 2 + (length - 6) + 2)
  return .random subType.toNat (args.map fun b => (b.toNat : Int)) randMin randMax

/-- `FromVariableSequenceEvent.fromData` (soundSequence.py 601–611). -/
def fromVariableFromData (d : Bytes) (off : Nat) : Py Ev := do
  let subType ← pyIdx d (off + 1)
  if 0xB0 ≤ subType.toNat ∧ subType.toNat ≤ 0xBD then do
    let unknown ← unpackS .little 1 d (off + 2)
    let variableID ← unpackS .little 1 d (off + 3)
    return .fromVariable subType.toNat variableID (some unknown)
  else do
    let variableID ← unpackS .little 2 d (off + 2)
    return .fromVariable subType.toNat variableID none

/-- `fromData(type, data, startOffset)` of the classes in `_EVENT_TYPES` (soundSequence.py 224, 386, 419, 541,
602, 631, 656, 750, 816, 848, 877, 916, 959, 1011, 1047, 1071, 1090, 1110, 1139, 1163). -/
def fromData (c : Cls) (d : Bytes) (off : Nat) : Py Ev :=
  match c with
  | .rest => do
    let n ← readVar d (off + 1)
    return .rest n
  | .instrumentSwitch => do
    let n ← readVar d (off + 1)
    return .instrumentSwitch (n >>> 7) (n &&& 0x7F)
  | .beginTrack => .error .notImplementedError
  | .jump => .error .notImplementedError
  | .call => .error .notImplementedError
  | .random => randomFromData d off
  | .fromVariable => fromVariableFromData d off
  | .ifE => .ok .ifE
  | .arith a => do
    let variableID ← unpackU .little 1 d (off + 1)
    let value ← unpackS .little 2 d (off + 2)
    return .arith a variableID value
  | .simple s => do
    let b ← pyIdx d (off + 1)
    return .simple s b.toNat
  | .monoPoly => do
    let b ← pyIdx d (off + 1)
    raiseIf (2 ≤ b.toNat) .valueError
    return .monoPoly b.toNat
  | .vibratoType => do
    let b ← pyIdx d (off + 1)
    raiseIf (3 ≤ b.toNat) .valueError
    return .vibratoType b.toNat
  | .tempo => do
    let n ← unpackU .little 2 d (off + 1)
    return .tempo n
  | .sweepPitch => do
    let n ← unpackU .little 2 d (off + 1)
    return .sweepPitch n
  | .endLoop => .ok .endLoop
  | .ret => .ok .ret
  | .defineTracks => do
    let bits ← unpackU .little 2 d (off + 1)
    return .defineTracks ((List.range 16).filter fun i => bits &&& (1 <<< i) != 0)
  | .endTrack => .ok .endTrack

/-- `NoteSequenceEvent.fromData` (soundSequence.py 353–357). -/
def noteFromData (type : Nat) (d : Bytes) (off : Nat) : Py Ev := do
  let velocity ← pyIdx d (off + 1)
  let duration ← readVar d (off + 2)
  return noteInit type velocity.toNat duration

/-! ## `readSequenceEvents` -/

/-- `except (struct.error, IndexError): raise EOFError` (soundSequence.py 1376–1377). -/
def asEof {α : Type} : Py α → Py α
  | .error .structError => .error .eofError
  | .error .indexError => .error .eofError
  | r => r

/-- The event that `parse_at` creates for the offset `off` (soundSequence.py 1283–1371): the branches for
begin-track, jump, call, return and end-of-track, and the general one.  A reference is given by the offset at which
its target is looked up.  Slices may be shorter than 3 bytes at the end of the data. -/
def decode (d : Bytes) (off : Nat) : Py Ev := do
  let type ← pyIdx d off
  if type.toNat = 0x93 then do
    let trackNumber ← pyIdx d (off + 1)
    return .beginTrack trackNumber.toNat (leVal (slice d (off + 2) (off + 5)))
  else if type.toNat = 0x94 then
    return .jump (leVal (slice d (off + 1) (off + 4)))
  else if type.toNat = 0x95 then
    return .call (leVal (slice d (off + 1) (off + 4)))
  else if type.toNat ≤ 0x7F then noteFromData type.toNat d off
  else match clsOf type.toNat with
    | none => .error .valueError
    | some c => fromData c d off

/-- The fates of offsets (soundSequence.py 1266–1269). -/
inductive Fate where
  | inProgress | ret | loop | eot
  deriving DecidableEq, Repr

/-- The dictionaries `events` and `fates` (soundSequence.py 1264–1270).  They are only looked up and assigned, never
iterated over. -/
structure St where
  events : Nat → Option Ev
  fates : Nat → Option Fate

/-- `events[off] = e; fates[off] = f`. -/
def St.put (st : St) (off : Nat) (e : Ev) (f : Fate) : St where
  events := fun o => if o = off then some e else st.events o
  fates := fun o => if o = off then some f else st.fates o

/-- `for off_ in offs: fates[off_] = f`. -/
def St.mark (st : St) (offs : List Nat) (f : Fate) : St where
  events := st.events
  fates := fun o => if o ∈ offs then some f else st.fates o

/-- `events[destination]` after parsing there (soundSequence.py 1296, 1305, 1331). -/
def needEvent (st : St) (off : Nat) : Py Unit :=
  match st.events off with
  | some _ => .ok ()
  | none => .error .keyError

/-- `while x not in events and x >= 0: x -= 1` starting at `x = off - 1`, and whether the event found is an
if-event (soundSequence.py 1313–1319). -/
def partOfIf (events : Nat → Option Ev) : Nat → Bool
  | 0 => false
  | x + 1 => match events x with
    | some e => e = .ifE
    | none => partOfIf events x

/-- `parse_at(off)` (soundSequence.py 1272–1378), as the state of its loop: the current offset and
`offsetsOfMySequentialEvents`.  A nested call uses one level of the interpreter's recursion limit `depth`.  `fuel`
bounds the number of rounds of all the loops on the call stack. -/
def parseAt (d : Bytes) : Nat → Nat → Nat → List Nat → St → Py (Fate × St)
  | 0, _, _, _, _ => .error .outOfFuel
  | fuel + 1, depth, off, mine, st =>
    if d.length ≤ off then .error .eofError
    else match st.fates off with
    | some f =>
      .ok (if f = .inProgress then .loop else f, st.mark mine (if f = .inProgress then .loop else f))
    | none => do
      let e ← asEof (decode d off)
      let n ← asEof e.dataLength
      match e with
      | .beginTrack _ dest =>
        match depth with
        | 0 => .error .recursionError
        | depth' + 1 => do
          let r ← parseAt d fuel depth' dest [] (st.put off e .inProgress)
          needEvent r.2 dest
          parseAt d fuel depth (off + n) (mine ++ [off]) r.2
      | .jump dest =>
        match depth with
        | 0 => .error .recursionError
        | depth' + 1 => do
          let r ← parseAt d fuel depth' dest [] (st.put off e .inProgress)
          needEvent r.2 dest
          if partOfIf r.2.events off then parseAt d fuel depth (off + n) (mine ++ [off]) (r.2.mark mine r.1)
          else .ok (r.1, r.2.mark mine r.1)
      | .call dest =>
        match depth with
        | 0 => .error .recursionError
        | depth' + 1 => do
          let r ← parseAt d fuel depth' dest [] (st.put off e .inProgress)
          needEvent r.2 dest
          if r.1 = .eot ∨ r.1 = .loop then .ok (r.1, r.2.mark (off :: mine) r.1)
          else parseAt d fuel depth (off + n) (mine ++ [off]) r.2
      | .ret => .ok (.ret, (st.put off e .ret).mark mine .ret)
      | .endTrack => .ok (.eot, (st.put off e .eot).mark mine .eot)
      | _ => parseAt d fuel depth (off + n) (mine ++ [off]) (st.put off e .inProgress)

/-- `for start in starts: ...` (soundSequence.py 1380–1384). -/
def parseStarts (d : Bytes) (depth : Nat) : List Nat → St → Py St
  | [], st => .ok st
  | s :: ss, st => do
    let r ← parseAt d (d.length + 1) depth s [] st
    pyAssert (r.1 = .eot ∨ r.1 = .loop)
    parseStarts d depth ss r.2

/-- `while j not in events and j < len(data): j += 1` (soundSequence.py 1394–1395), with `k` steps left. -/
def nextEvent (events : Nat → Option Ev) : Nat → Nat → Nat
  | 0, j => j
  | k + 1, j => match events j with
    | some _ => j
    | none => nextEvent events k (j + 1)

/-- The loop that builds `eventsList` (soundSequence.py 1386–1397).  Every round advances `i`. -/
def gather (d : Bytes) (events : Nat → Option Ev) : Nat → Nat → Py (List (Nat × Ev))
  | 0, i => if d.length ≤ i then .ok [] else .error .outOfFuel
  | fuel + 1, i =>
    if d.length ≤ i then .ok []
    else match events i with
    | some e => do
      let n ← e.dataLength
      let r ← gather d events fuel (i + n)
      return (i, e) :: r
    | none => do
      let r ← gather d events fuel (nextEvent events (d.length - i) i)
      return (i, .raw (slice d i (nextEvent events (d.length - i) i))) :: r

/-- `readSequenceEvents(data, notableOffsets)` (soundSequence.py 1252–1401): the list of events, and the identities
of the notable events.  `depth` is what is left of the interpreter's recursion limit.  Offsets are non-negative
(a negative one would count from the end of the data). -/
def readSequenceEvents (depth : Nat) (d : Bytes) (notableOffsets : List Nat) :
    Py (List (Nat × Ev) × List Nat) := do
  let st ← parseStarts d depth (if notableOffsets = [] then [0] else notableOffsets)
    ⟨fun _ => none, fun _ => none⟩
  let l ← gather d st.events d.length 0
  let _ ← mapE (needEvent st) notableOffsets
  return (l, notableOffsets)

/-! ## `saveSequenceEvents` -/

/-- The first loop (soundSequence.py 1416–1419): the dictionary `events2Offsets`, whose keys are objects (here:
identity and contents), and the total length. -/
def placeEvents : List (Nat × Ev) → List (Nat × Nat × Ev) → Nat → Py (List (Nat × Nat × Ev) × Nat)
  | [], dict, off => .ok (dict, off)
  | e :: es, dict, off => do
    let n ← e.2.dataLength
    placeEvents es (dictSet dict e.1 (off, e.2)) (off + n)

/-- The second loop (soundSequence.py 1422–1424).  Assigning to a slice that reaches past the end of the
`bytearray` makes it longer. -/
def writeEvents (offs : Nat → Option Nat) : List (Nat × Nat × Ev) → Bytes → Py Bytes
  | [], data => .ok data
  | e :: es, data => do
    let b ← e.2.2.save offs
    writeEvents offs es (patch data e.2.1 b)

/-- `saveSequenceEvents(events, notableEvents)` (soundSequence.py 1404–1428). -/
def saveSequenceEvents (events : List (Nat × Ev)) (notableEvents : List Nat) : Py (Bytes × List Nat) := do
  let r ← placeEvents events [] 0
  let offs := fun id => (r.1.lookup id).map Prod.fst
  let data ← writeEvents offs r.1 (zeros r.2)
  let notableOffsets ← mapE (offsetOf offs) notableEvents
  return (data, notableOffsets)

/-! ## SSEQ -/

def magicSSEQ : Bytes := [0x53, 0x53, 0x45, 0x51]
def magicDATA : Bytes := [0x44, 0x41, 0x54, 0x41]

/-- The state of an `SSEQ` object (soundSequence.py 38–64): unparsed with its event data, or parsed with a list of
event objects. -/
inductive SSEQ where
  | unparsed (eventsData : Bytes)
  | parsed (events : List (Nat × Ev))
  deriving DecidableEq, Repr

/-- `SSEQ(file)` (soundSequence.py 48–60). -/
def SSEQ.load (file : Bytes) : Py SSEQ := do
  raiseIf (file.take 4 ≠ magicSSEQ) .valueError
  let version ← unpackU .little 2 file 6
  let totalFileLen ← unpackU .little 4 file 8
  raiseIf (version ≠ 0x100) .valueError
  let dataOffs ← unpackU .little 4 file 0x18
  return .unparsed (slice file dataOffs totalFileLen)

/-- `SSEQ.parse()` (soundSequence.py 119–126). -/
def SSEQ.parse (depth : Nat) : SSEQ → Py SSEQ
  | .parsed es => .ok (.parsed es)
  | .unparsed d => do
    let r ← readSequenceEvents depth d []
    return .parsed r.1

/-- The event data that `save` writes (soundSequence.py 136–139). -/
def SSEQ.data : SSEQ → Py Bytes
  | .parsed es => do
    let r ← saveSequenceEvents es []
    return r.1
  | .unparsed d => .ok d

/-- `SSEQ.save()` (soundSequence.py 129–155), the file. -/
def SSEQ.save (s : SSEQ) : Py Bytes := do
  let seqEv ← s.data
  let h ← packStdHeader ⟨magicSSEQ, 0xFEFF, 0x100, 0x1C + seqEv.length, 0x10, 1⟩
  let a ← packU .little 4 (0x1C + seqEv.length - 0x10)
  let b ← packU .little 4 0x1C
  return h ++ (magicDATA ++ a ++ b) ++ seqEv

end Verif.Model.SoundSequence
