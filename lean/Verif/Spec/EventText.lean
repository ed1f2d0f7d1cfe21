import Verif.Spec.Listing
import Verif.Model.EventText
import Verif.Props.NoteName

/-!
# Reading printed sequences

A reader for the texts that `print` shows for sequence events and sequences.  Destinations are read as places in the list.
-/

namespace Verif.Spec.EventText

open Verif Verif.Spec.PyExpr Verif.Spec.Listing
open Verif.Model.SoundSequence (Ev Arith Simple)
open Verif.Model.EventText (Fields)

/-- The characters of a text. -/
def chars (s : String) : Str := s.toList.map Char.toNat

/-- The parts of a text between occurrences of a character. -/
def splitOn (c : Nat) : Str → List Str
  | [] => [[]]
  | d :: s =>
    if d = c then [] :: splitOn c s
    else match splitOn c s with
      | l :: ls => (d :: l) :: ls
      | [] => [[d]]

/-- A whole number, decimal or hexadecimal. -/
def nat? (w : Str) : Option Nat := (number w).bind fun r => if r.2 = [] then some r.1 else none

/-- An integer. -/
def int? (w : Str) : Option Int := if w.head? = some 45 then (nat? w.tail).map (fun n : Nat => -(n : Int)) else (nat? w).map Int.ofNat

/-- What comes after a prefix. -/
def after (p w : Str) : Option Str := if w.take p.length = p then some (w.drop p.length) else none

/-- `name=value`. -/
def field (name : String) (w : Str) : Option Int := (after (chars name ++ [61]) w).bind int?

/-- A place in the list: `@` and a number. -/
def place (w : Str) : Option Nat := (after [64] w).bind nat?

/-- `on`, `off`, or a number. -/
def onOff (w : Str) : Option Int := if w = chars "off" then some 0 else if w = chars "on" then some 1 else int? w

def all? {α β : Type} (f : α → Option β) : List α → Option (List β)
  | [] => some []
  | x :: l => (f x).bind fun y => (all? f l).map (y :: ·)

def arithOf (w : Str) : Option Arith :=
  if w = chars "=" then some .assign
  else if w = chars "+=" then some .add
  else if w = chars "-=" then some .sub
  else if w = chars "*=" then some .mul
  else if w = chars "/=" then some .div
  else if w = chars "<<=" then some .shift
  else if w = chars "[rand]" then some .rand
  else if w = chars "[nop]" then some .unkB7
  else if w = chars "==" then some .eq
  else if w = chars ">=" then some .ge
  else if w = chars ">" then some .gt
  else if w = chars "<=" then some .le
  else if w = chars "<" then some .lt
  else if w = chars "!=" then some .ne
  else none

/-- Events of one word. -/
def read1 (a : Str) : Option Ev :=
  if a = chars "if" then some .ifE
  else if a = chars "return" then some .ret
  else if a = chars "mono" then some (.monoPoly 1)
  else if a = chars "poly" then some (.monoPoly 0)
  else none

/-- Events of two words.  `portamento` with a number is taken for the event 0xC4. -/
def read2 (a b : Str) : Option Ev :=
  if a = chars "end" then
    if b = chars "loop" then some .endLoop else if b = chars "track" then some .endTrack else none
  else if a = chars "rest" then (int? b).map .rest
  else if a = chars "instrument" then
    match splitOn 47 b with
    | [x, y] => (nat? x).bind fun x => (nat? y).map fun y => .instrumentSwitch x y
    | _ => none
  else if a = chars "jump" then (place b).map .jump
  else if a = chars "call" then (place b).map .call
  else if a = chars "tempo" then (int? b).map .tempo
  else if a = chars "tie" then (onOff b).map (.simple .tie)
  else if a = chars "portamento" then
    if b = chars "on" then some (.simple .portamentoOnOff 1)
    else if b = chars "off" then some (.simple .portamentoOnOff 0)
    else (int? b).map (.simple .portamento)
  else if a = chars "pan" then (int? b).map (.simple .pan)
  else if a = chars "transpose" then (int? b).map (.simple .transpose)
  else if a = chars "expression" then (int? b).map (.simple .expression)
  else none

/-- Events of two words and a value. -/
def read3 (a b c : Str) : Option Ev :=
  if a = chars "sweep" ∧ b = chars "pitch" then (int? c).map .sweepPitch
  else if a = chars "vibrato" ∧ b = chars "type" then
    if c = chars "pitch" then some (.vibratoType 0)
    else if c = chars "volume" then some (.vibratoType 1)
    else if c = chars "pan" then some (.vibratoType 2)
    else none
  else if a = chars "portamento" ∧ b = chars "from" then (Props.NoteName.readName c).map (.simple .portamentoFrom)
  else if a = chars "track" ∧ b = chars "volume" then (int? c).map (.simple .trackVolume)
  else if a = chars "global" ∧ b = chars "volume" then (int? c).map (.simple .globalVolume)
  else if a = chars "portamento" ∧ b = chars "range" then (int? c).map (.simple .portamentoRange)
  else if a = chars "track" ∧ b = chars "priority" then (int? c).map (.simple .trackPriority)
  else if a = chars "vibrato" ∧ b = chars "depth" then (int? c).map (.simple .vibratoDepth)
  else if a = chars "vibrato" ∧ b = chars "speed" then (int? c).map (.simple .vibratoSpeed)
  else if a = chars "vibrato" ∧ b = chars "range" then (int? c).map (.simple .vibratoRange)
  else if a = chars "portamento" ∧ b = chars "duration" then (int? c).map (.simple .portamentoDuration)
  else if a = chars "attack" ∧ b = chars "rate" then (int? c).map (.simple .attackRate)
  else if a = chars "decay" ∧ b = chars "rate" then (int? c).map (.simple .decayRate)
  else if a = chars "sustain" ∧ b = chars "rate" then (int? c).map (.simple .sustainRate)
  else if a = chars "release" ∧ b = chars "rate" then (int? c).map (.simple .releaseRate)
  else if a = chars "begin" ∧ b = chars "loop" then (int? c).map (.simple .beginLoop)
  else if a = chars "print" ∧ b = chars "variable" then (int? c).map (.simple .printVariable)
  else if a = chars "vibrato" ∧ b = chars "delay" then (int? c).map (.simple .vibratoDelay)
  else none

/-- `(a,` and `b)`. -/
def range? : Str → Str → Option (Int × Int)
  | a, b => (after [40] a).bind fun a => if a.getLast? = some 44 ∧ b.getLast? = some 41 then
      (int? a.dropLast).bind fun x => (int? b.dropLast).map fun y => (x, y)
    else none

/-- An event from its words. -/
def readWords : List Str → Option Ev
  | [a] => read1 a
  | [a, b] => read2 a b
  | a :: b :: c :: rest =>
    if b.take 9 = chars "velocity=" then
      (Props.NoteName.readName a).bind fun p => (field "velocity" b).bind fun v => (field "duration" c).bind fun d =>
        if rest = [] then some (.note p v false d)
        else if rest = [chars "unknown-flag"] then some (.note p v true d)
        else none
    else if a = chars "begin" ∧ b = chars "track" then
      match rest with
      | [r] => (int? c).bind fun n => (place r).map fun i => .beginTrack n i
      | _ => none
    else if a = chars "random" then
      (int? b).bind fun s => (all? int? ((c :: rest).dropLast.dropLast)).bind fun args =>
        (range? ((c :: rest).dropLast.getLast?.getD []) ((c :: rest).getLast?.getD [])).map fun r => .random s args r.1 r.2
    else if a = chars "from" ∧ b = chars "variable" then
      match rest with
      | [v] => (int? c).bind fun s => (int? v).map fun v => .fromVariable s v none
      | [v, u] => (int? c).bind fun s => (int? v).bind fun v => (int? u).map fun u => .fromVariable s v (some u)
      | _ => none
    else if a = chars "(var" then
      match rest with
      | [x] => if b.getLast? = some 41 then
          (int? b.dropLast).bind fun v => (arithOf c).bind fun op => (int? x).map fun x => .arith op v x
        else none
      | _ => none
    else if a = chars "define" ∧ b = chars "tracks" then
      if c :: rest = [[]] then some (.defineTracks []) else (all? nat? (c :: rest)).map .defineTracks
    else if rest = [] then read3 a b c
    else none
  | [] => none

/-- A literal of bytes. -/
def bytes? (s : Str) : Option Bytes :=
  match expr (s.length + 1) s with
  | some (.bytes b, []) => some (b.map UInt8.ofNat)
  | _ => none

/-- An event from its text. -/
def readEvent (s : Str) : Option Ev :=
  if s.head? = some 60 ∧ s.getLast? = some 62 then
    let t := s.tail.dropLast
    match after (chars "raw data ") t with
    | some d => (bytes? d).map .raw
    | none => readWords (splitOn 32 t)
  else none

/-- A line of the list: a number in brackets, an event, and maybe a comma. -/
def readLine (s : Str) : Option (Nat × Ev) :=
  let t := s.dropWhile (· ≠ 91)
  (after [91] t).bind fun t =>
    (nat? ((t.takeWhile (· ≠ 93)).dropWhile (· = 32))).bind fun i =>
      (after [93, 32] (t.dropWhile (· ≠ 93))).bind fun e =>
        (readEvent (if e.getLast? = some 44 then e.dropLast else e)).map fun e => (i, e)

/-- The attributes. -/
def readFields : List Str → Option Fields
  | [a, b, c, d, e] =>
    (field "bankID" a).bind fun a => (field "volume" b).bind fun b => (field "channelPressure" c).bind fun c =>
      (field "polyphonicPressure" d).bind fun d => (field "playerID" e).map fun e => ⟨a, b, c, d, e⟩
  | _ => none

/-- A sequence: its attributes, and the numbered events unless it is unparsed. -/
def readSSEQ (s : Str) : Option (Fields × Option (List (Nat × Ev))) :=
  match splitLines s with
  | [l] => (after (chars "<sseq unparsed ") l).bind fun t =>
      if t.getLast? = some 62 then (readFields (splitOn 32 t.dropLast)).map fun f => (f, none) else none
  | first :: rest =>
    (after (chars "<sseq ") first).bind fun t => (readFields (splitOn 32 t)).bind fun f =>
      if rest.getLast? = some [62] then
        if rest.dropLast = [[]] then some (f, some [])
        else (all? readLine rest.dropLast).map fun l => (f, some l)
      else none
  | [] => none

/-- A track: the numbered events, written as in a sequence. -/
def readTrack (s : Str) : Option (List (Nat × Ev)) :=
  (after (chars "<track") s).bind fun t =>
    (readSSEQ (chars "<sseq bankID=0 volume=0 channelPressure=0 polyphonicPressure=0 playerID=0" ++ t)).bind Prod.snd

/-- The event, its destination being given by a place. -/
def withPlaces (f : Nat → Nat) : Ev → Ev
  | .beginTrack n i => .beginTrack n (f i)
  | .jump i => .jump (f i)
  | .call i => .call (f i)
  | e => e

/-- What the constructors allow: the members of the two enumerations. -/
def EvOk : Ev → Prop
  | .monoPoly v => v = 0 ∨ v = 1
  | .vibratoType v => v = 0 ∨ v = 1 ∨ v = 2
  | _ => True

/-- The destination of an event. -/
def dest : Ev → Option Nat
  | .beginTrack _ i => some i
  | .jump i => some i
  | .call i => some i
  | _ => none

/-- The events whose text says which event it is: `<portamento 5>` may be a portamento event or a portamento on/off event
with an odd value. -/
def Clear : Ev → Prop
  | .simple .portamentoOnOff v => v = 0 ∨ v = 1
  | _ => True

/-- The events with their places, destinations being places too. -/
def numbered (obj : Nat → Ev) (events : List Nat) : List (Nat × Ev) :=
  (events.zipIdx 0).map fun p => (p.2, withPlaces (events.idxOf ·) (obj p.1))

/-- The events with their identities. -/
def given (obj : Nat → Ev) (events : List Nat) : List (Nat × Ev) := events.map fun i => (i, obj i)

/-- Every destination is in the list. -/
def Closed (obj : Nat → Ev) (events : List Nat) : Prop := ∀ e ∈ events, ∀ d, dest (obj e) = some d → d ∈ events

/-- The events whose destination is not in the list, with the destination. -/
def lost (obj : Nat → Ev) (events : List Nat) : List (Nat × Nat) :=
  events.filterMap fun e => (dest (obj e)).bind fun d => if d ∈ events then none else some (e, d)

end Verif.Spec.EventText
