import Verif.Model.ReprSound
import Verif.Model.Summary

/-!
# The `__repr__` methods of sequence archives, their sequences, sound archives, ROMs, tracks and songs

and what the calls they print evaluate to.
-/

namespace Verif.Model.ReprArchive

open Verif Verif.Model Verif.Model.Repr Verif.Model.ReprClasses Verif.Model.ReprSound Verif.Model.Util
open Verif.Model.Constructors Verif.Model.SoundArchiveObject Verif.Spec.PyExpr
open Verif.Model.SoundSequence (Ev)
open Verif.Model.SoundSequenceArchive (First Sequence)
open Verif.Model.SequenceObject (SSARObj)

/-! ## Sequence archives -/

/-- `repr(self.firstEvent if self.parsed else self.firstEventOffset)` (soundSequenceArchive.py 339). -/
def reprFirst (order : List Nat → List Nat) (obj : Nat → Ev) (addr : Nat → Nat) (f : Nat) : First → Py Str
  | .unparsed o => .ok (reprOption reprInt o)
  | .parsed none => .ok (lit "None")
  | .parsed (some i) => reprEv order obj addr f (obj i)

/-- `SSARSequence.__repr__` (soundSequenceArchive.py 337–347); the arguments before `s` are those of `reprEv`. -/
def reprSequence (order : List Nat → List Nat) (obj : Nat → Ev) (addr : Nat → Nat) (f : Nat) (s : Sequence) : Py Str := do
  let first ← reprFirst order obj addr f s.first
  let fields := [first, reprNat s.bankID, reprNat s.volume, reprNat s.channelPressure, reprNat s.polyphonicPressure,
    reprNat s.playerID]
  return callText "SSARSequence" (fields ++
    match s.first with
    | .unparsed _ => [kw "parsed" (lit "False")]
    | .parsed _ => [])

/-- `repr` of an element of `SSAR.sequences`, a pair of a name or `None` and a sequence. -/
def reprNamed (printable : Nat → Bool) (order : List Nat → List Nat) (obj : Nat → Ev) (addr : Nat → Nat) (f : Nat)
    (s : Option Str × Sequence) : Py Str := do
  let t ← reprSequence order obj addr f s.2
  return reprPair (reprOption (reprStr printable) s.1) t

/-- `str(name)` (soundSequenceArchive.py 261). -/
def strName (name : Option Str) : Str := name.getD (lit "None")

/-- `SSAR.__repr__` (soundSequenceArchive.py 255–262).  A parsed archive always has events. -/
def reprSSAR (printable : Nat → Bool) (order : List Nat → List Nat) (obj : Nat → Ev) (addr : Nat → Nat) (f : Nat)
    (a : SSARObj) : Py Str :=
  if a.parsed then
    match a.events with
    | none => .error .attributeError
    | some events => do
      let es ← mapE (reprEv order obj addr f) (events.map Prod.snd)
      let ss ← mapE (reprNamed printable order obj addr f) a.sequences
      return callText "SSAR.fromEventsAndSequences" [lit "[" ++ join (lit ", ") es ++ lit "]",
        lit "[" ++ join (lit ", ") ss ++ lit "]"]
  else do
    let d ← a.getEventsData
    return callText "SSAR" [shortBytesRepr d, kw "names" (reprList (reprStr printable) (a.sequences.map fun s => strName s.1))]

/-- Where a sequence begins, with an event as what it holds. -/
inductive FirstValue where
  | offset (o : Option Int)
  | event (e : Option Ev)
  deriving DecidableEq

/-- What an `SSARSequence` holds. -/
structure SequenceValue where
  first : FirstValue
  bankID : Nat
  volume : Nat
  channelPressure : Nat
  polyphonicPressure : Nat
  playerID : Nat
  deriving DecidableEq

/-- `SSARSequence(…)` (soundSequenceArchive.py 270–288).  A number as the first event of a parsed sequence, or an event as
the offset of one that is not, are not allowed for here: no `__repr__` prints them. -/
def sequence (e : Expr) : Option SequenceValue :=
  match e.asCall ["SSARSequence"] [("firstEvent_firstEventOffset", none), ("bankID", some (.int 0)),
      ("volume", some (.int 127)), ("channelPressure", some (.int 64)), ("polyphonicPressure", some (.int 50)),
      ("playerID", some (.int 0))] [("parsed", some (.name [str "True"]))] with
  | some [x, b, v, c, p, i, k] =>
    b.asNat.bind fun b => v.asNat.bind fun v => c.asNat.bind fun c => p.asNat.bind fun p => i.asNat.bind fun i =>
    k.asBool.bind fun k =>
      if k then (x.asOption Constructors.event).map fun x => ⟨.event x, b, v, c, p, i⟩
      else (x.asOption Expr.asInt).map fun x => ⟨.offset (if x = some (-1) then none else x), b, v, c, p, i⟩
  | _ => none

/-- What a parsed `SSAR` holds. -/
structure SSARValue where
  events : List Ev
  sequences : List (Option Str × SequenceValue)
  unk02 : Nat
  deriving DecidableEq

/-- `SSAR.fromEventsAndSequences(…)` (soundSequenceArchive.py 89–98). -/
def ssarEvents (e : Expr) : Option SSARValue :=
  match e.asCall ["SSAR", "fromEventsAndSequences"] [("events", none), ("sequences", none), ("unk02", some (.int 0))] with
  | some [l, s, u] =>
    (l.asList Constructors.event).bind fun l =>
    (s.asList (Expr.asPair (Expr.asOption Expr.asText) sequence)).bind fun s => u.asNat.map fun u => ⟨l, s, u⟩
  | _ => none

/-- The objects that exist after evaluating: every call of the constructor of an event makes a new one.  The events of the
list are numbered from `n` on, the first events of the sequences after them. -/
def numberFrom {α : Type} (n : Nat) : List α → List (Nat × α)
  | [] => []
  | x :: l => (n, x) :: numberFrom (n + 1) l

def SequenceValue.object (id : Nat) (s : SequenceValue) : Sequence :=
  ⟨match s.first with
    | .offset o => .unparsed o
    | .event e => .parsed (e.map fun _ => id), s.bankID, s.volume, s.channelPressure, s.polyphonicPressure, s.playerID⟩

/-- The archive with its events as objects (soundSequenceArchive.py 89–98). -/
def SSARValue.object (v : SSARValue) : SSARObj :=
  ⟨v.unk02, (numberFrom v.events.length v.sequences).map fun s => (s.2.1, s.2.2.object s.1),
    some (numberFrom 0 v.events), none, true⟩

/-- `SSAR(…)` (soundSequenceArchive.py 40–87). -/
def ssarFile (e : Expr) : Option SSARObj :=
  match e.asCall ["SSAR"] [("file", some pyNone), ("unk02", some (.int 0)), ("names", some pyNone)] with
  | some [f, u, n] =>
    (f.asOption Expr.asBytes).bind fun f => u.asNat.bind fun u =>
    (n.asOption (Expr.asList (Expr.asOption Expr.asText))).bind fun n => (SSARObj.init f u (n.getD [])).toOption
  | _ => none

/-! ## Sound archives and ROMs -/

/-- `SDAT.__repr__` (soundArchive.py 862–867). -/
def reprSDAT (o : Archive) : Str :=
  callText "SDAT" [match o.save with
    | .ok d => shortBytesRepr d
    | .error _ => lit "..."]

/-- `SDAT(…)` (soundArchive.py 40–60): a file as bytes, or nothing; anything else has no `startswith`. -/
def sdat (e : Expr) : Option (Option Bytes) :=
  match e.asCall ["SDAT"] [("data", some pyNone)] with
  | some [f] => f.asOption Expr.asBytes
  | _ => none

/-- `NintendoDSRom.__repr__` (rom.py 633–634). -/
def reprRom (name idCode : Bytes) : Str := callText "NintendoDSRom" [Summary.strRom name idCode]

/-! ## Tracks and songs -/

/-- `SSEQMusic.Track.__repr__` (extras/music.py 651–652). -/
def reprTrack (order : List Nat → List Nat) (obj : Nat → Ev) (addr : Nat → Nat) (f : Nat) (events : List Ev) : Py Str := do
  let es ← mapE (reprEv order obj addr f) events
  return callText "Track" [lit "[" ++ join (lit ", ") es ++ lit "]"]

/-- `SSEQMusic.Track(…)` (extras/music.py 415–419): an end of track at the end is taken away.  The class is known by this
name only. -/
def track (e : Expr) : Option (List Ev) :=
  match e.asCall ["SSEQMusic", "Track"] [("events", none)] with
  | some [l] => (l.asList Constructors.event).map fun l => if l.getLast? = some .endTrack then l.dropLast else l
  | _ => none

/-- `SSEQMusic.__repr__` (extras/music.py 818–819). -/
def reprMusic (order : List Nat → List Nat) (obj : Nat → Ev) (addr : Nat → Nat) (f : Nat) (s : Seq) : Py Str := do
  let t ← reprSSEQ order obj addr f s
  return callText "SSEQMusic" [t]

/-- The arguments of `SSEQMusic(…)` (extras/music.py 655–663); a list is needed for `swars`, although `None` is its
default. -/
def music (e : Expr) : Option (Expr × Expr × List Expr) :=
  match e.asCall ["SSEQMusic"] [("sseq", none), ("sbnk", some pyNone), ("swars", some pyNone)] with
  | some [s, b, w] => (w.asList some).map fun w => (s, b, w)
  | _ => none

end Verif.Model.ReprArchive
