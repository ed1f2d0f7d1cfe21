import Verif.Model.ReprClasses
import Verif.Spec.PyExpr

/-!
# Evaluating calls of ndspy's constructors

The values of those expressions (`Spec/PyExpr.lean`) that are calls of a class or of one of its `from…` methods.  The
parameters, their order and their defaults are those of the source.  Every class is known under its own name; a class
within a class is an attribute of it.  An argument that has not the type the attribute has in the model gives no value.
-/

namespace Verif.Model.Constructors

open Verif Verif.Model Verif.Spec.PyExpr

def pyNone : Expr := .name [str "None"]

/-! ## Buttons -/

/-- `BNBLTouchArea(…)` (bnbl.py 18–23); `Alignment.TOP | Alignment.LEFT` is 0x11. -/
def touchArea (e : Expr) : Option Bn.TouchArea :=
  match e.asCall ["BNBLTouchArea"] [("x", some (.int 0)), ("y", some (.int 0)), ("width", some (.int 0)),
      ("height", some (.int 0)), ("alignment", some (.int 0x11))] with
  | some [x, y, w, h, a] =>
    x.asInt.bind fun x => y.asInt.bind fun y => w.asInt.bind fun w => h.asInt.bind fun h => a.asNat.map fun a =>
      ⟨x, y, w, h, a⟩
  | _ => none

/-- `BNBL.fromTouchAreas(…)` (bnbl.py 78–82). -/
def bnbl (e : Expr) : Option Bn.BNBL :=
  match e.asCall ["BNBL", "fromTouchAreas"] [("touchAreas", none), ("unk04", some (.int 0))] with
  | some [l, u] => (l.asList touchArea).bind fun l => u.asInt.map fun u => ⟨u, l⟩
  | _ => none

/-- `BNCLImagePosition(…)` (bncl.py 18–22). -/
def imagePosition (e : Expr) : Option Bn.ImagePosition :=
  match e.asCall ["BNCLImagePosition"] [("x", some (.int 0)), ("y", some (.int 0)), ("alignment", some (.int 0x11)),
      ("imageID", some (.int 0))] with
  | some [x, y, a, i] =>
    x.asInt.bind fun x => y.asInt.bind fun y => a.asNat.bind fun a => i.asInt.map fun i => ⟨x, y, a, i⟩
  | _ => none

/-- `BNCL.fromImagePositions(…)` (bncl.py 71–75). -/
def bncl (e : Expr) : Option Bn.BNCL :=
  match e.asCall ["BNCL", "fromImagePositions"] [("imagePositions", none), ("unk04", some (.int 0))] with
  | some [l, u] => (l.asList imagePosition).bind fun l => u.asInt.map fun u => ⟨u, l⟩
  | _ => none

/-! ## File names -/

/-- A list of pairs as the model's list of folders. -/
def toFolders : List (Str × Fnt.Folder) → Fnt.Folders
  | [] => .nil
  | p :: l => .cons p.1 p.2 (toFolders l)

/-- `Folder(…)` (fnt.py 38–52).  The number bounds the depth. -/
def folder : Nat → Expr → Option Fnt.Folder
  | 0, _ => none
  | n + 1, e =>
    match e.asCall ["Folder"] [("folders", some pyNone), ("files", some pyNone), ("firstID", some (.int 0))] with
    | some [a, b, c] =>
      (a.asOption (Expr.asList (Expr.asPair Expr.asText (folder n)))).bind fun a =>
      (b.asOption (Expr.asList Expr.asText)).bind fun b => c.asInt.map fun c =>
        .mk (toFolders (a.getD [])) (b.getD []) c
    | _ => none

/-- `NARC.fromFilesAndNames(…)` (narc.py 96–107). -/
def narc (n : Nat) (e : Expr) : Option Narc.NARC :=
  match e.asCall ["NARC", "fromFilesAndNames"] [("files", none), ("filenames", some pyNone)] with
  | some [a, b] => (a.asList Expr.asBytes).bind fun a => (b.asOption (folder n)).map fun b => Narc.fromFilesAndNames a b
  | _ => none

/-! ## Code -/

/-- `MainCodeFile.Section(…)` (code.py 67–78). -/
def codeSection (e : Expr) : Option Code.Section :=
  match e.asCall ["MainCodeFile", "Section"] [("data", none), ("ramAddress", none), ("bssSize", none)]
      [("implicit", some (.name [str "False"]))] with
  | some [d, r, b, i] =>
    d.asBytes.bind fun d => r.asNat.bind fun r => b.asNat.bind fun b => i.asBool.map fun i => ⟨d, r, b, i⟩
  | _ => none

/-- `MainCodeFile.fromSections(…)` (code.py 180–186); `MainCodeFile(b'', ramAddress)` finds no code settings
(code.py 101–113). -/
def mainCode (e : Expr) : Option Code.MainCodeFile :=
  match e.asCall ["MainCodeFile", "fromSections"] [("sections", none), ("ramAddress", none)] with
  | some [s, r] => (s.asList codeSection).bind fun s => r.asNat.map fun r => ⟨s, r, none⟩
  | _ => none

/-- `Overlay(…)` (code.py 334–358): the data are decompressed if bit 0 of the flags is set. -/
def overlay (e : Expr) : Option Code.Overlay :=
  match e.asCall ["Overlay"] [("data", none), ("ramAddress", none), ("ramSize", none), ("bssSize", none),
      ("staticInitStart", none), ("staticInitEnd", none), ("fileID", none), ("compressedSize", none), ("flags", none)] with
  | some [d, a1, a2, a3, a4, a5, a6, a7, a8] =>
    d.asBytes.bind fun d => a1.asNat.bind fun a1 => a2.asNat.bind fun a2 => a3.asNat.bind fun a3 => a4.asNat.bind fun a4 =>
    a5.asNat.bind fun a5 => a6.asNat.bind fun a6 => a7.asNat.bind fun a7 => a8.asNat.bind fun a8 =>
      (Code.Overlay.init d a1 a2 a3 a4 a5 a6 a7 a8).toOption
  | _ => none

/-! ## Colours -/

/-- A tuple of four numbers. -/
def color : Expr → Option Color.Color
  | .tuple [r, g, b, a] =>
    r.asNat.bind fun r => g.asNat.bind fun g => b.asNat.bind fun b => a.asNat.map fun a => ⟨r, g, b, a⟩
  | _ => none

/-- `Palette.fromColors(…)` (texture.py 255–260). -/
def palette (e : Expr) : Option Texture.Palette :=
  match e.asCall ["Palette", "fromColors"] [("unk00", none), ("unk02", none), ("unkHeader02", none), ("colors", none)] with
  | some [a, b, c, l] =>
    a.asNat.bind fun a => b.asNat.bind fun b => c.asNat.bind fun c => (l.asList color).map fun l => ⟨a, b, c, l⟩
  | _ => none

/-! ## Messages -/

/-- A string, or `Message.Escape(…)` (bmg.py 398–400). -/
def part (e : Expr) : Option Bmg.Part :=
  match e with
  | .text s => some (.text s)
  | e =>
    match e.asCall ["Message", "Escape"] [("type", some (.int 0)), ("data", some (.bytes []))] with
    | some [t, d] => t.asNat.bind fun t => d.asBytes.map fun d => .escape t d
    | _ => none

/-- The second argument of `Message(…)`: a string, a list, or `None` (bmg.py 433–438). -/
def stringParts : Expr → Option (List Bmg.Part)
  | .text s => some [.text s]
  | e => (e.asOption (Expr.asList part)).map fun l => l.getD []

/-- `Message(…)` (bmg.py 427–439). -/
def message (e : Expr) : Option Bmg.Message :=
  match e.asCall ["Message"] [("info", some (.bytes [])), ("stringParts", some pyNone),
      ("isNull", some (.name [str "False"]))] with
  | some [i, s, n] => i.asBytes.bind fun i => (stringParts s).bind fun s => n.asBool.map fun n => ⟨i, s, n⟩
  | _ => none

/-- `BMG.fromMessages(…)` (bmg.py 206–228); what `BMG(id=id)` sets otherwise (bmg.py 55–76). -/
def bmg (e : Expr) : Option Bmg.BMG :=
  match e.asCall ["BMG", "fromMessages"] [("messages", none), ("instructions", some pyNone), ("labels", some pyNone),
      ("scripts", some pyNone)] [("id", some (.int 0))] with
  | some [m, i, l, s, d] =>
    (m.asList message).bind fun m => (i.asOption (Expr.asList Expr.asBytes)).bind fun i =>
    (l.asOption (Expr.asList (Expr.asPair Expr.asInt Expr.asInt))).bind fun l =>
    (s.asOption (Expr.asList (Expr.asPair Expr.asNat Expr.asNat))).bind fun s => d.asNat.map fun d =>
      ⟨m, i.getD [], l.getD [], s.getD [], d, .utf16, .little, 0, 0, 0⟩
  | _ => none

/-! ## Sound -/

/-- The elements of a set in increasing order. -/
def inOrder (l : List Nat) : List Nat := (List.range (l.foldr max 0 + 1)).filter fun n => l.contains n

/-- `SequencePlayer(…)` (soundSequencePlayer.py 26–29); the set in increasing order. -/
def seqPlayer (e : Expr) : Option SoundArchive.SeqPlayer :=
  match e.asCall ["SequencePlayer"] [("maxSequences", some (.int 1)), ("channels", some pyNone),
      ("heapSize", some (.int 0))] with
  | some [m, c, h] =>
    m.asNat.bind fun m => (c.asOption (Expr.asSet Expr.asNat)).bind fun c => h.asNat.map fun h =>
      ⟨m, inOrder (c.getD []), h⟩
  | _ => none

/-- `StreamPlayer(…)` (soundStreamPlayer.py 26–27). -/
def streamPlayer (e : Expr) : Option (List Nat) :=
  match e.asCall ["StreamPlayer"] [("channels", some pyNone)] with
  | some [c] => (c.asOption (Expr.asList Expr.asNat)).map fun c => c.getD []
  | _ => none

/-- `NoteDefinition(…)` (soundBank.py 51–64). -/
def noteDefinition (e : Expr) : Option SoundBank.Note :=
  match e.asCall ["NoteDefinition"] [("waveID_dutyCycle", some (.int 0)), ("waveArchiveIDID", some (.int 0)),
      ("pitch", some (.int 60)), ("attack", some (.int 127)), ("decay", some (.int 127)), ("sustain", some (.int 127)),
      ("release", some (.int 127)), ("pan", some (.int 64)), ("type", some (.int 1))] with
  | some [a1, a2, a3, a4, a5, a6, a7, a8, a9] =>
    a1.asNat.bind fun a1 => a2.asNat.bind fun a2 => a3.asNat.bind fun a3 => a4.asNat.bind fun a4 => a5.asNat.bind fun a5 =>
    a6.asNat.bind fun a6 => a7.asNat.bind fun a7 => a8.asNat.bind fun a8 => a9.asNat.map fun a9 =>
      ⟨a1, a2, a3, a4, a5, a6, a7, a8, a9⟩
  | _ => none

/-- `GroupEntry.fromFlags(…)` (soundGroup.py 68–83); `SWARLoadMethod.SWAR_IDS` is 1. -/
def groupEntry (e : Expr) : Option SoundStream.GroupEntry :=
  match e.asCall ["GroupEntry", "fromFlags"] [("type", none), ("id", none), ("loadSSEQ", some (.name [str "False"])),
      ("loadSBNKSWARsFrom", some (.int 1)), ("loadSWAR", some (.name [str "False"])), ("loadSSAR", some (.name [str "False"]))] with
  | some [a1, a2, a3, a4, a5, a6] =>
    a1.asNat.bind fun a1 => a2.asNat.bind fun a2 => a3.asBool.bind fun a3 => a4.asNat.bind fun a4 => a5.asBool.bind fun a5 =>
    a6.asBool.bind fun a6 => (SoundStream.GroupEntry.fromFlags a1 a2 a3 a4 a5 a6).toOption
  | _ => none

/-! ## Sequence events -/

open Verif.Model.SoundSequence (Ev Arith Simple)

def ariths : List Arith := [.assign, .add, .sub, .mul, .div, .shift, .rand, .unkB7, .eq, .ge, .gt, .le, .lt, .ne]

def simples : List Simple :=
  [.pan, .trackVolume, .globalVolume, .transpose, .portamento, .portamentoRange, .trackPriority, .tie, .portamentoFrom,
    .vibratoDepth, .vibratoSpeed, .vibratoRange, .portamentoOnOff, .portamentoDuration, .attackRate, .decayRate,
    .sustainRate, .releaseRate, .beginLoop, .expression, .printVariable, .vibratoDelay]

/-- The name of the parameter (soundSequence.py 742, 838, 869, 949, 1003). -/
def simpleParam : Simple → String
  | .beginLoop => "loopCount"
  | _ => "value"

/-- The call of an event class with no or one integer argument. -/
def one (e : Expr) (name param : String) : Option Int :=
  match e.asCall [name] [(param, none)] with
  | some [v] => v.asInt
  | _ => none

/-- The classes whose instances hold neither an event nor a member of an `enum` (soundSequence.py 317–321, 374–376,
404–407, 508–513, 571–575, 628, 646–649, 742–744, 838–842, 869–871, 949–953, 1003–1005, 1039–1041, 1063–1065, 1086, 1106,
1127–1129, 1159, 1182–1184).  The bits 0 to 6 of any integer `v` are `v % 128`, and bit 7 is `v / 128 % 2`. -/
def event (e : Expr) : Option Ev :=
  match e with
  | .call [k] _ =>
    if k = str "NoteSequenceEvent" then
      match e.asCall ["NoteSequenceEvent"] [("type", none), ("velocityAndFlag", none), ("duration", none)] with
      | some [p, v, d] => p.asInt.bind fun p => v.asInt.bind fun v => d.asInt.map fun d =>
          .note p (v % 128) (decide (v / 128 % 2 = 1)) d
      | _ => none
    else if k = str "RestSequenceEvent" then (one e "RestSequenceEvent" "duration").map .rest
    else if k = str "InstrumentSwitchSequenceEvent" then
      match e.asCall ["InstrumentSwitchSequenceEvent"] [("bankID", none), ("instrumentID", none)] with
      | some [b, i] => b.asNat.bind fun b => i.asNat.map fun i => .instrumentSwitch b i
      | _ => none
    else if k = str "RandomSequenceEvent" then
      match e.asCall ["RandomSequenceEvent"] [("subType", none), ("args", none), ("randMin", none), ("randMax", none)] with
      | some [s, l, a, b] => s.asInt.bind fun s => (l.asList Expr.asInt).bind fun l => a.asInt.bind fun a =>
          b.asInt.map fun b => .random s l a b
      | _ => none
    else if k = str "FromVariableSequenceEvent" then
      match e.asCall ["FromVariableSequenceEvent"] [("subType", none), ("variableID", none), ("unknown", some pyNone)] with
      | some [s, v, u] => s.asInt.bind fun s => v.asInt.bind fun v => (u.asOption Expr.asInt).map fun u =>
          .fromVariable s v u
      | _ => none
    else if k = str "IfSequenceEvent" then (e.asCall ["IfSequenceEvent"] []).map fun _ => .ifE
    else if k = str "TempoSequenceEvent" then (one e "TempoSequenceEvent" "value").map .tempo
    else if k = str "SweepPitchSequenceEvent" then (one e "SweepPitchSequenceEvent" "value").map .sweepPitch
    else if k = str "EndLoopSequenceEvent" then (e.asCall ["EndLoopSequenceEvent"] []).map fun _ => .endLoop
    else if k = str "ReturnSequenceEvent" then (e.asCall ["ReturnSequenceEvent"] []).map fun _ => .ret
    else if k = str "EndTrackSequenceEvent" then (e.asCall ["EndTrackSequenceEvent"] []).map fun _ => .endTrack
    else if k = str "DefineTracksSequenceEvent" then
      match e.asCall ["DefineTracksSequenceEvent"] [("trackNumbers", none)] with
      | some [l] => (l.asSet Expr.asNat).map fun l => .defineTracks (inOrder l)
      | _ => none
    else if k = str "RawDataSequenceEvent" then
      match e.asCall ["RawDataSequenceEvent"] [("data", none)] with
      | some [d] => d.asBytes.map .raw
      | _ => none
    else
      match ariths.find? fun a => k = str (ReprClasses.arithName a) with
      | some a =>
        match e.asCall [ReprClasses.arithName a] [("variableID", none), ("value", none)] with
        | some [v, x] => v.asInt.bind fun v => x.asInt.map fun x => .arith a v x
        | _ => none
      | none =>
        match simples.find? fun s => k = str (ReprClasses.simpleName s) with
        | some s => (one e (ReprClasses.simpleName s) (simpleParam s)).map (.simple s)
        | none => none
  | _ => none

end Verif.Model.Constructors
