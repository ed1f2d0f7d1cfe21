import Verif.Model.Repr
import Verif.Model.Bn
import Verif.Model.Fnt
import Verif.Model.Narc
import Verif.Model.Code
import Verif.Model.Color
import Verif.Model.Texture
import Verif.Model.Bmg
import Verif.Model.SoundArchive
import Verif.Model.SoundBank
import Verif.Model.SoundStream
import Verif.Model.SoundSequence

/-!
# The `__repr__` methods

What `repr()` returns for objects of ndspy's classes, as lists of code points.  `type(self).__name__` is the name of the
class itself: subclasses are not modelled.  Attributes have the types of the constructors' parameters; attributes that
are `bytearray`s (the data of sections and overlays) are only printed with `shortBytesRepr`, which prints them like
`bytes`.

`STRM`, `SWAR`, `SWAV`, `SBNK`, the instruments, `SSEQ` and `Texture` are in `ReprSound.lean`;
`NintendoDSRom`, `SDAT`, `SSAR`, `SSARSequence` and the classes of `extras.music` in `ReprArchive.lean`.
-/

namespace Verif.Model.ReprClasses

open Verif Verif.Model.Util Verif.Model.Repr

/-! ## Buttons -/

/-- `BNBLTouchArea.__repr__` (bnbl.py 52–54). -/
def reprTouchArea (t : Bn.TouchArea) : Str :=
  callText "BNBLTouchArea" [reprInt t.x, reprInt t.y, reprInt t.width, reprInt t.height, reprNat t.alignment]

/-- `BNBL.__repr__` (bnbl.py 177–183). -/
def reprBNBL (b : Bn.BNBL) : Str :=
  callText "BNBL.fromTouchAreas"
    (reprList reprTouchArea b.touchAreas :: (if b.unk04 ≠ 0 then [reprInt b.unk04] else []))

/-- `BNCLImagePosition.__repr__` (bncl.py 45–47). -/
def reprImagePosition (p : Bn.ImagePosition) : Str :=
  callText "BNCLImagePosition" [reprInt p.x, reprInt p.y, reprNat p.alignment, reprInt p.imageID]

/-- `BNCL.__repr__` (bncl.py 119–125). -/
def reprBNCL (b : Bn.BNCL) : Str :=
  callText "BNCL.fromImagePositions"
    (reprList reprImagePosition b.imagePositions :: (if b.unk04 ≠ 0 then [reprInt b.unk04] else []))

/-! ## File names -/

mutual

/-- `Folder.__repr__` (fnt.py 261–264).  `printable` says which characters beyond ASCII Python prints as they are. -/
def reprFolder (printable : Nat → Bool) : Fnt.Folder → Str
  | .mk folders files firstID =>
    callText "Folder" [lit "[" ++ join (lit ", ") (reprFolders printable folders) ++ lit "]",
      reprList (reprStr printable) files, reprInt firstID]

/-- `repr` of each of the pairs in `folders`. -/
def reprFolders (printable : Nat → Bool) : Fnt.Folders → List Str
  | .nil => []
  | .cons name folder rest =>
    reprPair (reprStr printable name) (reprFolder printable folder) :: reprFolders printable rest

end

/-- `NARC.__repr__` (narc.py 211–224).  `shortBytesRepr` does not raise for bytes. -/
def reprNARC (printable : Nat → Bool) (n : Narc.NARC) : Str :=
  let files := match n.files with
    | [] => lit "[]"
    | f :: rest => lit "[" ++ shortBytesRepr f ++ (if rest.isEmpty then [] else lit ", ...") ++ lit "]"
  callText "NARC.fromFilesAndNames" [files, reprFolder printable n.filenames]

/-! ## Code -/

/-- `MainCodeFile.Section.__repr__` (code.py 87–93). -/
def reprSection (s : Code.Section) : Str :=
  callText "Section" ([shortBytesRepr s.data, reprHex8 s.ramAddress, reprHexUpper s.bssSize] ++
    (if s.implicit then [kw "implicit" (lit "True")] else []))

/-- `MainCodeFile.__repr__` (code.py 313–315). -/
def reprMainCode (m : Code.MainCodeFile) : Str :=
  callText "MainCodeFile.fromSections" [reprList reprSection m.sections, reprHex8 m.ramAddress]

/-- `Overlay.__repr__` (code.py 408–419). -/
def reprOverlay (o : Code.Overlay) : Str :=
  callText "Overlay" [shortBytesRepr o.data, reprHex8 o.ramAddress, reprHexUpper o.ramSize, reprHexUpper o.bssSize,
    reprHex8 o.staticInitStart, reprHex8 o.staticInitEnd, reprNat o.fileID, reprHexUpper o.compressedSize,
    reprHexUpper o.flags]

/-! ## Colours -/

/-- One colour in `shortColorsListRepr` (_common.py 130). -/
def reprColor (c : Color.Color) : Str :=
  lit "(" ++ join (lit ",") [reprNat c.r, reprNat c.g, reprNat c.b, reprNat c.a] ++ lit ")"

/-- `shortColorsListRepr` (_common.py 124–132). -/
def shortColorsListRepr (colors : List Color.Color) : Str :=
  lit "[" ++ join (lit ", ") ((colors.take 20).map reprColor) ++ (if 20 < colors.length then lit ", ..." else []) ++ lit "]"

/-- `Palette.__repr__` (texture.py 267–272). -/
def reprPalette (p : Texture.Palette) : Str :=
  callText "Palette.fromColors" [reprNat p.unk00, reprNat p.unk02, reprNat p.unkHeader02, shortColorsListRepr p.colors]

/-! ## Messages -/

/-- `repr` of a part of a message; `Message.Escape.__repr__` (bmg.py 417–418). -/
def reprPart (printable : Nat → Bool) : Bmg.Part → Str
  | .text s => reprStr printable s
  | .escape t d => callText "Escape" [reprNat t, reprBytes d]

/-- `Message.__repr__` (bmg.py 460–461). -/
def reprMessage (printable : Nat → Bool) (m : Bmg.Message) : Str :=
  callText "Message" [reprBytes m.info, reprList (reprPart printable) m.parts]

/-- `BMG.__repr__` (bmg.py 360–379).  A label is a pair of integers, a script a pair of non-negative ones. -/
def reprBMG (printable : Nat → Bool) (b : Bmg.BMG) : Str :=
  let args := [reprList (reprMessage printable) b.messages]
  let args := if b.instructions.isEmpty then args else args ++ [reprList reprBytes b.instructions]
  let args := if b.labels.isEmpty then args else
    let t := reprList (fun l : Int × Int => reprPair (reprInt l.1) (reprInt l.2)) b.labels
    args ++ [if args.length < 2 then kw "labels" t else t]
  let args := if b.scripts.isEmpty then args else
    let t := reprList (fun l : Nat × Nat => reprPair (reprNat l.1) (reprNat l.2)) b.scripts
    args ++ [if args.length < 3 then kw "scripts" t else t]
  callText "BMG.fromMessages" (args ++ [kw "id" (reprHex b.id)])

/-! ## Sound -/

/-- `SequencePlayer.__repr__` (soundSequencePlayer.py 45–46).  `order` is the order in which the elements of the set
are printed. -/
def reprSeqPlayer (order : List Nat → List Nat) (p : SoundArchive.SeqPlayer) : Str :=
  callText "SequencePlayer" [reprNat p.maxSequences, reprSet reprNat (order p.channels), reprNat p.heapSize]

/-- `StreamPlayer.__repr__` (soundStreamPlayer.py 42–46). -/
def reprStreamPlayer (channels : List Nat) : Str :=
  if ! channels.isEmpty then callText "StreamPlayer" [] else callText "StreamPlayer" [reprList reprNat channels]

/-- The names of the members of `NoteType` (soundBank.py 37–44). -/
def noteTypeName : Nat → String
  | 1 => "PCM"
  | 2 => "PSG_SQUARE_WAVE"
  | _ => "PSG_WHITE_NOISE"

/-- `repr(self.type)` of a note definition: the constructor replaces 1, 2 and 3 by members of `NoteType`
(soundBank.py 63–64, 136). -/
def reprNoteType (type : Nat) : Str :=
  if type = 1 ∨ type = 2 ∨ type = 3 then reprEnum "NoteType" (noteTypeName type) type else reprNat type

/-- `NoteDefinition.__repr__` (soundBank.py 132–137). -/
def reprNote (n : SoundBank.Note) : Str :=
  callText "NoteDefinition" [reprNat n.waveID, reprNat n.waveArchiveIDID, reprNat n.pitch, reprNat n.attack,
    reprNat n.decay, reprNat n.sustain, reprNat n.release, reprNat n.pan, reprNoteType n.type]

/-- The names of the members of `GroupEntryType` (soundGroup.py 25–33). -/
def groupEntryTypeName : Nat → String
  | 0 => "SSEQ"
  | 1 => "SBNK"
  | 2 => "SWAR"
  | _ => "SSAR"

/-- `GroupEntry.__repr__` (soundGroup.py 125–140). -/
def reprGroupEntry (g : SoundStream.GroupEntry) : Str :=
  callText "GroupEntry.fromFlags"
    ([reprEnum "GroupEntryType" (groupEntryTypeName g.type) g.type, reprNat g.id] ++
      (if g.loadSSEQ then [kw "loadSSEQ" (reprBool g.loadSSEQ)] else []) ++
      (if g.loadSBNKSWARsFrom ≠ 1 then [kw "loadSBNKSWARsFrom" (reprEnum "SWARLoadMethod" "FILE_IDS" g.loadSBNKSWARsFrom)]
        else []) ++
      (if g.loadSWAR then [kw "loadSWAR" (reprBool g.loadSWAR)] else []) ++
      (if g.loadSSAR then [kw "loadSSAR" (reprBool g.loadSSAR)] else []))

/-! ## Sequence events -/

open Verif.Model.SoundSequence (Ev Arith Simple)

/-- The names of the classes of arithmetic events (soundSequence.py 677–730). -/
def arithName : Arith → String
  | .assign => "VariableAssignmentSequenceEvent"
  | .add => "VariableAdditionSequenceEvent"
  | .sub => "VariableSubtractionSequenceEvent"
  | .mul => "VariableMultiplicationSequenceEvent"
  | .div => "VariableDivisionSequenceEvent"
  | .shift => "VariableShiftSequenceEvent"
  | .rand => "VariableRandSequenceEvent"
  | .unkB7 => "VariableUnknownB7SequenceEvent"
  | .eq => "VariableEqualSequenceEvent"
  | .ge => "VariableGreaterThanOrEqualSequenceEvent"
  | .gt => "VariableGreaterThanSequenceEvent"
  | .le => "VariableLessThanOrEqualSequenceEvent"
  | .lt => "VariableLessThanSequenceEvent"
  | .ne => "VariableNotEqualSequenceEvent"

/-- The names of the classes of events with one value of one byte (soundSequence.py 770–1029). -/
def simpleName : Simple → String
  | .pan => "PanSequenceEvent"
  | .trackVolume => "TrackVolumeSequenceEvent"
  | .globalVolume => "GlobalVolumeSequenceEvent"
  | .transpose => "TransposeSequenceEvent"
  | .portamento => "PortamentoSequenceEvent"
  | .portamentoRange => "PortamentoRangeSequenceEvent"
  | .trackPriority => "TrackPrioritySequenceEvent"
  | .tie => "TieSequenceEvent"
  | .portamentoFrom => "PortamentoFromSequenceEvent"
  | .vibratoDepth => "VibratoDepthSequenceEvent"
  | .vibratoSpeed => "VibratoSpeedSequenceEvent"
  | .vibratoRange => "VibratoRangeSequenceEvent"
  | .portamentoOnOff => "PortamentoOnOffSequenceEvent"
  | .portamentoDuration => "PortamentoDurationSequenceEvent"
  | .attackRate => "AttackRateSequenceEvent"
  | .decayRate => "DecayRateSequenceEvent"
  | .sustainRate => "SustainRateSequenceEvent"
  | .releaseRate => "ReleaseRateSequenceEvent"
  | .beginLoop => "BeginLoopSequenceEvent"
  | .expression => "ExpressionSequenceEvent"
  | .printVariable => "PrintVariableSequenceEvent"
  | .vibratoDelay => "VibratoDelaySequenceEvent"

/-- `hex(n)` of any integer. -/
def reprHexInt (n : Int) : Str := if n < 0 then 45 :: reprHex n.natAbs else reprHex n.natAbs

/-- `self.velocity | (0x80 if self.unknownFlag else 0)` (soundSequence.py 364): bit 7 of any integer `v` is
`v / 128 % 2`, rounding down. -/
def velocityValue (v : Int) (flag : Bool) : Int := if flag ∧ v / 128 % 2 = 0 then v + 128 else v

/-- `repr(self.value)` of an event with one value.  The constructors of the tie and the portamento on/off event replace 0
and 1 by booleans (soundSequence.py 841–842, 952–953). -/
def reprValue (k : Simple) (v : Int) : Str :=
  if (k = .tie ∨ k = .portamentoOnOff) ∧ (v = 0 ∨ v = 1) then reprBool (decide (v = 1)) else reprInt v

/-- The names of the members of `MonoPolySequenceEvent.Value` and of `VibratoTypeSequenceEvent.Value`
(soundSequence.py 804–806, 903–906). -/
def monoPolyName (v : Int) : String := if v = 0 then "POLY" else "MONO"
def vibratoTypeName (v : Int) : String := if v = 0 then "PITCH" else if v = 1 then "VOLUME" else "PAN"

/-- `__repr__` of the sequence events (soundSequence.py 363–365, 393, 428, 453, 475, 498, 561, 617–619, 635, 663, 756,
822, 858, 883, 928, 969, 1017, 1053, 1077, 1096, 1116, 1150, 1169, 1192).  `order` is the order in which the elements of
a set are printed, `obj` the event with an identity and `addr` its `id()`.  The number bounds the depth of the
recursion: Python raises RecursionError if an event refers to itself. -/
def reprEv (order : List Nat → List Nat) (obj : Nat → Ev) (addr : Nat → Nat) : Nat → Ev → Py Str
  | 0, _ => .error .recursionError
  | f + 1, e =>
    let at_ (i : Nat) : Py Str := do
      let t ← reprEv order obj addr f (obj i)
      return t ++ lit " at " ++ reprNat (addr i)
    match e with
    | .note p v flag d => .ok (callText "NoteSequenceEvent" [reprInt p, reprInt (velocityValue v flag), reprInt d])
    | .rest d => .ok (callText "RestSequenceEvent" [reprInt d])
    | .instrumentSwitch b i => .ok (callText "InstrumentSwitchSequenceEvent" [reprNat b, reprNat i])
    | .beginTrack n i => do
      let t ← at_ i
      return callText "BeginTrackSequenceEvent" [reprInt n, t]
    | .jump i => do
      let t ← at_ i
      return callText "JumpSequenceEvent" [t]
    | .call i => do
      let t ← at_ i
      return callText "CallSequenceEvent" [t]
    | .random s args lo hi =>
      .ok (callText "RandomSequenceEvent" [reprHexInt s, reprList reprInt args, reprInt lo, reprInt hi])
    | .fromVariable s v u =>
      .ok (callText "FromVariableSequenceEvent" ([reprHexInt s, reprInt v] ++
        match u with
        | some u => [reprInt u]
        | none => []))
    | .ifE => .ok (callText "IfSequenceEvent" [])
    | .arith op v x => .ok (callText (arithName op) [reprInt v, reprInt x])
    | .simple k v => .ok (callText (simpleName k) [reprValue k v])
    | .monoPoly v => .ok (callText "MonoPolySequenceEvent" [reprEnum "MonoPolySequenceEvent.Value" (monoPolyName v) v.toNat])
    | .vibratoType v =>
      .ok (callText "VibratoTypeSequenceEvent" [reprEnum "VibratoTypeSequenceEvent.Value" (vibratoTypeName v) v.toNat])
    | .tempo v => .ok (callText "TempoSequenceEvent" [reprInt v])
    | .sweepPitch v => .ok (callText "SweepPitchSequenceEvent" [reprInt v])
    | .endLoop => .ok (callText "EndLoopSequenceEvent" [])
    | .ret => .ok (callText "ReturnSequenceEvent" [])
    | .defineTracks l => .ok (callText "DefineTracksSequenceEvent" [reprSet reprNat (order l)])
    | .endTrack => .ok (callText "EndTrackSequenceEvent" [])
    | .raw d => .ok (callText "RawDataSequenceEvent" [reprBytes d])

end Verif.Model.ReprClasses
