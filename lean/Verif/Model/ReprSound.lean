import Verif.Model.Build
import Verif.Model.Constructors
import Verif.Model.SequenceObject

/-!
# The `__repr__` methods of waves, wave archives, streams, instruments, banks, sequences and textures

and what the calls they print evaluate to.  `SSAR`, `SSARSequence`, `SDAT` and the classes of `extras.music` are in
`ReprArchive.lean`.
-/

namespace Verif.Model.ReprSound

open Verif Verif.Model Verif.Model.Repr Verif.Model.ReprClasses Verif.Model.Util Verif.Model.Constructors
open Verif.Model.SoundArchiveObject Verif.Spec.PyExpr
open Verif.Model.SoundSequence (Ev)

/-! ## Waves -/

/-- The names of the members of `WaveType` (__init__.py 44–51). -/
def waveTypeName : Nat → String
  | 0 => "PCM8"
  | 1 => "PCM16"
  | _ => "ADPCM"

/-- `repr(self.waveType)`: the attribute is a member of `WaveType` after loading (soundWave.py 57) and by default
(soundWave.py 33), and whatever was assigned to it otherwise.  `member` says whether it is a member; in the model both
are the same number. -/
def reprWaveType (member : Bool) (t : Nat) : Str := if member then reprEnum "WaveType" (waveTypeName t) t else reprNat t

/-- `SWAV.__repr__` (soundWave.py 146–155). -/
def reprSWAV (member : Bool) (w : SoundWave.SWAV) : Str :=
  callText "SWAV.fromData" [shortBytesRepr w.data, kw "waveType" (reprWaveType member w.waveType),
    kw "isLooped" (reprBool w.isLooped), kw "sampleRate" (reprNat w.sampleRate), kw "time" (reprNat w.time),
    kw "loopOffset" (reprNat w.loopOffset), kw "totalLength" (reprNat w.totalLength)]

/-- `SWAV.fromData(…)` (soundWave.py 72–86). -/
def swav (e : Expr) : Option SoundWave.SWAV :=
  match e.asCall ["SWAV", "fromData"] [("data", some (.bytes []))] [("waveType", some (.int 0)),
      ("isLooped", some (.name [str "False"])), ("sampleRate", some (.int 8000)), ("time", some (.int 0)),
      ("loopOffset", some (.int 0)), ("totalLength", some (.int 0))] with
  | some [d, t, l, r, i, o, n] =>
    d.asBytes.bind fun d => t.asNat.bind fun t => l.asBool.bind fun l => r.asNat.bind fun r => i.asNat.bind fun i =>
    o.asNat.bind fun o => n.asNat.map fun n => Build.swav d t l r i o n
  | _ => none

/-- `SWAR.__repr__` (soundWaveArchive.py 155–156) with the waves of the archive, and for each whether its type is a member
of `WaveType`. -/
def reprSWAR (waves : List (Bool × SoundWave.SWAV)) : Str :=
  callText "SWAR.fromWaves" [reprList (fun w => reprSWAV w.1 w.2) waves]

/-- `SWAR.fromWaves(…)` (soundWaveArchive.py 88–95). -/
def swar (e : Expr) : Option Swar :=
  match e.asCall ["SWAR", "fromWaves"] [("waves", none), ("unk02", some (.int 0))] with
  | some [w, u] => (w.asList swav).bind fun w => u.asNat.map fun u => Build.swar w u
  | _ => none

/-! ## Streams -/

/-- The text of the channels (soundStream.py 292–304). -/
def reprChannels (channels : List (List Bytes)) : Str :=
  lit "[" ++
    (match channels with
      | [] => []
      | c :: cs =>
        lit "[" ++
          (match c with
            | [] => []
            | b :: bs => shortBytesRepr b ++ if bs.isEmpty then [] else lit ", ...") ++
        lit "]" ++ if cs.isEmpty then [] else lit ", ...") ++
  lit "]"

/-- `STRM.__repr__` (soundStream.py 291–308). -/
def reprSTRM (s : Strm) : Str :=
  callText "STRM.fromChannels" [reprChannels s.obj.channels, reprNat s.unk02, reprNat s.volume, reprNat s.priority,
    reprNat s.playerID, reprNat s.unk07]

/-- `STRM.fromChannels(…)` (soundStream.py 72–81). -/
def strm (e : Expr) : Option Strm :=
  match e.asCall ["STRM", "fromChannels"] [("channels", none), ("unk02", some (.int 0)), ("volume", some (.int 127)),
      ("priority", some (.int 64)), ("playerID", some (.int 0)), ("unk07", some (.int 0))] with
  | some [c, u, v, p, i, k] =>
    (c.asList (Expr.asList Expr.asBytes)).bind fun c => u.asNat.bind fun u => v.asNat.bind fun v => p.asNat.bind fun p =>
    i.asNat.bind fun i => k.asNat.map fun k => Build.strm c u v p i k
  | _ => none

/-! ## Banks -/

/-- `Region.__repr__` (soundBank.py 312–315). -/
def reprRegion (r : Nat × SoundBank.Note) : Str := callText "Region" [reprNat r.1, reprNote r.2]

/-- `__repr__` of the instrument classes (soundBank.py 223–224, 285–289, 377–379). -/
def reprKind : SoundBank.Kind → Str
  | .single n => callText "SingleNoteInstrument" [reprNote n]
  | .range p notes => callText "RangeInstrument" [reprNat p, reprList reprNote notes]
  | .regional regions => callText "RegionalInstrument" [reprList reprRegion regions]

/-- `RegionalInstrument.Region(…)` (soundBank.py 302–304). -/
def region (e : Expr) : Option (Nat × SoundBank.Note) :=
  match e.asCall ["RegionalInstrument", "Region"] [("lastPitch", none), ("noteDefinition", none)] with
  | some [p, n] => p.asNat.bind fun p => (noteDefinition n).map fun n => (p, n)
  | _ => none

/-- `SingleNoteInstrument(…)`, `RangeInstrument(…)` and `RegionalInstrument(…)` (soundBank.py 185–187, 232–235, 318–320);
the order key and the merge ID are 0 (soundBank.py 147–148). -/
def instrument (e : Expr) : Option SoundBank.Inst :=
  match e with
  | .call [k] _ =>
    if k = str "SingleNoteInstrument" then
      match e.asCall ["SingleNoteInstrument"] [("noteDefinition", none)] with
      | some [n] => (noteDefinition n).map fun n => ⟨.single n, 0, 0⟩
      | _ => none
    else if k = str "RangeInstrument" then
      match e.asCall ["RangeInstrument"] [("firstPitch", none), ("noteDefinitions", none)] with
      | some [p, l] => p.asNat.bind fun p => (l.asList noteDefinition).map fun l => ⟨.range p l, 0, 0⟩
      | _ => none
    else if k = str "RegionalInstrument" then
      match e.asCall ["RegionalInstrument"] [("regions", none)] with
      | some [l] => (l.asList region).map fun l => ⟨.regional l, 0, 0⟩
      | _ => none
    else none
  | _ => none

/-- `SBNK.__repr__` (soundBank.py 802–805). -/
def reprSBNK (b : Bank) : Str :=
  callText "SBNK.fromInstruments" [reprList (reprOption fun i : SoundBank.Inst => reprKind i.kind) b.obj.instruments,
    kw "waveArchiveIDs" (reprList (reprOption reprInt) b.obj.waveArchiveIDs)]

/-- `SBNK.fromInstruments(…)` (soundBank.py 547–554, 524–537). -/
def sbnk (e : Expr) : Option Bank :=
  match e.asCall ["SBNK", "fromInstruments"] [("instruments", none), ("unk02", some (.int 0)),
      ("waveArchiveIDs", some pyNone)] with
  | some [l, u, w] =>
    (l.asList (Expr.asOption instrument)).bind fun l => u.asNat.bind fun u =>
    (w.asOption (Expr.asList (Expr.asOption Expr.asInt))).map fun w => Build.sbnk l u w
  | _ => none

/-! ## Sequences -/

/-- `SSEQ.__repr__` (soundSequence.py 182–198); the arguments before `s` are those of `reprEv`. -/
def reprSSEQ (order : List Nat → List Nat) (obj : Nat → Ev) (addr : Nat → Nat) (f : Nat) (s : Seq) : Py Str := do
  if s.obj.parsed then
    let texts ← mapE (reprEv order obj addr f) ((if 8 < s.obj.events.length then s.obj.events.take 8 else s.obj.events).map Prod.snd)
    let ev := lit "[" ++ join (lit ", ") texts ++ if 8 < s.obj.events.length then lit ", ...]" else lit "]"
    return callText "SSEQ.fromEvents" [ev, reprNat s.unk02, reprNat s.bankID, reprNat s.volume, reprNat s.channelPressure,
      reprNat s.polyphonicPressure, reprNat s.playerID]
  else
    let d ← s.obj.getEventsData
    return callText "SSEQ" [shortBytesRepr d]

/-- What `SSEQ.fromEvents` makes (soundSequence.py 68–76): the events are new objects, so that only what they hold is
compared, and six numbers. -/
structure SeqValue where
  events : List Ev
  unk02 : Nat
  bankID : Nat
  volume : Nat
  channelPressure : Nat
  polyphonicPressure : Nat
  playerID : Nat

/-- `SSEQ.fromEvents(…)` (soundSequence.py 68–76). -/
def sseqEvents (e : Expr) : Option SeqValue :=
  match e.asCall ["SSEQ", "fromEvents"] [("events", none), ("unk02", some (.int 0)), ("bankID", some (.int 0)),
      ("volume", some (.int 127)), ("channelPressure", some (.int 64)), ("polyphonicPressure", some (.int 50)),
      ("playerID", some (.int 0))] with
  | some [l, u, b, v, c, p, i] =>
    (l.asList event).bind fun l => u.asNat.bind fun u => b.asNat.bind fun b => v.asNat.bind fun v => c.asNat.bind fun c =>
    p.asNat.bind fun p => i.asNat.map fun i => ⟨l, u, b, v, c, p, i⟩
  | _ => none

/-- `SSEQ(…)` (soundSequence.py 36–64). -/
def sseqFile (e : Expr) : Option Seq :=
  match e.asCall ["SSEQ"] [("file", some pyNone), ("unk02", some (.int 0)), ("bankID", some (.int 0)),
      ("volume", some (.int 127)), ("channelPressure", some (.int 64)), ("polyphonicPressure", some (.int 50)),
      ("playerID", some (.int 0))] with
  | some [f, u, b, v, c, p, i] =>
    (f.asOption Expr.asBytes).bind fun f => u.asNat.bind fun u => b.asNat.bind fun b => v.asNat.bind fun v =>
    c.asNat.bind fun c => p.asNat.bind fun p => i.asNat.bind fun i =>
      (SequenceObject.SSEQObj.init f).toOption.map fun o => ⟨o, 0, u, b, v, c, p, i⟩
  | _ => none

/-! ## Textures -/

/-- `Texture.__repr__` (texture.py 221–238). -/
def reprTexture (t : Texture.Texture) : Str :=
  match Build.textureSave t with
  | .ok (a, b, p, c, d1, d2) =>
    callText "Texture" [reprNat a, reprNat b, reprHex p, reprNat c, shortBytesRepr d1, shortBytesRepr d2]
  | .error _ => callText "Texture" [lit "..."]

/-- `Texture(…)` (texture.py 91–110). -/
def texture (e : Expr) : Option Texture.Texture :=
  match e.asCall ["Texture"] [("unk00", none), ("unk02", none), ("params", none), ("unk04", none), ("data1", none),
      ("data2", none)] with
  | some [a, b, p, c, d1, d2] =>
    a.asNat.bind fun a => b.asNat.bind fun b => p.asNat.bind fun p => c.asNat.bind fun c => d1.asBytes.bind fun d1 =>
    d2.asBytes.map fun d2 => Texture.Texture.new a b p c d1 d2
  | _ => none

end Verif.Model.ReprSound
