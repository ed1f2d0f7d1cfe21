import Verif.Model.SoundArchiveObject
import Verif.Model.Texture
import Verif.Model.Graphics2D
import Verif.Model.Bn
import Verif.Model.Bmg

/-!
# Objects made from their parts

The class methods `from…`, with the default values of their parameters.  The object holds the lists it is given (the
code keeps a reference to them; see C114 for lists that are changed later).  `NARC.fromFilesAndNames` is in `Narc.lean`,
`MainCodeFile.fromSections` in `Code.lean`, `GroupEntry.fromFlags` in `SoundStream.lean`.
-/

namespace Verif.Model.Build

open Verif Verif.Model Verif.Model.SoundArchiveObject

/-! ## Sound -/

/-- `SWAV()` (soundWave.py 33–40). -/
def emptySWAV : SoundWave.SWAV := ⟨0, false, 8000, 0, 0, 0, []⟩

/-- `SWAV.fromData(data, ...)` (soundWave.py 72–86). -/
def swav (data : Bytes := []) (waveType : Nat := 0) (isLooped : Bool := false) (sampleRate : Nat := 8000)
    (time : Nat := 0) (loopOffset : Nat := 0) (totalLength : Nat := 0) : SoundWave.SWAV :=
  { emptySWAV with
    waveType := waveType
    isLooped := isLooped
    sampleRate := sampleRate
    time := time
    loopOffset := loopOffset
    totalLength := totalLength
    data := data }

/-- `SWAR.fromWaves(waves, unk02)` (soundWaveArchive.py 88–95). -/
def swar (waves : List SoundWave.SWAV) (unk02 : Nat := 0) : Swar := ⟨waves, 0, unk02⟩

/-- `STRM(None, unk02, ...)` (soundStream.py 37–43, 52–69). -/
def emptySTRM (unk02 volume priority playerID unk07 : Nat) : Strm :=
  ⟨⟨0, false, [], 0, 8000, 0, 0, 0, 0, 0, 0, 0, 0, 0, 0, 0, 0⟩, 0, unk02, volume, priority, playerID, unk07⟩

/-- `STRM.fromChannels(channels, unk02, ...)` (soundStream.py 72–81). -/
def strm (channels : List (List Bytes)) (unk02 : Nat := 0) (volume : Nat := 127) (priority : Nat := 64)
    (playerID : Nat := 0) (unk07 : Nat := 0) : Strm :=
  let o := emptySTRM unk02 volume priority playerID unk07
  { o with obj := { o.obj with channels := channels } }

/-- `SBNK.fromInstruments(instruments, unk02, waveArchiveIDs)` (soundBank.py 547–554, 524–537). -/
def sbnk (instruments : List (Option SoundBank.Inst)) (unk02 : Nat := 0) (waveArchiveIDs : Option (List (Option Int)) := none) :
    Bank :=
  let ids := match waveArchiveIDs with
    | none => []
    | some l => SoundBank.dropNones l
  ⟨⟨unk02, ids, instruments, []⟩, 0⟩

/-- `SSEQ.fromEvents(events, unk02, ...)` (soundSequence.py 67–76). -/
def sseq (events : List (Nat × SoundSequence.Ev)) (unk02 : Nat := 0) (bankID : Nat := 0) (volume : Nat := 127)
    (channelPressure : Nat := 64) (polyphonicPressure : Nat := 50) (playerID : Nat := 0) : Py Seq := do
  let o ← SequenceObject.SSEQObj.fromEvents events
  return ⟨o, 0, unk02, bankID, volume, channelPressure, polyphonicPressure, playerID⟩

/-- `SSAR.fromEventsAndSequences(events, sequences, unk02)` (soundSequenceArchive.py 90–99). -/
def ssar (events : List (Nat × SoundSequence.Ev)) (sequences : List (Option Str × SoundSequenceArchive.Sequence))
    (unk02 : Nat := 0) : Py Ssar := do
  let o ← SequenceObject.SSARObj.fromEventsAndSequences events sequences unk02
  return ⟨o, 0⟩

/-! ## Textures and tiles -/

/-- `Texture.fromFlags(...)` (texture.py 111–125). -/
def texture (unk00 unk02 : Nat) (repeatS repeatT mirrorS mirrorT : Bool) (width height format : Nat)
    (isColor0Transparent : Bool) (coordsTransformationMode unk04 : Nat) (data1 data2 : Bytes) : Texture.Texture :=
  { Texture.Texture.new unk00 unk02 0 unk04 data1 data2 with
    repeatS := repeatS
    repeatT := repeatT
    mirrorS := mirrorS
    mirrorT := mirrorT
    width := width
    height := height
    format := format
    isColor0Transparent := isColor0Transparent
    coordsTransformationMode := coordsTransformationMode }

/-- The getter of `Texture.size` (texture.py 128–130). -/
def textureSize (t : Texture.Texture) : Nat × Nat := (t.width, t.height)

/-- The setter of `Texture.size` (texture.py 131–133). -/
def setTextureSize (t : Texture.Texture) (value : Nat × Nat) : Texture.Texture :=
  { t with width := value.1, height := value.2 }

/-- `Texture.save()` (texture.py 136–171). -/
def textureSave (t : Texture.Texture) : Py (Nat × Nat × Nat × Nat × Bytes × Bytes) := do
  let p ← t.params
  return (t.unk00, t.unk02, p, t.unk04, t.data1, t.data2)

/-- `Palette(unk00, unk02, unkHeader02, data)` (texture.py 246–250). -/
def newPalette (unk00 unk02 unkHeader02 : Nat) (data : Bytes) : Py Texture.Palette := do
  let c ← Color.loadPalette data
  return ⟨unk00, unk02, unkHeader02, c⟩

/-- `Palette.save()` (texture.py 252–253). -/
def paletteSave (p : Texture.Palette) : Py (Nat × Nat × Nat × Bytes) := do
  let d ← Color.savePalette p.colors
  return (p.unk00, p.unk02, p.unkHeader02, d)

/-- `Palette.fromColors(unk00, unk02, unkHeader02, colors)` (texture.py 256–260). -/
def palette (unk00 unk02 unkHeader02 : Nat) (colors : List Color.Color) : Py Texture.Palette := do
  let p ← newPalette unk00 unk02 unkHeader02 []
  return { p with colors := colors }

/-- `NSBTX()` (texture.py 282–291). -/
def emptyNSBTX : Texture.NSBTX := ⟨0, 0, 0, 0, 0, 0, [], []⟩

/-- `NSBTX.fromTexturesAndPalettes(...)` (texture.py 323–334). -/
def nsbtx (unk08 unk10 unk18 unk20 unk2C unk32 : Nat) (textures : List (Option Str × Texture.Texture))
    (palettes : List (Option Str × Texture.Palette)) : Texture.NSBTX :=
  { emptyNSBTX with
    unk08 := unk08
    unk10 := unk10
    unk18 := unk18
    unk20 := unk20
    unk2C := unk2C
    unk32 := unk32
    textures := textures
    palettes := palettes }

/-- `ImageTile(None, format)` (graphics2D.py 70–77, 99). -/
def blankTile (format : Graphics2D.ImageFormat) : Graphics2D.ImageTile := ⟨List.replicate 64 0, format⟩

/-- `ImageTile.fromPixels(pixels, format)` (graphics2D.py 102–106). -/
def imageTile (pixels : List Nat) (format : Graphics2D.ImageFormat := .i8) : Graphics2D.ImageTile :=
  { blankTile format with pixels := pixels }

/-- `TilemapTile.fromParameters(tileNum, format, ...)` (graphics2D.py 243–255). -/
def tilemapTile (tileNum : Nat) (format : Graphics2D.TilemapFormat := .i10h1v1p4) (hFlip vFlip : Bool := false)
    (paletteNum : Nat := 0) : Graphics2D.TilemapTile :=
  { Graphics2D.TilemapTile.load 0 .i10h1v1p4 with
    tileNum := tileNum
    format := format
    hFlip := hFlip
    vFlip := vFlip
    paletteNum := paletteNum }

/-! ## Buttons and messages -/

/-- `BNBL.fromTouchAreas(touchAreas, unk04)` (bnbl.py 77–82). -/
def bnbl (touchAreas : List Bn.TouchArea) (unk04 : Int := 0) : Bn.BNBL := ⟨unk04, touchAreas⟩

/-- `BNCL.fromImagePositions(imagePositions, unk04)` (bncl.py 70–75). -/
def bncl (imagePositions : List Bn.ImagePosition) (unk04 : Int := 0) : Bn.BNCL := ⟨unk04, imagePositions⟩

/-- `BMG.fromMessages(messages, instructions, labels, scripts, id=id)` (bmg.py 205–228, 57–73). -/
def bmg (messages : List Bmg.Message) (instructions : Option (List Bytes) := none)
    (labels : Option (List (Int × Int)) := none) (scripts : Option (List (Nat × Nat)) := none) (id : Nat := 0) : Bmg.BMG :=
  ⟨messages, instructions.getD [], labels.getD [], scripts.getD [], id, .utf16, .little, 0, 0, 0⟩

end Verif.Model.Build
