import Verif.Model.Bmg
import Verif.Model.Bn
import Verif.Model.Code
import Verif.Model.Color
import Verif.Model.Graphics2D
import Verif.Model.Lz10
import Verif.Model.Narc
import Verif.Model.Rom
import Verif.Model.SoundArchiveObject

/-!
# Model of the functions that read and write files, and of the command line tools

A file system is modelled by what is in the file with each path, and by which paths can be written.  Two paths are taken
for two files (no links, no relative paths for the same file).  Opening a file for reading or writing may raise `OSError`;
reading and writing an open file does not.
-/

namespace Verif.Model.Files

open Verif

/-- A path: the folder, as it is written, and the name of the file in it. -/
structure Path where
  folder : Str
  name : Str
  deriving DecidableEq, Repr

/-- The files. -/
structure FS where
  content : Path → Option Bytes
  writable : Path → Bool

/-- `with open(path, 'rb') as f: ... f.read()`. -/
def FS.read (fs : FS) (p : Path) : Py Bytes :=
  match fs.content p with
  | some d => .ok d
  | none => .error .osError

/-- `with open(path, 'wb') as f: f.write(d)`. -/
def FS.write (fs : FS) (p : Path) (d : Bytes) : Py Unit × FS :=
  if fs.writable p then (.ok (), { fs with content := fun q => if q = p then some d else fs.content q })
  else (.error .osError, fs)

/-- The body of the functions that load from a file. -/
def readWith {α : Type} (load : Bytes → Py α) (p : Path) (fs : FS) : Py α := do
  let d ← fs.read p
  load d

/-- The body of the functions that save to a file: the data is made before the file is opened. -/
def writeWith (save : Py Bytes) (p : Path) (fs : FS) : Py Unit × FS :=
  match save with
  | .error e => (.error e, fs)
  | .ok d => fs.write p d

/-! ## Compression -/

/-- `lz10.decompressFromFile` (lz10.py 86–91). -/
def lz10DecompressFromFile (p : Path) (fs : FS) : Py Bytes := readWith Lz10.decompress p fs

/-- `lz10.decompressToFile` (lz10.py 94–100). -/
def lz10DecompressToFile (data : Bytes) (p : Path) (fs : FS) : Py Unit × FS := writeWith (Lz10.decompress data) p fs

/-- `lz10.compressFromFile` (lz10.py 117–122). -/
def lz10CompressFromFile (p : Path) (fs : FS) : Py Bytes := readWith Lz10.compress p fs

/-- `lz10.compressToFile` (lz10.py 125–131). -/
def lz10CompressToFile (data : Bytes) (p : Path) (fs : FS) : Py Unit × FS := writeWith (Lz10.compress data) p fs

/-- `codeCompression.decompressFromFile` (codeCompression.py 216–221). -/
def codeDecompressFromFile (p : Path) (fs : FS) : Py Bytes := readWith CodeCompression.decompress p fs

/-- `codeCompression.decompressToFile` (codeCompression.py 224–230). -/
def codeDecompressToFile (data : Bytes) (p : Path) (fs : FS) : Py Unit × FS :=
  writeWith (CodeCompression.decompress data) p fs

/-- `codeCompression.compressFromFile` (codeCompression.py 297–302). -/
def codeCompressFromFile (p : Path) (isArm9 : Bool) (fs : FS) : Py Bytes :=
  readWith (fun d => CodeCompression.compress d isArm9) p fs

/-- `codeCompression.compressToFile` (codeCompression.py 305–311). -/
def codeCompressToFile (data : Bytes) (p : Path) (isArm9 : Bool) (fs : FS) : Py Unit × FS :=
  writeWith (CodeCompression.compress data isArm9) p fs

/-! ## Objects -/

/-- `BMG.fromFile(path, id=id)` (bmg.py 231–237). -/
def bmgFromFile (sjis : Text.Codec) (fuel : Nat) (p : Path) (id : Nat) (fs : FS) : Py Bmg.BMG :=
  readWith (fun d => Bmg.BMG.load sjis fuel d id) p fs

/-- `BMG.saveToFile` (bmg.py 344–351). -/
def bmgSaveToFile (sjis : Text.Codec) (b : Bmg.BMG) (p : Path) (fs : FS) : Py Unit × FS := writeWith (b.save sjis) p fs

/-- `BNBL.fromFile` (bnbl.py 86–92). -/
def bnblFromFile (p : Path) (fs : FS) : Py Bn.BNBL := readWith Bn.BNBL.load p fs

/-- `BNBL.saveToFile` (bnbl.py 106–113). -/
def bnblSaveToFile (b : Bn.BNBL) (p : Path) (fs : FS) : Py Unit × FS := writeWith b.save p fs

/-- `BNCL.fromFile` (bncl.py 79–85). -/
def bnclFromFile (p : Path) (fs : FS) : Py Bn.BNCL := readWith Bn.BNCL.load p fs

/-- `BNCL.saveToFile` (bncl.py 99–106). -/
def bnclSaveToFile (b : Bn.BNCL) (p : Path) (fs : FS) : Py Unit × FS := writeWith b.save p fs

/-- `MainCodeFile.fromFile` (code.py 189–195).  The pointer to the code settings cannot be given. -/
def mainCodeFromFile (p : Path) (ramAddress : Nat) (fs : FS) : Py Code.MainCodeFile :=
  readWith (fun d => Code.MainCodeFile.load d ramAddress none) p fs

/-- `MainCodeFile.saveToFile` (code.py 256–263). -/
def mainCodeSaveToFile (f : Code.MainCodeFile) (p : Path) (compress : Bool) (fs : FS) : Py Unit × FS :=
  writeWith (f.save compress) p fs

/-- `MainCodeFile.fromCompressed` (code.py 164–176).  The constructor decompresses the data a second time. -/
def mainCodeFromCompressed (data : Bytes) (ramAddress : Nat) (ptr : Option Nat) : Py Code.MainCodeFile := do
  let d ← CodeCompression.decompress data
  Code.MainCodeFile.load d ramAddress ptr

/-- `loadPaletteFromFile` (color.py 355–361). -/
def loadPaletteFromFile (p : Path) (fs : FS) : Py (List Color.Color) := readWith Color.loadPalette p fs

/-- `savePaletteToFile` (color.py 372–380). -/
def savePaletteToFile (colors : List Color.Color) (p : Path) (fs : FS) : Py Unit × FS :=
  writeWith (Color.savePalette colors) p fs

/-- `loadImageTilesFromFile` (graphics2D.py 187–193). -/
def loadImageTilesFromFile (p : Path) (format : Graphics2D.ImageFormat) (fs : FS) : Py (List Graphics2D.ImageTile) :=
  readWith (fun d => Graphics2D.loadImageTiles d format) p fs

/-- `saveImageTilesToFile` (graphics2D.py 213–221). -/
def saveImageTilesToFile (tiles : List Graphics2D.ImageTile) (p : Path) (fs : FS) : Py Unit × FS :=
  writeWith (Graphics2D.saveImageTiles tiles) p fs

/-- `loadTilemapTilesFromFile` (graphics2D.py 358–364). -/
def loadTilemapTilesFromFile (p : Path) (format : Graphics2D.TilemapFormat) (fs : FS) :
    Py (List Graphics2D.TilemapTile) :=
  readWith (fun d => Graphics2D.loadTilemapTiles d format) p fs

/-- `saveTilemapTilesToFile` (graphics2D.py 387–395). -/
def saveTilemapTilesToFile (tiles : List Graphics2D.TilemapTile) (p : Path) (fs : FS) : Py Unit × FS :=
  writeWith (Graphics2D.saveTilemapTiles tiles) p fs

/-- `NARC.fromFile` (narc.py 109–115). -/
def narcFromFile (limit : Nat) (p : Path) (fs : FS) : Py Narc.NARC := readWith (Narc.load limit) p fs

/-- `NARC.saveToFile` (narc.py 165–172). -/
def narcSaveToFile (n : Narc.NARC) (p : Path) (fs : FS) : Py Unit × FS := writeWith (Narc.save n) p fs

/-- `NintendoDSRom.fromFile` (rom.py 320–326). -/
def romFromFile (limit : Nat) (p : Path) (fs : FS) : Py Rom.Rom := readWith (Rom.load limit) p fs

/-- `NintendoDSRom.saveToFile` (rom.py 552–564); what it does to the ROM itself is what `save` does. -/
def romSaveToFile (r : Rom.Rom) (p : Path) (updateDeviceCapacity : Bool) (fs : FS) : Py Unit × FS :=
  writeWith ((Rom.save r updateDeviceCapacity).map Prod.fst) p fs

/-- `SDAT.fromFile` (soundArchive.py 353–359). -/
def sdatFromFile (choose : List Nat → Nat) (p : Path) (fs : FS) : Py SoundArchiveObject.Archive :=
  readWith (SoundArchiveObject.Archive.load choose) p fs

/-- `SDAT.saveToFile` (soundArchive.py 840–847). -/
def sdatSaveToFile (o : SoundArchiveObject.Archive) (p : Path) (fs : FS) : Py Unit × FS := writeWith o.save p fs

/-- `SSEQ.fromFile(path, unk02, ...)` (soundSequence.py 80–86). -/
def sseqFromFile (p : Path) (unk02 bankID volume channelPressure polyphonicPressure playerID : Nat) (fs : FS) :
    Py SoundArchiveObject.Seq :=
  readWith (fun d => SoundArchiveObject.Seq.load
    ⟨d, 0, unk02, bankID, volume, channelPressure, polyphonicPressure, playerID⟩) p fs

/-- `SSEQ.saveToFile` (soundSequence.py 158–165). -/
def sseqSaveToFile (x : SoundArchiveObject.Seq) (p : Path) (fs : FS) : Py Unit × FS :=
  writeWith (x.save.map fun i => i.file) p fs

/-- `SSAR.fromFile(path, unk02, names)` (soundSequenceArchive.py 102–108). -/
def ssarFromFile (p : Path) (unk02 : Nat) (names : List (Option Str)) (fs : FS) : Py SoundArchiveObject.Ssar :=
  readWith (fun d => SoundArchiveObject.Ssar.load ⟨d, 0, unk02, names⟩) p fs

/-- `SSAR.saveToFile` (soundSequenceArchive.py 231–238). -/
def ssarSaveToFile (x : SoundArchiveObject.Ssar) (p : Path) (fs : FS) : Py Unit × FS :=
  writeWith (x.save.map fun i => i.file) p fs

/-- `SBNK.fromFile(path, unk02, waveArchiveIDs)` (soundBank.py 557–563). -/
def sbnkFromFile (choose : List Nat → Nat) (p : Path) (unk02 : Nat) (waveArchiveIDs : List (Option Int)) (fs : FS) :
    Py SoundArchiveObject.Bank :=
  readWith (fun d => SoundArchiveObject.Bank.load choose ⟨d, 0, unk02, waveArchiveIDs⟩) p fs

/-- `SBNK.saveToFile` (soundBank.py 785–792). -/
def sbnkSaveToFile (x : SoundArchiveObject.Bank) (p : Path) (fs : FS) : Py Unit × FS :=
  writeWith (x.save.map fun i => i.file) p fs

/-- `SWAV.fromFile` (soundWave.py 89–95). -/
def swavFromFile (p : Path) (fs : FS) : Py SoundWave.SWAV := readWith SoundWave.SWAV.load p fs

/-- `SWAV.saveToFile` (soundWave.py 123–132); what it does to the SWAV itself is what `save` does. -/
def swavSaveToFile (w : SoundWave.SWAV) (p : Path) (updateTime updateTotalLength : Bool) (fs : FS) : Py Unit × FS :=
  writeWith ((w.save updateTime updateTotalLength).map Prod.fst) p fs

/-- `SWAR.fromFile(path, unk02)` (soundWaveArchive.py 98–104).  The value of `unk02` is not used: the line says
`unk02=0`. -/
def swarFromFile (p : Path) (_unk02 : Nat) (fs : FS) : Py SoundArchiveObject.Swar :=
  readWith (fun d => SoundArchiveObject.Swar.load ⟨d, 0, 0⟩) p fs

/-- `SWAR.saveToFile` (soundWaveArchive.py 138–145). -/
def swarSaveToFile (x : SoundArchiveObject.Swar) (p : Path) (fs : FS) : Py Unit × FS :=
  writeWith (x.save.map fun i => i.file) p fs

/-- `STRM.fromFile(path, unk02, ...)` (soundStream.py 84–90). -/
def strmFromFile (p : Path) (unk02 volume priority playerID unk07 : Nat) (fs : FS) : Py SoundArchiveObject.Strm :=
  readWith (fun d => SoundArchiveObject.Strm.load ⟨d, 0, unk02, volume, priority, playerID, unk07⟩) p fs

/-- `STRM.saveToFile` (soundStream.py 255–262), with `updateTime=False`; `True` changes the time first
(Model/Float.lean). -/
def strmSaveToFile (x : SoundArchiveObject.Strm) (p : Path) (fs : FS) : Py Unit × FS :=
  writeWith (x.save.map fun i => i.file) p fs

/-! ## The command line tools -/

/-- `name.rfind('.')` as an index; `none` stands for -1. -/
def lastDot (name : Str) : Option Nat :=
  if 46 ∈ name then some (name.length - 1 - name.reverse.idxOf 46) else none

/-- `PurePath.suffix` (Python's pathlib up to 3.13). -/
def suffix (name : Str) : Str :=
  match lastDot name with
  | some i => if 0 < i ∧ i + 1 < name.length then name.drop i else []
  | none => []

/-- `path.with_suffix(new)` (Python's pathlib). -/
def Path.withSuffix (p : Path) (new : Str) : Py Path :=
  if p.name = [] then .error .valueError
  else if suffix p.name = [] then .ok { p with name := p.name ++ new }
  else .ok { p with name := p.name.take (p.name.length - (suffix p.name).length) ++ new }

/-- `'.cmp'`. -/
def dotCmp : Str := [46, 99, 109, 112]

/-- `'.dec'`. -/
def dotDec : Str := [46, 100, 101, 99]

/-- What the arguments of a tool ask for, as `argparse` finds out (lz10.py 155–163, 175–183; codeCompression.py
335–345, 357–365).  Without arguments, only the usage is printed. -/
inductive Command where
  | usage
  | compress (input : Path) (output : Option Path) (isArm9 : Bool)
  | decompress (input : Path) (output : Option Path)
  deriving DecidableEq, Repr

/-- The path to write to (lz10.py 150–151, 170–171). -/
def outputPath (input : Path) (output : Option Path) (new : Str) : Py Path :=
  match output with
  | some p => .ok p
  | none => input.withSuffix new

/-- The two handlers of the tools: read the input, find out where to write to, convert, write (lz10.py 143–153, 165–173;
codeCompression.py 323–333, 347–355).  For decompression the data is converted before the path is found out, so that
another exception may come first; the model uses the order of each. -/
def handleCompress (compress : Bytes → Py Bytes) (input : Path) (output : Option Path) (fs : FS) : Py Unit × FS :=
  match fs.read input with
  | .error e => (.error e, fs)
  | .ok data =>
    match outputPath input output dotCmp with
    | .error e => (.error e, fs)
    | .ok out => writeWith (compress data) out fs

def handleDecompress (decompress : Bytes → Py Bytes) (input : Path) (output : Option Path) (fs : FS) : Py Unit × FS :=
  match readWith decompress input fs with
  | .error e => (.error e, fs)
  | .ok data =>
    match outputPath input output dotDec with
    | .error e => (.error e, fs)
    | .ok out => fs.write out data

/-- `lz10.main` (lz10.py 134–188), from the arguments as they were understood; there is no `--is_arm9`. -/
def lz10Main (c : Command) (fs : FS) : Py Unit × FS :=
  match c with
  | .usage => (.ok (), fs)
  | .compress i o _ => handleCompress Lz10.compress i o fs
  | .decompress i o => handleDecompress Lz10.decompress i o fs

/-- `codeCompression.main` (codeCompression.py 314–370), from the arguments as they were understood. -/
def codeMain (c : Command) (fs : FS) : Py Unit × FS :=
  match c with
  | .usage => (.ok (), fs)
  | .compress i o a => handleCompress (fun d => CodeCompression.compress d a) i o fs
  | .decompress i o => handleDecompress CodeCompression.decompress i o fs

/-! ## Programs -/

/-- A call of a function that may write a file. -/
inductive Op where
  | lz10Decompress (data : Bytes) (p : Path)
  | lz10Compress (data : Bytes) (p : Path)
  | codeDecompress (data : Bytes) (p : Path)
  | codeCompress (data : Bytes) (p : Path) (isArm9 : Bool)
  | bmg (sjis : Text.Codec) (b : Bmg.BMG) (p : Path)
  | bnbl (b : Bn.BNBL) (p : Path)
  | bncl (b : Bn.BNCL) (p : Path)
  | mainCode (f : Code.MainCodeFile) (p : Path) (compress : Bool)
  | palette (colors : List Color.Color) (p : Path)
  | imageTiles (tiles : List Graphics2D.ImageTile) (p : Path)
  | tilemapTiles (tiles : List Graphics2D.TilemapTile) (p : Path)
  | narc (n : Narc.NARC) (p : Path)
  | rom (r : Rom.Rom) (p : Path) (updateDeviceCapacity : Bool)
  | sdat (o : SoundArchiveObject.Archive) (p : Path)
  | sseq (x : SoundArchiveObject.Seq) (p : Path)
  | ssar (x : SoundArchiveObject.Ssar) (p : Path)
  | sbnk (x : SoundArchiveObject.Bank) (p : Path)
  | swav (w : SoundWave.SWAV) (p : Path) (updateTime updateTotalLength : Bool)
  | swar (x : SoundArchiveObject.Swar) (p : Path)
  | strm (x : SoundArchiveObject.Strm) (p : Path)
  | lz10Tool (c : Command)
  | codeTool (c : Command)

/-- What the call raises, if anything, and the files it leaves behind. -/
def Op.run (fs : FS) : Op → Py Unit × FS
  | .lz10Decompress d p => lz10DecompressToFile d p fs
  | .lz10Compress d p => lz10CompressToFile d p fs
  | .codeDecompress d p => codeDecompressToFile d p fs
  | .codeCompress d p a => codeCompressToFile d p a fs
  | .bmg sjis b p => bmgSaveToFile sjis b p fs
  | .bnbl b p => bnblSaveToFile b p fs
  | .bncl b p => bnclSaveToFile b p fs
  | .mainCode f p c => mainCodeSaveToFile f p c fs
  | .palette c p => savePaletteToFile c p fs
  | .imageTiles t p => saveImageTilesToFile t p fs
  | .tilemapTiles t p => saveTilemapTilesToFile t p fs
  | .narc n p => narcSaveToFile n p fs
  | .rom r p u => romSaveToFile r p u fs
  | .sdat o p => sdatSaveToFile o p fs
  | .sseq x p => sseqSaveToFile x p fs
  | .ssar x p => ssarSaveToFile x p fs
  | .sbnk x p => sbnkSaveToFile x p fs
  | .swav w p a b => swavSaveToFile w p a b fs
  | .swar x p => swarSaveToFile x p fs
  | .strm x p => strmSaveToFile x p fs
  | .lz10Tool c => lz10Main c fs
  | .codeTool c => codeMain c fs

/-- A program of such calls, each one made whatever the one before raised. -/
def runAll (fs : FS) : List Op → FS
  | [] => fs
  | op :: ops => runAll (op.run fs).2 ops

end Verif.Model.Files
