import Verif.Model.SoundArchiveObject
import Verif.Model.Files
import Verif.Model.Music
import Verif.Model.Repr
import Verif.Base.Dict

/-!
# Model of the sound programs in `tools/`

`testSDAT.py`, `instrumentExamples.py` and `soundfontExport.py`.  Their paths are fixed; here the folder or the file system is a
parameter.  `midiAndSF2ToMP3` (instrumentExamples.py 10–12), which only starts another program, is not modelled, and of
`prepareSDAT` only what comes before its unconditional `return`.
-/

namespace Verif.Model.SoundTools

open Verif Verif.Model.SoundArchiveObject Verif.Model.SoundSequence
open Verif.Model.Repr (lit)
open Verif.Model.Files (FS Path readWith)

/-! ## testSDAT.py -/

/-- The folder with the sound archives: the files in it, the names of the folders in it other than `out`, and the files in the
folder `out`, if there is one.  No name is there twice.  Files can be read, and files and folders made and removed. -/
structure Disk where
  files : List (Str × Bytes)
  folders : List Str
  out : Option (List (Str × Bytes))
  deriving DecidableEq, Repr

/-- Insert before the first text that is not smaller. -/
def insertStr (a : Str) : List Str → List Str
  | [] => [a]
  | b :: l => if b < a then b :: insertStr a l else a :: b :: l

/-- `sorted(l)` for texts, which Python compares by their code points. -/
def sortStr : List Str → List Str
  | [] => []
  | a :: l => insertStr a (sortStr l)

/-- `with open(full, 'rb') as f: sdatD = f.read()` (testSDAT.py 30–31).  What is listed and not a file is a folder:
`IsADirectoryError`. -/
def Disk.read (k : Disk) (fn : Str) : Py Bytes :=
  match k.files.lookup fn with
  | some d => .ok d
  | none => .error .osError

/-- `fn.endswith('.sdat')` (testSDAT.py 25). -/
def isSdat (fn : Str) : Bool := (lit ".sdat").isSuffixOf fn

/-- The name of the expected failure (testSDAT.py 44). -/
def expected : Str := lit "ace_attorney_investigations_miles_edgeworth_2_prosecutor's_path"

/-- The result, and whether `success` is left as it is (testSDAT.py 40–48). -/
def outcome (name : Str) (d d2 : Bytes) : Str × Bool :=
  if d = d2 then (lit "good", true)
  else if name = expected then (lit "wontfix: Fangame; SWAR padding is insane", true)
  else (lit "BAD", false)

/-- The line that is printed (testSDAT.py 51–54). -/
def line (fn result : Str) : Str :=
  let l := fn ++ lit " "
  l ++ List.replicate (70 - l.length) 46 ++ lit " " ++ result

/-- What the loop has done so far: the files in `out`, the printed lines and `success`. -/
structure Run where
  out : List (Str × Bytes)
  printed : List Str
  success : Bool
  deriving DecidableEq, Repr

/-- Opening and saving one archive (testSDAT.py 30–35).  For `choose`, see `Model/SoundBank.lean`. -/
def resave (choose : List Nat → Nat) (k : Disk) (fn : Str) : Py (Bytes × Bytes) := do
  let d ← k.read fn
  let a ← Archive.load choose d
  let d2 ← a.save
  return (d, d2)

/-- The loop over the names (testSDAT.py 24–54): the outcome, and what was done, also if it raises. -/
def testLoop (choose : List Nat → Nat) (k : Disk) : List Str → Run → Py Unit × Run
  | [], r => (.ok (), r)
  | fn :: fns, r =>
    if isSdat fn = false then testLoop choose k fns r
    else
      match resave choose k fn with
      | .error e => (.error e, r)
      | .ok (d, d2) =>
        let name := fn.take (fn.length - 5)
        let o := outcome name d d2
        testLoop choose k fns
          ⟨dictSet r.out (name ++ lit "_out.sdat") d2, r.printed ++ [line fn o.1], r.success && o.2⟩

/-- `testSDAT(sdatsFolder)` (testSDAT.py 8–56): the result, the folder afterwards, and the printed lines.  If there is a file
named `out`, then no folder of that name can be made. -/
def testSDAT (choose : List Nat → Nat) (k : Disk) : Py Bool × Disk × List Str :=
  if (k.files.lookup (lit "out")).isSome then (.error .osError, k, [])
  else
    let r := testLoop choose k (sortStr (k.files.map (·.1) ++ k.folders ++ [lit "out"])) ⟨[], [], true⟩
    (r.1.map fun _ => r.2.success, { k with out := some r.2.out }, r.2.printed)

/-- `main` (testSDAT.py 59–62): what is printed. -/
def testMain (choose : List Nat → Nat) (k : Disk) : Py Unit × Disk × List Str :=
  let r := testSDAT choose k
  (r.1.map fun _ => (), r.2.1, r.2.2 ++ (if r.1 = .ok false then [lit "TEST FAILURE"] else []))

/-! ## instrumentExamples.py -/

/-- `makeScaleSSEQ(bankID, instrumentID)` (instrumentExamples.py 15–21): the events of the sequence, which is otherwise a new
one.  The position is the identity. -/
def scaleEvents (bankID instrumentID : Nat) : List (Nat × Ev) :=
  (0, .instrumentSwitch bankID instrumentID) ::
    ((List.range 0x80).map (fun i => (i + 1, noteInit i 127 50)) ++ [(0x81, .endTrack)])

/-- The banks that use the first wave archive (instrumentExamples.py 30–33).  An empty slot has no list of archives. -/
def banksOfFirst : List (SoundArchive.Symbol × Option Bank) → Py (List Bank)
  | [] => .ok []
  | (_, none) :: _ => .error .attributeError
  | (_, some b) :: bs => do
    let r ← banksOfFirst bs
    return if some 0 ∈ b.obj.waveArchiveIDs then b :: r else r

/-- `prepareSDAT(inFN, outFN)` (instrumentExamples.py 24–40): the number that is printed. -/
def prepareSDAT (choose : List Nat → Nat) (inFN _outFN : Path) (fs : FS) : Py Nat := do
  let a ← readWith (Archive.load choose) inFN fs
  let _ ← pyIdx a.waveArchives 0
  let bs ← banksOfFirst a.banks
  return (bs.flatMap fun b => b.obj.instruments).length

/-! ## soundfontExport.py -/

/-- `convertToSF2(sbnk, swars).save()` (soundfontExport.py 9–28). -/
def convertToSF2 (_sbnk : SoundBank.SBNK) (_swars : List (List SoundWave.SWAV)) : Bytes := []

/-- `main` (soundfontExport.py 32–45), where both input files are read before they are loaded. -/
def soundfontExport (choose : List Nat → Nat) (sbnkFile swarFile sf2File : Path) (fs : FS) : Py Unit × FS :=
  match (do
    let sbnkD ← fs.read sbnkFile
    let swarD ← fs.read swarFile
    let sbnk ← SoundBank.SBNK.load choose sbnkD 0 []
    let swar ← SoundWave.loadSWAR swarD
    return (sbnk, swar) : Py (SoundBank.SBNK × List SoundWave.SWAV)) with
  | .error e => (.error e, fs)
  | .ok (sbnk, swar) => fs.write sf2File (convertToSF2 { sbnk with waveArchiveIDs := [some 0] } [swar])

end Verif.Model.SoundTools
