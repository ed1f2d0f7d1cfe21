import Verif.Model.Files
import Verif.Model.Json

/-!
# Model of the programs in `tools/`

`fnttool.py`, `lz10tool.py` and `narctool.py`, from the arguments as `argparse` understood them.  Files are modelled as in
`Files.lean`; folders of the file system are not, and a file that exists can be read.  What the programs print is not
modelled.  For `soundfontExport.py`, `instrumentExamples.py` and `testSDAT.py` see `SoundTools.lean`.
-/

namespace Verif.Model.Tools

open Verif Verif.Model.Files
open Verif.Model.Fnt (Folder)

/-! ## fnttool.py -/

/-- The options `-ib`, `-ij`, `-ir`, `-in` and `-ob`, `-oj`, `-or`, `-on` (tools/fnttool.py 26–55). -/
inductive Kind where
  | bin | json | rom | narc
  deriving DecidableEq, Repr

/-- The table in the input file (tools/fnttool.py 67–79).  There is no function `ndspy.narc.load`: `AttributeError`. -/
def tableIn (limit : Nat) (k : Kind) (ind : Bytes) : Py Folder :=
  match k with
  | .bin => Fnt.load limit ind
  | .json => do
    let s ← Text.utf8Dec ind
    Json.jsonToFnt limit s
  | .rom => do
    let r ← Rom.load limit ind
    return r.filenames
  | .narc => .error .attributeError

/-- The data to write (tools/fnttool.py 92–105), where `existing` is what is in the output file.  There is no function
`ndspy.narc.load`.  A ROM is only asked for when the file exists (tools/fnttool.py 59–61). -/
def dataOut (limit : Nat) (k : Kind) (fnt : Folder) (existing : Option Bytes) : Py Bytes :=
  match k, existing with
  | .bin, _ => Fnt.save fnt
  | .json, _ => Text.encodeWith Text.utf8Char (Json.fntToJson fnt)
  | .rom, some d => do
    let r ← Rom.load limit d
    let x ← Rom.save { r with filenames := fnt } false
    return x.1
  | .rom, none => .error .valueError
  | .narc, _ => .error .attributeError

/-- `main` (tools/fnttool.py 11–111). -/
def fnttool (limit : Nat) (input output : Kind) (infile outfile : Path) (fs : FS) : Py Unit × FS :=
  if (output = .rom ∨ output = .narc) ∧ fs.content outfile = none then (.error .valueError, fs)
  else
    match readWith (tableIn limit input) infile fs with
    | .error e => (.error e, fs)
    | .ok fnt => writeWith (dataOut limit output fnt (fs.content outfile)) outfile fs

/-! ## lz10tool.py -/

/-- `-c`, `-d` or neither (tools/lz10tool.py 20–28). -/
inductive Mode where
  | compress | decompress | guess
  deriving DecidableEq, Repr

/-- Whether to compress (tools/lz10tool.py 35–43). -/
def shouldCompress (m : Mode) (ind : Bytes) : Py Bool :=
  match m with
  | .compress => .ok true
  | .decompress => .ok false
  | .guess =>
    match ind with
    | [] => .error .indexError
    | b :: _ => .ok (b != 0x10)

/-- `infile + extension`, for a path that ends in a name. -/
def Path.plus (p : Path) (extension : Str) : Path := { p with name := p.name ++ extension }

/-- `main` (tools/lz10tool.py 6–58). -/
def lz10tool (m : Mode) (infile : Path) (outfile : Option Path) (fs : FS) : Py Unit × FS :=
  match readWith (fun ind => do
      let c ← shouldCompress m ind
      return (c, ind)) infile fs with
  | .error e => (.error e, fs)
  | .ok (c, ind) =>
    writeWith (if c then Lz10.compress ind else Lz10.decompress ind)
      (outfile.getD (Path.plus infile (if c then [46, 108, 122, 49, 48] else [46, 114, 97, 119]))) fs

/-! ## narctool.py -/

/-- `-e`, `-p` or neither (tools/narctool.py 26–34). -/
inductive NarcMode where
  | extract | pack | guess
  deriving DecidableEq, Repr

/-- Whether to extract (tools/narctool.py 45–56), where `folder` says whether `infile` is a folder. -/
def shouldExtract (m : NarcMode) (file folder : Bool) : Py Bool :=
  match m with
  | .extract => .ok true
  | .pack => .ok false
  | .guess => if file then .ok true else if folder then .ok false else .error .typeError

/-- `main` (tools/narctool.py 12–101).  There are no functions `ndspy.narc.load` and `ndspy.narc.save`, so that each way ends in
an `AttributeError` at the latest. -/
def narctool (m : NarcMode) (_lowlevel folder : Bool) (infile : Path) (_outfile : Option Path) (fs : FS) : Py Unit × FS :=
  match shouldExtract m (fs.content infile).isSome folder with
  | .error e => (.error e, fs)
  | .ok true =>
    match fs.read infile with
    | .error e => (.error e, fs)
    | .ok _ => (.error .attributeError, fs)
  | .ok false => (.error .attributeError, fs)

end Verif.Model.Tools
