import Verif.Model.Fnt
import Verif.Model.Repr
import Verif.Model.Text

/-!
# Model of `tools/_common.py`: filename tables as JSON

The module `json` of Python's library is modelled as far as the tools need it: what `json.dumps(…, indent=4)` prints for
a filename table, and what `json.loads` reads.  Not modelled: numbers with a fraction or an exponent, `true`, `false`,
`null`, `NaN` and `Infinity` (Python reads them; here they are refused like a text that is not JSON), Python's limits on
the number of digits of an integer and on the depth of a table that is printed or read.
-/

namespace Verif.Model.Json

open Verif
open Verif.Model.Repr (lit reprInt)
open Verif.Model.Util (hexDigit)
open Verif.Model.Fnt (Folder Folders)

/-! ## Writing -/

/-- `'\\u{0:04x}'.format(n)`. -/
def unicodeEscape (n : Nat) : Str :=
  [92, 117, hexDigit (n / 4096 % 16), hexDigit (n / 256 % 16), hexDigit (n / 16 % 16), hexDigit (n % 16)]

/-- One character of a text (`py_encode_basestring_ascii` of Python's `json.encoder`). -/
def escapeChar (c : Nat) : Str :=
  if c = 34 then [92, 34]
  else if c = 92 then [92, 92]
  else if c = 10 then [92, 110]
  else if c = 13 then [92, 114]
  else if c = 9 then [92, 116]
  else if c = 12 then [92, 102]
  else if c = 8 then [92, 98]
  else if 32 ≤ c ∧ c ≤ 126 then [c]
  else if c < 0x10000 then unicodeEscape c
  else unicodeEscape (0xD800 + (c - 0x10000) / 0x400) ++ unicodeEscape (0xDC00 + (c - 0x10000) % 0x400)

/-- A text in JSON. -/
def writeStr (s : Str) : Str := 34 :: (s.flatMap escapeChar ++ [34])

/-- The end of a line and the indentation of the next one. -/
def newline (level : Nat) : Str := 10 :: List.replicate (4 * level) 32

/-- The parts of a list or of an object, separated by commas, each on a line of its own. -/
def lines (level : Nat) : List Str → Str
  | [] => []
  | [x] => x
  | x :: rest => x ++ 44 :: (newline level ++ lines level rest)

/-- A list (of type `list` or `tuple`) or an object with at least one part.  The first level is that of the brackets. -/
def bracket (op cl level : Nat) (parts : List Str) : Str :=
  op :: (newline (level + 1) ++ (lines (level + 1) parts ++ (newline level ++ [cl])))

mutual
/-- `json.dumps(table, indent=4, cls=FilenamesTableEncoder)` for a folder at some level of indentation
(tools/_common.py 6–20, 35–39): the dictionary made by `FilenamesTableEncoder.default`. -/
def writeFolder (level : Nat) : Folder → Str
  | .mk folders files firstID =>
    bracket 123 125 level (
      (lit "\"first_id\": " ++ reprInt firstID) ::
      ((if files = [] then [] else [lit "\"files\": " ++ bracket 91 93 (level + 1) (files.map writeStr)]) ++
       (match folders with
        | .nil => []
        | .cons n f rest => [lit "\"folders\": " ++ bracket 91 93 (level + 1) (writeFolders (level + 2) (.cons n f rest))])))
/-- The pairs of names and folders, each at that level. -/
def writeFolders (level : Nat) : Folders → List Str
  | .nil => []
  | .cons n f rest => bracket 91 93 level [writeStr n, writeFolder (level + 1) f] :: writeFolders level rest
end

/-- `fntToJson` (tools/_common.py 35–39). -/
def fntToJson (table : Folder) : Str := writeFolder 0 table

/-! ## Reading -/

/-- What `json.loads` returns: an integer, a text, a list or a dictionary. -/
inductive Json where
  | num (n : Int)
  | text (s : Str)
  | arr (l : List Json)
  | obj (l : List (Str × Json))

/-- Whether a character is white space in JSON. -/
def isSpace (c : Nat) : Bool := c == 32 || c == 9 || c == 10 || c == 13

/-- Skip white space. -/
def skip (s : Str) : Str := s.dropWhile isSpace

/-- A hexadecimal digit. -/
def hexValue (c : Nat) : Option Nat :=
  if 48 ≤ c ∧ c ≤ 57 then some (c - 48)
  else if 97 ≤ c ∧ c ≤ 102 then some (c - 87)
  else if 65 ≤ c ∧ c ≤ 70 then some (c - 55)
  else none

/-- Four hexadecimal digits. -/
def hex4 (a b c d : Nat) : Option Nat := do
  let a ← hexValue a
  let b ← hexValue b
  let c ← hexValue c
  let d ← hexValue d
  return ((a * 16 + b) * 16 + c) * 16 + d

/-- The character for a letter after a backslash. -/
def escaped (c : Nat) : Option Nat :=
  if c = 34 ∨ c = 92 ∨ c = 47 then some c
  else if c = 98 then some 8
  else if c = 102 then some 12
  else if c = 110 then some 10
  else if c = 114 then some 13
  else if c = 116 then some 9
  else none

/-- Put a character before what is read of a text. -/
def before (c : Nat) (r : Option (Str × Str)) : Option (Str × Str) := r.map fun p => (c :: p.1, p.2)

/-- The rest of a text after the opening quote, and what follows it (`py_scanstring` of Python's `json.decoder`, strict).
The first argument bounds the number of characters. -/
def readStr : Nat → Str → Option (Str × Str)
  | 0, _ => none
  | k + 1, s =>
    match s with
    | [] => none
    | 34 :: s => some ([], s)
    | 92 :: 117 :: a :: b :: c :: d :: s => do
      let n ← hex4 a b c d
      if 0xD800 ≤ n ∧ n < 0xDC00 then
        match s with
        | 92 :: 117 :: a' :: b' :: c' :: d' :: s' => do
          let m ← hex4 a' b' c' d'
          if 0xDC00 ≤ m ∧ m < 0xE000 then before (0x10000 + (n - 0xD800) * 0x400 + (m - 0xDC00)) (readStr k s')
          else before n (readStr k s)
        | s => before n (readStr k s)
      else before n (readStr k s)
    | 92 :: e :: s => do
      let c ← escaped e
      before c (readStr k s)
    | c :: s => if c < 32 ∨ c = 92 then none else before c (readStr k s)

/-- Whether a character is a decimal digit. -/
def isDigit (c : Nat) : Bool := decide (48 ≤ c ∧ c ≤ 57)

/-- The value of decimal digits. -/
def decimal (s : Str) : Nat := s.foldl (fun n c => 10 * n + (c - 48)) 0

/-- An integer that is not negative: `0`, or digits without a leading zero. -/
def readNat (s : Str) : Option (Nat × Str) :=
  match s with
  | 48 :: s => if s.head? = some 46 ∨ s.head? = some 101 ∨ s.head? = some 69 then none else some (0, s)
  | s =>
    let ds := s.takeWhile isDigit
    let rest := s.dropWhile isDigit
    if ds = [] ∨ rest.head? = some 46 ∨ rest.head? = some 101 ∨ rest.head? = some 69 then none
    else some (decimal ds, rest)

/-- An integer. -/
def readInt (s : Str) : Option (Int × Str) :=
  match s with
  | 45 :: s => (readNat s).map fun r => (-(r.1 : Int), r.2)
  | s => (readNat s).map fun r => ((r.1 : Int), r.2)

mutual
/-- A value and what follows it (`scan_once` of Python's `json.scanner`).  The first argument bounds the depth and the
lengths. -/
def value : Nat → Str → Option (Json × Str)
  | 0, _ => none
  | k + 1, s =>
    match s with
    | 34 :: s => (readStr (s.length + 1) s).map fun r => (.text r.1, r.2)
    | 91 :: s =>
      match skip s with
      | 93 :: s => some (.arr [], s)
      | s => (items k s).map fun r => (.arr r.1, r.2)
    | 123 :: s =>
      match skip s with
      | 125 :: s => some (.obj [], s)
      | s => (members k s).map fun r => (.obj r.1, r.2)
    | s => (readInt s).map fun r => (.num r.1, r.2)
/-- The parts of a list, up to and with the closing bracket (`JSONArray`). -/
def items : Nat → Str → Option (List Json × Str)
  | 0, _ => none
  | k + 1, s =>
    match value k s with
    | none => none
    | some (v, s) =>
      match skip s with
      | 44 :: s => (items k (skip s)).map fun r => (v :: r.1, r.2)
      | 93 :: s => some ([v], s)
      | _ => none
/-- The parts of an object, up to and with the closing bracket (`JSONObject`). -/
def members : Nat → Str → Option (List (Str × Json) × Str)
  | 0, _ => none
  | k + 1, s =>
    match s with
    | 34 :: s =>
      match readStr (s.length + 1) s with
      | none => none
      | some (key, s) =>
        match skip s with
        | 58 :: s =>
          match value k (skip s) with
          | none => none
          | some (v, s) =>
            match skip s with
            | 44 :: s => (members k (skip s)).map fun r => ((key, v) :: r.1, r.2)
            | 125 :: s => some ([(key, v)], s)
            | _ => none
        | _ => none
    | _ => none
end

/-- `json.loads(s)`; `json.JSONDecodeError` is a `ValueError`.  No value is deeper than its text is long. -/
def loads (s : Str) : Py Json :=
  match value (s.length + 1) (skip s) with
  | some (v, rest) => if skip rest = [] then .ok v else .error .valueError
  | none => .error .valueError

/-- `d[key]` in a dictionary made from these pairs: the last one counts. -/
def get (l : List (Str × Json)) (key : Str) : Option Json := (l.reverse.find? fun p => p.1 = key).map Prod.snd

/-- A list of texts.  (Python would accept a list of anything, and fail later.) -/
def texts : List Json → Py (List Str)
  | [] => .ok []
  | .text s :: l => do
    let r ← texts l
    return s :: r
  | _ => .error .typeError

/-- `convertDictToFilenamesTable` (tools/_common.py 23–32).  A table with a list of folders that is not empty makes
`list.append` be called with two arguments, after the first of these folders was converted: a `TypeError`.  A `first_id`
that is not an integer and `files` that are not a list of texts are refused here (Python would only fail when the table is
saved), as are `folders` that are not a list of pairs (Python raises `ValueError` for some of those, and takes an empty
text or object for an empty list).  The first argument bounds the depth (`RecursionError`). -/
def convertDictToFilenamesTable : Nat → Json → Py Folder
  | 0, _ => .error .recursionError
  | limit + 1, .obj d => do
    let firstID ← match get d (lit "first_id") with
      | some (.num n) => .ok n
      | some _ => .error .typeError
      | none => .error .keyError
    let files ← match get d (lit "files") with
      | some (.arr l) => texts l
      | some _ => .error .typeError
      | none => .ok []
    match get d (lit "folders") with
    | none => return .mk .nil files firstID
    | some (.arr []) => return .mk .nil files firstID
    | some (.arr (.arr [_, folderDict] :: _)) => do
      let _ ← convertDictToFilenamesTable limit folderDict
      .error .typeError
    | some (.arr (.arr _ :: _)) => .error .valueError
    | some _ => .error .typeError
  | _ + 1, _ => .error .typeError

/-- `jsonToFnt` (tools/_common.py 42–47). -/
def jsonToFnt (limit : Nat) (jsonData : Str) : Py Folder := do
  let j ← loads jsonData
  convertDictToFilenamesTable limit j

end Verif.Model.Json
