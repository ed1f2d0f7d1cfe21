import Verif.Model.Fnt
import Verif.Spec.PyExpr

/-!
# Reading a printed list of files

Each line has an ID, spaces and a name; the names of folders have a slash behind them.  The number of spaces tells the
folder the line belongs to: the last one above it with four spaces less.
-/

namespace Verif.Spec.Listing

open Verif Verif.Spec.PyExpr
open Verif.Model.Fnt (Folder Folders)

/-- The lines of a text. -/
def splitLines : Str → List Str
  | [] => [[]]
  | c :: s =>
    if c = 10 then [] :: splitLines s
    else match splitLines s with
      | l :: ls => (c :: l) :: ls
      | [] => [[c]]

/-- A listed file or folder: its path, and the file's ID or the first ID of the folder. -/
structure Listed where
  path : List Str
  id : Int
  isFolder : Bool
  deriving DecidableEq, Repr

/-- An integer. -/
def readID (s : Str) : Option (Int × Str) :=
  let negative := decide (s.head? = some 45)
  let t := if negative then s.tail else s
  let ds := t.takeWhile isDigit
  if ds = [] then none
  else some (if negative then -(decValue 0 ds : Int) else (decValue 0 ds : Int), t.dropWhile isDigit)

/-- One line; `above` is the path of the folder it may belong to, or of one within. -/
def readLine (above : List Str) (s : Str) : Option Listed :=
  (readID s).bind fun r =>
    let spaces := (r.2.takeWhile (· = 32)).length
    let name := r.2.dropWhile (· = 32)
    let isFolder := decide (name.getLast? = some 47)
    if spaces % 4 = 1 ∧ spaces / 4 ≤ above.length then
      some ⟨above.take (spaces / 4) ++ [if isFolder then name.dropLast else name], r.1, isFolder⟩
    else none

def readLines (above : List Str) : List Str → Option (List Listed)
  | [] => some []
  | l :: ls => (readLine above l).bind fun e => (readLines (if e.isFolder then e.path else e.path.dropLast) ls).map (e :: ·)

/-- The whole list. -/
def read (s : Str) : Option (List Listed) := if s = [] then some [] else readLines [] (splitLines s)

mutual

/-- The files and folders within a folder, in order. -/
def listed (above : List Str) : Folder → List Listed
  | .mk folders files firstID =>
    (files.zipIdx.map fun p => ⟨above ++ [p.1], firstID + (p.2 : Int), false⟩) ++ listedIn above folders

def listedIn (above : List Str) : Folders → List Listed
  | .nil => []
  | .cons name f rest => ⟨above ++ [name], f.firstID, true⟩ :: (listed (above ++ [name]) f ++ listedIn above rest)

end

/-- A name that can be told from what is around it. -/
def NameShown (n : Str) : Prop := 10 ∉ n ∧ n.head? ≠ some 32

mutual

/-- All names in a tree can; the names of files do not end with a slash. -/
def Shown : Folder → Prop
  | .mk folders files _ => (∀ n ∈ files, NameShown n ∧ n.getLast? ≠ some 47) ∧ ShownIn folders

def ShownIn : Folders → Prop
  | .nil => True
  | .cons name f rest => NameShown name ∧ Shown f ∧ ShownIn rest

end

/-- The file an entry is about.  A negative ID counts from the end. -/
def fileOf (files : List Bytes) (e : Listed) : Option Bytes :=
  if e.isFolder then none
  else if 0 ≤ e.id then files[e.id.toNat]?
  else if 0 ≤ e.id + files.length then files[(e.id + files.length).toNat]?
  else none

/-- The text of an archive: a line with `<narc` and maybe the note about the endianness, lines with four spaces in
front, and a line with `>`. -/
def readNARC (s : Str) : Option (Bool × List Str) :=
  match splitLines s with
  | [] => none
  | first :: rest =>
    let big := decide (first = "<narc endiannessOfBeginning='>'".toList.map Char.toNat)
    if (big = true ∨ first = "<narc".toList.map Char.toNat) ∧ rest.getLast? = some [62] ∧
        ∀ l ∈ rest.dropLast, l.take 4 = [32, 32, 32, 32] then
      some (big, if rest.dropLast = [[32, 32, 32, 32]] then [] else rest.dropLast.map (List.drop 4))
    else none

end Verif.Spec.Listing
