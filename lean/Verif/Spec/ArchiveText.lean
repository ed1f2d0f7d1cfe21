import Verif.Spec.EventText

/-!
# Reading printed sequence archives

A reader for the text that `print` shows for an `SSAR`: which sequences have no events, and for every event its number and the
names of the sequences that begin with it.  Labels that are too long are printed over several lines.
-/

namespace Verif.Spec.ArchiveText

open Verif Verif.Spec.Listing Verif.Spec.EventText
open Verif.Model.SoundSequence (Ev)

/-- What comes before a suffix. -/
def before (p w : Str) : Option Str := (after p.reverse w.reverse).map List.reverse

/-- A text without the spaces at its end. -/
def trim (w : Str) : Str := (w.reverse.dropWhile (· = 32)).reverse

/-- Names that are separated by a comma and a space. -/
def readNames (w : Str) : Option (List Str) :=
  match splitOn 44 w with
  | n :: rest => (all? (after [32]) rest).map (n :: ·)
  | [] => none

/-- The names in a label, which ends with a colon; no label means no names. -/
def readLabel (w : Str) : Option (List Str) :=
  if trim w = [] then some [] else (before [58] (trim w)).bind readNames

/-- The lines of an archive.  The first argument is what was read of the label of the next event. -/
def readRows : Str → List Str → Option (List Str × List (Nat × List Str × Ev))
  | label, [] => if label = [] then some ([], []) else none
  | label, line :: rest =>
    (after (chars "    ") line).bind fun l =>
      if 91 ∈ l then
        (readLabel (label ++ l.takeWhile (· ≠ 91))).bind fun names => (readLine l).bind fun r =>
          (readRows [] rest).map fun x => (x.1, (r.1, names, r.2) :: x.2)
      else match before (chars ": (none)") l with
        | some n => (readRows [] rest).map fun x => (n :: x.1, x.2)
        | none => readRows (label ++ l) rest

/-- A parsed sequence archive: the names of the sequences without events; the events, each with its number and the names of
the sequences that begin with it. -/
def readSSAR (s : Str) : Option (List Str × List (Nat × List Str × Ev)) :=
  match splitLines s with
  | first :: rest =>
    if first = chars "<ssar" ∧ rest.getLast? = some [62] then
      if rest.dropLast = [[]] then some ([], []) else readRows [] rest.dropLast
    else none
  | [] => none

/-- A sequence archive that is not parsed: the names of its sequences. -/
def readUnparsed (s : Str) : Option (List Str) :=
  (after (chars "<ssar unparsed [") s).bind fun t => (before (chars "]>") t).bind fun t =>
    if t = [] then some [] else readNames t

/-- A name that can be told apart in the text: without line feed, comma, colon and opening bracket. -/
def Plain (name : Str) : Prop := 10 ∉ name ∧ 44 ∉ name ∧ 58 ∉ name ∧ 91 ∉ name

/-- The sequences without events. -/
def silent (seqs : List (Str × Option Nat)) : List Str := (seqs.filter fun s => s.2.isNone).map Prod.fst

/-- The names of the sequences whose first event is at a place. -/
def namesAt (events : List Nat) (seqs : List (Str × Option Nat)) (i : Nat) : List Str :=
  (seqs.filter fun s => s.2.map (events.idxOf ·) = some i).map Prod.fst

/-- The events with their places and the names of the sequences that begin there, destinations being places too. -/
def rows (obj : Nat → Ev) (events : List Nat) (seqs : List (Str × Option Nat)) : List (Nat × List Str × Ev) :=
  (numbered obj events).map fun p => (p.1, namesAt events seqs p.1, p.2)

end Verif.Spec.ArchiveText
