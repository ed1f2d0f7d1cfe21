import Verif.Spec.Nested

/-!
# Replacing several files (C161)

What a program does with the calls of the library to replace any number of files of a ROM or an archive, and what the result
is to be.
-/

namespace Verif.Spec.EditOrder

open Verif Verif.Model
open Verif.Spec.Nested (Denotes)

/-- One replacement. -/
inductive Edit where
  /-- `x.setFileByName(name, data)` -/
  | byName (name : Str) (data : Bytes)
  /-- `x.files[i] = data` -/
  | byId (i : Int) (data : Bytes)
  deriving DecidableEq, Repr

/-- The new file. -/
def Edit.data : Edit → Bytes
  | .byName _ d => d
  | .byId _ d => d

/-- One replacement in a ROM. -/
def editRom (r : Rom.Rom) : Edit → Py Rom.Rom
  | .byName name d => Rom.setFileByName r name d
  | .byId i d => do
    let files ← pySetI r.files i d
    return { r with files := files }

/-- One replacement in a NARC. -/
def editNarc (n : Narc.NARC) : Edit → Py Narc.NARC
  | .byName name d => Narc.setFileByName n name d
  | .byId i d => do
    let files ← pySetI n.files i d
    return { n with files := files }

/-- Several of them, one after another. -/
def editAll {α : Type} (edit : α → Edit → Py α) (x : α) : List Edit → Py α
  | [] => .ok x
  | e :: rest => do
    let x ← edit x e
    editAll edit x rest

/-- The number of the file that is replaced, in a list of so many files. -/
def Hits (names : Fnt.Folder) (count : Nat) : Edit → Nat → Prop
  | .byName name _, k => Denotes names count name k
  | .byId i _, k => pyPos count i = some k

/-- The last replacement of the file with that number. -/
def Last (names : Fnt.Folder) (count : Nat) (es : List Edit) (k : Nat) (d : Bytes) : Prop :=
  ∃ before e after, es = before ++ e :: after ∧ Hits names count e k ∧ e.data = d ∧ ∀ e' ∈ after, ¬ Hits names count e' k

/-- The files after the replacements: of each file the last one, and what is not replaced is as it was. -/
structure Replaced (names : Fnt.Folder) (es : List Edit) (files files' : List Bytes) : Prop where
  length : files'.length = files.length
  same : ∀ k, (∀ e ∈ es, ¬ Hits names files.length e k) → files'[k]? = files[k]?
  new : ∀ k d, Last names files.length es k d → files'[k]? = some d

/-- The replacements are of different files. -/
def Different (names : Fnt.Folder) (count : Nat) (es : List Edit) : Prop :=
  es.Pairwise fun e e' => ∀ k, Hits names count e k → ¬ Hits names count e' k

end Verif.Spec.EditOrder
