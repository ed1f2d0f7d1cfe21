import Verif.Spec.Bmg
import Verif.Spec.Programs

/-!
# Changing messages (C158)

The programs of docs/source/api/bmg.rst, written with the calls of the library that they make, and what they are to do.
-/

namespace Verif.Spec.Messages

open Verif Verif.Model Verif.Model.Files Verif.Model.Bmg
open Verif.Spec.Programs (andThen)

/-! ## The programs -/

/-- `bmg.messages[i].stringParts = parts` (docs/source/api/bmg.rst 82).  A list in which one `Message` object is twice is
outside the model. -/
def setParts (b : BMG) (i : Int) (parts : List Part) : Py BMG := do
  let m ← pyIdxI b.messages i
  let ms ← pySetI b.messages i { m with parts := parts }
  return { b with messages := ms }

/-- Several of them, one after another. -/
def setAll (b : BMG) : List (Int × List Part) → Py BMG
  | [] => .ok b
  | (i, parts) :: rest => do
    let b ← setParts b i parts
    setAll b rest

/-- Changing messages of a BMG file and putting it into a ROM (docs/source/api/bmg.rst 69–90):

    bmg = BMG.fromFile(file)
    bmg.messages[i].stringParts = parts
    rom = NintendoDSRom.fromFile(source)
    rom.setFileByName(name, bmg.save())
    rom.saveToFile(target)

with any number of changes. -/
def putIntoRom (sjis : Text.Codec) (fuel limit : Nat) (file : Path) (edits : List (Int × List Part)) (source : Path) (name : Str)
    (target : Path) (fs : FS) : Py Unit × FS :=
  andThen (do
    let b ← bmgFromFile sjis fuel file 0 fs
    let b ← setAll b edits
    let r ← romFromFile limit source fs
    let d ← b.save sjis
    Rom.setFileByName r name d)
    (fun r => romSaveToFile r target false) fs

/-- The same with the BMG that is in the ROM (docs/source/api/bmg.rst 44–49 and 82–90). -/
def changeInRom (sjis : Text.Codec) (fuel limit : Nat) (edits : List (Int × List Part)) (source : Path) (name : Str)
    (target : Path) (fs : FS) : Py Unit × FS :=
  andThen (do
    let r ← romFromFile limit source fs
    let f ← Rom.getFileByName r name
    let b ← BMG.load sjis fuel f 0
    let b ← setAll b edits
    let d ← b.save sjis
    Rom.setFileByName r name d)
    (fun r => romSaveToFile r target false) fs

/-! ## What they are to do -/

/-- The last change of the message at that place. -/
def Last (count : Nat) (edits : List (Int × List Part)) (k : Nat) (parts : List Part) : Prop :=
  ∃ before i after, edits = before ++ (i, parts) :: after ∧ pyPos count i = some k ∧ ∀ e ∈ after, pyPos count e.1 ≠ some k

/-- None of the changes is for that message. -/
def Untouched (count : Nat) (edits : List (Int × List Part)) (k : Nat) : Prop := ∀ e ∈ edits, pyPos count e.1 ≠ some k

/-- The messages after the changes: what is not changed is as it was; what is changed has its info value still, and reads as
the last new text for it, unless it is a null message, which has no text and keeps none. -/
structure Changed (b q : BMG) (edits : List (Int × List Part)) : Prop where
  other : q = { b with messages := q.messages }
  length : q.messages.length = b.messages.length
  same : ∀ k, Untouched b.messages.length edits k → q.messages[k]? = b.messages[k]?
  new : ∀ (k : Nat) (parts : List Part) (m : Message), Last b.messages.length edits k parts → b.messages[k]? = some m →
    ∃ m', q.messages[k]? = some m' ∧ m'.info = m.info ∧ m'.isNull = m.isNull ∧
      (m.isNull = false → Bmg.tokens m'.parts = Bmg.tokens parts) ∧ (m.isNull = true → m'.parts = [])

/-- What has to be so for a BMG to come back from its file at all (C40, C41): the byte order can be told, and script indices
of big-endian files are zero. -/
structure Readable (b : BMG) (data : Bytes) : Prop where
  order : Bmg.Tellable b.endianness (Bmg.statedLength data.length)
  scripts : b.endianness = .big → ∀ s ∈ b.scripts, s.2 = 0

end Verif.Spec.Messages
