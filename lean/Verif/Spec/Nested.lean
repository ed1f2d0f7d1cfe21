import Verif.Model.Narc
import Verif.Model.Rom
import Verif.Model.Lz10

/-!
# Files inside files (C138)

What a program does with the calls of the library to get at a file that is in an archive that is, perhaps compressed, in
another archive or in a ROM, and so on; and to replace it.
-/

namespace Verif.Spec.Nested

open Verif Verif.Model

/-- A step from a file to a file in it. -/
inductive Layer where
  /-- The data is a NARC, and the file has this name in it. -/
  | narc (name : Str)
  /-- The data is a ROM, and the file has this name in it. -/
  | rom (name : Str)
  /-- The data is compressed with LZ10. -/
  | lz10
  deriving DecidableEq, Repr

/-- `NARC(data).getFileByName(name)`, `NintendoDSRom(data).getFileByName(name)` and `lz10.decompress(data)`, one after
another. -/
def read (limit : Nat) : List Layer → Bytes → Py Bytes
  | [], d => .ok d
  | .narc name :: rest, d => do
    let n ← Narc.load limit d
    let f ← Narc.getFileByName n name
    read limit rest f
  | .rom name :: rest, d => do
    let r ← Rom.load limit d
    let f ← Rom.getFileByName r name
    read limit rest f
  | .lz10 :: rest, d => do
    let f ← Lz10.decompress d
    read limit rest f

/-- The same, and then back with `setFileByName` and `save()`, and with `lz10.compress`, to put `new` in the place of the
file.  `update` is the argument of `NintendoDSRom.save`. -/
def write (limit : Nat) (update : Bool) : List Layer → Bytes → Bytes → Py Bytes
  | [], _, new => .ok new
  | .narc name :: rest, d, new => do
    let n ← Narc.load limit d
    let f ← Narc.getFileByName n name
    let f ← write limit update rest f new
    let n ← Narc.setFileByName n name f
    Narc.save n
  | .rom name :: rest, d, new => do
    let r ← Rom.load limit d
    let f ← Rom.getFileByName r name
    let f ← write limit update rest f new
    let r ← Rom.setFileByName r name f
    let (d, _) ← Rom.save r update
    return d
  | .lz10 :: rest, d, new => do
    let f ← Lz10.decompress d
    let f ← write limit update rest f new
    Lz10.compress f

/-- The name denotes the file with that number in a list of so many files. -/
def Denotes (names : Fnt.Folder) (count : Nat) (name : Str) (k : Nat) : Prop :=
  ∃ i, Fnt.idOf names name = .ok (some i) ∧ pyPos count i = some k

/-- In the data, the two ways lead to different files: they part in some archive, where the first name denotes a file, and
the second another one or none. -/
inductive Apart (limit : Nat) : List Layer → List Layer → Bytes → Prop
  | narc {d n name name' k rest rest'} : Narc.load limit d = .ok n → Denotes n.filenames n.files.length name k →
      ¬ Denotes n.filenames n.files.length name' k → Apart limit (.narc name :: rest) (.narc name' :: rest') d
  | rom {d r name name' k rest rest'} : Rom.load limit d = .ok r → Denotes r.filenames r.files.length name k →
      ¬ Denotes r.filenames r.files.length name' k → Apart limit (.rom name :: rest) (.rom name' :: rest') d
  | inNarc {d n name name' k f rest rest'} : Narc.load limit d = .ok n → Denotes n.filenames n.files.length name k →
      Denotes n.filenames n.files.length name' k → n.files[k]? = some f → Apart limit rest rest' f →
      Apart limit (.narc name :: rest) (.narc name' :: rest') d
  | inRom {d r name name' k f rest rest'} : Rom.load limit d = .ok r → Denotes r.filenames r.files.length name k →
      Denotes r.filenames r.files.length name' k → r.files[k]? = some f → Apart limit rest rest' f →
      Apart limit (.rom name :: rest) (.rom name' :: rest') d
  | lz10 {d f rest rest'} : Lz10.decompress d = .ok f → Apart limit rest rest' f →
      Apart limit (.lz10 :: rest) (.lz10 :: rest') d

end Verif.Spec.Nested
