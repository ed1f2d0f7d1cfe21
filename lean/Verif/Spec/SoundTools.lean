import Verif.Model.SoundTools

/-!
# What the sound programs in `tools/` are for
-/

namespace Verif.Spec.SoundTools

open Verif Verif.Model.SoundArchiveObject Verif.Model.SoundTools
open Verif.Model.Repr (lit)

/-- Opening an archive and saving it gives `d2`. -/
def Resaved (choose : List Nat → Nat) (d d2 : Bytes) : Prop := ∃ a, Archive.load choose d = .ok a ∧ a.save = .ok d2

/-- The archive is not changed by opening and saving it. -/
def Reproduced (choose : List Nat → Nat) (d : Bytes) : Prop := Resaved choose d d

/-- A folder does not contain two things of one name (and the folder `out` is kept separately). -/
structure Names (k : Disk) : Prop where
  distinct : (k.files.map (·.1) ++ k.folders).Nodup
  out : lit "out" ∉ k.folders

/-- The archive called `n`, up to the extension, contains `d`. -/
def Contains (k : Disk) (n : Str) (d : Bytes) : Prop := (n ++ lit ".sdat", d) ∈ k.files

/-- A line: the name, a space, dots up to column 70, a space and a word. -/
def IsLine (l n word : Str) : Prop := ∃ m, l = n ++ lit ".sdat" ++ lit " " ++ List.replicate m 46 ++ lit " " ++ word ∧
  n.length + 6 + m = max 70 (n.length + 6)

end Verif.Spec.SoundTools
