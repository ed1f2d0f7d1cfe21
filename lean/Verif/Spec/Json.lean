import Verif.Model.Json
import Verif.Spec.Fnt

/-!
# Specification vocabulary for filename tables as JSON

Which JSON document stands for a table: an object with the number of the first file, the list of the names of the files
and the list of pairs of names and folders, where empty lists are left out.
-/

namespace Verif.Spec.Json

open Verif
open Verif.Model.Json (Json)
open Verif.Model.Repr (lit)
open Verif.Model.Fnt (Folder Folders)
open Verif.Spec.Fnt (All names)

/-- An item for a list, unless the list is empty. -/
def unlessEmpty (key : String) (l : List Json) : List (Str × Json) := if l.isEmpty then [] else [(lit key, .arr l)]

mutual
/-- The document for a folder. -/
def document : Folder → Json
  | .mk folders files firstID =>
    .obj ((lit "first_id", .num firstID) :: (unlessEmpty "files" (files.map .text) ++ unlessEmpty "folders" (pairs folders)))
/-- The pairs for subfolders. -/
def pairs : Folders → List Json
  | .nil => []
  | .cons n f rest => .arr [.text n, document f] :: pairs rest
end

/-- A character of a text: a code point that is not half of a surrogate pair. -/
def Scalar (c : Nat) : Prop := c < 0xD800 ∨ (0xE000 ≤ c ∧ c < 0x110000)

/-- All names in the table are made of such characters. -/
def Texts : Folder → Prop :=
  All fun f => (∀ n ∈ f.files, ∀ c ∈ n, Scalar c) ∧ ∀ n ∈ names f.folders, ∀ c ∈ n, Scalar c

/-- What counts for a key of an object in which it may occur more than once: the last value. -/
def Last (d : List (Str × Json)) (key : String) (v : Json) : Prop :=
  ∃ a b, d = a ++ (lit key, v) :: b ∧ ∀ p ∈ b, p.1 ≠ lit key

/-- The key does not occur. -/
def Absent (d : List (Str × Json)) (key : String) : Prop := ∀ p ∈ d, p.1 ≠ lit key

end Verif.Spec.Json
