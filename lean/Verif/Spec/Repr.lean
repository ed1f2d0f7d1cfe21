import Verif.Model.Fnt
import Verif.Model.Bmg
import Verif.Model.SoundSequence

/-!
# Which objects are printed as expressions

Conditions on the attributes of objects, for the statements about `repr()`.
-/

namespace Verif.Spec.Repr

open Verif
open Verif.Model.Fnt (Folder Folders)
open Verif.Model.SoundSequence (Ev)

mutual

/-- All names are strings. -/
def folderOk : Folder → Prop
  | .mk fs files _ => foldersOk fs ∧ ∀ n ∈ files, ∀ c ∈ n, c < 0x110000

def foldersOk : Folders → Prop
  | .nil => True
  | .cons n f rest => (∀ c ∈ n, c < 0x110000) ∧ folderOk f ∧ foldersOk rest

end

/-- A text is a string. -/
def partOk : Model.Bmg.Part → Prop
  | .text s => ∀ c ∈ s, c < 0x110000
  | .escape _ _ => True

/-- A message whose parts are all texts. -/
def allTexts (m : Model.Bmg.Message) : Prop := ∀ p ∈ m.parts, ∃ s, p = .text s

/-- A text with the number of a member of an `enum` in place of its text, which is of the form `<…: 1>`.  (The first
argument says whether the text before the number is being left out.) -/
def enumNumbers : Bool → Str → Str
  | _, [] => []
  | true, c :: s => if c = 32 then enumNumbers false s else enumNumbers true s
  | false, c :: s => if c = 60 then enumNumbers true s else if c = 62 then enumNumbers false s else c :: enumNumbers false s

/-- The events that hold neither another event nor a member of an `enum`. -/
def plainEvent : Ev → Bool
  | .beginTrack _ _ | .jump _ | .call _ | .monoPoly _ | .vibratoType _ => false
  | _ => true

end Verif.Spec.Repr
