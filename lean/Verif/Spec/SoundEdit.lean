import Verif.Spec.SoundArchiveObject

/-!
# Changing the waves, instruments and streams of a sound archive (C164)
-/

namespace Verif.Spec.SoundEdit

open Verif Verif.Model.SoundArchive Verif.Model.SoundArchiveObject Verif.Spec.SoundArchiveObject

/-- The list with the item in slot `i`, if there is one, changed; its name stays. -/
def changeItem {α : Type} (i : Nat) (g : α → α) (l : List (Symbol × Option α)) : List (Symbol × Option α) :=
  l.modify i fun p => (p.1, p.2.map g)

/-- `sdat.waveArchives[i][1].waves = waves`. -/
def withWaves (o : Archive) (i : Nat) (waves : List Model.SoundWave.SWAV) : Archive :=
  { o with waveArchives := changeItem i (fun x => { x with waves := waves }) o.waveArchives }

/-- `sdat.banks[i][1].instruments = instruments`. -/
def withInstruments (o : Archive) (i : Nat) (instruments : List (Option Model.SoundBank.Inst)) : Archive :=
  { o with banks := changeItem i (fun x => { x with obj := { x.obj with instruments := instruments } }) o.banks }

/-- The data and all that is in the file of the stream in slot `i` are set; the attributes for playing stay. -/
def withStream (o : Archive) (i : Nat) (stream : Model.SoundStream.STRM) : Archive :=
  { o with streams := changeItem i (fun x => { x with obj := stream }) o.streams }

/-- All slots but `i` come back: with the same names, empty if they were, and with items related by `R`. -/
structure OthersBack {α β : Type} (R : α → β → Prop) (i : Nat) (l : List (Symbol × Option α))
    (l' : List (Symbol × Option β)) : Prop where
  length : l'.length = l.length
  item : ∀ j n x, j ≠ i → l[j]? = some (n, some x) → ∃ y, l'[j]? = some (n, some y) ∧ R x y
  empty : ∀ j n, j ≠ i → l[j]? = some (n, none) → l'[j]? = some (n, none)

end Verif.Spec.SoundEdit
