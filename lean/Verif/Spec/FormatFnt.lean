import Verif.Spec.Reader
import Verif.Spec.Fnt

/-!
# Filename tables, byte by byte

Only the data structure of folders is used from the model.
-/

namespace Verif.Spec.FormatFnt

open Verif Verif.Spec.Reader Verif.Model.Fnt Verif.Spec.Fnt

/-- A name: Latin-1 characters. -/
def text (d : Bytes) (o n : Nat) : Str := (bytesAt d o n).map UInt8.toNat

/-! ## Reading -/

mutual
/-- What a folder ID stands for: the record of eight bytes with this number says where the entries are and which ID the first
file has. -/
inductive FolderAt (d : Bytes) : Nat → Folder → Prop where
  | mk (id : Nat) (folders : Folders) (files : List Str) : 8 * (id % 4096) + 6 ≤ d.length →
      EntriesAt d (u32 d (8 * (id % 4096))) folders files →
      FolderAt d id (.mk folders files (u16 d (8 * (id % 4096) + 4)))
/-- The entries from a place on: a byte with the length of the name, 128 more for folders, then the name; for folders the ID
follows.  A zero ends the list. -/
inductive EntriesAt (d : Bytes) : Nat → Folders → List Str → Prop where
  | stop (o : Nat) : o < d.length → u8 d o = 0 → EntriesAt d o .nil []
  | file (o : Nat) (folders : Folders) (files : List Str) : 0 < u8 d o → u8 d o < 128 →
      EntriesAt d (o + 1 + u8 d o) folders files → EntriesAt d o folders (text d (o + 1) (u8 d o) :: files)
  | folder (o n : Nat) (sub : Folder) (folders : Folders) (files : List Str) : u8 d o = 128 + n →
      FolderAt d (u16 d (o + 1 + n)) sub → EntriesAt d (o + 1 + n + 2) folders files →
      EntriesAt d o (.cons (text d (o + 1) n) sub folders) files
end

/-! ## Writing -/

/-- The names of files from one place to another one. -/
def FilesIn (d : Bytes) : List Str → Nat → Nat → Prop
  | [], o, stop => o = stop
  | n :: rest, o, stop => u8 d o = n.length ∧ text d (o + 1) n.length = n ∧ FilesIn d rest (o + 1 + n.length) stop

mutual
/-- The table holds a folder under an ID, with the ID of its parent, and all folders below it under the following IDs. -/
def Holds (d : Bytes) : Folder → (id parent : Nat) → Prop
  | .mk folders files firstID, id, parent =>
    0xF000 ≤ id ∧ 8 * (id - 0xF000) + 8 ≤ d.length ∧ (u16 d (8 * (id - 0xF000) + 4) : Int) = firstID ∧
      u16 d (8 * (id - 0xF000) + 6) = parent ∧
      ∃ o, FilesIn d files (u32 d (8 * (id - 0xF000))) o ∧ HoldsIn d folders (id + 1) id o
/-- The entries of folders from a place on, and the mark behind them. -/
def HoldsIn (d : Bytes) : Folders → (id parent o : Nat) → Prop
  | .nil, _, _, o => o < d.length ∧ u8 d o = 0
  | .cons n f rest, id, parent, o => u8 d o = 128 + n.length ∧ text d (o + 1) n.length = n ∧
    u16 d (o + 1 + n.length) = id ∧ Holds d f id parent ∧ HoldsIn d rest (id + folderCount f) parent (o + 1 + n.length + 2)
end

end Verif.Spec.FormatFnt
