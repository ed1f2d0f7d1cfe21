import Verif.Spec.FormatFnt

/-!
# The model block of NSBMD files, byte by byte

Nothing is used from the model.
-/

namespace Verif.Spec.FormatNsbmd

open Verif Verif.Spec.Reader Verif.Spec.FormatFnt

/-- A list of names with a word for each begins at `o`: the number of entries. -/
def count (d : Bytes) (o : Nat) : Nat := u8 d (o + 1)

/-- Where the words of a list begin, and where its names begin and end. -/
def wordsOf (d : Bytes) (o : Nat) : Nat := o + 12 + 4 * count d o + 4
def namesOf (d : Bytes) (o : Nat) : Nat := wordsOf d o + 4 * count d o
def stopOf (d : Bytes) (o : Nat) : Nat := namesOf d o + 16 * count d o

/-- The words of a list. -/
def words (d : Bytes) (o : Nat) : List Nat := (List.range (count d o)).map fun i => u32 d (wordsOf d o + 4 * i)

/-- A list is all right: its headers have the right lengths and everything up to the names lies in the block. -/
def ListOk (d : Bytes) (o : Nat) : Prop :=
  u16 d (o + 4) = 8 ∧ u32 d (o + 8) = 0x17F ∧ namesOf d o ≤ d.length

/-- In all lists but the one of the models the length of the header of the words counts, too. -/
def InnerOk (d : Bytes) (o : Nat) : Prop := ListOk d o ∧ u16 d (o + 12 + 4 * count d o) = 4

/-- The parts of a model: materials, then textures, then palettes; and polygons. -/
def materials (d : Bytes) (m : Nat) : Nat := m + u32 d (m + 8) + 4
def textures (d : Bytes) (m : Nat) : Nat := stopOf d (materials d m)
def palettes (d : Bytes) (m : Nat) : Nat := stopOf d (textures d m)
def polygons (d : Bytes) (m : Nat) : Nat := m + u32 d (m + 12)

/-- A model is all right. -/
def ModelOk (d : Bytes) (m : Nat) : Prop :=
  m + 0x40 ≤ d.length ∧ InnerOk d (materials d m) ∧ InnerOk d (textures d m) ∧ InnerOk d (palettes d m) ∧
  InnerOk d (polygons d m) ∧ ∀ w ∈ words d (polygons d m), polygons d m + w + 16 ≤ d.length

/-- A model block is all right. -/
def BlockOk (d : Bytes) : Prop :=
  bytesAt d 0 4 = [0x4D, 0x44, 0x4C, 0x30] ∧ ListOk d 8 ∧ ∀ w ∈ words d 8, ModelOk d w

/-- The text before the null bytes at the end. -/
def stripped (l : Str) : Str := (l.reverse.dropWhile (· = 0)).reverse

/-- The names of the models. -/
def modelNames (d : Bytes) : List Str :=
  (List.range (count d 8)).map fun i => stripped (text d (namesOf d 8 + 16 * i) 16)

end Verif.Spec.FormatNsbmd
