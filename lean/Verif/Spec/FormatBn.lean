import Verif.Spec.Reader
import Verif.Model.Bn

/-!
# BNBL and BNCL files, byte by byte

Only the data structures of the model are used.
-/

namespace Verif.Spec.FormatBn

open Verif Verif.Spec.Reader Verif.Model.Bn

/-- The alignments that bits 12 and 13 of a coordinate stand for: 0 left (top), 1 centre, 2 right (bottom). -/
def horizontal (word : Nat) : Nat := if bits word 12 2 = 1 then 0x04 else if bits word 12 2 = 2 then 0x02 else 0x01
def vertical (word : Nat) : Nat := if bits word 12 2 = 1 then 0x40 else if bits word 12 2 = 2 then 0x20 else 0x10

/-- The six bytes of a touch area. -/
def areaAt (d : Bytes) (o : Nat) : TouchArea :=
  ⟨bits (u16 d o) 0 12, bits (u16 d (o + 2)) 0 12, u8 d (o + 4), u8 d (o + 5), horizontal (u16 d o) + vertical (u16 d (o + 2))⟩

/-- The eight bytes of an image position. -/
def positionAt (d : Bytes) (o : Nat) : ImagePosition :=
  ⟨bits (u16 d o) 0 12, bits (u16 d (o + 2)) 0 12, horizontal (u16 d o) + vertical (u16 d (o + 2)), u32 d (o + 4)⟩

/-- A file: `JNBL`, an unknown word, the number of touch areas, the touch areas. -/
def IsBnbl (d : Bytes) : Prop := bytesAt d 0 4 = [0x4A, 0x4E, 0x42, 0x4C] ∧ 8 ≤ d.length ∧ 8 + 6 * u16 d 6 ≤ d.length
def bnbl (d : Bytes) : BNBL := ⟨u16 d 4, (List.range (u16 d 6)).map fun i => areaAt d (8 + 6 * i)⟩

/-- A file: `JNCL`, an unknown word, the number of image positions, the image positions. -/
def IsBncl (d : Bytes) : Prop := bytesAt d 0 4 = [0x4A, 0x4E, 0x43, 0x4C] ∧ 8 ≤ d.length ∧ 8 + 8 * u16 d 6 ≤ d.length
def bncl (d : Bytes) : BNCL := ⟨u16 d 4, (List.range (u16 d 6)).map fun i => positionAt d (8 + 8 * i)⟩

end Verif.Spec.FormatBn
