import Verif.Spec.FormatFnt
import Verif.Model.Narc

/-!
# NARC archives and standard headers, byte by byte

Only the data structures of folders and archives are used from the model.
-/

namespace Verif.Spec.FormatNarc

open Verif Verif.Spec.Reader Verif.Spec.FormatFnt

/-- The header that most formats begin with, in a saved file: the format's name, the byte order mark, the version, the size of
the whole file, the size of this header and the number of blocks. -/
def HeaderIs (d : Bytes) (name : Bytes) (bom version blocks : Nat) : Prop :=
  bytesAt d 0 4 = name ∧ u16 d 4 = bom ∧ u16 d 6 = version ∧ u32 d 8 = d.length ∧ u16 d 12 = 16 ∧ u16 d 14 = blocks

/-- The places of the second and third block. -/
def fntb (d : Bytes) : Nat := 0x10 + u32 d 0x14
def fimg (d : Bytes) : Nat := fntb d + u32 d (fntb d + 4)

/-- The conditions for loading. -/
def Valid (d : Bytes) : Prop :=
  28 ≤ d.length ∧ bytesAt d 0 4 = [0x4E, 0x41, 0x52, 0x43] ∧
  (u16 d 4 = 0xFFFE ∧ u16 d 6 = 0x100 ∨ u16 d 4 ≠ 0xFFFE ∧ u16 d 6 = 1) ∧
  bytesAt d 0x10 4 = [0x42, 0x54, 0x41, 0x46] ∧
  fntb d + 8 ≤ d.length ∧ bytesAt d (fntb d) 4 = [0x42, 0x54, 0x4E, 0x46] ∧
  fimg d + 8 ≤ d.length ∧ bytesAt d (fimg d) 4 = [0x47, 0x4D, 0x49, 0x46] ∧
  0x1C + 8 * u32 d 0x18 ≤ d.length

/-- The contents of a file: the allocation table has the beginning and the end, counted from the contents of the third block. -/
def fileAt (d : Bytes) (i : Nat) : Bytes :=
  span d (fimg d + 8 + u32 d (0x1C + 8 * i)) (fimg d + 8 + u32 d (0x1C + 8 * i + 4))

end Verif.Spec.FormatNarc
