import Verif.Spec.Reader
import Verif.Model.Code

/-!
# Overlay tables, byte by byte

Of the model, only the data structure of an overlay and the decompression of code are used.
-/

namespace Verif.Spec.FormatCode

open Verif Verif.Spec.Reader Verif.Model Verif.Model.Code

/-- The fields of an entry that say which overlay and which file it is about. -/
def overlayID (d : Bytes) (i : Nat) : Nat := u32 d (32 * i)
def overlayFile (d : Bytes) (i : Nat) : Nat := u32 d (32 * i + 24)

/-- The overlay of an entry of 32 bytes. -/
def overlayAt (d : Bytes) (i : Nat) (contents : Bytes) : Overlay where
  data := contents
  ramAddress := u32 d (32 * i + 4)
  ramSize := u32 d (32 * i + 8)
  bssSize := u32 d (32 * i + 12)
  staticInitStart := u32 d (32 * i + 16)
  staticInitEnd := u32 d (32 * i + 20)
  fileID := u32 d (32 * i + 24)
  compressedSize := u24 d (32 * i + 28)
  flags := u8 d (32 * i + 31)

/-- The contents of the overlay of an entry: the file that the callback finds for the overlay ID and the file ID, decompressed
if bit 0 of the flags is set. -/
def Opens (callback : Nat → Nat → Py Bytes) (d : Bytes) (i : Nat) (contents : Bytes) : Prop :=
  ∃ file, callback (overlayID d i) (overlayFile d i) = .ok file ∧
    if bit (u8 d (32 * i + 31)) 0 then CodeCompression.decompress file = .ok contents else contents = file

/-- The entry is one of those to be loaded. -/
def selected (ids : Option (Nat → Bool)) (d : Bytes) (i : Nat) : Bool :=
  match ids with
  | none => true
  | some f => f (overlayID d i)

end Verif.Spec.FormatCode
