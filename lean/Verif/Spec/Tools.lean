import Verif.Model.Tools
import Verif.Spec.Files
import Verif.Spec.Json

/-!
# Specification vocabulary for the programs in `tools/`
-/

namespace Verif.Spec.Tools

open Verif Verif.Model.Files Verif.Model.Tools
open Verif.Model.Fnt (Folder)

/-- The bytes of a text in ASCII. -/
def ascii (s : Str) : Bytes := s.map UInt8.ofNat

/-- A file of that kind holds a table: a raw table, a ROM with these names, or the JSON of a table without folders. -/
def Holds (limit : Nat) : Kind → Bytes → Folder → Prop
  | .bin, d, t => Model.Fnt.load limit d = .ok t
  | .rom, d, t => ∃ q, Model.Rom.load limit d = .ok q ∧ q.filenames = t
  | .json, d, t => d = ascii (Model.Json.fntToJson t) ∧ t.folders = .nil ∧ [] ∉ t.files ∧
      ∀ n ∈ t.files, ∀ c ∈ n, Json.Scalar c
  | .narc, _, _ => False

/-- Two ROMs differ in their names only, as far as saving and loading keeps ROMs at all: the padding behind the header, the
signature, the data behind ARM9 and the order of the files may be different (C79, C82). -/
def OnlyNamesDiffer (q r : Model.Rom.Rom) : Prop :=
  q = { r with
    filenames := q.filenames
    pad200 := q.pad200
    rsaSignature := q.rsaSignature
    arm9PostData := q.arm9PostData
    sortedFileIds := q.sortedFileIds }

end Verif.Spec.Tools
