import Verif.Base.Bytes
import Verif.Base.Str

/-!
# Model files and display lists

Only bytes; nothing of the model of `model.py` is used.
-/

namespace Verif.Spec.Nsbmd

open Verif

def u8 (d : Bytes) (o : Nat) : Nat := leVal (slice d o (o + 1))
def u16 (d : Bytes) (o : Nat) : Nat := leVal (slice d o (o + 2))
def u32 (d : Bytes) (o : Nat) : Nat := leVal (slice d o (o + 4))

/-! ## Display lists -/

/-- The commands of the geometry engine. -/
def Known (id : Nat) : Prop :=
  id = 0 ∨ (0x10 ≤ id ∧ id ≤ 0x1C) ∨ (0x20 ≤ id ∧ id ≤ 0x2B) ∨ (0x30 ≤ id ∧ id ≤ 0x34) ∨ id = 0x40 ∨ id = 0x41 ∨ id = 0x50 ∨
    id = 0x60 ∨ (0x70 ≤ id ∧ id ≤ 0x72)

instance (id : Nat) : Decidable (Known id) := by unfold Known; infer_instance

/-- How many words of parameters a command of the hardware has. -/
def paramWords (id : Nat) : Nat :=
  if id = 0x16 ∨ id = 0x18 then 16 -- 4×4 matrices
  else if id = 0x17 ∨ id = 0x19 then 12 -- 4×3 matrices
  else if id = 0x1A then 9 -- 3×3 matrix
  else if id = 0x1B ∨ id = 0x1C ∨ id = 0x70 then 3 -- scale, translation, box test
  else if id = 0x23 ∨ id = 0x71 then 2 -- vertex with 16 bits for each coordinate, position test
  else if id = 0x34 then 32 -- shininess
  else if id = 0 ∨ id = 0x11 ∨ id = 0x15 ∨ id = 0x41 then 0 -- nothing, push, identity, end of vertices
  else if Known id then 1
  else 0

/-- A command with its parameters. -/
structure Cmd where
  id : UInt8
  params : List Bytes
  deriving DecidableEq, Repr

/-- Number and sizes of the parameters are right. -/
def Cmd.Valid (c : Cmd) : Prop := c.params.length = paramWords c.id.toNat ∧ ∀ w ∈ c.params, w.length = 4

/-- What kind of command it is; `none` if it is unknown. -/
def Cmd.kind (c : Cmd) : Option Nat := if Known c.id.toNat then some c.id.toNat else none

/-- A group: the numbers of the commands, then all parameters. -/
def groupBytes (g : List Cmd) : Bytes := g.map Cmd.id ++ (g.map fun c => c.params.flatten).flatten

/-! ## Files -/

/-- Where the blocks are. -/
def blockPlaces (d : Bytes) : List Nat := (List.range (u16 d 0xE)).map fun i => u32 d (0x10 + 4 * i)

/-- The last block with a magic. -/
def lastBlock (d magic : Bytes) : Option Bytes :=
  ((blockPlaces d).filter fun o => decide (slice d o (o + 4) = magic)).getLast?.map fun o => slice d o (o + u32 d (o + 4))

/-- The name in 16 bytes: without the zeros at the end. -/
def nameIn (b : Bytes) : Str := ((b.reverse.dropWhile (· = 0)).reverse).map UInt8.toNat

/-- The names of the models in a model block. -/
def modelNames (b : Bytes) : List Str :=
  (List.range (u8 b 9)).map fun i => nameIn (slice b (0x18 + 8 * u8 b 9 + 16 * i) (0x18 + 8 * u8 b 9 + 16 * i + 16))

end Verif.Spec.Nsbmd
