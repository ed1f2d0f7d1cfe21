import Verif.Base.Bytes

/-!
# Specification vocabulary for ROM images

Nothing here refers to the model of `rom.py`.
-/

namespace Verif.Spec.Rom

open Verif

/-- Bytes followed by as many bytes 0xFF as are missing to a multiple of 0x200. -/
def block (b : Bytes) : Bytes := b ++ List.replicate ((0x200 - b.length % 0x200) % 0x200) 0xFF

/-- Blocks one after another, the last one without the bytes 0xFF behind it. -/
def blocks : List Bytes → Bytes
  | [] => []
  | [b] => b
  | b :: c :: bs => block b ++ blocks (c :: bs)

/-- Zeros up to a multiple of `n`. -/
def zeroFill (n len : Nat) : Bytes := List.replicate ((n - len % n) % n) 0

/-- The file IDs in an overlay table: the 32-bit number at 0x18 of each record of 32 bytes. -/
def OverlayIds (table : Bytes) (ids : List Nat) : Prop :=
  ids.length = (table.length + 31) / 32 ∧
  ∀ i id, ids[i]? = some id → id < 2 ^ 32 ∧ At table (32 * i + 0x18) (leBytes 4 id)

/-- What is left of a list of file numbers when those that were seen before, here or earlier in the list, and those that
are too large are left out. -/
def remaining (n : Nat) : (seen : List Int) → List Int → List Int
  | _, [] => []
  | seen, k :: ks => if k ∈ seen ∨ (n : Int) ≤ k then remaining n seen ks else k :: remaining n (k :: seen) ks

/-- The file with a number as in Python: negative numbers count from the end. -/
def FileNo (files : List Bytes) (k : Int) (f : Bytes) : Prop :=
  (0 ≤ k ∧ files[k.toNat]? = some f) ∨ (k < 0 ∧ 0 ≤ (files.length : Int) + k ∧ files[(files.length + k).toNat]? = some f)

/-- The length of the file with a number, 0 if there is none. -/
def fileLen (files : List Bytes) (k : Int) : Nat :=
  if 0 ≤ k then (files[k.toNat]?.getD []).length
  else if 0 ≤ (files.length : Int) + k then (files[(files.length + k).toNat]?.getD []).length else 0

/-- The 32-bit little-endian word at an offset. -/
def u32 (b : Bytes) (o : Nat) : Nat := leVal (slice b o (o + 4))

/-- The file allocation table: start and end of every file. -/
def fatBytes (entries : List (Nat × Nat)) : Bytes := (entries.map fun e => leBytes 4 e.1 ++ leBytes 4 e.2).flatten

theorem fileLen_eq {files : List Bytes} {k : Int} {f : Bytes} (h : FileNo files k f) : fileLen files k = f.length := by
  unfold fileLen
  rcases h with ⟨h0, h1⟩ | ⟨h0, h1, h2⟩
  · rw [if_pos h0, h1]; rfl
  · rw [if_neg (by omega), if_pos h1, h2]; rfl

end Verif.Spec.Rom
