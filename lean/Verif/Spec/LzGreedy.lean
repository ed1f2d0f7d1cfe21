import Verif.Spec.LZ

/-!
# Which stream a compressor writes

The compressors go through the data once and write the longest back reference they can wherever there is one.
-/

namespace Verif.Spec.LzGreedy

open Verif Verif.Spec.LZ

/-- An item of a stream: a byte, or `len` bytes that are those `dist` places earlier. -/
inductive Item
  | literal (b : UInt8)
  | ref (len dist : Nat)
  deriving DecidableEq, Repr

/-- How many bytes of the data an item stands for. -/
def Item.len : Item → Nat
  | literal _ => 1
  | ref n _ => n

/-- How an item is written; distances are stored less `extra`. -/
def Item.bytes (extra : Nat) : Item → Bytes
  | literal b => [b]
  | ref n d => [UInt8.ofNat ((n - 3) * 16 + (d - extra) / 256), UInt8.ofNat ((d - extra) % 256)]

/-- The flags of the first `k` items, the first one in bit `k - 1`. -/
def flags : Nat → List Item → Nat
  | 0, _ => 0
  | _, [] => 0
  | k + 1, .literal _ :: is => flags k is
  | k + 1, .ref _ _ :: is => 2 ^ k + flags k is

/-- A stream of items, when there is place for `k` more in the current block: each block of eight has its flags in
front.  What is missing in the last block is filled with null bytes if `pad`. -/
def encode (extra : Nat) (pad : Bool) : Nat → List Item → Bytes
  | k, [] => if pad then zeros k else []
  | 0, i :: is => UInt8.ofNat (flags 8 (i :: is)) :: (i.bytes extra ++ encode extra pad 7 is)
  | k + 1, i :: is => i.bytes extra ++ encode extra pad k is

/-- There is a back reference of `len` bytes at `pos` to the position `p`: 3 to 18 bytes, all of them before `pos`, and
not more than `window` bytes back. -/
def CanRef (window : Nat) (data : Bytes) (pos len p : Nat) : Prop :=
  3 ≤ len ∧ len ≤ 18 ∧ pos + len ≤ data.length ∧ IsMatch data (pos - window) pos len p

/-- The items for the data from `pos` on: at each place the longest back reference, of these the one farthest back (or
the nearest one, if `nearest`), and a literal if there is none. -/
inductive Greedy (window : Nat) (nearest : Bool) (data : Bytes) : Nat → List Item → Prop
  | done : Greedy window nearest data data.length []
  | literal {pos : Nat} {b : UInt8} {is : List Item} : data[pos]? = some b →
      (∀ len p, ¬ CanRef window data pos len p) → Greedy window nearest data (pos + 1) is →
      Greedy window nearest data pos (.literal b :: is)
  | ref {pos len p : Nat} {is : List Item} : CanRef window data pos len p →
      (∀ len' p', CanRef window data pos len' p' → len' ≤ len) →
      (∀ p', CanRef window data pos len p' → if nearest then p' ≤ p else p ≤ p') →
      Greedy window nearest data (pos + len) is →
      Greedy window nearest data pos (.ref len (pos - p) :: is)

/-- How many bytes of data the items stand for. -/
def covered (is : List Item) : Nat := (is.map Item.len).sum

/-- How many bytes the items take up, including the flags of begun blocks. -/
def written (is : List Item) : Nat := (is.length + 7) / 8 + (is.map fun i => (i.bytes 0).length).sum

/-- What writing the items saves. -/
def savings (is : List Item) : Int := (covered is : Int) - written is

/-- How many of the items are kept: all, unless some shorter beginning saves more; then the shortest such. -/
structure Kept (is : List Item) (m : Nat) : Prop where
  le : m ≤ is.length
  more : m < is.length → savings is < savings (is.take m)
  first : ∀ j < m, savings (is.take j) ≤ savings is

/-- The `n` bytes `data` are stored as they are if their stream has this many bytes: the limit has bit 2 cleared, where
rounding up to a multiple of four may have been meant. -/
def TooLong (n stream : Nat) : Prop :=
  n + 4 < (stream + 3) - (if (stream + 3) / 4 % 2 = 1 then 4 else 0) + 8

instance (n stream : Nat) : Decidable (TooLong n stream) := by unfold TooLong; infer_instance

/-- How many bytes there are before the next multiple of four. -/
def fill (n : Nat) : Nat := (4 - n % 4) % 4

/-- Data of `n` bytes compressed from its end: what stays uncompressed, the stream back to front, 0xFF bytes up to a
multiple of four, and the footer: the length of the stream and all that follows it (24 bits), the length of the
padding and the footer, and by how much the whole is shorter than the data. -/
def codeFile (n : Nat) (front stream : Bytes) : Bytes :=
  let pad := fill (front.length + stream.length)
  front ++ stream.reverse ++ List.replicate pad 0xFF ++ leBytes 3 (stream.length + pad + 8) ++
    [UInt8.ofNat (pad + 8)] ++ leBytes 4 (n - (front.length + stream.length + pad + 8))

end Verif.Spec.LzGreedy
