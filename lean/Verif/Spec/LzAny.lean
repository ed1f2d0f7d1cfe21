import Verif.Spec.LZ
import Verif.Spec.Reader

/-!
# What any stream means

A decoder for LZ streams that gives a meaning to every byte string, including references that no compressor would write.  It
reads the stream byte by byte and knows nothing of positions, masks or output buffers.
-/

namespace Verif.Spec.LZ

open Verif Verif.Spec.Reader

/-- Read a stream until `n` bytes are there: `k` items are left of the block with flags `fl`.  `ref len dist out` is what a
reference adds. -/
def decode (n extra : Nat) (ref : Nat → Nat → Bytes → Option Bytes) : Nat → Nat → Bytes → Bytes → Option Bytes
  | _, _, [], out => if n ≤ out.length then some out else none
  | 0, _, b :: R, out => if n ≤ out.length then some out else decode n extra ref 8 b.toNat R out
  | k + 1, fl, b :: R, out =>
    if n ≤ out.length then some out
    else if fl / 2 ^ k % 2 = 0 then decode n extra ref k fl R (out ++ [b])
    else match R with
      | [] => none
      | b' :: R =>
        match ref (b.toNat / 16 + 3) (b.toNat % 16 * 256 + b'.toNat + extra) out with
        | some out => decode n extra ref k fl R out
        | none => none

/-- A reference in LZ10: copying stops at the length declared.  Places before the start of the output are those at the end of
the output, which is full of zeros at first. -/
def wrapBack (n : Nat) : Nat → Nat → Bytes → Option Bytes
  | 0, _, out => some out
  | m + 1, dist, out =>
    if n ≤ out.length then some out
    else if dist ≤ out.length then wrapBack n m dist (out ++ [(out[out.length - dist]?).getD 0])
    else if dist ≤ n + out.length then wrapBack n m dist (out ++ [(out[n + out.length - dist]?).getD 0])
    else none

/-- A reference in code compression: what is copied has to fit.  A distance to before the start of the output means two. -/
def twoBack (n : Nat) (m dist : Nat) (out : Bytes) : Option Bytes :=
  if n < out.length + m then none
  else if dist ≤ out.length then copyBack m dist out
  else if 2 ≤ out.length then copyBack m 2 out
  else none

/-- What an LZ10 file means. -/
def Lz10Means (data out : Bytes) : Prop :=
  4 ≤ data.length ∧ u8 data 0 = 0x10 ∧
  decode (u24 data 1) 1 (wrapBack (u24 data 1)) 0 0 (data.drop 4) [] = some out

/-- The eight bytes that end `4 * k` bytes before the end look like a footer: a header length of at least eight in the fourth
one and, in the first three, a compressed length that is not more than there is. -/
def FooterAt (data : Bytes) (k : Nat) : Prop :=
  4 * k + 8 ≤ data.length ∧ 8 ≤ u8 data (data.length - 4 * k - 5) ∧
  u24 data (data.length - 4 * k - 8) ≤ data.length

/-- What a file means whose last eight bytes are a footer: nothing was compressed if the last four are zero.  Otherwise the
compressed part ends at the header, is read backwards, and gives as many bytes as the compressed length and the extra size
together; what is in front of it stays. -/
def CodeMeans (d app out : Bytes) : Prop :=
  let len := d.length
  let headerLen := u8 d (len - 5)
  let compLen := u24 d (len - 8)
  let extra := u32 d (len - 4)
  if extra = 0 then out = d
  else headerLen ≤ len ∧ compLen ≤ len ∧ (∀ i, len - headerLen ≤ i → i < len - 8 → u8 d i = 0xFF) ∧
    ∃ o, decode (compLen + extra) 3 (twoBack (compLen + extra)) 0 0 (span d (len - compLen) (len - headerLen)).reverse [] = some o ∧
      out = d.take (len - compLen) ++ o.reverse ++ app

end Verif.Spec.LZ
