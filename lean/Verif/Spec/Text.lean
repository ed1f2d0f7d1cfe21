import Verif.Model.Text

/-!
# What is asked of a text codec

`Lawful c P`: text encodes piece by piece; text of characters in `P` decodes from its encoding; and an encoding of
text without `'\0'` and `'\x1A'`, cut into units as long as the encoded `'\0'`, has no unit equal to one of those
two.  `Strict c`: bytes that decode are the encoding of what they decode to.
-/

namespace Verif.Spec.Text

open Verif Verif.Model.Text

/-- `b` is cut into units of `w` bytes. -/
def Units (w : Nat) (us : List Bytes) (b : Bytes) : Prop := b = us.flatten ∧ ∀ u ∈ us, u.length = w

structure Lawful (c : Codec) (P : Nat → Prop) : Prop where
  pos : 0 < c.null.length
  sub_len : c.sub.length = c.null.length
  ne : c.sub ≠ c.null
  nil : c.enc [] = .ok []
  append : ∀ s t a b, c.enc s = .ok a → c.enc t = .ok b → c.enc (s ++ t) = .ok (a ++ b)
  roundtrip : ∀ s b, (∀ x ∈ s, P x) → c.enc s = .ok b → c.dec b = .ok s
  units : ∀ s b, 0 ∉ s → 0x1A ∉ s → c.enc s = .ok b →
    ∃ us, Units c.null.length us b ∧ ∀ u ∈ us, u ≠ c.null ∧ u ≠ c.sub

structure Strict (c : Codec) : Prop where
  encode : ∀ b s, c.dec b = .ok s → c.enc s = .ok b
  units : ∀ s b, c.enc s = .ok b → ∃ us, Units c.null.length us b ∧ (0 ∈ s → c.null ∈ us) ∧ (0x1A ∈ s → c.sub ∈ us)

end Verif.Spec.Text
