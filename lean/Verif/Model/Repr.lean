import Verif.Model.Util

/-!
# How Python prints numbers, strings, bytes and lists

The parts of CPython's `repr` that the `__repr__` methods of ndspy use.
-/

namespace Verif.Model.Repr

open Verif Verif.Model.Util

/-- The code points of a piece of program text. -/
def lit (s : String) : Str := s.toList.map Char.toNat

/-- The digits of `n` to the base `b`, most significant first.  The first argument bounds their number. -/
def digitsF (b : Nat) (digit : Nat → Nat) : Nat → Nat → Str
  | 0, _ => []
  | f + 1, n => if n < b then [digit n] else digitsF b digit f (n / b) ++ [digit (n % b)]

def digits (b : Nat) (digit : Nat → Nat) (n : Nat) : Str := digitsF b digit (n + 1) n

/-- An upper case hexadecimal digit. -/
def hexDigitUpper (n : Nat) : Nat := if n < 10 then 48 + n else 55 + n

/-- `repr(n)` of an integer that is not negative. -/
def reprNat (n : Nat) : Str := digits 10 hexDigit n

/-- `repr(n)` of an integer. -/
def reprInt (n : Int) : Str := if n < 0 then 45 :: reprNat n.natAbs else reprNat n.natAbs

/-- `hex(n)` and `f'{n:#x}'`. -/
def reprHex (n : Nat) : Str := lit "0x" ++ digits 16 hexDigit n

/-- `'0x%X' % n` and `f'0x{n:X}'`. -/
def reprHexUpper (n : Nat) : Str := lit "0x" ++ digits 16 hexDigitUpper n

/-- `'0x%08X' % n` and `f'0x{n:08X}'`. -/
def reprHex8 (n : Nat) : Str :=
  lit "0x" ++ List.replicate (8 - (digits 16 hexDigitUpper n).length) 48 ++ digits 16 hexDigitUpper n

/-- `repr` of `True` and `False`. -/
def reprBool (b : Bool) : Str := if b then lit "True" else lit "False"

/-- `repr(x)` where `x` may be `None`. -/
def reprOption {α : Type} (f : α → Str) : Option α → Str
  | none => lit "None"
  | some x => f x

/-- `sep.join(l)`. -/
def join (sep : Str) : List Str → Str
  | [] => []
  | [s] => s
  | s :: t :: l => s ++ sep ++ join sep (t :: l)

/-- `repr` of a list. -/
def reprList {α : Type} (f : α → Str) (l : List α) : Str := lit "[" ++ join (lit ", ") (l.map f) ++ lit "]"

/-- `repr` of a pair. -/
def reprPair (a b : Str) : Str := lit "(" ++ a ++ lit ", " ++ b ++ lit ")"

/-- `repr` of a set; the elements in the order in which they are printed. -/
def reprSet {α : Type} (f : α → Str) (l : List α) : Str :=
  if l.isEmpty then lit "set()" else lit "{" ++ join (lit ", ") (l.map f) ++ lit "}"

/-- The quote that is used: double quotes only if there are single but no double quotes inside. -/
def quoteFor (s : Str) : Nat := if s.contains 39 ∧ ¬ s.contains 34 then 34 else 39

/-- One byte within `repr` of bytes. -/
def reprByteIn (quote b : Nat) : Str := if b = quote then [92, b] else reprByte b

/-- `repr` of bytes. -/
def reprBytes (b : Bytes) : Str :=
  let s := b.map UInt8.toNat
  let q := quoteFor s
  98 :: q :: (s.flatMap (reprByteIn q) ++ [q])

/-- `n` hexadecimal digits. -/
def hexN : Nat → Nat → Str
  | 0, _ => []
  | k + 1, n => hexN k (n / 16) ++ [hexDigit (n % 16)]

/-- One character within `repr` of a string.  Which characters from 0x80 on are printable depends on the version of
Unicode. -/
def reprCharIn (printable : Nat → Bool) (quote c : Nat) : Str :=
  if c = quote ∨ c = 92 then [92, c]
  else if c = 9 then [92, 116]
  else if c = 10 then [92, 110]
  else if c = 13 then [92, 114]
  else if c < 32 ∨ c = 127 then [92, 120] ++ hexN 2 c
  else if c < 128 then [c]
  else if printable c then [c]
  else if c < 0x100 then [92, 120] ++ hexN 2 c
  else if c < 0x10000 then [92, 117] ++ hexN 4 c
  else [92, 85] ++ hexN 8 c

/-- `repr` of a string. -/
def reprStr (printable : Nat → Bool) (s : Str) : Str :=
  let q := quoteFor s
  q :: (s.flatMap (reprCharIn printable q) ++ [q])

/-- A call with the texts of the arguments. -/
def callText (name : String) (args : List Str) : Str := lit name ++ lit "(" ++ join (lit ", ") args ++ lit ")"

/-- An argument with a keyword. -/
def kw (name : String) (value : Str) : Str := lit name ++ lit "=" ++ value

/-- `repr` of a member of an `enum`. -/
def reprEnum (cls member : String) (value : Nat) : Str :=
  lit "<" ++ lit cls ++ lit "." ++ lit member ++ lit ": " ++ reprNat value ++ lit ">"

end Verif.Model.Repr
