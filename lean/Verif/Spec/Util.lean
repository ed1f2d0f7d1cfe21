import Verif.Base.Str

/-!
# Specifications for the small helpers

## Python bytes literals

A reader for single-quoted bytes literals, after the language reference (2.4.1, "String and Bytes literals"):
one character at a time, with the escapes `\newline \\ \' \" \a \b \f \n \r \t \v \ooo \xhh`; unknown escapes
keep the backslash.  Only ASCII characters may occur.
-/

namespace Verif.Spec.Util

open Verif

/-- Where the reader is: in plain text, after a backslash, within a hexadecimal or octal escape, or after the
closing quote. -/
inductive St where
  | text
  | esc
  | hex1
  | hex2 (v : Nat)
  | oct1 (v : Nat)
  | oct2 (v : Nat)
  | done
  deriving DecidableEq

/-- The value of a hexadecimal digit. -/
def hexVal (c : Nat) : Option Nat :=
  if 48 ≤ c ∧ c ≤ 57 then some (c - 48)
  else if 97 ≤ c ∧ c ≤ 102 then some (c - 87)
  else if 65 ≤ c ∧ c ≤ 70 then some (c - 55)
  else none

/-- The value of an octal digit. -/
def octVal (c : Nat) : Option Nat := if 48 ≤ c ∧ c ≤ 55 then some (c - 48) else none

/-- A character of plain text. -/
def stepText (c : Nat) : Option (Bytes × St) :=
  if c = 39 then some ([], .done)
  else if c = 92 then some ([], .esc)
  else if c < 128 ∧ c ≠ 10 ∧ c ≠ 13 then some ([UInt8.ofNat c], .text)
  else none

/-- A character after a backslash. -/
def stepEsc (c : Nat) : Option (Bytes × St) :=
  match octVal c with
  | some v => some ([], .oct1 v)
  | none =>
    if c = 120 then some ([], .hex1)
    else if c = 10 then some ([], .text)
    else if c = 92 ∨ c = 39 ∨ c = 34 then some ([UInt8.ofNat c], .text)
    else if c = 97 then some ([7], .text)
    else if c = 98 then some ([8], .text)
    else if c = 102 then some ([12], .text)
    else if c = 110 then some ([10], .text)
    else if c = 114 then some ([13], .text)
    else if c = 116 then some ([9], .text)
    else if c = 118 then some ([11], .text)
    else if c < 128 then some ([92, UInt8.ofNat c], .text)
    else none

/-- One character: the bytes it completes and the new state. -/
def step (s : St) (c : Nat) : Option (Bytes × St) :=
  match s with
  | .text => stepText c
  | .esc => stepEsc c
  | .hex1 => (hexVal c).map fun v => ([], .hex2 v)
  | .hex2 v => (hexVal c).map fun w => ([UInt8.ofNat (16 * v + w)], .text)
  | .oct1 v =>
    match octVal c with
    | some w => some ([], .oct2 (8 * v + w))
    | none => (stepText c).map fun r => (UInt8.ofNat v :: r.1, r.2)
  | .oct2 v =>
    match octVal c with
    | some w => some ([UInt8.ofNat (8 * v + w)], .text)
    | none => (stepText c).map fun r => (UInt8.ofNat v :: r.1, r.2)
  | .done => none

/-- All characters. -/
def steps : St → Str → Option (Bytes × St)
  | s, [] => some ([], s)
  | s, c :: cs => do
    let r ← step s c
    let r' ← steps r.2 cs
    return (r.1 ++ r'.1, r'.2)

/-- The value of a single-quoted bytes literal `b'…'`, if the text is one. -/
def literal : Str → Option Bytes
  | 98 :: 39 :: body =>
    match steps .text body with
    | some (bs, .done) => some bs
    | _ => none
  | _ => none

/-! ## Alignments -/

/-- One horizontal choice (left 1, right 2, centre 4) and one vertical choice (top 16, bottom 32, centre 64). -/
def ProperAlignment (a : Nat) : Prop :=
  ∃ h v, (h = 1 ∨ h = 2 ∨ h = 4) ∧ (v = 16 ∨ v = 32 ∨ v = 64) ∧ a = h + v

end Verif.Spec.Util
