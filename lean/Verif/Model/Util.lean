import Verif.Base.Str

/-!
# Model of small helpers in `ndspy/__init__.py` and `ndspy/_common.py`

Not modelled here: `noteName` (see `NoteName.lean`), `isIterable`, `shortColorsListRepr` (see `ReprClasses.lean`), `getAlignmentName` and
`enumeratedListOfStrs` (see `BnText.lean`) and the image helpers.
-/

namespace Verif.Model.Util

open Verif

/-! ## Named lists -/

/-- `indexInNamedList` (__init__.py 71–79). -/
def indexInNamedList {κ α : Type _} [DecidableEq κ] (L : List (κ × α)) (name : κ) : Py Nat :=
  go L 0
where
  /-- The `for i, (nameN, entry) in enumerate(L)` loop. -/
  go : List (κ × α) → Nat → Py Nat
  | [], _ => .error .keyError
  | (nameN, _) :: rest, i => if nameN = name then .ok i else go rest (i + 1)

/-- `findInNamedList` (__init__.py 82–87). -/
def findInNamedList {κ α : Type _} [DecidableEq κ] (L : List (κ × α)) (name : κ) : Py α := do
  let i ← indexInNamedList L name
  let e ← pyIdx L i
  return e.2

/-- `setInNamedList` (__init__.py 90–97): returns the changed list. -/
def setInNamedList {κ α : Type _} [DecidableEq κ] (L : List (κ × α)) (name : κ) (value : α) :
    Py (List (κ × α)) := do
  let i ← indexInNamedList L name
  pySet L i (name, value)

/-! ## CRC-16 -/

/-- One of the eight inner steps (_common.py 44–47). -/
def crcBit (crc : Nat) : Nat := if crc &&& 1 ≠ 0 then (crc >>> 1) ^^^ 0xA001 else crc >>> 1

/-- `for _ in range(8)` (_common.py 43–47). -/
def crcBits : Nat → Nat → Nat
  | 0, crc => crc
  | n + 1, crc => crcBits n (crcBit crc)

/-- The outer loop (_common.py 41–47), from any starting value. -/
def crcFrom (crc : Nat) : Bytes → Nat
  | [] => crc
  | b :: bs => crcFrom (crcBits 8 (crc ^^^ b.toNat)) bs

/-- `crc16` (_common.py 39–48). -/
def crc16 (data : Bytes) : Nat := crcFrom 0xFFFF data &&& 0xFFFF

/-! ## `shortBytesRepr` -/

/-- A hexadecimal digit as a character code. -/
def hexDigit (n : Nat) : Nat := if n < 10 then 48 + n else 87 + n

/-- `repr(b.to_bytes(1, 'big'))[2:-1]` for one byte, as CPython prints it: the three named escapes, the
backslash, `\xhh` for other unprintable bytes, and the character itself otherwise.  (The quote character 0x27
makes `repr` switch to double quotes, so that it is not escaped.) -/
def reprByte (b : Nat) : Str :=
  if b = 9 then [92, 116]
  else if b = 10 then [92, 110]
  else if b = 13 then [92, 114]
  else if b = 92 then [92, 92]
  else if b < 32 ∨ 127 ≤ b then [92, 120, hexDigit (b / 16), hexDigit (b % 16)]
  else [b]

/-- `i == len(data) - 1 or not (0x30 <= data[i+1] < 0x3A)` (_common.py 111), from the rest of the data. -/
def noDigitNext : Bytes → Bool
  | [] => true
  | b :: _ => ! (0x30 ≤ b.toNat && b.toNat < 0x3A)

/-- The loop of `shortBytesRepr` (_common.py 108–114) over `data[:maxLen]`; `n` is the number of bytes left to
print, the list is the rest of the whole data. -/
def shortLoop : Nat → Bytes → Str
  | 0, _ => []
  | _, [] => []
  | n + 1, b :: rest =>
    (if b.toNat < 8 ∧ noDigitNext rest then
      [92, 48 + b.toNat] else reprByte b.toNat) ++ shortLoop n rest

/-- `shortBytesRepr` (_common.py 97–121).  The default limit is 32. -/
def shortBytesRepr (data : Bytes) (maxLen : Nat := 0x20) : Str :=
  let final := [98, 39] ++ shortLoop maxLen data ++ [39]
  if maxLen < data.length then final ++ [46, 46, 46] else final

/-! ## Alignment -/

/-- `Alignment.LEFT` etc. (__init__.py 60–67). -/
def LEFT : Nat := 0x01
def RIGHT : Nat := 0x02
def H_CENTER : Nat := 0x04
def TOP : Nat := 0x10
def BOTTOM : Nat := 0x20
def V_CENTER : Nat := 0x40

/-- `unpackAlignmentFromPos` (_common.py 228–251). -/
def unpackAlignment (xPack yPack : Nat) : Nat × Nat × Nat :=
  let h := match (xPack >>> 12) &&& 3 with
    | 0 => LEFT
    | 1 => H_CENTER
    | 2 => RIGHT
    | _ => LEFT
  let v := match (yPack >>> 12) &&& 3 with
    | 0 => TOP
    | 1 => V_CENTER
    | 2 => BOTTOM
    | _ => TOP
  (xPack &&& 0xFFF, yPack &&& 0xFFF, h ||| v)

/-- `packAlignmentIntoPos` (_common.py 254–272).  `x & 0xFFF` of a Python int, also of a negative one, is the
remainder modulo 4096. -/
def packAlignment (x y : Int) (alignment : Nat) : Nat × Nat :=
  let xPack := (x % 4096).toNat
  let yPack := (y % 4096).toNat
  let xPack := if alignment &&& H_CENTER ≠ 0 then xPack ||| 0x1000
    else if alignment &&& RIGHT ≠ 0 then xPack ||| 0x2000 else xPack
  let yPack := if alignment &&& V_CENTER ≠ 0 then yPack ||| 0x1000
    else if alignment &&& BOTTOM ≠ 0 then yPack ||| 0x2000 else yPack
  (xPack, yPack)

/-- `getTopLeftOfAlignedRect` (_common.py 275–293). -/
def topLeft (x y width height : Int) (alignment : Nat) : Int × Int :=
  let x := if alignment &&& H_CENTER ≠ 0 then x - (width + 1) / 2
    else if alignment &&& RIGHT ≠ 0 then x - width else x
  let y := if alignment &&& V_CENTER ≠ 0 then y - (height + 1) / 2
    else if alignment &&& BOTTOM ≠ 0 then y - height else y
  (x, y)

end Verif.Model.Util
