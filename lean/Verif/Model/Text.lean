import Verif.Base.Struct
import Verif.Base.Str

/-!
# Text codecs

Python's `str.encode` / `bytes.decode` (strict error handling) for the encodings used by `ndspy/bmg.py`.  These are
parts of the Python library, not of ndspy; the definitions follow the Unicode standard and the CP-1252 table.  Text
is a list of code points.  Shift-JIS (a table of some seven thousand characters) is not written out: the models that
use it take its codec as a parameter.
-/

namespace Verif.Model.Text

open Verif

/-- An encoding: the bytes of `'\0'` and of `'\x1A'`, `str.encode` and `bytes.decode`. -/
structure Codec where
  null : Bytes
  sub : Bytes
  enc : Str → Py Bytes
  dec : Bytes → Py Str

/-- Encode a text character by character. -/
def encodeWith (f : Nat → Py Bytes) (s : Str) : Py Bytes := do
  let r ← mapE f s
  return r.flatten

/-- Put a decoded character before the rest. -/
def consOk (c : Nat) (r : Py Str) : Py Str := do
  let s ← r
  return c :: s

/-- One character in UTF-16: one unit, or a surrogate pair. -/
def utf16Char (e : Endian) (c : Nat) : Py Bytes :=
  if c < 0xD800 ∨ (0xE000 ≤ c ∧ c < 0x10000) then .ok (enBytes e 2 c)
  else if 0x10000 ≤ c ∧ c < 0x110000 then
    .ok (enBytes e 2 (0xD800 + (c - 0x10000) / 0x400) ++ enBytes e 2 (0xDC00 + (c - 0x10000) % 0x400))
  else .error .unicodeError

/-- `bytes.decode('utf-16le')` / `'utf-16be'`. -/
def utf16Dec (e : Endian) : Bytes → Py Str
  | [] => .ok []
  | [_] => .error .unicodeError
  | a :: b :: t =>
    if enVal e [a, b] < 0xD800 ∨ 0xE000 ≤ enVal e [a, b] then consOk (enVal e [a, b]) (utf16Dec e t)
    else if 0xDC00 ≤ enVal e [a, b] then .error .unicodeError
    else
      match t with
      | a' :: b' :: t' =>
        if 0xDC00 ≤ enVal e [a', b'] ∧ enVal e [a', b'] < 0xE000 then
          consOk (0x10000 + (enVal e [a, b] - 0xD800) * 0x400 + (enVal e [a', b'] - 0xDC00)) (utf16Dec e t')
        else .error .unicodeError
      | _ => .error .unicodeError

/-- UTF-16 without a byte order mark. -/
def utf16 (e : Endian) : Codec :=
  ⟨enBytes e 2 0, enBytes e 2 0x1A, encodeWith (utf16Char e), utf16Dec e⟩

/-- One character in UTF-8. -/
def utf8Char (c : Nat) : Py Bytes :=
  if c < 0x80 then .ok [UInt8.ofNat c]
  else if c < 0x800 then .ok [UInt8.ofNat (0xC0 + c / 0x40), UInt8.ofNat (0x80 + c % 0x40)]
  else if c < 0xD800 ∨ (0xE000 ≤ c ∧ c < 0x10000) then
    .ok [UInt8.ofNat (0xE0 + c / 0x1000), UInt8.ofNat (0x80 + c / 0x40 % 0x40), UInt8.ofNat (0x80 + c % 0x40)]
  else if 0x10000 ≤ c ∧ c < 0x110000 then
    .ok [UInt8.ofNat (0xF0 + c / 0x40000), UInt8.ofNat (0x80 + c / 0x1000 % 0x40),
      UInt8.ofNat (0x80 + c / 0x40 % 0x40), UInt8.ofNat (0x80 + c % 0x40)]
  else .error .unicodeError

/-- A continuation byte of UTF-8. -/
def isCont (b : UInt8) : Bool := 0x80 ≤ b.toNat && b.toNat < 0xC0

/-- `bytes.decode('utf-8')`: no overlong forms, no surrogates, nothing above `0x10FFFF`. -/
def utf8Dec : Bytes → Py Str
  | [] => .ok []
  | a :: t =>
    if a.toNat < 0x80 then consOk a.toNat (utf8Dec t)
    else
      match t with
      | [] => .error .unicodeError
      | b :: t =>
        if a.toNat < 0xE0 then
          if 0xC2 ≤ a.toNat ∧ isCont b = true then
            consOk ((a.toNat - 0xC0) * 0x40 + (b.toNat - 0x80)) (utf8Dec t)
          else .error .unicodeError
        else
          match t with
          | [] => .error .unicodeError
          | c :: t =>
            if a.toNat < 0xF0 then
              if isCont b = true ∧ isCont c = true ∧
                  0x800 ≤ (a.toNat - 0xE0) * 0x1000 + (b.toNat - 0x80) * 0x40 + (c.toNat - 0x80) ∧
                  ((a.toNat - 0xE0) * 0x1000 + (b.toNat - 0x80) * 0x40 + (c.toNat - 0x80) < 0xD800 ∨
                    0xE000 ≤ (a.toNat - 0xE0) * 0x1000 + (b.toNat - 0x80) * 0x40 + (c.toNat - 0x80)) then
                consOk ((a.toNat - 0xE0) * 0x1000 + (b.toNat - 0x80) * 0x40 + (c.toNat - 0x80)) (utf8Dec t)
              else .error .unicodeError
            else
              match t with
              | [] => .error .unicodeError
              | d :: t =>
                if isCont b = true ∧ isCont c = true ∧ isCont d = true ∧
                    0x10000 ≤ (a.toNat - 0xF0) * 0x40000 + (b.toNat - 0x80) * 0x1000 + (c.toNat - 0x80) * 0x40
                      + (d.toNat - 0x80) ∧
                    (a.toNat - 0xF0) * 0x40000 + (b.toNat - 0x80) * 0x1000 + (c.toNat - 0x80) * 0x40
                      + (d.toNat - 0x80) < 0x110000 then
                  consOk ((a.toNat - 0xF0) * 0x40000 + (b.toNat - 0x80) * 0x1000 + (c.toNat - 0x80) * 0x40
                    + (d.toNat - 0x80)) (utf8Dec t)
                else .error .unicodeError

/-- UTF-8. -/
def utf8 : Codec := ⟨[0], [0x1A], encodeWith utf8Char, utf8Dec⟩

/-- The characters of the bytes `0x80`–`0x9F` in CP-1252; five bytes are not assigned. -/
def cp1252Table : List (Option Nat) :=
  [some 0x20AC, none, some 0x201A, some 0x0192, some 0x201E, some 0x2026, some 0x2020, some 0x2021,
   some 0x02C6, some 0x2030, some 0x0160, some 0x2039, some 0x0152, none, some 0x017D, none,
   none, some 0x2018, some 0x2019, some 0x201C, some 0x201D, some 0x2022, some 0x2013, some 0x2014,
   some 0x02DC, some 0x2122, some 0x0161, some 0x203A, some 0x0153, none, some 0x017E, some 0x0178]

/-- The character of a byte in CP-1252. -/
def cp1252Of (b : UInt8) : Option Nat :=
  if b.toNat < 0x80 ∨ 0xA0 ≤ b.toNat then some b.toNat else cp1252Table.getD (b.toNat - 0x80) none

/-- One character in CP-1252. -/
def cp1252Char (c : Nat) : Py Bytes :=
  if c < 0x80 ∨ (0xA0 ≤ c ∧ c < 0x100) then .ok [UInt8.ofNat c]
  else if cp1252Table.idxOf (some c) < 0x20 then .ok [UInt8.ofNat (0x80 + cp1252Table.idxOf (some c))]
  else .error .unicodeError

/-- `bytes.decode('cp1252')`. -/
def cp1252Dec (b : Bytes) : Py Str :=
  mapE (fun x => match cp1252Of x with | some c => .ok c | none => .error .unicodeError) b

/-- CP-1252. -/
def cp1252 : Codec := ⟨[0], [0x1A], encodeWith cp1252Char, cp1252Dec⟩

end Verif.Model.Text
