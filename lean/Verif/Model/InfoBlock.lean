import Verif.Base.Str
import Verif.Base.Struct

/-!
# Model of the info blocks of `ndspy/_common.py` (136–225)

Info blocks hold named records of equal length and are used by NSBTX and NSBMD files.  The unknown numbers are natural
numbers.  `expectedEntryLengths` is always given by the callers modelled here, but `None` is modelled too.
-/

namespace Verif.Model.InfoBlock

open Verif

/-- An entry: name, two unknown numbers, record.  The name may be `None` when saving. -/
structure Entry where
  name : Option Str
  unk00 : Nat
  unk02 : Nat
  data : Bytes
  deriving DecidableEq, Repr

/-- `b.rstrip(b'\0')`. -/
def rstripZero (b : Bytes) : Bytes := (b.reverse.dropWhile (· = 0)).reverse

/-- The body of the loop (_common.py 173–184) for entry `i`: the offsets grow by 4, the record length and 16. -/
def loadEntry (data : Bytes) (unkBlockOff entryOff eachEntryLen nameOff i : Nat) : Py Entry := do
  let u ← unpackUs .little [2, 2] data (unkBlockOff + 4 * i)
  match u with
  | [unk00, unk02] =>
    return ⟨some (latin1Decode (rstripZero (slice data (nameOff + 16 * i) (nameOff + 16 * i + 16)))), unk00, unk02,
      slice data (entryOff + eachEntryLen * i) (entryOff + eachEntryLen * i + eachEntryLen)⟩
  | _ => .error .structError

/-- `loadInfoBlock(data, off, expectedEntryLengths)` (_common.py 136–186). -/
def loadInfoBlock (data : Bytes) (off : Nat) (expected : Option Nat) : Py (List Entry) := do
  let a ← unpackUs .little [1, 1, 2] data off
  let b ← unpackUs .little [2, 2, 4] data (off + 4)
  match a, b with
  | [_, count, _], [unkHeaderLen, unkLen, unkUnk04] => do
    pyAssert (unkHeaderLen = 8)
    pyAssert (unkLen = 12 + 4 * count)
    pyAssert (unkUnk04 = 0x17F)
    let c ← unpackUs .little [2, 2] data (off + 12 + 4 * count)
    match c with
    | [eachEntryLen, entriesLen] => do
      pyAssert (∀ n, expected = some n → eachEntryLen = n)
      pyAssert (entriesLen = 4 + count * eachEntryLen)
      mapE (loadEntry data (off + 12) (off + 12 + 4 * count + 4) eachEntryLen
        (off + 12 + 4 * count + 4 + eachEntryLen * count)) (List.range count)
    | _ => .error .structError
  | _, _ => .error .structError

/-- The name of an entry as written (_common.py 215–219). -/
def nameBytes (name : Option Str) : Py Bytes :=
  match name with
  | none => .ok (zeros 16)
  | some s => do
    let b ← latin1Encode s
    return b ++ zeros (16 - b.length)

/-- `saveInfoBlock(entries, entryLengths)` (_common.py 189–225). -/
def saveInfoBlock (entries : List Entry) (entryLengths : Nat) : Py Bytes := do
  let h1 ← packUs .little [(1, 0), (1, entries.length), (2, 0)]
  let h2 ← packUs .little [(2, 8), (2, 12 + 4 * entries.length), (4, 0x17F)]
  let unks ← mapE (fun e : Entry => packUs .little [(2, e.unk00), (2, e.unk02)]) entries
  let h3 ← packUs .little [(2, entryLengths), (2, 4 + entries.length * entryLengths)]
  let datas ← mapE (fun e : Entry => do
    raiseIf (e.data.length ≠ entryLengths) .valueError
    return e.data) entries
  let names ← mapE (fun e : Entry => nameBytes e.name) entries
  let data := h1 ++ h2 ++ unks.flatten ++ h3 ++ datas.flatten ++ names.flatten
  let size ← packU .little 2 data.length
  packInto data 2 size

end Verif.Model.InfoBlock
