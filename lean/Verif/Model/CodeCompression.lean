import Verif.Model.LzCommon

/-!
# Model of `ndspy/codeCompression.py`
-/

namespace Verif.Model.CodeCompression

open Verif

/-- `struct.unpack_from('<II', data, off)` with an offset that may be negative
(`codeCompression.py:44`, `codeCompression.py:88`).  CPython refuses an offset whose field would cross the
end of the buffer, and a negative offset before its start. -/
def unpackFooter (data : Bytes) (off : Int) : Py (Nat × Nat) :=
  if 0 ≤ off then do
    let a ← unpackU .little 4 data off.toNat
    let b ← unpackU .little 4 data (off.toNat + 4)
    return (a, b)
  else if off + 8 > 0 then .error .structError
  else if off + data.length < 0 then .error .structError
  else do
    let a ← unpackU .little 4 data (off + data.length).toNat
    let b ← unpackU .little 4 data ((off + data.length).toNat + 4)
    return (a, b)

/-- The loop of `_detectAppendedData` (`codeCompression.py:38-56`) over the given candidates.  The inner
loop over the header padding (lines 50-52) only `continue`s itself and has no effect. -/
def detectLoop (data : Bytes) : List Nat → Py (Option Nat)
  | [] => .ok none
  | amt :: amts =>
    match pyIdxI data (-5 - (amt : Int)) with
    | .error _ => .ok none
    | .ok _ => do
      let w ← unpackFooter data ((data.length : Int) - amt - 8)
      let headerLen := w.1 / 2 ^ 24
      let compressedLen := w.1 % 2 ^ 24
      if headerLen < 8 then detectLoop data amts
      else if compressedLen > data.length then detectLoop data amts
      else .ok (some amt)

/-- `_detectAppendedData` (`codeCompression.py:32-56`). -/
def detectAppendedData (data : Bytes) : Py (Option Nat) :=
  detectLoop data [0, 4, 8, 12, 16, 20, 24, 28]

/-- The variables of the main decompression loop (`codeCompression.py:146-150`).  `out` is `decompData`
read backwards, so that `decompData[-1 - i]` is element `i`. -/
structure DSt where
  out : Bytes
  cur : Nat
  readBytes : Nat
  flags : Nat
  mask : Nat

/-- `for i in range(length)` (`codeCompression.py:196-201`). -/
def copyLoop : Nat → Nat → DSt → Py DSt
  | 0, _, st => .ok st
  | n + 1, bufIdx, st => do
    let v ← pyIdx st.out bufIdx
    let out ← pySet st.out st.cur v
    copyLoop n (bufIdx + 1) { st with out := out, cur := st.cur + 1 }

/-- The mask update at the start of an iteration (`codeCompression.py:155-164`).  `rev` is `compData` read
backwards, so that `compData[-1 - i]` is element `i`. -/
def nextMask (rev : Bytes) (compressedLen : Nat) (st : DSt) : Py DSt :=
  if st.mask = 1 then do
    raiseIf (st.readBytes ≥ compressedLen) .runtimeError
    let f ← pyIdx rev st.readBytes
    return { st with flags := f.toNat, readBytes := st.readBytes + 1, mask := 0x80 }
  else
    .ok { st with mask := st.mask / 2 }

/-- The rest of an iteration (`codeCompression.py:167-211`). -/
def doItem (rev : Bytes) (dataLen : Nat) (st : DSt) : Py DSt :=
  if st.flags / st.mask % 2 = 1 then do
    raiseIf (st.readBytes + 1 ≥ dataLen) .runtimeError
    let byte1 ← pyIdx rev st.readBytes
    let byte2 ← pyIdx rev (st.readBytes + 1)
    let st := { st with readBytes := st.readBytes + 2 }
    let length := byte1.toNat / 16 + 3
    let disp := byte1.toNat % 16 * 256 + byte2.toNat + 3
    if disp > st.cur then do
      raiseIf (st.cur < 2) .runtimeError
      copyLoop length (st.cur - 2) st
    else
      copyLoop length (st.cur - disp) st
  else do
    raiseIf (st.readBytes > dataLen) .runtimeError
    let v ← pyIdx rev st.readBytes
    let out ← pySet st.out st.cur v
    return { st with out := out, readBytes := st.readBytes + 1, cur := st.cur + 1 }

/-- `while currentOutSize < decompLen` (`codeCompression.py:151-211`).  Every iteration writes at least one
byte, so `fuel` is `decompLen`; running out of fuel is a visible error. -/
def decLoop (rev : Bytes) (compressedLen dataLen : Nat) : Nat → DSt → Py DSt
  | 0, st => if st.cur < st.out.length then .error .outOfFuel else .ok st
  | fuel + 1, st =>
    if st.cur < st.out.length then do
      let st ← nextMask rev compressedLen st
      let st ← doItem rev dataLen st
      decLoop rev compressedLen dataLen fuel st
    else .ok st

/-- The part of `decompress` after the appended data was split off (`codeCompression.py:84-213`).
`len(data) - 8` is not negative here because the detection has read a footer at that place. -/
def decompressCore (data appended : Bytes) : Py Bytes :=
  if data.drop (data.length - 4) = [0, 0, 0, 0] then .ok data
  else do
    let w ← unpackFooter data ((data.length : Int) - 8)
    let headerLen := w.1 / 2 ^ 24
    let compressedLen := w.1 % 2 ^ 24
    let extraSize := w.2
    raiseIf (data.length < headerLen) .valueError
    raiseIf (compressedLen > data.length) .valueError
    raiseIf ((slice data (data.length - headerLen) (data.length - 8)).any (fun b => b != 0xFF)) .valueError
    let passthroughLen := data.length - compressedLen
    let compData := slice data passthroughLen (data.length - headerLen)
    let decompLen := data.length + extraSize - passthroughLen
    let st ← decLoop compData.reverse compressedLen data.length decompLen
      { out := zeros decompLen, cur := 0, readBytes := 0, flags := 0, mask := 1 }
    return data.take passthroughLen ++ st.out.reverse ++ appended

/-- `decompress` (`codeCompression.py:59-213`).  Note that in the `extraSize = 0` case the appended data is
dropped, as in the code (line 85). -/
def decompress (data : Bytes) : Py Bytes := do
  match ← detectAppendedData data with
  | none => return data
  | some amt =>
    decompressCore (data.take (data.length - amt)) (data.drop (data.length - amt))

/-- The parameters used by `_compress` (`codeCompression.py:256`). -/
def cfg : LzCommon.Cfg :=
  { posSubtract := 3, maxMatchDiff := 0x1002, maxMatchLen := 18, zerosAtEnd := false, searchReverse := true }

/-- `x & ~4`, i.e. `x` with bit 2 cleared (`codeCompression.py:259`). -/
def clearBit2 (x : Nat) : Nat := x - 4 * (x / 4 % 2)

/-- `_compress` (`codeCompression.py:253-294`). -/
def compressInner (data : Bytes) : Py Bytes := do
  let r ← LzCommon.compress cfg data.reverse
  let compressed := r.1.reverse
  let ignorableD := r.2.1
  let ignorableC := r.2.2
  if compressed = [] ∨ data.length + 4 < clearBit2 (compressed.length + 3) + 8 then
    return padTo data 4 0 ++ [0, 0, 0, 0]
  else
    let actualCompLen := compressed.length - ignorableC
    let comp2 := data.take ignorableD ++ compressed.drop ignorableC
    let extraLen : Int := (data.length : Int) - comp2.length
    let comp3 := padTo comp2 4 0xFF
    let headerLen := 8 + padLen comp2.length 4
    let ptr := comp3.length
    let comp4 := comp3 ++ zeros 8
    let comp5 ← packInto comp4 ptr (← packU .little 4 (actualCompLen + headerLen))
    let comp6 ← pySet comp5 (ptr + 3) (UInt8.ofNat headerLen)
    packInto comp6 (ptr + 4) (← packUInt .little 4 (extraLen - headerLen))

/-- `compress` (`codeCompression.py:233-250`). -/
def compress (data : Bytes) (isArm9 : Bool) : Py Bytes := do
  let prefix' := if isArm9 then data.take 0x4000 else []
  let rest := if isArm9 then data.drop 0x4000 else data
  let c ← compressInner rest
  return prefix' ++ c

end Verif.Model.CodeCompression
