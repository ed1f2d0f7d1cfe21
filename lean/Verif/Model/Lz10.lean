import Verif.Model.LzCommon

/-!
# Model of `ndspy/lz10.py`
-/

namespace Verif.Model.Lz10

open Verif

/-- The variables of `decompress` (`lz10.py:43-46`): `left` is `dataLen`. -/
structure DSt where
  out : Bytes
  inPos : Nat
  outPos : Nat
  left : Nat
  deriving DecidableEq

/-- `for j in range(length)` copying from the window (`lz10.py:60-65`).  `return bytes(out)` as soon as
`dataLen == 0` is expressed by every loop stopping when `left = 0`. -/
def copyLoop : Nat → Int → DSt → Py DSt
  | 0, _, st => .ok st
  | n + 1, win, st =>
    if st.left = 0 then .ok st else do
      let v ← pyIdxI st.out win
      let out ← pySet st.out st.outPos v
      copyLoop n (win + 1) { st with out := out, outPos := st.outPos + 1, left := st.left - 1 }

/-- Copying one literal byte (`lz10.py:68-69` and `lz10.py:77-78`). -/
def literal (data : Bytes) (st : DSt) : Py DSt := do
  let v ← pyIdx data st.inPos
  let out ← pySet st.out st.outPos v
  return { st with out := out, inPos := st.inPos + 1, outPos := st.outPos + 1, left := st.left - 1 }

/-- `for i in range(8)` of a block with flags (`lz10.py:52-74`); `d` is not masked, as in Python. -/
def flagItems (data : Bytes) : Nat → Nat → DSt → Py DSt
  | 0, _, st => .ok st
  | k + 1, d, st =>
    if st.left = 0 then .ok st else do
      let st' ←
        if d / 128 % 2 = 1 then do
          let thing ← unpackU .big 2 data st.inPos
          let length := thing / 4096 + 3
          let offset := thing % 4096
          let windowOffset : Int := (st.outPos : Int) - offset - 1
          copyLoop length windowOffset { st with inPos := st.inPos + 2 }
        else literal data st
      flagItems data k (d * 2) st'

/-- `for i in range(8)` of a block without flags (`lz10.py:76-81`). -/
def rawItems (data : Bytes) : Nat → DSt → Py DSt
  | 0, st => .ok st
  | k + 1, st =>
    if st.left = 0 then .ok st else do
      let st' ← literal data st
      rawItems data k st'

/-- `while dataLen > 0` (`lz10.py:48-81`); a block writes at least one byte, so `fuel` is the declared
length.  Running out of fuel is a visible error. -/
def blocks (data : Bytes) : Nat → DSt → Py DSt
  | 0, st => if st.left = 0 then .ok st else .error .outOfFuel
  | fuel + 1, st =>
    if st.left = 0 then .ok st else do
      let d ← pyIdx data st.inPos
      let st := { st with inPos := st.inPos + 1 }
      let st' ← if d ≠ 0 then flagItems data 8 d.toNat st else rawItems data 8 st
      blocks data fuel st'

/-- `decompress` (`lz10.py:32-83`). -/
def decompress (data : Bytes) : Py Bytes := do
  let b ← pyIdx data 0
  raiseIf (b ≠ 0x10) .typeError
  let word ← unpackU .little 4 data 0
  let dataLen := word / 256
  let st ← blocks data dataLen { out := zeros dataLen, inPos := 4, outPos := 0, left := dataLen }
  return st.out

/-- The parameters used by `lz10.compress` (`lz10.py:111`). -/
def cfg : LzCommon.Cfg :=
  { posSubtract := 1, maxMatchDiff := 0x1000, maxMatchLen := 18, zerosAtEnd := true, searchReverse := false }

/-- `compress` (`lz10.py:103-114`). -/
def compress (data : Bytes) : Py Bytes := do
  let r ← LzCommon.compress cfg data
  let header ← packU .little 4 (data.length * 256 + 0x10)
  return header ++ r.1

end Verif.Model.Lz10
