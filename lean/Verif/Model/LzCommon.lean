import Verif.Base.Bytes

/-!
# Model of `ndspy/_lzCommon.py`

Bit masks are written arithmetically: `x & 0xF` is `x % 16`, `x >> 8` is `x / 256`, and an `|` of disjoint
bit fields is `+`.
-/

namespace Verif.Model.LzCommon

open Verif

/-- The parameters of `_lzCommon.compress` (`_lzCommon.py:19-20`), without the data. -/
structure Cfg where
  posSubtract : Nat
  maxMatchDiff : Nat
  maxMatchLen : Nat
  zerosAtEnd : Bool
  searchReverse : Bool

/-- `data.find(pat, start, stop)` for `0 <= start`, `stop <= len(data)` (used at `_lzCommon.py:58`).
`none` stands for `-1`. -/
def pyFind (data pat : Bytes) (start stop : Nat) : Option Nat :=
  (List.range' start (stop + 1 - pat.length - start)).find?
    fun i => slice data i (i + pat.length) == pat

/-- `data.rfind(pat, start, stop)` (used at `_lzCommon.py:56`).  `none` stands for `-1`. -/
def pyRFind (data pat : Bytes) (start stop : Nat) : Option Nat :=
  (List.range' start (stop + 1 - pat.length - start)).reverse.find?
    fun i => slice data i (i + pat.length) == pat

/-- The lookup inside the binary search (`_lzCommon.py:54-58`). -/
def lookup (cfg : Cfg) (data : Bytes) (pos matchLen : Nat) : Option Nat :=
  let start := pos - cfg.maxMatchDiff
  let pat := slice data pos (pos + matchLen)
  if cfg.searchReverse then pyRFind data pat start pos else pyFind data pat start pos

/-- The binary search loop (`_lzCommon.py:50-69`).  `hi` is Python's `upper + 1`, so that it is a natural
number.  The loop runs at most `hi - lower` times; `fuel` bounds the iterations. -/
def bsearch (cfg : Cfg) (data : Bytes) (pos : Nat) : Nat → Nat → Nat → Nat × Nat → Nat × Nat
  | 0, _, _, record => record
  | fuel + 1, lower, hi, record =>
    if lower < hi then
      let matchLen := (lower + (hi - 1)) / 2
      match lookup cfg data pos matchLen with
      | none => bsearch cfg data pos fuel lower matchLen record
      | some matchPos =>
        bsearch cfg data pos fuel (matchLen + 1) hi
          (if matchLen > record.2 then (matchPos, matchLen) else record)
    else record

/-- `compressionSearch(pos)` (`_lzCommon.py:31-69`): position and length of the best match. -/
def compressionSearch (cfg : Cfg) (data : Bytes) (pos : Nat) : Nat × Nat :=
  let upper := min cfg.maxMatchLen (data.length - pos)
  bsearch cfg data pos (upper + 1) 0 (upper + 1) (0, 0)

/-- The variables of the main loop (`_lzCommon.py:71-79`).  `dict` is `ignoreDict`, newest entry first.
`ignorableDataAmount` and `ignorableCompressedAmount` are never read by the code and are left out. -/
structure St where
  cur : Nat
  res : Bytes
  best : Int
  dict : List (Int × (Nat × Nat))

/-- `key in ignoreDict` / `ignoreDict[key]`. -/
def dictGet (dict : List (Int × (Nat × Nat))) (key : Int) : Option (Nat × Nat) :=
  (dict.find? fun e => e.1 == key).map (·.2)

/-- The savings bookkeeping at the end of an item (`_lzCommon.py:117-123`). -/
def noteSavings (st : St) : St :=
  let savingsNow : Int := (st.cur : Int) - st.res.length
  if savingsNow > st.best then
    { st with
      best := savingsNow
      dict := if (dictGet st.dict savingsNow).isNone then (savingsNow, (st.cur, st.res.length)) :: st.dict
              else st.dict }
  else st

/-- One iteration of `for i in range(8)` (`_lzCommon.py:89-123`) with `i = 7 - k`; also returns
`blockFlags`.  `bytearray.append` gets values below 256 by construction of the masks. -/
def item (cfg : Cfg) (data : Bytes) (k : Nat) (st : St) (flags : Nat) : St × Nat :=
  if st.cur ≥ data.length then
    (if cfg.zerosAtEnd then { st with res := st.res ++ [0] } else st, flags)
  else
    let (searchPos, searchLen) := compressionSearch cfg data st.cur
    let searchDisp : Int := (st.cur : Int) - searchPos - cfg.posSubtract
    if searchLen > 2 then
      let b1 := (searchLen - 3) % 16 * 16 + (searchDisp / 256 % 16).toNat
      let b2 := (searchDisp % 256).toNat
      (noteSavings { st with res := st.res ++ [UInt8.ofNat b1, UInt8.ofNat b2], cur := st.cur + searchLen },
        flags + 2 ^ k)
    else
      (noteSavings { st with res := st.res ++ slice data st.cur (st.cur + 1), cur := st.cur + 1 }, flags)

/-- The remaining `k` iterations of `for i in range(8)`. -/
def items (cfg : Cfg) (data : Bytes) : Nat → St → Nat → St × Nat
  | 0, st, flags => (st, flags)
  | k + 1, st, flags =>
    let r := item cfg data k st flags
    items cfg data k r.1 r.2

/-- One iteration of the outer `while` (`_lzCommon.py:82-125`). -/
def block (cfg : Cfg) (data : Bytes) (st : St) : St :=
  let off := st.res.length
  let r := items cfg data 8 { st with res := st.res ++ [0] } 0
  { r.1 with res := r.1.res.set off (UInt8.ofNat r.2) }

/-- `while current < len(data)` (`_lzCommon.py:81-125`); every block consumes at least one byte, so `fuel`
is the number of bytes. -/
def mainLoop (cfg : Cfg) (data : Bytes) : Nat → St → St
  | 0, st => st
  | fuel + 1, st => if st.cur < data.length then mainLoop cfg data fuel (block cfg data st) else st

/-- `while finalSavings not in ignoreDict: finalSavings += 1` (`_lzCommon.py:133-134`). -/
def firstKey (dict : List (Int × (Nat × Nat))) : Nat → Int → Option (Nat × Nat)
  | 0, _ => none
  | fuel + 1, key =>
    match dictGet dict key with
    | some v => some v
    | none => firstKey dict fuel (key + 1)

/-- The initial state (`_lzCommon.py:71-79`). -/
def initSt : St := { cur := 0, res := [], best := 0, dict := [(0, (0, 0))] }

/-- `_lzCommon.compress` (`_lzCommon.py:19-139`): compressed bytes, ignorable data amount, ignorable
compressed amount.  The search for a key of `ignoreDict` ends at `bestSavingsSoFar` at the latest. -/
def compress (cfg : Cfg) (data : Bytes) : Py (Bytes × Nat × Nat) :=
  let st := mainLoop cfg data data.length initSt
  let finalSavings : Int := (st.cur : Int) - st.res.length
  if finalSavings < st.best then
    match firstKey st.dict (st.best - finalSavings).toNat (finalSavings + 1) with
    | some v => .ok (st.res, st.cur - v.1, st.res.length - v.2)
    | none => .error .outOfFuel
  else
    .ok (st.res, 0, 0)

end Verif.Model.LzCommon
