import Verif.Model.SoundStream
import Verif.Model.SoundWave

/-!
# Model of the computations with floats in `ndspy/soundWave.py` and `ndspy/soundStream.py`

A positive `float` is a rational number; the result of an operation is the exact result rounded to 53 binary digits, to
nearest, ties to even (IEEE 754).  Results that are too small or too large for a `float` do not occur for the numbers
used here if the sample rate is below 2 ^ 1000; the model has no such limits.
-/

namespace Verif.Model.Float

open Verif

/-- 2 to the power `e`. -/
def pow2 (e : Int) : Rat := if 0 ≤ e then 2 ^ e.toNat else 1 / 2 ^ (-e).toNat

/-- The exponent of a positive number: the greatest `e` with `pow2 e ≤ x`. -/
def expo (x : Rat) : Int :=
  let e : Int := (x.num.toNat.log2 : Int) - x.den.log2
  if x < pow2 e then e - 1 else e

/-- The nearest integer, the even one if there are two. -/
def roundEven (x : Rat) : Int :=
  if x - x.floor < 1 / 2 then x.floor
  else if 1 / 2 < x - x.floor then x.floor + 1
  else if x.floor % 2 = 0 then x.floor else x.floor + 1

/-- Rounding of a positive number to 53 binary digits. -/
def round53 (x : Rat) : Rat := roundEven (x / pow2 (expo x - 52)) * pow2 (expo x - 52)

/-- `float(n)`. -/
def ofNat (n : Nat) : Rat := round53 n

/-- `a / b` of two floats. -/
def div (a b : Rat) : Rat := round53 (a / b)

/-- `a * b` of two floats. -/
def mul (a b : Rat) : Rat := round53 (a * b)

/-- `int(x)` of a positive float. -/
def toInt (x : Rat) : Nat := x.floor.toNat

/-- `int(16756991 / self.sampleRate)` (soundWave.py 104).  Both numbers are integers; Python rounds their quotient. -/
def waveTime (sampleRate : Nat) : Nat := toInt (round53 (16756991 / sampleRate))

/-- `int(1.0 / self.sampleRate * 16756991 / 32)` (soundStream.py 214). -/
def streamTime (sampleRate : Nat) : Nat :=
  toInt (div (mul (div 1 (ofNat sampleRate)) (ofNat 16756991)) (ofNat 32))

/-- `STRM.save(updateTime=updateTime)` (soundStream.py 156–252): what it returns or raises, and the object it leaves
behind.  What can raise before the time is set is done first; it does not depend on the time. -/
def saveSTRM (s : SoundStream.STRM) (updateTime : Bool) : Py Bytes × SoundStream.STRM :=
  match (do
    let _ ← SoundStream.blockShape s.channels
    let wave := SoundStream.waveData (SoundStream.zipAll s.channels)
    let _ ← Common.packStdHeader ⟨SoundStream.magicSTRM, 0xFEFF, 0x100, 0x68 + wave.length, 0x10, 2⟩
    return () : Py Unit) with
  | .error e => (.error e, s)
  | .ok _ =>
    if updateTime then
      if s.sampleRate = 0 then (.error .zeroDivisionError, s)
      else ({ s with time := streamTime s.sampleRate }.save, { s with time := streamTime s.sampleRate })
    else (s.save, s)

/-- `SWAV.save` (soundWave.py 98–122): what it returns or raises, and the object it leaves behind. -/
def saveSWAV (w : SoundWave.SWAV) (updateTime updateTotalLength : Bool) : Py Bytes × SoundWave.SWAV :=
  if updateTime = true ∧ w.sampleRate = 0 then (.error .zeroDivisionError, w)
  else
    let w := if updateTime then { w with time := waveTime w.sampleRate } else w
    let w := if updateTotalLength then { w with totalLength := w.data.length / 4 } else w
    (w.saveBytes, w)

end Verif.Model.Float
