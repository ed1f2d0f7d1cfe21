import Verif.Model.Common

/-!
# Model of `ndspy/soundWave.py` and `ndspy/soundWaveArchive.py`

Numeric attributes are natural numbers (negative ones would make `struct.pack` raise).  Not modelled here:
`fromFile`, `saveToFile` (see `Files.lean`), `__str__`, `__repr__` (see `ReprSound.lean`).
-/

namespace Verif.Model.SoundWave

open Verif
open Verif.Model.Common

/-- `struct.pack('?', b)`. -/
def packBool (b : Bool) : Bytes := [if b then 1 else 0]

/-- `struct.unpack_from('?', d, off)`: any byte but zero is true. -/
def unpackBool (d : Bytes) (off : Nat) : Py Bool := do
  let n ← unpackU .little 1 d off
  return n != 0

/-- `WaveType(n)` (__init__.py 44–51). -/
def waveTypeOf (n : Nat) : Py Nat := if n ≤ 2 then .ok n else .error .valueError

/-- `SWAV` (soundWave.py 33–40). -/
structure SWAV where
  waveType : Nat
  isLooped : Bool
  sampleRate : Nat
  time : Nat
  loopOffset : Nat
  totalLength : Nat
  data : Bytes
  deriving DecidableEq, Repr

def magicSWAV : Bytes := [0x53, 0x57, 0x41, 0x56]
def magicSWAR : Bytes := [0x53, 0x57, 0x41, 0x52]
def magicDATA : Bytes := [0x44, 0x41, 0x54, 0x41]

/-- The `SWAVInfo` struct, `struct.unpack_from('<B?3HI', d, off)`, with the wave type looked up and the total
length computed (soundWave.py 64–67, soundWaveArchive.py 74–85). -/
def unpackInfo (d : Bytes) (off : Nat) (data : Bytes) : Py SWAV := do
  let waveType ← unpackU .little 1 d off
  let isLooped ← unpackBool d (off + 1)
  let sampleRate ← unpackU .little 2 d (off + 2)
  let time ← unpackU .little 2 d (off + 4)
  let loopOffset ← unpackU .little 2 d (off + 6)
  let loopLength ← unpackU .little 4 d (off + 8)
  let waveType ← waveTypeOf waveType
  return ⟨waveType, isLooped, sampleRate, time, loopOffset, loopOffset + loopLength, data⟩

/-- `SWAV.__init__` with a file (soundWave.py 42–69). -/
def SWAV.load (file : Bytes) : Py SWAV := do
  raiseIf (file.take 4 ≠ magicSWAV) .valueError
  let h ← unpackStdHeader file 0
  raiseIf (h.version ≠ 0x100) .valueError
  pyAssert (h.magic = magicSWAV)
  let dataMagic ← unpackStr 4 file 0x10
  let _ ← unpackU .little 4 file 0x14
  pyAssert (dataMagic = magicDATA)
  unpackInfo file 0x18 (slice file 0x24 h.fileSize)

/-- `struct.pack('<B?3HI', ...)` of the info struct (soundWave.py 117–119). -/
def packInfo (w : SWAV) : Py Bytes := do
  let a ← packU .little 1 w.waveType
  let c ← packU .little 2 w.sampleRate
  let d ← packU .little 2 w.time
  let e ← packU .little 2 w.loopOffset
  let f ← packU .little 4 (w.totalLength - w.loopOffset)
  return a ++ packBool w.isLooped ++ c ++ d ++ e ++ f

/-- `SWAV.save` without updates (soundWave.py 109–122). -/
def SWAV.saveBytes (w : SWAV) : Py Bytes := do
  raiseIf (w.loopOffset > w.totalLength) .valueError
  let h ← packStdHeader ⟨magicSWAV, 0xFEFF, 0x100, 0x24 + w.data.length, 0x10, 1⟩
  let n ← packU .little 4 (0x14 + w.data.length)
  let info ← packInfo w
  return h ++ (magicDATA ++ n) ++ info ++ w.data

/-- The updates at the start of `SWAV.save` (soundWave.py 104–107).  The integer part of the
rounded quotient `16756991 / rate` is the integer quotient (`wave_time` in Props/Float.lean). -/
def SWAV.update (w : SWAV) (updateTime updateTotalLength : Bool) : Py SWAV := do
  raiseIf (updateTime = true ∧ w.sampleRate = 0) .zeroDivisionError
  return { w with
    time := if updateTime then 16756991 / w.sampleRate else w.time
    totalLength := if updateTotalLength then w.data.length / 4 else w.totalLength }

/-- `SWAV.save` (soundWave.py 98–122): the file and the changed object. -/
def SWAV.save (w : SWAV) (updateTime updateTotalLength : Bool) : Py (Bytes × SWAV) := do
  let w ← w.update updateTime updateTotalLength
  let b ← w.saveBytes
  return (b, w)

/-! ## SWAR -/

/-- One iteration of the loop of `SWAR._initFromData` (soundWaveArchive.py 64–86). -/
def loadWave (data : Bytes) (fileSize swavCount i : Nat) : Py SWAV := do
  let swavOffset ← unpackU .little 4 data (0x3C + 4 * i)
  let nextOffset ← unpackU .little 4 data (0x3C + 4 * i + 4)
  let nextOffset := if i = swavCount - 1 then fileSize else nextOffset
  let swavData := slice data swavOffset nextOffset
  unpackInfo swavData 0 (swavData.drop 0xC)

/-- `SWAR.__init__` with a file (soundWaveArchive.py 37–86); the waves (`unk02` is passed on). -/
def loadSWAR (data : Bytes) : Py (List SWAV) := do
  raiseIf (data.take 4 ≠ magicSWAR) .valueError
  let h ← unpackStdHeader data 0
  raiseIf (h.version ≠ 0x100) .valueError
  pyAssert (h.magic = magicSWAR)
  let dataMagic ← unpackStr 4 data 0x10
  let _ ← unpackU .little 4 data 0x14
  let swavCount ← unpackU .little 4 data 0x38
  pyAssert (dataMagic = magicDATA)
  mapE (loadWave data h.fileSize swavCount) (List.range swavCount)

/-- The loop of `SWAR.save` (soundWaveArchive.py 125–129): the offsets and the table of waves, `pos` being
where the table ends so far. -/
def saveWaves : List SWAV → Nat → Py (List Nat × Bytes)
  | [], _ => .ok ([], [])
  | w :: ws, pos => do
    let d ← w.saveBytes
    let d := d.drop 0x18
    let r ← saveWaves ws (pos + d.length)
    return (pos :: r.1, d ++ r.2)

/-- `SWAR.save` (soundWaveArchive.py 107–135). -/
def saveSWAR (waves : List SWAV) : Py Bytes := do
  let fileLen := 0x3C + (waves.map fun s => 4 + 0xC + s.data.length).sum
  let h ← packStdHeader ⟨magicSWAR, 0xFEFF, 0x100, fileLen, 0x10, 1⟩
  let n ← packU .little 4 (fileLen - 0x10)
  let c ← packU .little 4 waves.length
  let r ← saveWaves waves (0x3C + 4 * waves.length)
  let offs ← mapE (packU .little 4) r.1
  return h ++ (magicDATA ++ n ++ zeros 32 ++ c) ++ offs.flatten ++ r.2

end Verif.Model.SoundWave
