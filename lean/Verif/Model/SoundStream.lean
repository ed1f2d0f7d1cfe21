import Verif.Model.SoundWave
import Verif.Base.Struct

/-!
# Model of `ndspy/soundStream.py` (STRM) and of the group entries of `ndspy/soundGroup.py`

`unk02`, `volume`, `priority`, `playerID` and `unk07` of a STRM are passed through by both directions and are
left out.  `save(updateTime=True)` only assigns `time` first (with floating-point arithmetic, soundStream.py
213–214); the model covers what happens after that.
-/

namespace Verif.Model.SoundStream

open Verif Verif.Model.Common
open Verif.Model.SoundWave (waveTypeOf magicDATA)

/-- `STRM` (soundStream.py 53–70). -/
structure STRM where
  waveType : Nat
  isLooped : Bool
  channels : List (List Bytes)
  unk03 : Nat
  sampleRate : Nat
  time : Nat
  loopOffset : Nat
  samplesPerBlock : Nat
  samplesInLastBlock : Nat
  unk28 : Nat
  unk2C : Nat
  unk30 : Nat
  unk34 : Nat
  unk38 : Nat
  unk3C : Nat
  unk40 : Nat
  unk44 : Nat
  deriving DecidableEq, Repr

def magicSTRM : Bytes := [0x53, 0x54, 0x52, 0x4D]
def magicHEAD : Bytes := [0x48, 0x45, 0x41, 0x44]

/-- The inner loop over the channels (soundStream.py 149–151): one block for each channel, and the offset after
them. -/
def readRow (data : Bytes) (blockSize : Nat) : Nat → Nat → List Bytes × Nat
  | 0, offs => ([], offs)
  | n + 1, offs =>
    let r := readRow data blockSize n (offs + blockSize)
    (slice data offs (offs + blockSize) :: r.1, r.2)

/-- The outer loop (soundStream.py 140–153), with `k` blocks left: `self.channels[cn].append(...)` for each
channel, then align the offset to 4. -/
def readRows (data : Bytes) (numChannels numBlocks bytesPerBlock bytesInLastBlock extra : Nat) :
    Nat → Nat → List (List Bytes) → List (List Bytes)
  | 0, _, channels => channels
  | k + 1, offs, channels =>
    let bn := numBlocks - (k + 1)
    let blockSize := (if bn = numBlocks - 1 then bytesInLastBlock else bytesPerBlock) + extra
    let r := readRow data blockSize numChannels offs
    readRows data numChannels numBlocks bytesPerBlock bytesInLastBlock extra k (r.2 + padLen r.2 4)
      (List.zipWith (fun ch b => ch ++ [b]) channels r.1)

/-- The end of `STRM._initFromData` (soundStream.py 126–153), given the fields of the HEAD block. -/
def STRM.loadBlocks (file : Bytes) (headSize : Nat) (fields : List Nat) : Py STRM :=
  match fields with
  | [waveType, isLooped, numChannels, unk03, sampleRate, time, loopOffset, _numSamples, dataOffset, numBlocks,
      bytesPerBlock, samplesPerBlock, bytesInLastBlock, samplesInLastBlock, unk28, unk2C, unk30, unk34, unk38,
      unk3C, unk40, unk44] => do
    pyAssert (dataOffset = 0x68)
    let waveType ← waveTypeOf waveType
    let dataOffs := 0x10 + headSize
    let dataMagic ← unpackStr 4 file dataOffs
    let dataSize ← unpackU .little 4 file (dataOffs + 4)
    pyAssert (dataMagic = magicDATA)
    let data := slice file (dataOffs + 8) (dataOffs + dataSize)
    let extra := if numBlocks = 1 ∧ waveType = 2 then 4 else 0
    let channels := readRows data numChannels numBlocks bytesPerBlock bytesInLastBlock extra numBlocks 0
      (List.replicate numChannels [])
    return ⟨waveType, boolOf isLooped, channels, unk03, sampleRate, time, loopOffset, samplesPerBlock,
      samplesInLastBlock, unk28, unk2C, unk30, unk34, unk38, unk3C, unk40, unk44⟩
  | _ => .error .structError

/-- The widths of `'<B?BB2H16I'`. -/
def headFormat : List Nat := [1, 1, 1, 1, 2, 2, 4, 4, 4, 4, 4, 4, 4, 4, 4, 4, 4, 4, 4, 4, 4, 4]

/-- `STRM.__init__` with a file (soundStream.py 44–49, 93–153). -/
def STRM.load (file : Bytes) : Py STRM := do
  raiseIf (file.take 4 ≠ magicSTRM) .valueError
  let h ← unpackStdHeader file 0
  raiseIf (h.version ≠ 0x100) .valueError
  pyAssert (h.magic = magicSTRM)
  let headMagic ← unpackStr 4 file 0x10
  let headSize ← unpackU .little 4 file 0x14
  pyAssert (headMagic = magicHEAD)
  let fields ← unpackUs .little headFormat file 0x18
  STRM.loadBlocks file headSize fields

/-- The checks at the start of `STRM.save` (soundStream.py 167–199): the number of blocks, bytes per block and
bytes in the last block. -/
def blockShape (channels : List (List Bytes)) : Py (Nat × Nat × Nat) :=
  match channels with
  | [] => .ok (0, 0, 0)
  | c0 :: _ =>
    if channels.all (fun blocks => blocks.length = c0.length) then
      match c0 with
      | [] => .ok (0, 0, 0)
      | b0 :: bs =>
        if channels.all (fun blocks => blocks.dropLast.all (fun b => b.length = b0.length) &&
            (blocks.getLast?.map List.length = some ((b0 :: bs).getLast (by simp)).length)) then
          .ok (c0.length, b0.length, ((b0 :: bs).getLast (by simp)).length)
        else .error .valueError
    else .error .valueError

/-- `zip(*channels)` (soundStream.py 203). -/
def zipAll {α : Type _} : List (List α) → List (List α)
  | [] => []
  | c :: cs => (List.range (cs.foldl (fun m l => min m l.length) c.length)).map
      fun i => (c :: cs).filterMap (·[i]?)

/-- The loop that builds the wave data (soundStream.py 202–206). -/
def waveData (rows : List (List Bytes)) : Bytes :=
  rows.foldl (fun acc row => padTo (acc ++ row.flatten) 4 0) []

/-- The part of `STRM.save` (soundStream.py 216–241) that packs the contents of the HEAD block. -/
def packHead (s : STRM) (numBlocks bytesPerBlock bytesInLastBlock : Nat) : Py Bytes := do
  let adjust : Int := if s.waveType = 2 ∧ numBlocks = 1 then 4 else 0
  let numSamples ← natOf (((numBlocks : Int) - 1) * s.samplesPerBlock + s.samplesInLastBlock)
  let bytesPerBlock ← natOf (bytesPerBlock - adjust)
  let bytesInLastBlock ← natOf (bytesInLastBlock - adjust)
  packUs .little [(1, s.waveType), (1, boolNum s.isLooped), (1, s.channels.length), (1, s.unk03),
    (2, s.sampleRate), (2, s.time), (4, s.loopOffset), (4, numSamples), (4, 0x68), (4, numBlocks),
    (4, bytesPerBlock), (4, s.samplesPerBlock), (4, bytesInLastBlock), (4, s.samplesInLastBlock), (4, s.unk28),
    (4, s.unk2C), (4, s.unk30), (4, s.unk34), (4, s.unk38), (4, s.unk3C), (4, s.unk40), (4, s.unk44)]

/-- `STRM.save` (soundStream.py 156–252), the file. -/
def STRM.save (s : STRM) : Py Bytes := do
  let shape ← blockShape s.channels
  let wave := waveData (zipAll s.channels)
  let h ← packStdHeader ⟨magicSTRM, 0xFEFF, 0x100, 0x68 + wave.length, 0x10, 2⟩
  let hs ← packU .little 4 0x50
  let head ← packHead s shape.1 shape.2.1 shape.2.2
  let n ← packU .little 4 (8 + wave.length)
  return h ++ (magicHEAD ++ hs) ++ head ++ (magicDATA ++ n) ++ wave

/-! ## Group entries -/

/-- `GroupEntry` (soundGroup.py 52–66); `loadSBNKSWARsFrom` as its value, 1 for `SWAR_IDS`. -/
structure GroupEntry where
  type : Nat
  id : Nat
  loadSSEQ : Bool
  loadSBNKSWARsFrom : Nat
  loadSWAR : Bool
  loadSSAR : Bool
  deriving DecidableEq, Repr

/-- `GroupEntry(type, options, id)` (soundGroup.py 52–66). -/
def GroupEntry.init (type options id : Nat) : Py GroupEntry := do
  raiseIf (type > 3) .valueError
  return ⟨type, id, options &&& 1 ≠ 0, if options &&& 2 ≠ 0 then 1 else 0, options &&& 4 ≠ 0, options &&& 8 ≠ 0⟩

/-- `GroupEntry.fromFlags` (soundGroup.py 69–83). -/
def GroupEntry.fromFlags (type id : Nat) (loadSSEQ : Bool) (loadSBNKSWARsFrom : Nat) (loadSWAR loadSSAR : Bool) :
    Py GroupEntry := do
  let e ← GroupEntry.init type 0 id
  return { e with loadSSEQ, loadSBNKSWARsFrom, loadSWAR, loadSSAR }

/-- `GroupEntry.save` (soundGroup.py 86–99): type, options and ID. -/
def GroupEntry.save (e : GroupEntry) : Nat × Nat × Nat :=
  let options := 0
  let options := if e.loadSSEQ then options ||| 1 else options
  let options := if e.loadSBNKSWARsFrom = 1 then options ||| 2 else options
  let options := if e.loadSWAR then options ||| 4 else options
  let options := if e.loadSSAR then options ||| 8 else options
  (e.type, options, e.id)

/-- `struct.pack('<BHxI', *gEntry.save())` (soundArchive.py 692). -/
def GroupEntry.pack (e : GroupEntry) : Py Bytes := do
  let t ← packU .little 1 e.save.1
  let o ← packU .little 2 e.save.2.1
  let i ← packU .little 4 e.save.2.2
  return t ++ o ++ zeros 1 ++ i

/-- A group as `SDAT.save` writes it (soundArchive.py 689–692). -/
def packGroup (group : List GroupEntry) : Py Bytes := do
  let n ← packU .little 4 group.length
  let es ← mapE GroupEntry.pack group
  return n ++ es.flatten

/-- One entry as `SDAT.__init__` reads it (soundArchive.py 314–317). -/
def unpackGroupEntry (data : Bytes) (off : Nat) : Py GroupEntry := do
  let type ← unpackU .little 1 data off
  let options ← unpackU .little 2 data (off + 1)
  let id ← unpackU .little 4 data (off + 4)
  GroupEntry.init type options id

/-- A group as `SDAT.__init__` reads it (soundArchive.py 309–317). -/
def unpackGroup (data : Bytes) (groupOff : Nat) : Py (List GroupEntry) := do
  let n ← unpackU .little 4 data groupOff
  mapE (fun i => unpackGroupEntry data (groupOff + 4 + 8 * i)) (List.range n)

end Verif.Model.SoundStream
