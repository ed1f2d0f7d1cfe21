import Verif.Spec.Reader
import Verif.Model.SoundStream

/-!
# SWAV, SWAR and STRM files, byte by byte

Only the data structures of the model are used.
-/

namespace Verif.Spec.FormatSound

open Verif Verif.Spec.Reader Verif.Model.SoundWave Verif.Model.SoundStream

/-- The beginning of a file: its name, version 1.0, and the name of the first block behind the header of 16 bytes. -/
def Header (d name block : Bytes) : Prop := bytesAt d 0 4 = name ∧ u16 d 6 = 0x100 ∧ bytesAt d 0x10 4 = block

/-! ## Waves -/

/-- The twelve bytes in front of the samples of a wave; the length is stored without the part before the loop. -/
def waveAt (d : Bytes) (o : Nat) (samples : Bytes) : SWAV where
  waveType := u8 d o
  isLooped := u8 d (o + 1) ≠ 0
  sampleRate := u16 d (o + 2)
  time := u16 d (o + 4)
  loopOffset := u16 d (o + 6)
  totalLength := u16 d (o + 6) + u32 d (o + 8)
  data := samples

/-- A SWAV file: the information behind the block header, then samples up to the size in the header. -/
def IsSwav (d : Bytes) : Prop :=
  Header d [0x53, 0x57, 0x41, 0x56] [0x44, 0x41, 0x54, 0x41] ∧ 0x24 ≤ d.length ∧ u8 d 0x18 ≤ 2
def swav (d : Bytes) : SWAV := waveAt d 0x18 (span d 0x24 (u32 d 8))

/-- The waves of a SWAR file: where they begin, and where they end. -/
def waveCount (d : Bytes) : Nat := u32 d 0x38
def waveStart (d : Bytes) (i : Nat) : Nat := u32 d (0x3C + 4 * i)
def waveStop (d : Bytes) (i : Nat) : Nat := if i + 1 = waveCount d then u32 d 8 else waveStart d (i + 1)

/-- A SWAR file.  The table is followed by another word, which may be a part of the first wave. -/
def IsSwar (d : Bytes) : Prop :=
  Header d [0x53, 0x57, 0x41, 0x52] [0x44, 0x41, 0x54, 0x41] ∧ 0x3C ≤ d.length ∧
    ∀ i < waveCount d, 0x40 + 4 * (i + 1) ≤ d.length ∧ waveStart d i + 0xC ≤ waveStop d i ∧ waveStart d i + 0xC ≤ d.length ∧
      u8 d (waveStart d i) ≤ 2
def swar (d : Bytes) : List SWAV :=
  (List.range (waveCount d)).map fun i => waveAt d (waveStart d i) (span d (waveStart d i + 0xC) (waveStop d i))

/-! ## Streams -/

/-- Where the block with the samples begins. -/
def strmData (d : Bytes) : Nat := 0x10 + u32 d 0x14

/-- The size of a block of samples: the stated one, and the four bytes of the initial ADPCM state if there is only one block. -/
def blockSize (d : Bytes) (j : Nat) : Nat :=
  (if j + 1 = u32 d 0x2C then u32 d 0x38 else u32 d 0x30) + if u32 d 0x2C = 1 ∧ u8 d 0x18 = 2 then 4 else 0

/-- The blocks of all channels with the same number lie one after the other; the next ones begin at a multiple of 4. -/
def rowSize (d : Bytes) : Nat := (u8 d 0x1A * u32 d 0x30 + 3) / 4 * 4

/-- The samples of a channel in a block. -/
def blockAt (d : Bytes) (channel j : Nat) : Bytes :=
  bytesAt (span d (strmData d + 8) (strmData d + u32 d (strmData d + 4))) (j * rowSize d + channel * blockSize d j) (blockSize d j)

def IsStrm (d : Bytes) : Prop :=
  Header d [0x53, 0x54, 0x52, 0x4D] [0x48, 0x45, 0x41, 0x44] ∧ 0x60 ≤ d.length ∧ u8 d 0x18 ≤ 2 ∧ u32 d 0x28 = 0x68 ∧
    strmData d + 8 ≤ d.length ∧ bytesAt d (strmData d) 4 = [0x44, 0x41, 0x54, 0x41]

def strm (d : Bytes) : STRM where
  waveType := u8 d 0x18
  isLooped := u8 d 0x19 ≠ 0
  channels := (List.range (u8 d 0x1A)).map fun i => (List.range (u32 d 0x2C)).map fun j => blockAt d i j
  unk03 := u8 d 0x1B
  sampleRate := u16 d 0x1C
  time := u16 d 0x1E
  loopOffset := u32 d 0x20
  samplesPerBlock := u32 d 0x34
  samplesInLastBlock := u32 d 0x3C
  unk28 := u32 d 0x40
  unk2C := u32 d 0x44
  unk30 := u32 d 0x48
  unk34 := u32 d 0x4C
  unk38 := u32 d 0x50
  unk3C := u32 d 0x54
  unk40 := u32 d 0x58
  unk44 := u32 d 0x5C

end Verif.Spec.FormatSound
