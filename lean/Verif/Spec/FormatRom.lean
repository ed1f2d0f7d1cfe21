import Verif.Spec.Reader
import Verif.Model.Rom

/-!
# What the bytes of a ROM image mean

Only the type `Rom` of the model is used here, not its functions.  `d` is an image of at least 0x200 bytes.
-/

namespace Verif.Spec.FormatRom

open Verif Verif.Spec.Reader
open Verif.Model.Rom (Rom)

/-- An image as it is read: filled up with zeros to the size of a header. -/
def image (raw : Bytes) : Bytes := raw ++ List.replicate (0x200 - raw.length) 0

/-- The attributes in the header.  The name has 12 bytes there and the "secure area disable" value 8: what is too short is
filled up with zeros, and what is too long cut off. -/
structure HeaderAt (d : Bytes) (q : Rom) : Prop where
  name : bytesAt d 0 12 = (q.name ++ List.replicate 12 0).take 12
  idCode : q.idCode = bytesAt d 0xC 4
  developerCode : q.developerCode = bytesAt d 0x10 2
  unitCode : q.unitCode = u8 d 0x12
  encryptionSeedSelect : q.encryptionSeedSelect = u8 d 0x13
  deviceCapacity : q.deviceCapacity = u8 d 0x14
  pad015 : q.pad015 = u8 d 0x15
  pad016 : q.pad016 = u8 d 0x16
  pad017 : q.pad017 = u8 d 0x17
  pad018 : q.pad018 = u8 d 0x18
  pad019 : q.pad019 = u8 d 0x19
  pad01A : q.pad01A = u8 d 0x1A
  pad01B : q.pad01B = u8 d 0x1B
  pad01C : q.pad01C = u8 d 0x1C
  region : q.region = u8 d 0x1D
  version : q.version = u8 d 0x1E
  autostart : q.autostart = u8 d 0x1F
  arm9EntryAddress : q.arm9EntryAddress = u32 d 0x24
  arm9RamAddress : q.arm9RamAddress = u32 d 0x28
  arm7EntryAddress : q.arm7EntryAddress = u32 d 0x34
  arm7RamAddress : q.arm7RamAddress = u32 d 0x38
  normal : q.normalCardControlRegisterSettings = u32 d 0x60
  secure : q.secureCardControlRegisterSettings = u32 d 0x64
  secureAreaChecksum : q.secureAreaChecksum = u16 d 0x6C
  secureTransferDelay : q.secureTransferDelay = u16 d 0x6E
  arm9CodeSettings : q.arm9CodeSettingsPointerAddress = u32 d 0x70
  arm7CodeSettings : q.arm7CodeSettingsPointerAddress = u32 d 0x74
  secureAreaDisable : bytesAt d 0x78 8 = (q.secureAreaDisable ++ List.replicate 8 0).take 8
  pad088 : q.pad088 = bytesAt d 0x88 0x38
  nintendoLogo : q.nintendoLogo = bytesAt d 0xC0 0x9C
  debugRomAddress : q.debugRomAddress = u32 d 0x168
  pad16C : q.pad16C = bytesAt d 0x16C 0x94

/-- The size of a banner, which depends on the version that it begins with. -/
def bannerSize (version : Nat) : Nat :=
  if version = 2 then 0x940 else if version = 3 then 0x1240 else if version = 0x103 then 0x23C0 else 0x840

/-- The file allocation table. -/
def fat (d : Bytes) : Bytes := bytesAt d (u32 d 0x48) (u32 d 0x4C)

/-- Where a file begins. -/
def start (d : Bytes) (i : Nat) : Nat := u32 (fat d) (8 * i)

/-- The parts that the header points at, and the files that the file allocation table points at. -/
structure PartsAt (d : Bytes) (q : Rom) : Prop where
  arm9 : q.arm9 = bytesAt d (u32 d 0x20) (u32 d 0x2C)
  arm7 : q.arm7 = bytesAt d (u32 d 0x30) (u32 d 0x3C)
  arm9OverlayTable : q.arm9OverlayTable = bytesAt d (u32 d 0x50) (u32 d 0x54)
  arm7OverlayTable : q.arm7OverlayTable = bytesAt d (u32 d 0x58) (u32 d 0x5C)
  iconBanner : q.iconBanner = if u32 d 0x68 = 0 then [] else bytesAt d (u32 d 0x68) (bannerSize (u16 d (u32 d 0x68)))
  debugRom : q.debugRom = if u32 d 0x160 = 0 then [] else bytesAt d (u32 d 0x160) (u32 d 0x164)
  files : q.files = (List.range ((fat d).length / 8)).map fun i => span d (start d i) (u32 (fat d) (8 * i + 4))

/-- The bytes of the file name table. -/
def nameTable (d : Bytes) : Bytes := bytesAt d (u32 d 0x40) (u32 d 0x44)

/-- Where the signature of an image is: at the place that stands at 0x1000 or, if the image is too short for that or there
is a zero, at the place that stands at 0x80 of the header. -/
def signaturePlace (d : Bytes) : Nat :=
  if d.length < 0x1004 ∨ u32 d 0x1000 = 0 then u32 d 0x80 else u32 d 0x1000

/-- The data behind ARM9: all the records of 12 bytes one after another that begin with the bytes 21 06 C0 DE. -/
def PostDataAt (d : Bytes) (o : Nat) (p : Bytes) : Prop :=
  ∃ n, p = bytesAt d o (12 * n) ∧ (∀ i, i < n → bytesAt d (o + 12 * i) 4 = [0x21, 0x06, 0xC0, 0xDE]) ∧
    bytesAt d (o + 12 * n) 4 ≠ [0x21, 0x06, 0xC0, 0xDE]

/-- The files in the order in which they begin; of several files that begin at the same place, only the last. -/
def Sorted (d : Bytes) (ids : List Int) : Prop :=
  (∀ k, k ∈ ids ↔ ∃ i : Nat, k = i ∧ i < (fat d).length / 8 ∧
    ∀ j, i < j → j < (fat d).length / 8 → start d j ≠ start d i) ∧
  ids.Pairwise fun a b => start d a.toNat < start d b.toNat

/-- What else is read: the name without zeros at its end, what lies between the header and ARM9, the signature, the data
behind ARM9 and the order of the files. -/
structure OtherAt (d : Bytes) (q : Rom) : Prop where
  name_short : q.name.length ≤ 12
  name_end : q.name.getLast? ≠ some 0
  secureAreaDisable : q.secureAreaDisable.length = 8
  pad200 : q.pad200 = span d 0x200 (u32 d 0x20)
  signature : q.rsaSignature = if signaturePlace d = 0 then [] else bytesAt d (signaturePlace d) 0x88
  postData : PostDataAt d (u32 d 0x20 + u32 d 0x2C) q.arm9PostData
  order : Sorted d q.sortedFileIds

end Verif.Spec.FormatRom
