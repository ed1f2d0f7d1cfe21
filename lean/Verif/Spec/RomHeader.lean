import Verif.Model.Rom

/-!
# The attributes in the header of a ROM, and the others

Only the type `Rom` of the model is used here, not its functions.
-/

namespace Verif.Spec.RomHeader

open Verif
open Verif.Model.Rom (Rom)

/-- Two ROMs have the same parts outside the header. -/
structure SameBody (r r' : Rom) : Prop where
  pad200 : r'.pad200 = r.pad200
  rsaSignature : r'.rsaSignature = r.rsaSignature
  arm9 : r'.arm9 = r.arm9
  arm9PostData : r'.arm9PostData = r.arm9PostData
  arm7 : r'.arm7 = r.arm7
  arm9OverlayTable : r'.arm9OverlayTable = r.arm9OverlayTable
  arm7OverlayTable : r'.arm7OverlayTable = r.arm7OverlayTable
  iconBanner : r'.iconBanner = r.iconBanner
  debugRom : r'.debugRom = r.debugRom
  filenames : r'.filenames = r.filenames
  files : r'.files = r.files
  sortedFileIds : r'.sortedFileIds = r.sortedFileIds

/-- The attribute that has its place at the offset `i` of the header, if there is one, is the same in two ROMs.  (At the
other offsets are the places and the sizes of the parts, and checksums.)  The offset 0x15C has the checksum of the logo. -/
structure SameAt (i : Nat) (r r' : Rom) : Prop where
  name : i < 0xC → r'.name = r.name
  idCode : 0xC ≤ i → i < 0x10 → r'.idCode = r.idCode
  developerCode : 0x10 ≤ i → i < 0x12 → r'.developerCode = r.developerCode
  unitCode : i = 0x12 → r'.unitCode = r.unitCode
  encryptionSeedSelect : i = 0x13 → r'.encryptionSeedSelect = r.encryptionSeedSelect
  deviceCapacity : i = 0x14 → r'.deviceCapacity = r.deviceCapacity
  pad015 : i = 0x15 → r'.pad015 = r.pad015
  pad016 : i = 0x16 → r'.pad016 = r.pad016
  pad017 : i = 0x17 → r'.pad017 = r.pad017
  pad018 : i = 0x18 → r'.pad018 = r.pad018
  pad019 : i = 0x19 → r'.pad019 = r.pad019
  pad01A : i = 0x1A → r'.pad01A = r.pad01A
  pad01B : i = 0x1B → r'.pad01B = r.pad01B
  pad01C : i = 0x1C → r'.pad01C = r.pad01C
  region : i = 0x1D → r'.region = r.region
  version : i = 0x1E → r'.version = r.version
  autostart : i = 0x1F → r'.autostart = r.autostart
  arm9Entry : 0x24 ≤ i → i < 0x28 → r'.arm9EntryAddress = r.arm9EntryAddress
  arm9Ram : 0x28 ≤ i → i < 0x2C → r'.arm9RamAddress = r.arm9RamAddress
  arm7Entry : 0x34 ≤ i → i < 0x38 → r'.arm7EntryAddress = r.arm7EntryAddress
  arm7Ram : 0x38 ≤ i → i < 0x3C → r'.arm7RamAddress = r.arm7RamAddress
  normal : 0x60 ≤ i → i < 0x64 → r'.normalCardControlRegisterSettings = r.normalCardControlRegisterSettings
  secure : 0x64 ≤ i → i < 0x68 → r'.secureCardControlRegisterSettings = r.secureCardControlRegisterSettings
  secureAreaChecksum : 0x6C ≤ i → i < 0x6E → r'.secureAreaChecksum = r.secureAreaChecksum
  secureTransferDelay : 0x6E ≤ i → i < 0x70 → r'.secureTransferDelay = r.secureTransferDelay
  arm9Code : 0x70 ≤ i → i < 0x74 → r'.arm9CodeSettingsPointerAddress = r.arm9CodeSettingsPointerAddress
  arm7Code : 0x74 ≤ i → i < 0x78 → r'.arm7CodeSettingsPointerAddress = r.arm7CodeSettingsPointerAddress
  secureAreaDisable : 0x78 ≤ i → i < 0x80 → r'.secureAreaDisable = r.secureAreaDisable
  pad088 : 0x88 ≤ i → i < 0xC0 → r'.pad088 = r.pad088
  nintendoLogo : 0xC0 ≤ i → i < 0x15E → r'.nintendoLogo = r.nintendoLogo
  debugRomAddress : 0x168 ≤ i → i < 0x16C → r'.debugRomAddress = r.debugRomAddress
  pad16C : 0x16C ≤ i → i < 0x200 → r'.pad16C = r.pad16C

/-- The attributes in the header, apart from the name and the value of the "secure area disable", are the same. -/
structure SameHead (r r' : Rom) : Prop where
  idCode : r'.idCode = r.idCode
  developerCode : r'.developerCode = r.developerCode
  small : [r'.unitCode, r'.encryptionSeedSelect, r'.pad015, r'.pad016, r'.pad017, r'.pad018, r'.pad019, r'.pad01A,
      r'.pad01B, r'.pad01C, r'.region, r'.version, r'.autostart] =
    [r.unitCode, r.encryptionSeedSelect, r.pad015, r.pad016, r.pad017, r.pad018, r.pad019, r.pad01A, r.pad01B, r.pad01C,
      r.region, r.version, r.autostart]
  addresses : [r'.arm9EntryAddress, r'.arm9RamAddress, r'.arm7EntryAddress, r'.arm7RamAddress,
      r'.arm9CodeSettingsPointerAddress, r'.arm7CodeSettingsPointerAddress, r'.debugRomAddress] =
    [r.arm9EntryAddress, r.arm9RamAddress, r.arm7EntryAddress, r.arm7RamAddress, r.arm9CodeSettingsPointerAddress,
      r.arm7CodeSettingsPointerAddress, r.debugRomAddress]
  settings : [r'.normalCardControlRegisterSettings, r'.secureCardControlRegisterSettings, r'.secureAreaChecksum,
      r'.secureTransferDelay] =
    [r.normalCardControlRegisterSettings, r.secureCardControlRegisterSettings, r.secureAreaChecksum,
      r.secureTransferDelay]
  pad088 : r'.pad088 = r.pad088
  nintendoLogo : r'.nintendoLogo = r.nintendoLogo
  pad16C : r'.pad16C = r.pad16C

/-- What is left of a text in a field of `n` bytes when zeros at its end do not count: `t` has no zero at its end, and is
the first `n` bytes of the text up to zeros. -/
def Kept (n : Nat) (text t : Bytes) : Prop :=
  t.getLast? ≠ some 0 ∧ ∃ k, text.take n = t ++ List.replicate k 0

end Verif.Spec.RomHeader
