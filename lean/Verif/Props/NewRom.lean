import Verif.Props.FormatRom

/-!
# New ROMs (C140)
-/

namespace Verif.Props.NewRom

open Verif Verif.Model.Rom Verif.Spec.Reader Verif.Spec.FormatRom

/-- `n` bytes at `o` that are zero. -/
def Clear (d : Bytes) (o n : Nat) : Prop := ∀ i, i < n → u8 d (o + i) = 0

/-- What stands in the header of an image beside the name, the code of the game, the device capacity, the offsets and sizes
of the parts and the checksum of the header.  0xCF56 is the checksum of the logo that consoles compare with. -/
structure Standard (d : Bytes) : Prop where
  maker : Clear d 0x10 4
  settings : Clear d 0x15 11
  arm9Entry : u32 d 0x24 = 0x2000800
  arm9Address : u32 d 0x28 = 0x2000000
  arm7Entry : u32 d 0x34 = 0x2380000
  arm7Address : u32 d 0x38 = 0x2380000
  normalCommands : u32 d 0x60 = 0x416657
  key1Commands : u32 d 0x64 = 0x81808F8
  secureChecksum : u16 d 0x6C = 0
  secureDelay : u16 d 0x6E = 0xD7E
  arm9Autoload : u32 d 0x70 = 0
  arm7Autoload : u32 d 0x74 = 0
  secureDisable : Clear d 0x78 8
  headerSize : u32 d 0x84 = 0x4000
  reserved : Clear d 0x88 0x38
  logoStart : bytesAt d 0xC0 4 = [0x24, 0xFF, 0xAE, 0x51]
  logoChecksum : u16 d 0x15C = 0xCF56
  logo : Model.Util.crc16 (bytesAt d 0xC0 0x9C) = 0xCF56
  headerChecksum : Model.Util.crc16 (bytesAt d 0 0x15E) = u16 d 0x15E
  debugAddress : u32 d 0x168 = 0
  end_ : Clear d 0x16C 0x94

theorem clear_of {d : Bytes} {o n : Nat} (h : bytesAt d o n = List.replicate n 0) : Clear d o n := by
  intro i hi
  rw [← Proofs.Reader.u8_bytesAt d o hi, h]
  unfold u8
  rw [List.getElem?_replicate, if_pos hi]
  rfl

/-- A new ROM that is given a name, code, overlays, files and so on. -/
def given (name idCode arm9 post arm7 ov9 ov7 banner debug rsa pad : Bytes) (names : Model.Fnt.Folder) (files : List Bytes)
    (ids : List Int) : Rom :=
  { new with
    name := name
    idCode := idCode
    arm9 := arm9
    arm9PostData := post
    arm7 := arm7
    arm9OverlayTable := ov9
    arm7OverlayTable := ov7
    iconBanner := banner
    debugRom := debug
    rsaSignature := rsa
    pad200 := pad
    filenames := names
    files := files
    sortedFileIds := ids }

/-- C140: whatever name, code, overlays, banner, file names and files a new ROM is given, the rest of the header of the saved
image is that of a standard ROM. -/
theorem header_standard (name idCode arm9 post arm7 ov9 ov7 banner debug rsa pad : Bytes) (names : Model.Fnt.Folder)
    (files : List Bytes) (ids : List Int) (u : Bool) (b : Bytes) (r' : Rom)
    (h : save (given name idCode arm9 post arm7 ov9 ov7 banner debug rsa pad names files ids) u = .ok (b, r')) :
    Standard b := by
  obtain ⟨hh, -, -, -, -, -, h84, h15c, h15e⟩ := Props.FormatRom.rom_saved_bytes _ _ _ _ h
  obtain ⟨_, _, _, _, _, _, _, _, _, hr'⟩ := Proofs.Rom.save_inv h
  generalize r'.deviceCapacity = c at hr'
  subst hr'
  have hm : Clear b 0x10 2 := clear_of hh.developerCode.symm
  have hl : bytesAt b 0xC0 0x9C = logo := hh.nintendoLogo.symm
  have hcrc : Model.Util.crc16 logo = 0xCF56 := by decide +kernel
  refine ⟨?_, ?_, hh.arm9EntryAddress.symm, hh.arm9RamAddress.symm, hh.arm7EntryAddress.symm, hh.arm7RamAddress.symm,
    hh.normal.symm, hh.secure.symm, hh.secureAreaChecksum.symm, hh.secureTransferDelay.symm,
    hh.arm9CodeSettings.symm, hh.arm7CodeSettings.symm, clear_of ?_, h84,
    clear_of hh.pad088.symm, ?_, ?_, ?_, h15e.symm, hh.debugRomAddress.symm, clear_of hh.pad16C.symm⟩
  · intro i hi
    have h2 := hh.unitCode
    have h3 := hh.encryptionSeedSelect
    match i with
    | 0 => exact hm 0 (by omega)
    | 1 => exact hm 1 (by omega)
    | 2 => exact h2.symm
    | 3 => exact h3.symm
    | n + 4 => omega
  · intro i hi
    match i with
    | 0 => exact hh.pad015.symm
    | 1 => exact hh.pad016.symm
    | 2 => exact hh.pad017.symm
    | 3 => exact hh.pad018.symm
    | 4 => exact hh.pad019.symm
    | 5 => exact hh.pad01A.symm
    | 6 => exact hh.pad01B.symm
    | 7 => exact hh.pad01C.symm
    | 8 => exact hh.region.symm
    | 9 => exact hh.version.symm
    | 10 => exact hh.autostart.symm
    | n + 11 => omega
  · rw [hh.secureAreaDisable]
    rfl
  · have : bytesAt b 0xC0 4 = (bytesAt b 0xC0 0x9C).take 4 := by
      unfold bytesAt
      rw [List.take_take]
      rfl
    rw [this, hl]
    decide +kernel
  · rw [h15c, hl, hcrc]
  · rw [hl, hcrc]

theorem given_nothing : given [] [35, 35, 35, 35] [] [] [] [] [] [] [] [] (zeros 0x3E00) (.mk .nil [] 0) [] [] = new := rfl

/-- C140: a new ROM can be saved as it is.  The header of the image has no name and the code `####`, and all parts that it
points at are empty. -/
theorem new_saved : ∃ b, save new false = .ok (b, new) ∧ Standard b ∧ Clear b 0 12 ∧ bytesAt b 0xC 4 = [35, 35, 35, 35] ∧
    u8 b 0x14 = 9 ∧ bytesAt b (u32 b 0x20) (u32 b 0x2C) = [] ∧ bytesAt b (u32 b 0x30) (u32 b 0x3C) = [] ∧
    bytesAt b (u32 b 0x50) (u32 b 0x54) = [] ∧ bytesAt b (u32 b 0x58) (u32 b 0x5C) = [] ∧ (fat b).length < 8 ∧
    nameTable b = [8, 0, 0, 0, 0, 0, 1, 0, 0] := by
  have h := Props.Rom.saves_of (r := new) (ids := []) (fnt := [8, 0, 0, 0, 0, 0, 1, 0, 0]) Props.Rom.overlayIds_nil rfl (by decide +kernel)
    (by decide +kernel) (.inl rfl) (by
      refine ⟨by decide +kernel, by decide +kernel, by decide +kernel, by decide +kernel, by decide +kernel,
        by decide +kernel, by decide +kernel, ?_, ?_, ?_⟩ <;> decide +kernel)
  obtain ⟨-, -, b, r', h⟩ := h
  obtain ⟨_, _, _, _, _, _, _, _, _, hr'⟩ := Proofs.Rom.save_inv h
  have e : r' = new := by rw [hr']; rfl
  subst e
  obtain ⟨hh, hp, hn, -⟩ := Props.FormatRom.rom_saved_bytes _ _ _ _ h
  refine ⟨b, h, ?_, clear_of ?_, hh.idCode.symm, Int.ofNat.inj hh.deviceCapacity.symm, hp.arm9.symm, hp.arm7.symm, hp.arm9OverlayTable.symm,
    hp.arm7OverlayTable.symm, ?_, ?_⟩
  · rw [← given_nothing] at h
    exact header_standard _ _ _ _ _ _ _ _ _ _ _ _ _ _ _ _ _ h
  · rw [hh.name]; rfl
  · have := congrArg List.length hp.files
    rw [List.length_map, List.length_range] at this
    have e0 : new.files.length = 0 := rfl
    omega
  · exact (Except.ok.inj (hn.symm.trans (show _ = Except.ok [8, 0, 0, 0, 0, 0, 1, 0, 0] by decide +kernel)))

/-- A ROM with some code and a file. -/
example : ∃ b, save (given [65] [66, 66, 66, 66] [1, 2] [] [3] [] [] [] [] [] (zeros 0x3E00) (.mk .nil [[97]] 0) [[9]] [0]) false = .ok b := by
  obtain ⟨-, -, b, r', h⟩ := Props.Rom.saves_of
    (r := given [65] [66, 66, 66, 66] [1, 2] [] [3] [] [] [] [] [] (zeros 0x3E00) (.mk .nil [[97]] 0) [[9]] [0]) (ids := [])
    (fnt := [8, 0, 0, 0, 0, 0, 1, 0, 1, 97, 0]) Props.Rom.overlayIds_nil rfl (by decide +kernel)
    (by decide +kernel) (.inl rfl) (by
      refine ⟨by decide +kernel, by decide +kernel, by decide +kernel, by decide +kernel, by decide +kernel,
        by decide +kernel, by decide +kernel, ?_, ?_, ?_⟩ <;> decide +kernel)
  exact ⟨_, h⟩

end Verif.Props.NewRom
