import Verif.Model.Code
import Verif.Model.Rom

/-!
# Model of the code accessors of `ndspy/rom.py` (567–602)
-/

namespace Verif.Model.RomCode

open Verif Verif.Model.Rom Verif.Model.Code

/-- `loadArm9` (rom.py 567–574). -/
def loadArm9 (r : Rom) : Py MainCodeFile :=
  MainCodeFile.load r.arm9 r.arm9RamAddress (some r.arm9CodeSettingsPointerAddress)

/-- `loadArm7` (rom.py 577–584). -/
def loadArm7 (r : Rom) : Py MainCodeFile :=
  MainCodeFile.load r.arm7 r.arm7RamAddress (some r.arm7CodeSettingsPointerAddress)

/-- The callback of the overlay loaders (rom.py 591–592, 600–601).  IDs read from a table are not negative. -/
def fileOf (r : Rom) (_ fileID : Nat) : Py Bytes := pyIdx r.files fileID

/-- `loadArm9Overlays` (rom.py 587–593). -/
def loadArm9Overlays (r : Rom) (idsToLoad : Option (Nat → Bool)) : Py (List (Nat × Overlay)) :=
  loadOverlayTable r.arm9OverlayTable (fileOf r) idsToLoad

/-- `loadArm7Overlays` (rom.py 596–602). -/
def loadArm7Overlays (r : Rom) (idsToLoad : Option (Nat → Bool)) : Py (List (Nat × Overlay)) :=
  loadOverlayTable r.arm7OverlayTable (fileOf r) idsToLoad

end Verif.Model.RomCode
