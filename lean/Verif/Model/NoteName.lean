import Verif.Base.Str

/-!
# Model of `noteName` of `ndspy/_common.py` (69–83)
-/

namespace Verif.Model.NoteName

open Verif

/-- The first loop (_common.py 76–78): the accents and the note after it. -/
def raised : Nat → Int → Str → Str × Int
  | 0, note, accents => (accents, note)
  | fuel + 1, note, accents => if 0 ≤ note then raised fuel (note - 12) (accents ++ [0x27]) else (accents, note)

/-- The second loop (_common.py 79–81). -/
def lower : Nat → Int → Str → Str × Int
  | 0, note, accents => (accents, note)
  | fuel + 1, note, accents => if note < -24 then lower fuel (note + 12) (accents ++ [0x375]) else (accents, note)

/-- `'ccddeffggaab'`. -/
def letters : Str := [99, 99, 100, 100, 101, 102, 102, 103, 103, 97, 97, 98]

/-- `' ♯ ♯  ♯ ♯ ♯ '`, every element stripped. -/
def sharps : List Str := [[], [0x266F], [], [0x266F], [], [], [0x266F], [], [0x266F], [], [0x266F], []]

/-- `noteName(value)` (_common.py 69–83).  The loops run at most `|note| + 1` times.  `note % 12` is never negative. -/
def noteName (value : Int) : Str :=
  let note := value - 60
  let letter := letters[(note % 12).toNat]?.getD 0
  let sharp := sharps[(note % 12).toNat]?.getD []
  let letter := if note < -12 then letter - 32 else letter
  let r := raised (note.natAbs + 1) note []
  let r := lower (r.2.natAbs + 1) r.2 r.1
  [letter] ++ sharp ++ r.1

end Verif.Model.NoteName
