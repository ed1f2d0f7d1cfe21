import Verif.Model.Code
import Verif.Model.Float
import Verif.Model.Music
import Verif.Model.Rom

/-! # What `save()` leaves behind, also if it raises

Model of ndspy/code.py 383–396, ndspy/rom.py 329–549 and ndspy/extras/music.py 765–809 again, as functions that return what the
call returns or raises together with the object afterwards.  For waves and streams such functions are in Model/Float.lean.
The other classes assign no attribute in `save()`. -/

namespace Verif.Model.SaveState

open Verif Verif.Model.Code Verif.Model.Rom Verif.Model.SoundSequence Verif.Model.Music

/-- `Overlay.save(compress=...)` (code.py 383–396).  `ramSize` is assigned before compressing, which may raise; the other
attributes after it. -/
def saveOverlay (ov : Overlay) (compress : Bool) : Py Bytes × Overlay :=
  let ov := { ov with ramSize := ov.data.length }
  match (if compress then CodeCompression.compress ov.data false else .ok ov.data : Py Bytes) with
  | .error e => (.error e, ov)
  | .ok data => (.ok data, { ov with compressedSize := data.length, flags := setCompressedFlag ov.flags compress })

/-- `NintendoDSRom.save(updateDeviceCapacity=...)` (rom.py 329–549).  The device capacity is assigned (rom.py 460–461)
after everything but the header is packed. -/
def saveRom (r : Rom) (updateDeviceCapacity : Bool) : Py Bytes × Rom :=
  match buildImage r with
  | .error e => (.error e, r)
  | .ok i =>
    let r := if updateDeviceCapacity = true then { r with deviceCapacity := capacity i.1.length } else r
    match header r r.deviceCapacity i.2 with
    | .error e => (.error e, r)
    | .ok h => (.ok (patch i.1 0 h), r)

/-- `SSEQMusic.save()` (music.py 765–809): the events of the sequence afterwards.  They are assigned before the last one is
looked at (music.py 776–780). -/
def saveMusic (tracks : List (Nat × List Obj)) (fresh : Nat) : Py Unit × List Obj :=
  match tracks with
  | [(0, events)] =>
    match events.getLast? with
    | none => (.error .indexError, events)
    | some _ => (.ok (), events ++ if ended events = true then [] else [(fresh, .endTrack)])
  | _ =>
    let sorted := sortBy (·.1) tracks
    let r := saveTracks sorted (fresh + 1)
    (.ok (), (fresh, .defineTracks (sorted.map (·.1))) :: r.1 ++ r.2)

end Verif.Model.SaveState
