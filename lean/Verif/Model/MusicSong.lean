import Verif.Model.Music
import Verif.Model.SequenceObject

/-!
# Model of the functions of `ndspy/extras/music.py` that minify sequences and songs

They gather events and hand them to `minifyByEvents` (`Model/Music.lean`), which changes the event objects in place: the
events of each sequence or track afterwards are its part of the changed list.  No event belongs to two sequences or
tracks, and no sequence is in the list twice.
-/

namespace Verif.Model.MusicSong

open Verif Verif.Model.SoundSequence Verif.Model.SoundBank Verif.Model.Music Verif.Model.SequenceObject

/-- `minifyBySseq(sseq, sbnk, swars)` (music.py 166–176): the sequence, the instruments and the waves afterwards. -/
def minifyBySseq {W : Type} (sseq : SSEQObj) (insts : List (Option Inst)) (swars : Option (List (List W))) :
    Py (SSEQObj × List (Option Inst) × List (List W)) := do
  let events ← sseq.getEvents
  let r ← minify events insts swars
  return ({ sseq with events := r.1 }, r.2.1, r.2.2)

/-- The generator `events()` of `minifyBySseqs` (music.py 187–190), run to its end: the events, and the sequences
parsed. -/
def gatherEvents (depth : Nat) : List SSEQObj → Py (List Obj × List SSEQObj)
  | [] => .ok ([], [])
  | o :: os => do
    (o.parse depth).1
    let events ← (o.parse depth).2.getEvents
    let r ← gatherEvents depth os
    return (events ++ r.1, (o.parse depth).2 :: r.2)

/-- The events of each sequence are its part of the changed list. -/
def share : List SSEQObj → List Obj → List SSEQObj
  | [], _ => []
  | o :: os, events => { o with events := events.take o.events.length } :: share os (events.drop o.events.length)

/-- `minifyBySseqs(sseqs, sbnk, swars)` (music.py 179–191).  (If it raises, some sequences may have been parsed.) -/
def minifyBySseqs {W : Type} (depth : Nat) (sseqs : List SSEQObj) (insts : List (Option Inst))
    (swars : Option (List (List W))) : Py (List SSEQObj × List (Option Inst) × List (List W)) := do
  let g ← gatherEvents depth sseqs
  let r ← minify g.1 insts swars
  return (share g.2 r.1, r.2.1, r.2.2)

/-- The events of each track are its part of the changed list. -/
def shareTracks : List (Nat × List Obj) → List Obj → List (Nat × List Obj)
  | [], _ => []
  | t :: ts, events => (t.1, events.take t.2.length) :: shareTracks ts (events.drop t.2.length)

/-- `SSEQMusic.minify()` (music.py 731–748): the tracks, the bank and the waves afterwards.  Without a bank nothing
happens. -/
def songMinify {W : Type} (tracks : List (Nat × List Obj)) (sbnk : Option (List (Option Inst)))
    (swars : Option (List (List W))) : Py (List (Nat × List Obj) × Option (List (Option Inst)) × Option (List (List W))) :=
  match sbnk with
  | none => .ok (tracks, none, swars)
  | some insts => do
    let r ← minify (tracks.flatMap (·.2)) insts swars
    return (shareTracks tracks r.1, some r.2.1, some r.2.2)

end Verif.Model.MusicSong
