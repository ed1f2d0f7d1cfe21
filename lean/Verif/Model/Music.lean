import Verif.Model.SoundSequence
import Verif.Model.SoundBank
import Verif.Base.Dict
import Verif.Base.Sort

/-!
# Model of `ndspy/extras/music.py`

An event object is its identity together with its contents; objects are compared by identity (the event classes
define no `__eq__`).  Assigning an attribute of an object changes every list entry that holds the object.  Functions
that create objects are given identities for them.  Indices that the functions take are natural numbers unless
stated otherwise.

The values of mono/poly events are the members of their enumeration (the constructor converts numbers to members);
the member `MONO` is 1 and `POLY` is 0.

In `minifyByEvents` and the velocity functions no event occurs twice, and note definitions are not shared between
instruments nor used twice in one instrument, and no wave archive object is given twice.  Waves may be of any type.  The
order in which Python iterates over a set matters only when two pairs of wave archive and wave number have the same
sort key, which takes wave numbers above 99999998.

Not modelled here: `minifyBySseq`, `minifyBySseqs` and `SSEQMusic.minify` (`Model/MusicSong.lean`), `SSEQMusic.loop`
(one `Track.loop` per track), `moveTo` (it only raises), velocity factors that are not integers, `__str__`,
`__repr__`.
-/

namespace Verif.Model.Music

open Verif Verif.Model.SoundSequence Verif.Model.SoundBank

/-- An event object: identity and contents. -/
abbrev Obj := Nat × Ev

/-- Assigning an attribute of the object `id` in place. -/
def assign (events : List Obj) (id : Nat) (ev : Ev) : List Obj :=
  events.map fun o => if o.1 = id then (id, ev) else o

/-- `list.insert(index, item)` with a non-negative index. -/
def insertAt {α : Type _} (l : List α) (i : Nat) (x : α) : List α := l.take i ++ x :: l.drop i

/-- `MonoPolySequenceEvent.Value.MONO` (music.py 8). -/
def MONO : Int := 1

/-! ## Durations and moving in time -/

/-- `durationOfEvent(event)` within `durationOf` (music.py 204–213): the duration and the mode afterwards. -/
def durationOfEvent (e : Ev) (mode : Int) : Int × Int :=
  match e with
  | .rest duration => (duration, mode)
  | .note _ _ _ duration => if mode = MONO then (duration, mode) else (0, mode)
  | .monoPoly value => (0, value)
  | _ => (0, mode)

/-- `durationOf(events, initialMonoPolyMode)` (music.py 194–215). -/
def durationOf : List Ev → Int → Int
  | [], _ => 0
  | e :: es, mode => (durationOfEvent e mode).1 + durationOf es (durationOfEvent e mode).2

/-- The update of the mode in the loop of `moveInTime` (music.py 277–278). -/
def stepMode (e : Ev) (mode : Int) : Int :=
  match e with
  | .monoPoly value => value
  | _ => mode

/-- The loop of `moveInTime` and what follows it (music.py 271–311).  `remaining` holds the events from `idx` on. -/
def moveLoop (events : List Obj) (fresh : Nat) (target : Int) (cut append : Bool) :
    List Obj → Nat → Int → Int → List Obj × Nat × Int × Int
  | [], _, elapsed, mode =>
    if append = true then (events ++ [(fresh, .rest (target - elapsed))], events.length + 1, target, mode)
    else (events, events.length, elapsed, mode)
  | e :: remaining, idx, elapsed, mode =>
    if elapsed + durationOf [e.2] mode = target then
      (events, idx + 1, elapsed + durationOf [e.2] mode, stepMode e.2 mode)
    else if elapsed + durationOf [e.2] mode ≥ target then
      match e.2, cut with
      | .rest full, true =>
        (insertAt (assign events e.1 (.rest (target - elapsed))) (idx + 1) (fresh, .rest (full - (target - elapsed))),
          idx + 1, target, stepMode e.2 mode)
      | _, _ => (events, idx, elapsed, stepMode e.2 mode)
    else moveLoop events fresh target cut append remaining (idx + 1) (elapsed + durationOf [e.2] mode)
      (stepMode e.2 mode)

/-- `moveInTime(events, startIndex, time, initialMonoPolyMode, cut, append)` (music.py 218–311): the list afterwards
and the three results.  `fresh` is the identity of the rest it may create. -/
def moveInTime (events : List Obj) (startIndex : Nat) (time mode : Int) (cut append : Bool) (fresh : Nat) :
    Py (List Obj × Nat × Int × Int) :=
  if time < 0 then .error .valueError
  else if time = 0 then .ok (events, startIndex, 0, mode)
  else if startIndex > events.length then .error .valueError
  else .ok (moveLoop events fresh time cut append (events.drop startIndex) startIndex 0 mode)

/-! ## Simultaneous edits -/

/-- A call on the list that `SimultaneousEventsModifier` hands out (music.py 360–375). -/
inductive Edit (α : Type) where
  | insert (index : Int) (item : α)
  | set (index : Int) (item : α)
  | del (index : Int)
  deriving DecidableEq, Repr

/-- The index a call mentions. -/
def Edit.index {α : Type} : Edit α → Int
  | .insert i _ => i
  | .set i _ => i
  | .del i => i

/-- What the log holds for an index (music.py 358–375). -/
structure Entry (α : Type) where
  additions : List α
  replace : Option α
  delete : Bool
  deriving DecidableEq, Repr

/-- One logged call (music.py 360–375). -/
def record {α : Type} (log : List (Int × Entry α)) (e : Edit α) : List (Int × Entry α) :=
  let old := (log.lookup e.index).getD ⟨[], none, false⟩
  dictSet log e.index (match e with
    | .insert _ item => { old with additions := old.additions ++ [item] }
    | .set _ item => { old with replace := some item }
    | .del _ => { old with delete := true })

/-- Insertion into a decreasing list. -/
def insertDesc (a : Int) : List Int → List Int
  | [] => [a]
  | b :: l => if a ≥ b then a :: b :: l else b :: insertDesc a l

/-- `reversed(sorted(l))`. -/
def sortDesc : List Int → List Int
  | [] => []
  | a :: l => insertDesc a (sortDesc l)

/-- The position a Python index denotes when it is used for an insertion. -/
def insertPos (len : Nat) (i : Int) : Nat := if i < 0 then (i + len).toNat else min i.toNat len

/-- The position a Python index denotes when it is used for an assignment or deletion. -/
def itemPos (len : Nat) (i : Int) : Py Nat :=
  if 0 ≤ i ∧ i < len then .ok i.toNat
  else if i < 0 ∧ 0 ≤ i + len then .ok (i + len).toNat
  else .error .indexError

/-- Applying the entry of one index (music.py 385–391). -/
def applyEntry {α : Type} (events : List α) (idx : Int) (e : Entry α) : Py (List α) := do
  let events ← match e.replace, e.delete with
    | some item, _ => do
      let p ← itemPos events.length idx
      pure (events.set p item)
    | none, true => do
      let p ← itemPos events.length idx
      pure (events.eraseIdx p)
    | none, false => pure events
  return e.additions.reverse.foldl (fun ev x => insertAt ev (insertPos ev.length idx) x) events

/-- The loop on leaving the context (music.py 381–391). -/
def applyLog {α : Type} (log : List (Int × Entry α)) : List Int → List α → Py (List α)
  | [], events => .ok events
  | idx :: rest, events => do
    match log.lookup idx with
    | none => .error .keyError
    | some e => do
      let events ← applyEntry events idx e
      applyLog log rest events

/-- `with SimultaneousEventsModifier(events) as mod:` followed by calls of `mod.insert`, `mod[...] = ...` and
`del mod[...]` (music.py 327–391): the list after leaving the context. -/
def modifyEvents {α : Type} (events : List α) (edits : List (Edit α)) : Py (List α) :=
  let log := edits.foldl record []
  applyLog log (sortDesc (log.map (·.1))) events

/-! ## Tracks -/

/-- `SSEQMusic.Track(events)` (music.py 415–419). -/
def trackInit (events : List Obj) : List Obj :=
  match events.getLast? with
  | some (_, .endTrack) => events.dropLast
  | _ => events

/-- `Track.looped` (music.py 422–425). -/
def looped (events : List Obj) : Bool :=
  events.any fun o => match o.2 with
    | .jump _ => true
    | _ => false

/-- `Track.loop(start, end, clearTrailing)` (music.py 428–461).  `f1` and `f2` are the identities of rests that may be
created, `f3` that of the jump.  What is left of the track if it raises is `loopLeft`. -/
def trackLoop (events : List Obj) (start stop : Int) (clearTrailing : Bool) (f1 f2 f3 : Nat) : Py (List Obj) := do
  raiseIf (looped events = true) .runtimeError
  let r ← moveInTime events 0 start MONO true true f1
  raiseIf (r.2.2.1 ≠ start) .runtimeError
  let s ← moveInTime r.1 0 stop MONO true true f2
  raiseIf (s.2.2.1 ≠ stop) .runtimeError
  match s.1[r.2.1]? with
  | none => .error .indexError
  | some jumpTarget =>
    let events := insertAt s.1 s.2.1 (f3, .jump jumpTarget.1)
    return if clearTrailing = true then events.take (s.2.1 + 1) else events

/-- The events of the track after `Track.loop` has raised (music.py 428–461): rests may have been cut or added. -/
def loopLeft (events : List Obj) (start stop : Int) (f1 f2 : Nat) : List Obj :=
  if looped events = true then events
  else
    match moveInTime events 0 start MONO true true f1 with
    | .error _ => events
    | .ok r =>
      if r.2.2.1 ≠ start then r.1
      else
        match moveInTime r.1 0 stop MONO true true f2 with
        | .error _ => r.1
        | .ok s => s.1

/-- `SSEQMusic.loop(start, end, clearTrailing)` (music.py 719–728) on the dictionary of tracks: the outcome, and the tracks
afterwards, also if it raises.  No event belongs to two tracks, and each track object is there once.  The objects
created get the identities from `fresh` on. -/
def songLoop (start stop : Int) (clearTrailing : Bool) :
    List (Nat × List Obj) → Nat → Py Unit × List (Nat × List Obj)
  | [], _ => (.ok (), [])
  | (n, events) :: ts, fresh =>
    match trackLoop events start stop clearTrailing fresh (fresh + 1) (fresh + 2) with
    | .error e => (.error e, (n, loopLeft events start stop fresh (fresh + 1)) :: ts)
    | .ok events' =>
      let r := songLoop start stop clearTrailing ts (fresh + 3)
      (r.1, (n, events') :: r.2)

/-- One step of `_modifyNoteVelocities` for a function given by its result (music.py 468–476). -/
def newVelocity (v : Int) (clamp : Bool) : Py Int :=
  if 0 ≤ v ∧ v ≤ 127 then .ok v
  else if clamp = true then .ok (min (max v 0) 127)
  else .error .valueError

/-- `_modifyNoteVelocities(func, clamp)` (music.py 464–476), for lists without repeated objects. -/
def modifyVelocities (events : List Obj) (f : Int → Int) (clamp : Bool) : Py (List Obj) :=
  mapE (fun o => match o.2 with
    | .note pitch velocity flag duration => do
      let v ← newVelocity (f velocity) clamp
      return (o.1, Ev.note pitch v flag duration)
    | _ => .ok o) events

/-- `addToNoteVelocities(amount, clamp)` (music.py 479–482). -/
def addToNoteVelocities (events : List Obj) (amount : Int) (clamp : Bool) : Py (List Obj) :=
  modifyVelocities events (fun v => v + amount) clamp

/-- `multiplyNoteVelocitiesBy(factor, clamp)` (music.py 485–488) for an integer factor. -/
def multiplyNoteVelocitiesBy (events : List Obj) (factor : Int) (clamp : Bool) : Py (List Obj) :=
  modifyVelocities events (fun v => v * factor) clamp

/-- The event classes that have an `initial…` property (music.py 541–640). -/
inductive Control where
  | instrument
  | simple (kind : Simple)
  | monoPoly
  | tempo
  deriving DecidableEq, Repr

/-- The value of an initial setting: a bank and an instrument, or a number. -/
inductive Value where
  | inst (bankID instrumentID : Nat)
  | num (value : Int)
  deriving DecidableEq, Repr

/-- The value an event of the class holds (music.py 505–508); `none` for other events. -/
def valueOf (c : Control) (e : Ev) : Option Value :=
  match c, e with
  | .instrument, .instrumentSwitch b i => some (.inst b i)
  | .simple k, .simple k' v => if k = k' then some (.num v) else none
  | .monoPoly, .monoPoly v => some (.num v)
  | .tempo, .tempo v => some (.num v)
  | _, _ => none

/-- An event of the class with the given value; `none` if the value is of the wrong kind. -/
def eventOf (c : Control) (v : Value) : Option Ev :=
  match c, v with
  | .instrument, .inst b i => some (.instrumentSwitch b i)
  | .simple k, .num v => some (.simple k v)
  | .monoPoly, .num v => some (.monoPoly v)
  | .tempo, .num v => some (.tempo v)
  | _, _ => none

/-- Is the event a note or a rest (music.py 498–499)? -/
def isTimed (e : Ev) : Bool :=
  match e with
  | .note _ _ _ _ => true
  | .rest _ => true
  | _ => false

/-- `_findControlEventAtBeginning(type)` (music.py 494–500). -/
def findControl (c : Control) : List Obj → Option Obj
  | [] => none
  | o :: os =>
    if (valueOf c o.2).isSome = true then some o
    else if isTimed o.2 = true then none
    else findControl c os

/-- `_handleInitialValueGet` (music.py 502–508). -/
def initialGet (c : Control) (events : List Obj) : Option Value :=
  match findControl c events with
  | none => none
  | some o => valueOf c o.2

/-- `self.events.remove(event)`: the first entry that holds the object. -/
def removeObj (id : Nat) : List Obj → List Obj
  | [] => []
  | o :: os => if o.1 = id then os else o :: removeObj id os

/-- `_handleInitialValueSet` (music.py 510–539).  A number where a pair is expected raises `TypeError` (unpacking it).  A
pair where a number is expected would be stored as it is; such calls are left out, and the model has `TypeError` in
their place.  The constructor of mono/poly events accepts only 0 and 1 (soundSequence.py 810), an existing event any
value; the numbers stand for the members of the enumeration as well. -/
def initialSet (c : Control) (events : List Obj) (value : Option Value) (fresh : Nat) : Py (List Obj) :=
  match findControl c events, value with
  | none, none => .ok events
  | none, some v =>
    match eventOf c v with
    | none => .error .typeError
    | some e =>
      if c = .monoPoly ∧ v ≠ .num 0 ∧ v ≠ .num 1 then .error .valueError
      else .ok ((fresh, e) :: events)
  | some o, none => .ok (removeObj o.1 events)
  | some o, some v =>
    match eventOf c v with
    | none => .error .typeError
    | some e => .ok (assign events o.1 e)

/-! ## Whole sequences -/

/-- The track beginnings from an index on, up to the first other event (music.py 679–684): track number and first
event.  Running off the end of the list raises. -/
def begins : List Obj → Py (List (Nat × Nat))
  | [] => .error .indexError
  | (_, .beginTrack n first) :: es => do
    let r ← begins es
    return (n.toNat, first) :: r
  | _ :: _ => .ok []

/-- The events of the track that starts with the first event of the list (music.py 693–699, 707–713). -/
def trackFrom (starts : List Nat) : List Obj → List Obj
  | [] => []
  | o :: os => o :: os.takeWhile fun p => !(starts.contains p.1)

/-- `events[events.index(first):]`, raising if the event is not in the list (music.py 706). -/
def fromEvent (first : Nat) : List Obj → Py (List Obj)
  | [] => .error .valueError
  | o :: os => if o.1 = first then .ok (o :: os) else fromEvent first os

/-- The loop creating the tracks that have a beginning event (music.py 701–714). -/
def beginTracks (events : List Obj) (starts : List Nat) :
    List (Nat × Nat) → List (Nat × List Obj) → Py (List (Nat × List Obj))
  | [], tracks => .ok tracks
  | (n, first) :: bs, tracks => do
    let rest ← fromEvent first events
    beginTracks events starts bs (dictSet tracks n (trackInit (trackFrom starts rest)))

/-- `SSEQMusic(sseq, sbnk, swars)` for a parsed sequence (music.py 655–717): the dictionary of tracks.  `swars` is `none`
for `None`, which is not iterable.  Track numbers are non-negative. -/
def musicInit {σ : Type} (events : List Obj) (swars : Option σ) : Py (List (Nat × List Obj)) :=
  match swars with
  | none => .error .typeError
  | some _ =>
    match events with
    | [] => .error .indexError
    | (_, .defineTracks numbers) :: rest => do
      let bs ← begins rest
      let starts := bs.map (·.2)
      let tracks := if numbers.contains 0 = true then
          [(0, trackInit (trackFrom starts (rest.drop bs.length)))]
        else []
      beginTracks events starts bs tracks
    | _ :: _ => .ok [(0, trackInit events)]

/-- Does the list end with an event that ends a track (music.py 777–780, 801–804)? -/
def ended (events : List Obj) : Bool :=
  match events.getLast? with
  | some (_, .endTrack) => true
  | some (_, .jump _) => true
  | _ => false

/-- The loop over the tracks in `SSEQMusic.save` (music.py 790–805): beginning and contents.  The objects created for
the tracks get the identities from `fresh` on. -/
def saveTracks : List (Nat × List Obj) → Nat → List Obj × List Obj
  | [], _ => ([], [])
  | (n, events) :: ts, fresh =>
    if events = [] then saveTracks ts fresh
    else
      let r := saveTracks ts (fresh + 2)
      ((if n ≠ 0 then
          match events.head? with
          | some o => [(fresh, Ev.beginTrack n o.1)]
          | none => []
        else []) ++ r.1,
        events ++ (if ended events = true then [] else [(fresh + 1, Ev.endTrack)]) ++ r.2)

/-- `SSEQMusic.save()` (music.py 765–809): the events of the sequence. -/
def musicSave (tracks : List (Nat × List Obj)) (fresh : Nat) : Py (List Obj) :=
  match tracks with
  | [(0, events)] =>
    if events = [] then .error .indexError
    else .ok (events ++ if ended events = true then [] else [(fresh, .endTrack)])
  | _ =>
    let sorted := sortBy (·.1) tracks
    let r := saveTracks sorted (fresh + 1)
    .ok ((fresh, .defineTracks (sorted.map (·.1))) :: r.1 ++ r.2)

/-- `SSEQMusic.collapseTrackIDs()` (music.py 751–762). -/
def collapseTrackIDs (tracks : List (Nat × List Obj)) : List (Nat × List Obj) :=
  (sortBy (·.1) tracks).mapIdx fun i t => (i, t.2)

/-! ## Minification -/

/-- The first loop of `minifyByEvents` (music.py 82–93): the instruments switched to, each with the pitches of the notes
played while it was current. -/
def collect : List Obj → Option Nat → List (Nat × List Int) → List (Nat × List Int)
  | [], _, played => played
  | (_, .instrumentSwitch _ i) :: es, _, played =>
    collect es (some i) (if (played.lookup i).isSome = true then played else dictSet played i [])
  | (_, .note pitch _ _ _) :: es, some i, played =>
    collect es (some i) (dictSet played i ((played.lookup i).getD [] ++ [pitch]))
  | _ :: es, cur, played => collect es cur played

/-- `usedInsts` (music.py 94). -/
def usedInsts (events : List Obj) : List Nat := sortBy id ((collect events none []).map (·.1))

/-- `list.index(item)`. -/
def pyIndex {α : Type _} [DecidableEq α] [BEq α] [LawfulBEq α] (l : List α) (a : α) : Py Nat :=
  if a ∈ l then .ok (l.idxOf a) else .error .valueError

/-- The renumbering of the instrument switch events (music.py 97–99). -/
def renumber (insts : List Nat) (o : Obj) : Py Obj :=
  match o.2 with
  | .instrumentSwitch b i => do
    let n ← pyIndex insts i
    return (o.1, .instrumentSwitch b n)
  | _ => .ok o

/-- The wave archive and wave of a definition. -/
def waveKey (d : Note) : Nat × Nat := (d.waveArchiveIDID, d.waveID)

/-- The waves of the regions that some note may reach (music.py 116–128). -/
def regionWaves (notes : List Int) : Nat → List (Nat × Note) → List (Nat × Nat)
  | _, [] => []
  | low, (last, d) :: rs =>
    if (List.range' low (last + 1 - low)).any (fun i => notes.contains (i : Int)) = true then
      waveKey d :: regionWaves notes (last + 1) rs
    else regionWaves notes low rs

/-- The waves of the definitions whose note is played (music.py 109–115). -/
def rangeWaves (notes : List Int) : Int → List Note → List (Nat × Nat)
  | _, [] => []
  | noteNum, d :: ds =>
    if notes.contains noteNum = true then waveKey d :: rangeWaves notes (noteNum + 1) ds
    else rangeWaves notes (noteNum + 1) ds

/-- The waves one instrument uses (music.py 107–128). -/
def kindWaves (notes : List Int) : Kind → List (Nat × Nat)
  | .single d => [waveKey d]
  | .range firstPitch ds => rangeWaves notes firstPitch ds
  | .regional rs => regionWaves notes 0 rs

/-- The sort key of a wave (music.py 129). -/
def sortKey (e : Nat × Nat) : Nat := e.1 * 99999999 + e.2

/-- Adding the elements to a set. -/
def setOf {α : Type _} [DecidableEq α] (l : List α) : List α := l.foldl (fun s a => if a ∈ s then s else s ++ [a]) []

/-- `usedWaves` (music.py 105–129). -/
def usedWaves (insts : List (Option Inst)) (notes : List (List Int)) : List (Nat × Nat) :=
  sortBy sortKey (setOf ((insts.zip notes).flatMap fun p =>
    match p.1 with
    | some inst => kindWaves p.2 inst.kind
    | none => []))

/-- The new waves of one archive (music.py 132–136). -/
def newWaves {W : Type} (used : List (Nat × Nat)) (swarNum : Nat) (waves : List W) : Py (List W) :=
  mapE (fun e => pyIdx waves e.2) (used.filter fun e => e.1 = swarNum)

/-- The new number of a definition's wave (music.py 140–141, 146–147, 155–157); definitions whose wave is not used stay
as they are. -/
def remap (used : List (Nat × Nat)) (d : Note) : Note :=
  if waveKey d ∈ used then { d with waveID := used.idxOf (waveKey d) } else d

/-- `inst.regions[-1].lastPitch = 127` if there are regions (music.py 162–163). -/
def lastTo127 : List (Nat × Note) → List (Nat × Note)
  | [] => []
  | [r] => [(127, r.2)]
  | r :: r' :: rs => r :: lastTo127 (r' :: rs)

/-- The rewriting of one instrument (music.py 138–163).  The dummy definition is the first one, which by then has been
renumbered if its wave is used. -/
def minifyKind (used : List (Nat × Nat)) : Kind → Py Kind
  | .single d => do
    let n ← pyIndex used (waveKey d)
    return .single { d with waveID := n }
  | .range firstPitch ds =>
    match ds with
    | [] => .error .indexError
    | dummy :: _ => .ok (.range firstPitch (ds.map fun d => if waveKey d ∈ used then remap used d else remap used dummy))
  | .regional rs =>
    .ok (.regional (lastTo127 ((rs.filter fun r => waveKey r.2 ∈ used).map fun r => (r.1, remap used r.2))))

/-- The rewriting of one entry of the bank (music.py 138–163). -/
def minifyInst (used : List (Nat × Nat)) (i : Option Inst) : Py (Option Inst) :=
  match i with
  | none => .ok none
  | some inst => do
    let k ← minifyKind used inst.kind
    return some { inst with kind := k }

/-- `minifyByEvents(events, sbnk, swars)` (music.py 13–163): the events, the instruments of the bank and the waves of the
archives afterwards.  (The inaccessible instruments are removed.)  `None` for `swars` is not iterable. -/
def minify {W : Type} (events : List Obj) (insts : List (Option Inst)) (swars : Option (List (List W))) :
    Py (List Obj × List (Option Inst) × List (List W)) := do
  let used := usedInsts events
  let newInsts ← mapE (fun n => pyIdx insts n) used
  let notes := used.map fun n => ((collect events none []).lookup n).getD []
  let newEvents ← mapE (renumber used) events
  let waves := usedWaves newInsts notes
  match swars with
  | none => .error .typeError
  | some swars => do
    let newSwars ← mapE (fun p : List W × Nat => newWaves waves p.2 p.1) swars.zipIdx
    let finalInsts ← mapE (minifyInst waves) newInsts
    return (newEvents, finalInsts, newSwars)

end Verif.Model.Music
