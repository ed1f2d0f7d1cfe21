import Verif.Model.Music

/-!
# What the music functions are about, stated apart from their code

Only the types of events, edits, note definitions and instruments come from the model.
-/

namespace Verif.Spec.Music

open Verif.Model.SoundSequence Verif.Model.SoundBank Verif.Model.Music

/-! ## Time -/

/-- The time an event takes: a rest takes its duration, a note takes its duration in mono mode (1) and none in poly mode,
everything else takes none. -/
def len (mode : Int) : Ev → Int
  | .rest d => d
  | .note _ _ _ d => if mode = 1 then d else 0
  | _ => 0

/-- The value of a mono/poly event. -/
def modeValue : Ev → Option Int
  | .monoPoly v => some v
  | _ => none

/-- The mode after some events: the value of the last mono/poly event, or the mode before. -/
def modeAfter (events : List Ev) (mode : Int) : Int := (events.filterMap modeValue).getLast?.getD mode

/-- The time some events take: each takes the time it takes in the mode left by the events before it. -/
def total (events : List Ev) (mode : Int) : Int :=
  ((List.range events.length).map fun i =>
    match events[i]? with
    | some e => len (modeAfter (events.take i) mode) e
    | none => 0).sum

/-- Is the event a rest? -/
def isRest : Ev → Bool
  | .rest _ => true
  | _ => false

/-- What a list of events amounts to when rests are only seen as time: the other events with the times at which they
happen. -/
def onsets {ι : Type} (events : List (ι × Ev)) (mode : Int) : List (Int × ι × Ev) :=
  (List.range events.length).filterMap fun i =>
    (events[i]?).bind fun o =>
      if isRest o.2 = true then none else some (total ((events.take i).map (·.2)) mode, o)

/-- Does a note sound across the moment `t`, so that the track cannot be divided there? -/
def Across (events : List Ev) (mode t : Int) : Prop :=
  ∃ i p v f d, events[i]? = some (.note p v f d) ∧ modeAfter (events.take i) mode = 1 ∧
    total (events.take i) mode < t ∧ t < total (events.take i) mode + d

/-- Can a track be looped between two moments: it has no jump, and no note sounds across either moment? -/
def Loopable (events : List Obj) (start stop : Int) : Prop :=
  (∀ o ∈ events, ∀ d, o.2 ≠ .jump d) ∧ ¬ Across (events.map (·.2)) 1 start ∧ ¬ Across (events.map (·.2)) 1 stop

/-- `events'` is `events` with a loop: after exactly the time `stop` comes a jump to an event before which exactly the time
`start` passes.  What followed the end is still there or cleared.  Apart from that only rests differ, and no other event
has a different time. -/
def Repeats (events events' : List Obj) (start stop : Int) (clear : Bool) : Prop :=
  ∃ before after tail target ev jump,
    events' = before ++ (target, ev) :: after ++ (jump, .jump target) :: (if clear = true then [] else tail) ∧
    total (before.map (·.2)) 1 = start ∧ total ((before ++ (target, ev) :: after).map (·.2)) 1 = stop ∧
    onsets (before ++ (target, ev) :: after ++ tail) 1 = onsets events 1

/-- What a song is required to be: the events of a track are different objects that take no negative time, and the objects
created are new. -/
def Song (tracks : List (Nat × List Obj)) (fresh : Nat) : Prop :=
  ∀ t ∈ tracks, (t.2.map (·.1)).Nodup ∧ (∀ o ∈ t.2, o.1 < fresh) ∧ ∀ o ∈ t.2, ∀ m, 0 ≤ len m o.2

/-! ## What a sequence plays -/

/-- The definition an instrument uses for a pitch: the only one; the one at the pitch's place in the range; the first
region whose last pitch is not below the pitch. -/
def definitionFor (k : Kind) (pitch : Int) : Option Note :=
  match k with
  | .single d => some d
  | .range first ds => if (first : Int) ≤ pitch then ds[(pitch - first).toNat]? else none
  | .regional rs => (rs.find? fun r => decide (pitch ≤ r.1)).map (·.2)

/-- What a definition sounds like: its settings apart from the wave number, and the wave itself; definitions that are not
of the PCM type (1) make their sound from the number. -/
def soundOf {W : Type} (d : Note) (archives : List (List W)) : Note × (Option W ⊕ Nat) :=
  ({ d with waveID := 0 },
    if d.type = 1 then .inl (archives[d.waveArchiveIDID]?.bind fun ws => ws[d.waveID]?) else .inr d.waveID)

/-- The instrument an event switches to. -/
def switchedTo : Ev → Option Nat
  | .instrumentSwitch _ n => some n
  | _ => none

/-- The pitch of a note. -/
def pitchOf : Ev → Option Int
  | .note p _ _ _ => some p
  | _ => none

/-- What a pitch sounds like with an instrument of a bank; `none` if there is no such instrument or it has no definition
for the pitch. -/
def sound {W : Type} (insts : List (Option Inst)) (archives : List (List W)) (n : Nat) (pitch : Int) :
    Option (Note × (Option W ⊕ Nat)) :=
  ((insts[n]?).join.bind fun inst => definitionFor inst.kind pitch).map fun d => soundOf d archives

/-- The notes of some events, each with the instrument switched to last before it and its pitch; notes before the first
switch are left out. -/
def plays (events : List Ev) : List (Ev × Nat × Int) :=
  (List.range events.length).filterMap fun i =>
    (events[i]?).bind fun e => (pitchOf e).bind fun p =>
      ((events.take i).filterMap switchedTo).getLast?.map fun n => (e, n, p)

/-- What the notes of some events sound like. -/
def heard {W : Type} (events : List Ev) (insts : List (Option Inst)) (archives : List (List W)) :
    List (Ev × Option (Note × (Option W ⊕ Nat))) :=
  (plays events).map fun x => (x.1, sound insts archives x.2.1 x.2.2)

/-- The definitions that the notes of some events use. -/
def used (events : List Ev) (insts : List (Option Inst)) : List (Ev × Option Note) :=
  (plays events).map fun x => (x.1, (insts[x.2.1]?).join.bind fun inst => definitionFor inst.kind x.2.2)

/-- The archives and numbers of the waves needed: those of the only definition of an instrument switched to, and those of
definitions that notes use. -/
def Needed (events : List Ev) (insts : List (Option Inst)) (wave : Nat × Nat) : Prop :=
  ∃ n ∈ events.filterMap switchedTo, ∃ inst, insts[n]? = some (some inst) ∧
    ∃ d, (inst.kind = .single d ∨ ∃ e p, (e, n, p) ∈ plays events ∧ 0 ≤ p ∧ definitionFor inst.kind p = some d) ∧
      wave = (d.waveArchiveIDID, d.waveID)

/-- The definitions of an instrument. -/
def definitions : Kind → List Note
  | .single d => [d]
  | .range _ ds => ds
  | .regional rs => rs.map (·.2)

/-! ## Simultaneous edits -/

/-- The items inserted at an index, in the order of the requests. -/
def insertedAt {α : Type} (edits : List (Edit α)) (i : Int) : List α :=
  edits.filterMap fun e => match e with
    | .insert j x => if j = i then some x else none
    | _ => none

/-- The last item put at an index. -/
def putAt {α : Type} (edits : List (Edit α)) (i : Int) : Option α :=
  (edits.filterMap fun e => match e with
    | .set j x => if j = i then some x else none
    | _ => none).getLast?

/-- Was the deletion of an index requested? -/
def deletedAt {α : Type} (edits : List (Edit α)) (i : Int) : Bool :=
  edits.any fun e => match e with
    | .del j => j = i
    | _ => false

/-- What the result holds for position `i` of the original. -/
def piece {α : Type} (events : List α) (edits : List (Edit α)) (i : Nat) : List α :=
  insertedAt edits i ++ (match putAt edits i with
    | some x => [x]
    | none => if deletedAt edits i = true then [] else (events[i]?).toList)

end Verif.Spec.Music
