import Verif.Spec.Music

/-!
# Playing a sequence

A run follows a track of a sequence: it starts with the first event and goes over to another track when that one is
begun.  What decides at run time (variables, random numbers, how often a loop is repeated) is left open.
-/

namespace Verif.Spec.MusicPlay

open Verif.Model.SoundSequence Verif.Model.SoundBank Verif.Model.Music Verif.Spec.Music

/-- What is remembered while a track is played: the place of the next event, the instrument switched to last, the places
to return to, and the beginnings of the loops. -/
structure State where
  pos : Nat
  inst : Option Nat
  calls : List Nat
  loops : List Nat
  deriving DecidableEq, Repr

/-- Before a track's first event. -/
def begun (pos : Nat) : State := ⟨pos, none, [], []⟩

/-- Events with no say in which event is next or which instrument is used. -/
def passes : Ev → Bool
  | .instrumentSwitch _ _ | .jump _ | .call _ | .ret | .endLoop | .endTrack | .raw _ => false
  | .simple k _ => k ≠ .beginLoop
  | .random s _ _ _ => s ≠ 0x81
  | .fromVariable s _ _ => s ≠ 0x81
  | _ => true

/-- One step. -/
inductive Step (events : List Obj) : State → State → Prop
  | pass {s id e} : events[s.pos]? = some (id, e) → passes e = true → Step events s { s with pos := s.pos + 1 }
  | switch {s id b n} : events[s.pos]? = some (id, .instrumentSwitch b n) →
      Step events s { s with pos := s.pos + 1, inst := some n }
  | switchRandom {s id args lo hi} {n : Nat} : events[s.pos]? = some (id, .random 0x81 args lo hi) →
      lo ≤ n → n ≤ hi → Step events s { s with pos := s.pos + 1, inst := some n }
  | switchVariable {s id v u n} : events[s.pos]? = some (id, .fromVariable 0x81 v u) →
      Step events s { s with pos := s.pos + 1, inst := some n }
  | jump {s id d q e} : events[s.pos]? = some (id, .jump d) → events[q]? = some (d, e) →
      Step events s { s with pos := q }
  | call {s id d q e} : events[s.pos]? = some (id, .call d) → events[q]? = some (d, e) →
      Step events s { s with pos := q, calls := (s.pos + 1) :: s.calls }
  | ret {s id r rs} : events[s.pos]? = some (id, .ret) → s.calls = r :: rs →
      Step events s { s with pos := r, calls := rs }
  | skip {s id} : events[s.pos]? = some (id, .ifE) → Step events s { s with pos := s.pos + 2 }
  | loop {s id v} : events[s.pos]? = some (id, .simple .beginLoop v) →
      Step events s { s with pos := s.pos + 1, loops := (s.pos + 1) :: s.loops }
  | again {s id l ls} : events[s.pos]? = some (id, .endLoop) → s.loops = l :: ls → Step events s { s with pos := l }
  | leave {s id} : events[s.pos]? = some (id, .endLoop) →
      Step events s { s with pos := s.pos + 1, loops := s.loops.tail }
  | track {s id t d q e} : events[s.pos]? = some (id, .beginTrack t d) → events[q]? = some (d, e) →
      Step events s (begun q)

/-- The states passed, latest first. -/
inductive Run (events : List Obj) : List State → Prop
  | start : Run events [begun 0]
  | step {s t l} : Run events (s :: l) → Step events s t → Run events (t :: s :: l)

/-- The pitch of a note; the duration of a note may also be random or taken from a variable. -/
def notePitch : Ev → Option Int
  | .note p _ _ _ => some p
  | .random s _ _ _ => if s < 0x80 then some s else none
  | .fromVariable s _ _ => if s < 0x80 then some s else none
  | _ => none

/-- The note played in a state: the instrument and the pitch.  A track that has not switched instruments uses number 0. -/
def noteAt (events : List Obj) (s : State) : Option (Nat × Int) :=
  (events[s.pos]?).bind fun o => (notePitch o.2).map fun p => (s.inst.getD 0, p)

/-- What is heard in a state, if a note is played. -/
def soundAt {W : Type} (events : List Obj) (insts : List (Option Inst)) (archives : List (List W)) (s : State) :
    Option (Option (Note × (Option W ⊕ Nat))) :=
  (noteAt events s).map fun x => sound insts archives x.1 x.2

/-- The same places are passed, and every note that had a sound has that sound. -/
def SameSounds {W : Type} (events : List Obj) (insts : List (Option Inst)) (archives : List (List W))
    (events' : List Obj) (insts' : List (Option Inst)) (archives' : List (List W)) (l l' : List State) : Prop :=
  l'.map (·.pos) = l.map (·.pos) ∧
  ∀ (i : Nat) s s', l[i]? = some s → l'[i]? = some s' →
    ((soundAt events' insts' archives' s').isSome = (soundAt events insts archives s).isSome) ∧
    ∀ x, soundAt events insts archives s = some (some x) → soundAt events' insts' archives' s' = some (some x)

/-- Whatever happens when the events are played, also happens with the others, with the same sounds; and conversely. -/
def PlaysSame {W : Type} (events : List Obj) (insts : List (Option Inst)) (archives : List (List W))
    (events' : List Obj) (insts' : List (Option Inst)) (archives' : List (List W)) : Prop :=
  (∀ l, Run events l → ∃ l', Run events' l' ∧ SameSounds events insts archives events' insts' archives' l l') ∧
  ∀ l', Run events' l' → ∃ l, Run events l ∧ SameSounds events insts archives events' insts' archives' l l'

/-- All definitions of the instruments switched to are of the PCM type and use the wave archive `k`. -/
def OneArchive (k : Nat) (events : List Ev) (insts : List (Option Inst)) : Prop :=
  ∀ n ∈ events.filterMap switchedTo, ∀ inst, insts[n]? = some (some inst) →
    ∀ d ∈ definitions inst.kind, d.waveArchiveIDID = k ∧ d.type = 1

/-- All notes have pitches from 0 to 127. -/
def MidiNotes (events : List Ev) : Prop := ∀ e ∈ events, ∀ p, pitchOf e = some p → 0 ≤ p ∧ p ≤ 127

/-- No event switches to an instrument that is only known at run time. -/
def Fixed (events : List Obj) : Prop :=
  ∀ o ∈ events, (∀ a l h, o.2 ≠ .random 0x81 a l h) ∧ ∀ v u, o.2 ≠ .fromVariable 0x81 v u

/-- Whenever a note is played, its pitch is also that of a note in the list `all` that has the instrument played with
as the last one switched to before it in that list. -/
def Listed (events : List Obj) (all : List Ev) : Prop :=
  ∀ l s n p, Run events (s :: l) → noteAt events s = some (n, p) → s.inst = some n ∧ ∃ e, (e, n, p) ∈ plays all

/-- The instrument switched to last before a place in the list. -/
def lastSwitch (events : List Obj) (i : Nat) : Option Nat := ((events.take i).filterMap fun o => switchedTo o.2).getLast?

/-- From this place on, there is no note before an instrument is switched to or the track ends. -/
def Intro (events : List Obj) (q : Nat) : Prop :=
  ∃ q', q ≤ q' ∧ (∀ j, q ≤ j → j < q' → ∃ o, events[j]? = some o ∧ passes o.2 = true ∧ notePitch o.2 = none ∧ o.2 ≠ .ifE) ∧
    ∃ o, events[q']? = some o ∧ ((switchedTo o.2).isSome ∨ o.2 = .endTrack)

/-- A sequence that is orderly enough for minifying to find out what it plays: every track switches to an instrument
before its first note, no durations or instruments are left to run time, there are no subroutines and no loops but
jumps, jumps lead to places with the same instrument, and no switch depends on a condition. -/
structure Orderly (events : List Obj) : Prop where
  fixed : Fixed events
  notes : ∀ o ∈ events, notePitch o.2 = pitchOf o.2
  plain : ∀ o ∈ events, (∀ d, o.2 ≠ .call d) ∧ o.2 ≠ .endLoop
  jumps : ∀ (i : Nat) (id : Nat) d (q : Nat) e, events[i]? = some (id, .jump d) → events[q]? = some (d, e) → lastSwitch events i = lastSwitch events q
  ifs : ∀ (i : Nat) (id id' : Nat) b n, events[i]? = some (id, .ifE) → events[i + 1]? ≠ some (id', .instrumentSwitch b n)
  first : Intro events 0
  tracks : ∀ (i : Nat) (id : Nat) t d (q : Nat) e, events[i]? = some (id, .beginTrack t d) → events[q]? = some (d, e) → Intro events q

end Verif.Spec.MusicPlay
