import Verif.Model.SoundSequence

/-!
# Specification vocabulary for sequence events

What values the fields of an event may have, independently of how events are saved or loaded.
-/

namespace Verif.Spec.Sequence

open Verif Verif.Model.SoundSequence

/-- A signed 16-bit number. -/
def Signed16 (z : Int) : Prop := -32768 ≤ z ∧ z < 32768

/-- A signed 8-bit number. -/
def Signed8 (z : Int) : Prop := -128 ≤ z ∧ z < 128

/-- A byte. -/
def UByte (z : Int) : Prop := 0 ≤ z ∧ z < 256

/-- The fields of an event are in the ranges that its class documents: durations and combined instrument numbers
fit into five 7-bit groups, the arguments of a random event are the ones its sub-event takes before the randomised
one, a from-variable event has an extra value exactly when its sub-event is one of the arithmetic events.
Raw data is excluded: it is not an event. -/
def InRange : Ev → Prop
  | .note p v _ dur => (0 ≤ p ∧ p ≤ 127) ∧ (0 ≤ v ∧ v ≤ 127) ∧ (0 ≤ dur ∧ dur < 2 ^ 35)
  | .rest dur => 0 ≤ dur ∧ dur < 2 ^ 35
  | .instrumentSwitch b i => i < 128 ∧ b < 2 ^ 28
  | .beginTrack t _ => UByte t
  | .jump _ => True
  | .call _ => True
  | .random s args lo hi =>
    UByte s ∧ (∀ x ∈ args, UByte x) ∧ randomLength s = .ok (args.length + 6) ∧ Signed16 lo ∧ Signed16 hi
  | .fromVariable s v u =>
    UByte s ∧ if 0xB0 ≤ s ∧ s ≤ 0xBD then (∃ x, u = some x ∧ Signed8 x) ∧ Signed8 v else u = none ∧ Signed16 v
  | .ifE => True
  | .arith _ i v => UByte i ∧ Signed16 v
  | .simple _ v => UByte v
  | .monoPoly v => v = 0 ∨ v = 1
  | .vibratoType v => v = 0 ∨ v = 1 ∨ v = 2
  | .tempo v => 0 ≤ v ∧ v < 65536
  | .sweepPitch v => 0 ≤ v ∧ v < 65536
  | .endLoop => True
  | .ret => True
  | .defineTracks l => l.Pairwise (· < ·) ∧ ∀ t ∈ l, t < 16
  | .endTrack => True
  | .raw _ => False

/-- The event with its references replaced. -/
def mapRefs (g : Nat → Nat) : Ev → Ev
  | .beginTrack t dest => .beginTrack t (g dest)
  | .jump dest => .jump (g dest)
  | .call dest => .call (g dest)
  | e => e

/-- The identities of the events an event refers to. -/
def refs : Ev → List Nat
  | .beginTrack _ dest => [dest]
  | .jump dest => [dest]
  | .call dest => [dest]
  | _ => []

/-- From-variable events. -/
def isFromVariable : Ev → Bool
  | .fromVariable _ _ _ => true
  | _ => false

/-- From-variable events whose sub-event is not an arithmetic one. -/
def isShortFromVariable : Ev → Bool
  | .fromVariable s _ _ => !(decide (0xB0 ≤ s ∧ s ≤ 0xBD))
  | _ => false

/-- The declared length of an event (0 if it has none). -/
def declared (e : Ev) : Nat :=
  match e.dataLength with
  | .ok n => n
  | .error _ => 0

/-- The sum of the declared lengths of a list of event objects. -/
def total (events : List (Nat × Ev)) : Nat := (events.map fun e => declared e.2).sum

/-- Where the event with the given identity comes to lie when the events are placed one after the other. -/
def position : List (Nat × Ev) → Nat → Option Nat
  | [], _ => none
  | e :: es, id => if e.1 = id then some 0 else (position es id).map (declared e.2 + ·)

/-- The event read at offset `o` has no superfluous leading zero group (a byte 80h) in its variable-length integer. -/
def Shortest (d : Bytes) (o : Nat) : Ev → Prop
  | .note _ _ _ _ => d[o + 2]? ≠ some 0x80
  | .rest _ => d[o + 1]? ≠ some 0x80
  | .instrumentSwitch _ _ => d[o + 1]? ≠ some 0x80
  | _ => True

/-- Playback goes on with the event that follows, whatever the rest of the sequence is. -/
def flows : Ev → Bool
  | .jump _ => false
  | .call _ => false
  | .ret => false
  | .endTrack => false
  | _ => true

/-- The number of bytes an event is saved to: its declared length, except for from-variable events. -/
def written : Ev → Nat
  | .fromVariable s _ _ => if 0xB0 ≤ s ∧ s ≤ 0xBD then 6 else 4
  | e => declared e

/-- `Regroup data g o events l`: the entries of `l` are, starting at offset `o`, the events of the list, at
consecutive offsets and with references replaced by `g`, except that some non-empty runs of events are replaced by
raw data with the bytes of `data` that the run covers. -/
inductive Regroup (data : Bytes) (g : Nat → Nat) : Nat → List (Nat × Ev) → List (Nat × Ev) → Prop
  | nil (o : Nat) : Regroup data g o [] []
  | keep (o : Nat) (e : Nat × Ev) (es l : List (Nat × Ev)) :
    Regroup data g (o + declared e.2) es l → Regroup data g o (e :: es) ((o, mapRefs g e.2) :: l)
  | raw (o : Nat) (run es l : List (Nat × Ev)) : run ≠ [] → Regroup data g (o + total run) es l →
    Regroup data g o (run ++ es) ((o, .raw (slice data o (o + total run))) :: l)

/-- The offset of the event with the given identity. -/
def offsetIn (events : List (Nat × Ev)) (id : Nat) : Nat := (position events id).getD 0

/-- The list with identities replaced by offsets. -/
def renamed (events : List (Nat × Ev)) : List (Nat × Ev) :=
  events.map fun e => (offsetIn events e.1, mapRefs (offsetIn events) e.2)

/-- The events that are played when starting at the given ones: what a reached event refers to, and what follows a
reached event unless it is a jump, call, return or the end of the track. -/
inductive Reached (events : List (Nat × Ev)) (from' : List Nat) : Nat → Prop
  | start (x : Nat) : x ∈ from' → Reached events from' x
  | ref (id x : Nat) (e : Ev) : Reached events from' id → (id, e) ∈ events → x ∈ refs e → Reached events from' x
  | next (pre post : List (Nat × Ev)) (a b : Nat × Ev) : Reached events from' a.1 →
    events = pre ++ a :: b :: post → flows a.2 = true → Reached events from' b.1

/-- No calls, returns and ifs, and the last event is a jump or the end of the track. -/
structure Straight (events : List (Nat × Ev)) : Prop where
  kinds : ∀ e ∈ events, (∀ x, e.2 ≠ .call x) ∧ e.2 ≠ .ret ∧ e.2 ≠ .ifE
  last : ∀ pre e, events = pre ++ [e] → flows e.2 = false

/-- The notable events, or the first event if there are none. -/
def startIds (events : List (Nat × Ev)) (notable : List Nat) : List Nat :=
  if notable = [] then (events.map Prod.fst).take 1 else notable

/-- `Tiles d i l`: the entries of `l` lie one after the other from offset `i` on until all of the data is covered,
the identity of an entry is its offset, and raw entries hold the bytes they cover. -/
def Tiles (d : Bytes) : Nat → List (Nat × Ev) → Prop
  | i, [] => d.length ≤ i
  | i, x :: l => x.1 = i ∧ i < d.length ∧ (∀ b, x.2 = .raw b → b ≠ [] ∧ b = slice d i (i + b.length)) ∧
    Tiles d (i + declared x.2) l

end Verif.Spec.Sequence
