import Verif.Model.SoundSequenceArchive
import Verif.Spec.Reader

/-!
# Sequence data, byte by byte, and what playing it reaches

The bytes of the sequence events, as documented in docs/source/api/soundSequence-events.rst and at the classes, independently of how
the events are read or saved; and the places that playing sequence data can get to.
-/

namespace Verif.Spec.FormatSseq

open Verif Verif.Model.SoundSequence Verif.Spec.Reader

/-- The signed number in a byte. -/
def i8 (d : Bytes) (o : Nat) : Int := if u8 d o < 0x80 then (u8 d o : Int) else (u8 d o : Int) - 0x100

/-- The number made of the low seven bits of `n + 1` bytes, the first being the most significant one. -/
def septets (d : Bytes) (o : Nat) : Nat → Nat
  | 0 => u8 d o % 128
  | n + 1 => septets d o n * 128 + u8 d (o + (n + 1)) % 128

/-- A variable-length integer of at most five bytes: all bytes but the last have their top bit set. -/
def VarAt (d : Bytes) (o n v : Nat) : Prop :=
  1 ≤ n ∧ n ≤ 5 ∧ o + n ≤ d.length ∧ (∀ i, i + 1 < n → 128 ≤ u8 d (o + i)) ∧ u8 d (o + (n - 1)) < 128 ∧ v = septets d o (n - 1)

/-- The commands that take a variable and a value. -/
def variableCommands : List (Nat × Arith) :=
  [(0xB0, .assign), (0xB1, .add), (0xB2, .sub), (0xB3, .mul), (0xB4, .div), (0xB5, .shift), (0xB6, .rand), (0xB7, .unkB7),
   (0xB8, .eq), (0xB9, .ge), (0xBA, .gt), (0xBB, .le), (0xBC, .lt), (0xBD, .ne)]

/-- The commands that take any byte. -/
def byteCommands : List (Nat × Simple) :=
  [(0xC0, .pan), (0xC1, .trackVolume), (0xC2, .globalVolume), (0xC3, .transpose), (0xC4, .portamento), (0xC5, .portamentoRange),
   (0xC6, .trackPriority), (0xC8, .tie), (0xC9, .portamentoFrom), (0xCA, .vibratoDepth), (0xCB, .vibratoSpeed), (0xCD, .vibratoRange),
   (0xCE, .portamentoOnOff), (0xCF, .portamentoDuration), (0xD0, .attackRate), (0xD1, .decayRate), (0xD2, .sustainRate),
   (0xD3, .releaseRate), (0xD4, .beginLoop), (0xD5, .expression), (0xD6, .printVariable), (0xE0, .vibratoDelay)]

/-- How many bytes of arguments a random event keeps before the limits, for commands with a fixed number of them. -/
def keptTable : List (Nat × Nat) :=
  [(0x80, 0), (0x81, 0), (0x93, 3), (0x94, 2), (0x95, 2), (0xA0, 5), (0xA1, 1), (0xC7, 0), (0xCC, 0), (0xE1, 1), (0xE3, 1), (0xFE, 1)]

/-- How many bytes of arguments a random event keeps before the limits. -/
def Kept (t k : Nat) : Prop :=
  (t < 128 ∧ k = 1) ∨ (0xB0 ≤ t ∧ t ≤ 0xBD ∧ k = 2) ∨ (t ∈ byteCommands.map Prod.fst ∧ k = 0) ∨ (t, k) ∈ keptTable

/-- `EventAt d o n e`: at the place `o` are the `n` bytes of the event `e`.  References are places.  A reference may be cut off by the end
of the data; then the missing bytes count as zero. -/
def EventAt (d : Bytes) (o n : Nat) : Ev → Prop
  | .note p v f dur => o < d.length ∧ u8 d o < 128 ∧ p = u8 d o ∧ o + 1 < d.length ∧ v = (u8 d (o + 1) % 128 : Nat) ∧
    (f = true ↔ 128 ≤ u8 d (o + 1)) ∧ ∃ k x, VarAt d (o + 2) k x ∧ dur = x ∧ n = 2 + k
  | .rest dur => u8 d o = 0x80 ∧ ∃ k x, VarAt d (o + 1) k x ∧ dur = x ∧ n = 1 + k
  | .instrumentSwitch b i => u8 d o = 0x81 ∧ ∃ k x, VarAt d (o + 1) k x ∧ b = x / 128 ∧ i = x % 128 ∧ n = 1 + k
  | .beginTrack t x => u8 d o = 0x93 ∧ o + 1 < d.length ∧ t = u8 d (o + 1) ∧ x = u24 d (o + 2) ∧ n = 5
  | .jump x => u8 d o = 0x94 ∧ x = u24 d (o + 1) ∧ n = 4
  | .call x => u8 d o = 0x95 ∧ x = u24 d (o + 1) ∧ n = 4
  | .random s args lo hi => u8 d o = 0xA0 ∧ ∃ k, Kept (u8 d (o + 1)) k ∧ n = 6 + k ∧ o + n ≤ d.length ∧ s = u8 d (o + 1) ∧
    args = (List.range k).map (fun i => (u8 d (o + 2 + i) : Int)) ∧ lo = i16 d (o + 2 + k) ∧ hi = i16 d (o + 4 + k)
  | .fromVariable s v u => u8 d o = 0xA1 ∧ n = 4 ∧ o + 4 ≤ d.length ∧ s = u8 d (o + 1) ∧
    (0xB0 ≤ u8 d (o + 1) ∧ u8 d (o + 1) ≤ 0xBD ∧ u = some (i8 d (o + 2)) ∧ v = i8 d (o + 3) ∨
      ¬ (0xB0 ≤ u8 d (o + 1) ∧ u8 d (o + 1) ≤ 0xBD) ∧ u = none ∧ v = i16 d (o + 2))
  | .ifE => u8 d o = 0xA2 ∧ n = 1
  | .arith a i v => (u8 d o, a) ∈ variableCommands ∧ n = 4 ∧ o + 4 ≤ d.length ∧ i = u8 d (o + 1) ∧ v = i16 d (o + 2)
  | .simple c v => (u8 d o, c) ∈ byteCommands ∧ n = 2 ∧ o + 2 ≤ d.length ∧ v = u8 d (o + 1)
  | .monoPoly v => u8 d o = 0xC7 ∧ n = 2 ∧ o + 2 ≤ d.length ∧ v = u8 d (o + 1) ∧ u8 d (o + 1) ≤ 1
  | .vibratoType v => u8 d o = 0xCC ∧ n = 2 ∧ o + 2 ≤ d.length ∧ v = u8 d (o + 1) ∧ u8 d (o + 1) ≤ 2
  | .tempo v => u8 d o = 0xE1 ∧ n = 3 ∧ o + 3 ≤ d.length ∧ v = u16 d (o + 1)
  | .sweepPitch v => u8 d o = 0xE3 ∧ n = 3 ∧ o + 3 ≤ d.length ∧ v = u16 d (o + 1)
  | .endLoop => u8 d o = 0xFC ∧ n = 1
  | .ret => u8 d o = 0xFD ∧ n = 1
  | .defineTracks l => u8 d o = 0xFE ∧ n = 3 ∧ o + 3 ≤ d.length ∧ l = (List.range 16).filter (bit (u16 d (o + 1)))
  | .endTrack => u8 d o = 0xFF ∧ n = 1
  | .raw _ => False

/-- Playback goes on behind the event, whatever the rest of the data is. -/
def GoesOn : Ev → Prop
  | .jump _ => False
  | .call _ => False
  | .ret => False
  | .endTrack => False
  | _ => True

/-- A track at a place, with the places to return to; a step of playing it.  A step may also be to a track that is started.  An event behind an
if-event may be skipped. -/
inductive Step (d : Bytes) : Nat × List Nat → Nat × List Nat → Prop
  | next {o n s e} : EventAt d o n e → GoesOn e → Step d (o, s) (o + n, s)
  | skip {o m s e} : EventAt d o 1 .ifE → EventAt d (o + 1) m e → Step d (o + 1, s) (o + 1 + m, s)
  | jump {o n s x} : EventAt d o n (.jump x) → Step d (o, s) (x, s)
  | call {o n s x} : EventAt d o n (.call x) → Step d (o, s) (x, (o + n) :: s)
  | ret {o n s x} : EventAt d o n .ret → Step d (o, x :: s) (x, s)
  | track {o n s t x} : EventAt d o n (.beginTrack t x) → Step d (o, s) (x, [])

/-- Any number of steps. -/
inductive Steps (d : Bytes) : Nat × List Nat → Nat × List Nat → Prop
  | refl (a) : Steps d a a
  | tail {a b c} : Steps d a b → Step d b c → Steps d a c

/-- The places that playback from the given ones can get to. -/
def Reachable (d : Bytes) (starts : List Nat) (o : Nat) : Prop := ∃ s ∈ starts, ∃ st, Steps d (s, []) (o, st)

/-- The place behind the if-event at `o` is only got to from there. -/
def Only (d : Bytes) (starts : List Nat) (o : Nat) : Prop :=
  o + 1 ∉ starts ∧ ∀ p ∈ starts, ∀ a s s', Steps d (p, []) (a, s) → Step d (a, s) (o + 1, s') → a = o

/-- A subroutine without jumps and tracks being started: events, and calls of such subroutines, up to a return. -/
inductive Sub (d : Bytes) : Nat → Prop
  | ret {o n} : EventAt d o n .ret → Sub d o
  | next {o n e} : EventAt d o n e → GoesOn e → (∀ t x, e ≠ .beginTrack t x) → Sub d (o + n) → Sub d o
  | call {o n x} : EventAt d o n (.call x) → Sub d x → Sub d (o + n) → Sub d o

/-- The places that playback gets to without skipping events other than jumps that are only got to from the if-event before them, and
without returning from other subroutines than such ones. -/
inductive Direct (d : Bytes) (starts : List Nat) : Nat → Prop
  | start {o} : o ∈ starts → Direct d starts o
  | next {o n e} : Direct d starts o → EventAt d o n e → GoesOn e → Direct d starts (o + n)
  | jump {o n x} : Direct d starts o → EventAt d o n (.jump x) → Direct d starts x
  | call {o n x} : Direct d starts o → EventAt d o n (.call x) → Direct d starts x
  | track {o n t x} : Direct d starts o → EventAt d o n (.beginTrack t x) → Direct d starts x
  | back {o n x} : Direct d starts o → EventAt d o n (.call x) → Sub d x → Direct d starts (o + n)
  | skip {o n x} : Direct d starts o → EventAt d o 1 .ifE → EventAt d (o + 1) n (.jump x) → Only d starts o → Direct d starts (o + 1 + n)

/-- The number of bytes of the event is the one that its values need: its variable-length integer does not begin with a byte 80h, and it is
not one of the from-variable events whose length the library gets wrong. -/
def Plain (d : Bytes) (o : Nat) : Ev → Prop
  | .note _ _ _ _ => u8 d (o + 2) ≠ 0x80
  | .rest _ => u8 d (o + 1) ≠ 0x80
  | .instrumentSwitch _ _ => u8 d (o + 1) ≠ 0x80
  | .fromVariable s _ _ => 0xB0 ≤ s ∧ s ≤ 0xBD
  | _ => True

/-- The events that playback gets to have the lengths that their values need. -/
def Sane (d : Bytes) (starts : List Nat) : Prop := ∀ o n e, Reachable d starts o → EventAt d o n e → Plain d o e

/-- The signed 32-bit number at a place. -/
def i32 (d : Bytes) (o : Nat) : Int := if u32 d o < 0x80000000 then (u32 d o : Int) else (u32 d o : Int) - 0x100000000

/-- The sequence that a record of a sequence archive describes: the offset (-1 for none), bank, volume, channel pressure, polyphonic
pressure and player. -/
def sequenceAt (d : Bytes) (o : Nat) : Model.SoundSequenceArchive.Sequence :=
  ⟨.unparsed (if u32 d o = 0xFFFFFFFF then none else some (i32 d o)), u16 d (o + 4), u8 d (o + 6), u8 d (o + 7), u8 d (o + 8), u8 d (o + 9)⟩

end Verif.Spec.FormatSseq
