import Verif.Spec.Reader

/-!
# The kinds of files, how they are told apart, and what their loaders may raise
-/

namespace Verif.Spec.LoadErrors

open Verif Verif.Spec.Reader

/-- The kinds of files that begin with a signature. -/
inductive Kind where
  | bnbl | bncl | bmg | narc | sdat | sseq | ssar | sbnk | swar | swav | strm | nsbtx | nsbmd
  deriving DecidableEq, Repr

/-- The signatures, in ASCII: JNBL, JNCL, MESGbmg1, NARC, SDAT, SSEQ, SSAR, SBNK, SWAR, SWAV, STRM, BTX0, BMD0. -/
def Kind.signature : Kind → Bytes
  | .bnbl => [0x4A, 0x4E, 0x42, 0x4C]
  | .bncl => [0x4A, 0x4E, 0x43, 0x4C]
  | .bmg => [0x4D, 0x45, 0x53, 0x47, 0x62, 0x6D, 0x67, 0x31]
  | .narc => [0x4E, 0x41, 0x52, 0x43]
  | .sdat => [0x53, 0x44, 0x41, 0x54]
  | .sseq => [0x53, 0x53, 0x45, 0x51]
  | .ssar => [0x53, 0x53, 0x41, 0x52]
  | .sbnk => [0x53, 0x42, 0x4E, 0x4B]
  | .swar => [0x53, 0x57, 0x41, 0x52]
  | .swav => [0x53, 0x57, 0x41, 0x56]
  | .strm => [0x53, 0x54, 0x52, 0x4D]
  | .nsbtx => [0x42, 0x54, 0x58, 0x30]
  | .nsbmd => [0x42, 0x4D, 0x44, 0x30]

/-- The version that a file must state; the first three kinds have no version. -/
def Kind.version : Kind → Option Nat
  | .bnbl | .bncl | .bmg => none
  | .narc | .nsbtx => some 1
  | .nsbmd => some 2
  | .sdat | .sseq | .ssar | .sbnk | .swar | .swav | .strm => some 0x100

/-- The version that a file states: two bytes at 6, the low one first; in a NARC whose byte order mark is FE FF, the high one
first. -/
def statedVersion (k : Kind) (d : Bytes) : Nat :=
  if k = .narc ∧ u8 d 4 = 0xFE ∧ u8 d 5 = 0xFF then 0x100 * u8 d 6 + u8 d 7 else u8 d 6 + 0x100 * u8 d 7

/-- The two kinds whose loaders read the whole header before they look at the signature. -/
def Kind.headerFirst (k : Kind) : Prop := k = .narc ∨ k = .sdat

instance (k : Kind) : Decidable k.headerFirst := by unfold Kind.headerFirst; infer_instance

/-- All that the loader of a kind may raise.  `outOfFuel` stands for a loop that does not end. -/
def Kind.mayRaise : Kind → List PyErr
  | .bnbl | .bncl | .sseq => [.valueError, .structError]
  | .ssar | .swar | .swav | .strm => [.valueError, .structError, .assertionError]
  | .sbnk | .sdat | .nsbtx | .nsbmd => [.valueError, .structError, .assertionError, .indexError]
  | .narc => [.valueError, .structError, .assertionError, .recursionError]
  | .bmg => [.valueError, .structError, .assertionError, .unicodeError, .outOfFuel]

end Verif.Spec.LoadErrors
