import Verif.Model.Bmg
import Verif.Spec.Text

/-!
# What a BMG holds, up to the freedom a file leaves

A message is its text characters and escapes in order; how the text is cut into pieces is not stored.  Instructions
of eight zero bytes and labels `(0, 0)` serve as padding in the file.
-/

namespace Verif.Spec.Bmg

open Verif Verif.Model.Bmg

/-- Put text in front of parts, joining it with text that comes first there. -/
def joinText (s : Str) (ps : List Part) : List Part :=
  if s = [] then ps
  else
    match ps with
    | .text t :: r => .text (s ++ t) :: r
    | r => .text s :: r

/-- Adjacent texts joined, empty texts dropped. -/
def merge : List Part → List Part
  | [] => []
  | .escape t d :: ps => .escape t d :: merge ps
  | .text s :: ps => joinText s (merge ps)

/-- A character or an escape. -/
inductive Token where
  | char (c : Nat)
  | escape (type : Nat) (data : Bytes)
  deriving DecidableEq

/-- What a reader of the message sees. -/
def tokens : List Part → List Token
  | [] => []
  | .escape t d :: ps => .escape t d :: tokens ps
  | .text s :: ps => s.map .char ++ tokens ps

/-- No empty text and no two texts in a row. -/
def Merged : List Part → Prop
  | [] => True
  | .escape _ _ :: ps => Merged ps
  | .text s :: ps => s ≠ [] ∧ (∀ t r, ps ≠ .text t :: r) ∧ Merged ps

/-- The text of a message. -/
def chars : List Part → Str
  | [] => []
  | .escape _ _ :: ps => chars ps
  | .text s :: ps => s ++ chars ps

/-- The message that a file can tell from others: a null message has no parts. -/
def normalMessage (m : Message) : Message :=
  if m.isNull = true then { m with parts := [] } else { m with parts := merge m.parts }

/-- The part of a script index that a loaded script shows: the half of the word that comes first in the file. -/
def firstHalf (e : Endian) (n : Nat) : Nat :=
  match e with
  | .little => n % 0x10000
  | .big => n / 0x10000

/-- What loading the saved file gives. -/
def normal (b : BMG) : BMG :=
  { b with
    messages := b.messages.map normalMessage
    instructions := b.instructions.filter fun i => i ≠ zeros 8
    labels := b.labels.filter fun l => l ≠ (0, 0)
    scripts := b.scripts.map fun s => (s.1, firstHalf b.endianness s.2) }

/-- A BMG that a file can hold exactly. -/
structure Canonical (b : BMG) : Prop where
  null : ∀ m ∈ b.messages, m.isNull = true → m.parts = []
  merged : ∀ m ∈ b.messages, m.isNull = false → Merged m.parts
  instructions : ∀ i ∈ b.instructions, i ≠ zeros 8
  labels : ∀ l ∈ b.labels, l ≠ (0, 0)
  scripts : ∀ s ∈ b.scripts, firstHalf b.endianness s.2 = s.2

/-- `n` read with the other byte order. -/
def swap32 (n : Nat) : Nat := leVal ((leBytes 4 n).reverse)

/-- The byte order can be told from the length `n` of the file. -/
def Tellable (e : Endian) (n : Nat) : Prop :=
  match e with
  | .little => n < swap32 n
  | .big => n ≤ swap32 n

/-- The length a file of `n` bytes states: `n` rounded up to a multiple of 32. -/
def statedLength (n : Nat) : Nat := (n + 31) / 32 * 32

/-- The length of the entries of INF1: four bytes and the info value, which is as long as that of the first message. -/
def entryLength (b : BMG) : Nat := 4 + ((b.messages.head?).map fun m => m.info.length).getD 0

/-- Nothing is asked of the text unless the encoding is Shift-JIS, whose codec is a parameter: then the codec must be
lawful for the characters in `P`, and the text must consist of such characters. -/
def TextOk (sjis : Verif.Model.Text.Codec) (P : Nat → Prop) (b : BMG) : Prop :=
  b.encoding = .shiftJis → Verif.Spec.Text.Lawful sjis P ∧
    ∀ m ∈ b.messages, m.isNull = false → ∀ x ∈ chars m.parts, P x

/-- The offsets that reading a message visits from `o` on: each unit of text is passed over, and an escape is passed
over by the length it states. -/
inductive Visits (c : Verif.Model.Text.Codec) (dat : Bytes) : Nat → Nat → Prop where
  | here (o : Nat) : Visits c dat o o
  | text {o o' : Nat} (h0 : slice dat o (o + c.null.length) ≠ c.null) (h1 : slice dat o (o + c.null.length) ≠ c.sub)
      (h : Visits c dat (o + c.null.length) o') : Visits c dat o o'
  | escape {o o' : Nat} {l t : UInt8} (h0 : slice dat o (o + c.null.length) ≠ c.null)
      (h1 : slice dat o (o + c.null.length) = c.sub)
      (h2 : slice dat (o + c.sub.length) (o + c.sub.length + 2) = [l, t]) (h : Visits c dat (o + l.toNat) o') :
      Visits c dat o o'

/-- An offset that reading never leaves: the end of the data, or an escape that states the length 0. -/
def Stuck (c : Verif.Model.Text.Codec) (dat : Bytes) (o : Nat) : Prop :=
  dat.length ≤ o ∨ (slice dat o (o + c.null.length) ≠ c.null ∧ slice dat o (o + c.null.length) = c.sub ∧
    ∃ t, slice dat (o + c.sub.length) (o + c.sub.length + 2) = [0, t])

end Verif.Spec.Bmg
