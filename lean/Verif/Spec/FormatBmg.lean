import Verif.Model.Bmg
import Verif.Spec.Reader

/-!
# BMG files, byte by byte

What is where in a BMG file, in either byte order, independently of how the file is read.  How a piece of text is decoded is left to the
codecs of `Model/Text.lean`.
-/

namespace Verif.Spec.FormatBmg

open Verif Verif.Model.Text Verif.Model.Bmg Verif.Spec.Reader

/-- The numbers at a place in a given byte order. -/
def e16 : Endian → Bytes → Nat → Nat
  | .little, d, o => u16 d o
  | .big, d, o => 0x100 * u8 d o + u8 d (o + 1)

def e32 : Endian → Bytes → Nat → Nat
  | .little, d, o => u32 d o
  | .big, d, o => 0x1000000 * u8 d o + 0x10000 * u8 d (o + 1) + 0x100 * u8 d (o + 2) + u8 d (o + 3)

/-- The signed numbers. -/
def s8 (d : Bytes) (o : Nat) : Int := if u8 d o < 0x80 then (u8 d o : Int) else (u8 d o : Int) - 0x100
def s16 (e : Endian) (d : Bytes) (o : Nat) : Int := if e16 e d o < 0x8000 then (e16 e d o : Int) else (e16 e d o : Int) - 0x10000

/-- The byte order is the one in which the length of the file is smaller; big if it is the same number both ways. -/
def orderOf (d : Bytes) : Endian := if e32 .little d 8 < e32 .big d 8 then .little else .big

/-- The encodings by number. -/
def encodings : List (Nat × Encoding) := [(1, .cp1252), (2, .utf16), (3, .shiftJis), (4, .utf8)]

/-- The code units of the characters 0 and 1Ah. -/
def nulUnit : Encoding → Bytes
  | .utf16 => [0, 0]
  | _ => [0]

def subUnit : Encoding → Endian → Bytes
  | .utf16, .little => [0x1A, 0]
  | .utf16, .big => [0, 0x1A]
  | _, _ => [0x1A]

/-- The places of the sections: each follows the one before, whose length is the second word. -/
def places (e : Endian) (d : Bytes) : Nat → Nat → List Nat
  | 0, _ => []
  | n + 1, o => o :: places e d n (o + e32 e d (o + 4))

def INF1 : Bytes := [0x49, 0x4E, 0x46, 0x31]
def DAT1 : Bytes := [0x44, 0x41, 0x54, 0x31]
def FLW1 : Bytes := [0x46, 0x4C, 0x57, 0x31]
def FLI1 : Bytes := [0x46, 0x4C, 0x49, 0x31]

/-- The sections that begin with a word. -/
def named (d : Bytes) (m : Bytes) (l : List Nat) : List Nat := l.filter fun o => bytesAt d o 4 = m

/-- A section of a known kind that lies within the file, as far as it has numbers (other bytes may be missing). -/
def SectionOk (e : Endian) (d : Bytes) (o : Nat) : Prop :=
  o + 8 ≤ d.length ∧
  (bytesAt d o 4 = INF1 ∧ o + 16 ≤ d.length ∧ (∀ i < e16 e d (o + 8), o + 16 + i * e16 e d (o + 10) + 4 ≤ d.length) ∨
  bytesAt d o 4 = DAT1 ∨
  bytesAt d o 4 = FLW1 ∧ o + 16 ≤ d.length ∧
    (e16 e d (o + 10) = 0 ∨ o + 16 + 8 * e16 e d (o + 8) + 3 * e16 e d (o + 10) ≤ d.length) ∨
  bytesAt d o 4 = FLI1 ∧ o + 16 + 8 * e16 e d (o + 8) ≤ d.length ∧ e16 e d (o + 10) = 8)

/-- The entries of an INF1 section: the place of the message in the text data, and the attributes. -/
def entries (e : Endian) (d : Bytes) (o : Nat) : List (Nat × Bytes) :=
  (List.range (e16 e d (o + 8))).map fun i => (e32 e d (o + 16 + i * e16 e d (o + 10)),
    span d (o + 16 + i * e16 e d (o + 10) + 4) (o + 16 + (i + 1) * e16 e d (o + 10)))

/-- The instructions of a FLW1 section, without those that are all zeros. -/
def instructionsAt (e : Endian) (d : Bytes) (o : Nat) : List Bytes :=
  ((List.range (e16 e d (o + 8))).map fun i => bytesAt d (o + 16 + 8 * i) 8).filter (· ≠ [0, 0, 0, 0, 0, 0, 0, 0])

/-- The labels of a FLW1 section, BMG ID and index, without those that are all zeros. -/
def labelsAt (e : Endian) (d : Bytes) (o : Nat) : List (Int × Int) :=
  ((List.range (e16 e d (o + 10))).map fun i => (s8 d (o + 16 + 8 * e16 e d (o + 8) + 2 * e16 e d (o + 10) + i),
    s16 e d (o + 16 + 8 * e16 e d (o + 8) + 2 * i))).filter (· ≠ (0, 0))

/-- The scripts of a FLI1 section: ID and index. -/
def scriptsAt (e : Endian) (d : Bytes) (o : Nat) : List (Nat × Nat) :=
  (List.range (e16 e d (o + 8))).map fun i => (e32 e d (o + 16 + 8 * i), e16 e d (o + 16 + 8 * i + 4))

/-- The text data: that of the last DAT1 section. -/
def textOf (e : Endian) (d : Bytes) (l : List Nat) : Bytes :=
  match (named d DAT1 l).getLast? with
  | none => []
  | some o => span d (o + 8) (o + e32 e d (o + 4))

/-- The ID: that of the last INF1 section. -/
def idOf (e : Endian) (d : Bytes) (l : List Nat) (id0 : Nat) : Nat :=
  match (named d INF1 l).getLast? with
  | none => id0
  | some o => e32 e d (o + 12)

/-- `n` code units that are neither 0 nor 1Ah. -/
def Run (nul sub dat : Bytes) (o n : Nat) : Prop :=
  ∀ k < n, bytesAt dat (o + k * nul.length) nul.length ≠ nul ∧ bytesAt dat (o + k * nul.length) nul.length ≠ sub

/-- `MessageAt nul sub dec dat o ps q`: the text data has a message at the place `o` that consists of the parts `ps` and ends with a 0 at
`q`.  Text goes up to the next escape sequence, which is a 1Ah, its length, its type and the rest, or the end.  Text at the place 0 of the
text data is ignored. -/
inductive MessageAt (nul sub : Bytes) (dec : Bytes → Py Str) (dat : Bytes) : Nat → List Part → Nat → Prop
  | done {o} : bytesAt dat o nul.length = nul → MessageAt nul sub dec dat o [] o
  | text {o n s ps q} : o ≠ 0 → 0 < n → Run nul sub dat o n →
    (bytesAt dat (o + n * nul.length) nul.length = nul ∨ bytesAt dat (o + n * nul.length) nul.length = sub) →
    dec (span dat o (o + n * nul.length)) = .ok s → MessageAt nul sub dec dat (o + n * nul.length) ps q →
    MessageAt nul sub dec dat o (.text s :: ps) q
  | ignored {n ps q} : 0 < n → Run nul sub dat 0 n →
    (bytesAt dat (n * nul.length) nul.length = nul ∨ bytesAt dat (n * nul.length) nul.length = sub) →
    MessageAt nul sub dec dat (n * nul.length) ps q → MessageAt nul sub dec dat 0 ps q
  | escape {o ps q} : bytesAt dat o nul.length = sub → o + nul.length + 2 ≤ dat.length →
    MessageAt nul sub dec dat (o + u8 dat (o + nul.length)) ps q →
    MessageAt nul sub dec dat o
      (.escape (u8 dat (o + nul.length + 1)) (span dat (o + nul.length + 2) (o + u8 dat (o + nul.length))) :: ps) q

/-- The entries of all INF1 sections. -/
def allEntries (e : Endian) (d : Bytes) (l : List Nat) : List (Nat × Bytes) := (named d INF1 l).flatMap (entries e d)

/-- The places of the sections of a file: their number is the word at 0Ch, the first is behind the header. -/
def sectionPlaces (e : Endian) (d : Bytes) : List Nat := places e d (e32 e d 0x0C) 0x20

/-- The bytes `d` are a BMG file with these contents.  `id0` is the ID that the caller gives for a file without one. -/
structure IsBmg (sjis : Codec) (d : Bytes) (id0 : Nat) (b : BMG) : Prop where
  magic : bytesAt d 0 8 = [0x4D, 0x45, 0x53, 0x47, 0x62, 0x6D, 0x67, 0x31]
  header : 0x1D ≤ d.length
  order : b.endianness = orderOf d
  encoding : (u8 d 0x10, b.encoding) ∈ encodings
  unk14 : b.unk14 = e32 b.endianness d 0x11
  unk18 : b.unk18 = e32 b.endianness d 0x15
  unk1C : b.unk1C = e32 b.endianness d 0x19
  sections : ∀ o ∈ sectionPlaces b.endianness d, SectionOk b.endianness d o
  id : b.id = idOf b.endianness d (sectionPlaces b.endianness d) id0
  count : b.messages.length = (allEntries b.endianness d (sectionPlaces b.endianness d)).length
  messages : ∀ (i : Nat) (m : Message) (x : Nat × Bytes), b.messages[i]? = some m →
    (allEntries b.endianness d (sectionPlaces b.endianness d))[i]? = some x →
    m.info = x.2 ∧ ∃ q, MessageAt (nulUnit b.encoding) (subUnit b.encoding b.endianness) (codecOf sjis b.encoding b.endianness).dec
      (textOf b.endianness d (sectionPlaces b.endianness d)) x.1 m.parts q ∧ (m.isNull = true ↔ q = 0)
  instructions : b.instructions = (named d FLW1 (sectionPlaces b.endianness d)).flatMap (instructionsAt b.endianness d)
  labels : b.labels = (named d FLW1 (sectionPlaces b.endianness d)).flatMap (labelsAt b.endianness d)
  scripts : b.scripts = (named d FLI1 (sectionPlaces b.endianness d)).flatMap (scriptsAt b.endianness d)

end Verif.Spec.FormatBmg
