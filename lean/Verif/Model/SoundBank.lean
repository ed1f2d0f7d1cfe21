import Verif.Model.Common
import Verif.Base.Dict
import Verif.Base.Sort
import Verif.Base.Struct

/-!
# Model of `ndspy/soundBank.py`

Numeric attributes are natural numbers (negative ones make `struct.pack` raise), and so are the `bankOrderKey` and
the `dataMergeOptimizationID` of an instrument.  `NoteType` is an `IntEnum`: its members equal their numbers.  The
`type` of range and regional instruments is the one their constructors set.  The keys of
`inaccessibleInstruments` are instrument numbers or `None`.

Not modelled here: `fromFile`, `saveToFile` (see `Files.lean`), `__str__`, `__repr__` (see `ReprSound.lean`).
-/

namespace Verif.Model.SoundBank

open Verif Verif.Model.Common

/-- `NoteDefinition` (soundBank.py 47–71). -/
structure Note where
  waveID : Nat
  waveArchiveIDID : Nat
  pitch : Nat
  attack : Nat
  decay : Nat
  sustain : Nat
  release : Nat
  pan : Nat
  type : Nat
  deriving DecidableEq, Repr

/-- The fields of a note as written by `save` (soundBank.py 93–100). -/
def Note.fields (n : Note) : List (Nat × Nat) :=
  [(2, n.waveID), (2, n.waveArchiveIDID), (1, n.pitch), (1, n.attack), (1, n.decay), (1, n.sustain), (1, n.release),
    (1, n.pan)]

/-- `NoteDefinition.save()` (soundBank.py 93–100). -/
def Note.save (n : Note) : Py Bytes := packUs .little n.fields

/-- `NoteDefinition.saveWithType()` (soundBank.py 103–108). -/
def Note.saveWithType (n : Note) : Py Bytes := do
  let a ← packU .little 2 n.type
  let b ← n.save
  return a ++ b

/-- `NoteDefinition.fromData(data, type)` (soundBank.py 74–80). -/
def Note.fromData (data : Bytes) (type : Nat) : Py Note := do
  let fields ← unpackUs .little [2, 2, 1, 1, 1, 1, 1, 1] data 0
  match fields with
  | [w, wa, p, a, d, s, r, pan] => return ⟨w, wa, p, a, d, s, r, pan, type⟩
  | _ => .error .structError

/-- `NoteDefinition.fromDataWithType(data)` (soundBank.py 83–90). -/
def Note.fromDataWithType (data : Bytes) : Py Note := do
  let fields ← unpackUs .little [2, 2, 2, 1, 1, 1, 1, 1, 1] data 0
  match fields with
  | [t, w, wa, p, a, d, s, r, pan] => return ⟨w, wa, p, a, d, s, r, pan, t⟩
  | _ => .error .structError

/-- The contents of an instrument: `SingleNoteInstrument` (soundBank.py 180–224), `RangeInstrument` (227–289) and
`RegionalInstrument` (292–379), whose regions are pairs of last pitch and note. -/
inductive Kind where
  | single (note : Note)
  | range (firstPitch : Nat) (notes : List Note)
  | regional (regions : List (Nat × Note))
  deriving DecidableEq, Repr

/-- The `type` of an instrument (soundBank.py 190–192, 233, 319). -/
def Kind.type : Kind → Nat
  | .single n => n.type
  | .range _ _ => 16
  | .regional _ => 17

/-- `save()[1]` of the instrument classes (soundBank.py 211–216, 258–272, 344–359).  Assigning the last pitch of a
region to an element of a `bytearray` raises ValueError if it does not fit.  The pieces are written one after the
other into a buffer of the right size. -/
def Kind.save : Kind → Py Bytes
  | .single n => n.save
  | .range firstPitch notes => do
    let a ← packU .little 1 firstPitch
    let z ← natOf ((firstPitch : Int) + notes.length - 1)
    let b ← packU .little 1 z
    let l ← mapE Note.saveWithType notes
    return a ++ b ++ l.flatten
  | .regional regions => do
    raiseIf (8 < regions.length) .valueError
    let l ← mapE (fun r : Nat × Note => do
      let e ← byteOf r.1
      let n ← r.2.saveWithType
      return (e, n)) regions
    return l.map Prod.fst ++ zeros (8 - regions.length) ++ (l.map Prod.snd).flatten

/-- The notes of a range instrument (soundBank.py 246–252). -/
def notesFrom (data : Bytes) : Nat → Nat → Py (List Note)
  | 0, _ => .ok []
  | n + 1, off => do
    let note ← Note.fromDataWithType (slice data off (off + 0xC))
    let r ← notesFrom data n (off + 0xC)
    return note :: r

/-- The regions of a regional instrument (soundBank.py 330–339); `first` says that no region was read yet. -/
def regionsFrom (data : Bytes) : Bool → List UInt8 → Nat → Py (List (Nat × Note))
  | _, [], _ => .ok []
  | first, e :: es, off =>
    if e = 0 ∧ first = false then .ok []
    else do
      let note ← Note.fromDataWithType (slice data off (off + 0xC))
      let r ← regionsFrom data false es (off + 0xC)
      return (e.toNat, note) :: r

/-- `instrumentClass(type).fromData(type, data, startOffset)` (soundBank.py 199–208, 238–255, 323–341, 382–396): the
instrument, if the type is not 0, and the number of bytes it takes. -/
def kindAt (data : Bytes) (type off : Nat) : Py (Option Kind × Nat) :=
  if type = 0 then .ok (none, 0)
  else if type < 16 then do
    let n ← Note.fromData (slice data off (off + 10)) type
    return (some (.single n), 10)
  else if type = 16 then do
    let firstPitch ← unpackU .little 1 data off
    let lastPitch ← unpackU .little 1 data (off + 1)
    let notes ← notesFrom data (lastPitch + 1 - firstPitch) (off + 2)
    return (some (.range firstPitch notes), 2 + 0xC * notes.length)
  else if type = 17 then do
    let ends ← unpackStr 8 data off
    let regions ← regionsFrom data true ends (off + 8)
    return (some (.regional regions), 8 + 0xC * regions.length)
  else .error .valueError

/-- An instrument object: its contents and the two attributes that guide saving (soundBank.py 147–148). -/
structure Inst where
  kind : Kind
  orderKey : Nat
  mergeID : Nat
  deriving DecidableEq, Repr

/-- `SBNK` (soundBank.py 514–537). -/
structure SBNK where
  unk02 : Nat
  waveArchiveIDs : List (Option Int)
  instruments : List (Option Inst)
  inaccessible : List (Option Nat × List Inst)
  deriving DecidableEq, Repr

def magicSBNK : Bytes := [0x53, 0x42, 0x4E, 0x4B]
def magicDATA : Bytes := [0x44, 0x41, 0x54, 0x41]

/-! ## Loading -/

/-- `while l and l[-1] is None: l = l[:-1]` (soundBank.py 530–534). -/
def dropNones (l : List (Option Int)) : List (Option Int) := (l.reverse.dropWhile Option.isNone).reverse

/-- Remove the bytes an instrument consumed (soundBank.py 597–599). -/
def consume (u : List Nat) (off n : Nat) : List Nat := u.filter fun i => !(decide (off ≤ i ∧ i < off + n))

/-- `makeInstrumentAt(type, offset)` (soundBank.py 585–601). -/
def makeInstrumentAt (data : Bytes) (type off : Nat) (u : List Nat) : Py (Option Inst × List Nat) := do
  let r ← kindAt data type off
  return (r.1.map fun k => ⟨k, off, off⟩, consume u off r.2)

/-- The loop over the table (soundBank.py 603–613): the instruments, the bytes not consumed, and the offsets of the
instruments by number. -/
def loadTable (data : Bytes) : Nat → Nat → List Nat → Py (List (Option Inst) × List Nat × List (Nat × Nat))
  | 0, _, u => .ok ([], u, [])
  | n + 1, id, u => do
    let type ← unpackU .little 1 data (0x3C + 4 * id)
    let off ← unpackU .little 2 data (0x3C + 4 * id + 1)
    let _ ← unpackU .little 1 data (0x3C + 4 * id + 3)
    let m ← makeInstrumentAt data type off u
    let r ← loadTable data n (id + 1) m.2
    return (m.1 :: r.1, r.2.1, if m.1.isSome then (id, off) :: r.2.2 else r.2.2)

/-- The number of the instrument before the given offset (soundBank.py 629–640): the one with the greatest smaller
offset, the first one if there are several. -/
def prevOf (this : Nat) : List (Nat × Nat) → Option (Nat × Nat) → Option (Nat × Nat)
  | [], best => best
  | (id, off) :: l, best =>
    if off < this ∧ (∀ b, best = some b → b.2 < off) then prevOf this l (some (id, off)) else prevOf this l best

/-- The number of the instrument behind the given offset (soundBank.py 631–641). -/
def nextOf (this : Nat) : List (Nat × Nat) → Option (Nat × Nat) → Option (Nat × Nat)
  | [], best => best
  | (id, off) :: l, best =>
    if this < off ∧ (∀ b, best = some b → off < b.2) then nextOf this l (some (id, off)) else nextOf this l best

/-- The type of the instrument with the given number (soundBank.py 647–648).  Only numbers of existing instruments
are looked up. -/
def typeOf (insts : List (Option Inst)) (id : Option (Nat × Nat)) : Option Nat :=
  match id with
  | none => none
  | some i => (insts.getD i.1 none).map fun x => x.kind.type

/-- The types that are possible between the given neighbours (soundBank.py 643–660). -/
def possibleTypes (prev next : Option Nat) : List Nat :=
  let a := match prev with
    | none => [1, 16, 17]
    | some p =>
      let l := if 16 ≤ p then [16, 17] else [1, 16, 17]
      if p = 17 then l.filter (· ≠ 16) else l
  match next with
  | none => a
  | some n =>
    let l := if n ≤ 16 then a.filter (· ≠ 17) else a
    if n < 16 then l.filter (· ≠ 16) else l

/-- `while tempOffset in unconsumedBytes: tempOffset += 1` (soundBank.py 663–666): the number of consecutive numbers
at the start of an ascending list. -/
def runLength : List Nat → Nat
  | [] => 0
  | [_] => 1
  | a :: b :: l => if b = a + 1 then 1 + runLength (b :: l) else 1

/-- The check of the region ends (soundBank.py 484–497): strictly increasing, then zeros only. -/
def endsOk : List UInt8 → Int → Bool
  | [], _ => true
  | e :: es, prev =>
    if prev ≠ 0 ∧ e = 0 then endsOk es 0
    else if prev = 0 ∧ e ≠ 0 then false
    else if prev ≠ 0 then
      if (e.toNat : Int) ≤ prev then false else endsOk es e.toNat
    else endsOk es prev

/-- `ruleOut(type)` (soundBank.py 440–442), under a condition. -/
def ruleOutIf (c : Bool) (type : Nat) (l : List Nat) : List Nat := if c then l.filter (· ≠ type) else l

/-- Types 2 and 3 are replaced by 1 (soundBank.py 415–420). -/
def mergePsg (t : List Nat) : List Nat :=
  let step := fun (x : Nat) (l : List Nat) =>
    if x ∈ l then (if 1 ∈ l.filter (· ≠ x) then l.filter (· ≠ x) else 1 :: l.filter (· ≠ x)) else l
  step 3 (step 2 t)

/-- What is left when single notes have been considered (soundBank.py 455–465): the types, or a decision. -/
def considerSingle (data : Bytes) (off : Nat) (t : List Nat) : Py (List Nat ⊕ Nat) :=
  if 1 ∈ t then do
    let a ← pyIdx data (off + 1)
    let b ← pyIdx data (off + 3)
    let c ← pyIdx data (off + 4)
    if c.toNat = 0x3C then return .inr 1
    else return .inl (ruleOutIf (c.toNat = 0) 1 (ruleOutIf (10 ≤ b.toNat) 1 (ruleOutIf (10 ≤ a.toNat) 1 t)))
  else .ok (.inl t)

/-- What is left when range instruments have been considered (soundBank.py 468–475). -/
def considerRange (data : Bytes) (off avail : Nat) (t : List Nat) : Py (List Nat) :=
  if 16 ∈ t then
    match slice data off (off + 2) with
    | [a, b] => .ok (ruleOutIf (b.toNat < a.toNat || decide (avail < 2 + 0xC * (b.toNat + 1 - a.toNat))) 16 t)
    | _ => .error .valueError
  else .ok t

/-- What is left when regional instruments have been considered (soundBank.py 478–506). -/
def considerRegional (data : Bytes) (off avail : Nat) (t : List Nat) : List Nat :=
  if 17 ∈ t then
    ruleOutIf (!(endsOk (slice data off (off + 8)) (-1)) ||
      decide (avail < 8 + 0xC * ((slice data off (off + 8)).takeWhile (· ≠ 0)).length)) 17 t
  else t

/-- `guessInstrumentType(data, startOffset, possibleTypes, bytesAvailable)` (soundBank.py 399–511).  The set of types
is a list without duplicates.  If several types are left in the end, Python takes the one its set iterates first;
here that is `choose`, about which nothing is assumed. -/
def guess (choose : List Nat → Nat) (data : Bytes) (off : Nat) (types : List Nat) (avail : Nat) : Py (Option Nat) :=
  let t0 := mergePsg types
  if t0.length < 2 then .ok t0.head?
  else
    let t1 := ruleOutIf (avail < 8 + 0xC) 17 (ruleOutIf (avail < 2 + 0xC) 16 (ruleOutIf (avail < 10) 0 t0))
    if t1.length < 2 then .ok t1.head?
    else do
      match ← considerSingle data off t1 with
      | .inr t => return some t
      | .inl t2 =>
        if t2.length < 2 then return t2.head?
        else do
          let t3 ← considerRange data off avail t2
          if t3.length < 2 then return t3.head?
          else
            let t4 := considerRegional data off avail t3
            if t4.length < 2 then return t4.head?
            else return some (choose t4)

/-- `inaccessibleInstruments[prevID].append(instrument)` (soundBank.py 692–694). -/
def addInaccessible (d : List (Option Nat × List Inst)) (id : Option Nat) (i : Inst) : List (Option Nat × List Inst) :=
  dictSet d id ((d.lookup id).getD [] ++ [i])

/-- The two bytes of padding at the end (soundBank.py 619–623). -/
def dropPadding (filesize : Nat) (u : List Nat) : List Nat :=
  if filesize - 1 ∈ u ∧ filesize - 2 ∈ u ∧ filesize - 3 ∉ u then
    u.filter fun i => i ≠ filesize - 1 ∧ i ≠ filesize - 2
  else u

/-- What the bytes from `this` on are taken to be (soundBank.py 628–681): an instrument and the bytes left, or
nothing.  Exceptions from making an instrument are caught, those from guessing are not. -/
def recoverAt (choose : List Nat → Nat) (data : Bytes) (insts : List (Option Inst)) (ids : List (Nat × Nat))
    (u : List Nat) (this : Nat) : Py (Option (Inst × List Nat)) := do
  let t ← guess choose data this (possibleTypes (typeOf insts (prevOf this ids none))
    (typeOf insts (nextOf this ids none))) (runLength u)
  match t with
  | none => return none
  | some t =>
    match makeInstrumentAt data t this u with
    | .ok (some i, u') => return some (i, u')
    | _ => return none

/-- The loop that looks for instruments which the table does not mention (soundBank.py 616–694).  `fuel` bounds the
number of rounds; every round removes a byte. -/
def recover (choose : List Nat → Nat) (data : Bytes) (filesize : Nat) (insts : List (Option Inst))
    (ids : List (Nat × Nat)) : Nat → List Nat → List (Option Nat × List Inst) → Py (List (Option Nat × List Inst))
  | fuel, u, acc =>
    match dropPadding filesize u with
    | [] => .ok acc
    | this :: rest =>
      match fuel with
      | 0 => .error .outOfFuel
      | fuel + 1 => do
        match ← recoverAt choose data insts ids (this :: rest) this with
        | none => recover choose data filesize insts ids fuel (rest.filter (· ≠ this + 1)) acc
        | some (i, u') =>
          recover choose data filesize insts ids fuel u' (addInaccessible acc ((prevOf this ids none).map Prod.fst) i)

/-- `SBNK(file, unk02, waveArchiveIDs)` (soundBank.py 524–544, 566–694). -/
def SBNK.load (choose : List Nat → Nat) (data : Bytes) (unk02 : Nat) (waveArchiveIDs : List (Option Int)) :
    Py SBNK := do
  raiseIf (data.take 4 ≠ magicSBNK) .valueError
  let h ← unpackStdHeader data 0
  pyAssert (h.magic = magicSBNK)
  raiseIf (h.version ≠ 0x100) .valueError
  let dataMagic ← unpackStr 4 data 0x10
  let _ ← unpackU .little 4 data 0x14
  let count ← unpackU .little 4 data 0x38
  pyAssert (dataMagic = magicDATA)
  let u := List.range' (0x3C + count * 4) (h.fileSize - (0x3C + count * 4))
  let r ← loadTable data count 0 u
  let inacc ← recover choose data h.fileSize r.1 r.2.2 r.2.1.length r.2.1 []
  return ⟨unk02, dropNones waveArchiveIDs, r.1, inacc⟩

/-! ## Saving -/

/-- `dataReuseCache` and `instrumentsData` (soundBank.py 703, 718). -/
structure Pool where
  cache : List ((Bytes × Nat) × Nat)
  blob : Bytes
  deriving DecidableEq, Repr

/-- `addInstrument(instrument)` once its data is known (soundBank.py 722–729). -/
def Pool.add (p : Pool) (key : Bytes × Nat) : Nat × Pool :=
  match p.cache.lookup key with
  | some off => (off, p)
  | none => (p.blob.length, ⟨p.cache ++ [(key, p.blob.length)], p.blob ++ key.1⟩)

/-- The instruments in the order in which they are saved, with the number of the slot that gets the offset.  `group`
says to which of the three groups a type belongs (soundBank.py 731–759). -/
def orderOf (s : SBNK) : List (Option Nat × Inst) :=
  let hidden := fun (id : Option Nat) => (((s.inaccessible.lookup id).getD []).map fun i => ((none : Option Nat), i))
  let numbered := (List.range s.instruments.length).zip s.instruments |>.filterMap fun p => p.2.map fun i => (p.1, i)
  let group := fun (test : Nat → Bool) =>
    (sortBy (fun p : Nat × Inst => p.2.orderKey) (numbered.filter fun p => test p.2.kind.type)).flatMap fun p =>
      (some p.1, p.2) :: hidden (some p.1)
  let high := sortBy id ((s.inaccessible.filterMap Prod.fst).filter fun i => decide (s.instruments.length ≤ i))
  hidden none ++ group (· < 16) ++ group (· = 16) ++ group (· = 17) ++ high.flatMap fun i => hidden (some i)

/-- Add all instruments in order (soundBank.py 734–759); the result lists the offsets of the numbered ones. -/
def addAll : List (Option Nat × Inst) → Pool → Py (List (Nat × Nat) × Pool)
  | [], p => .ok ([], p)
  | (n, i) :: l, p => do
    let d ← i.kind.save
    let r ← addAll l (p.add (d, i.mergeID)).2
    return (match n with
      | none => r.1
      | some k => (k, (p.add (d, i.mergeID)).1) :: r.1, r.2)

/-- The table entry of a slot (soundBank.py 762–770).  The entry is four bytes long, the last of which stays zero. -/
def entry (base : Nat) (offs : List (Nat × Nat)) (slot : Nat) (i : Option Inst) : Py Bytes := do
  let a ← packU .little 1 (match i with | none => 0 | some i => i.kind.type)
  let b ← packU .little 2 (match offs.lookup slot with | none => 0 | some o => o + base)
  return a ++ b ++ [0]

/-- `SBNK.save()` (soundBank.py 697–782).  The file is put together from its parts: header, block header with 32
zero bytes, table, instrument data, padding. -/
def SBNK.save (s : SBNK) : Py (Bytes × Nat × List (Option Int)) := do
  let base := 0x3C + 4 * s.instruments.length
  let r ← addAll (orderOf s) ⟨[], []⟩
  let table ← mapE (fun p : Nat × Option Inst => entry base r.1 p.1 p.2)
    ((List.range s.instruments.length).zip s.instruments)
  let total := base + r.2.blob.length + padLen (base + r.2.blob.length) 4
  let h ← packStdHeader ⟨magicSBNK, 0xFEFF, 0x100, total, 0x10, 1⟩
  let a ← packU .little 4 (total - 0x10)
  let b ← packU .little 4 s.instruments.length
  return (h ++ (magicDATA ++ a ++ zeros 32 ++ b) ++ table.flatten ++ r.2.blob ++
    zeros (padLen (base + r.2.blob.length) 4), s.unk02, s.waveArchiveIDs)

end Verif.Model.SoundBank
