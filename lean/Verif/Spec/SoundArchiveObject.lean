import Verif.Model.SoundArchiveObject
import Verif.Spec.Sequence
import Verif.Spec.SoundBank
import Verif.Spec.FormatSbnk

/-!
# Specification vocabulary for the objects in a sound archive

What it means that an item comes back from a saved archive, for each kind of item.
-/

namespace Verif.Spec.SoundArchiveObject

open Verif Verif.Model.SoundArchive Verif.Model.SequenceObject Verif.Model.SoundSequence
open Verif.Model.SoundSequenceArchive Verif.Model.SoundArchiveObject Verif.Spec.Sequence

/-- Two lists of named items agree place by place: the same names, empty slots where there were empty slots, and items
related by `R`. -/
inductive Slots {α β : Type} (R : α → β → Prop) : List (Symbol × Option α) → List (Symbol × Option β) → Prop
  | nil : Slots R [] []
  | empty {n l l'} : Slots R l l' → Slots R ((n, none) :: l) ((n, none) :: l')
  | item {n a b l l'} : R a b → Slots R l l' → Slots R ((n, some a) :: l) ((n, some b) :: l')

/-- A sequence: the attributes are the same; it is unparsed, and its data is the data it had, or the bytes of its
events. -/
structure SeqBack (x y : Seq) : Prop where
  unk02 : y.unk02 = x.unk02
  bankID : y.bankID = x.bankID
  volume : y.volume = x.volume
  channelPressure : y.channelPressure = x.channelPressure
  polyphonicPressure : y.polyphonicPressure = x.polyphonicPressure
  playerID : y.playerID = x.playerID
  parsed : y.obj.parsed = false
  kept : x.obj.parsed = false → y.obj.eventsData = x.obj.eventsData
  written : x.obj.parsed = true → ∃ d offs, saveSequenceEvents x.obj.events [] = .ok (d, offs) ∧ y.obj.eventsData = some d

/-- Where a sequence begins, after saving: -1 stands for nowhere. -/
def nowhere : First → First
  | .unparsed (some z) => .unparsed (if z = -1 then none else some z)
  | f => f

/-- Where a sequence that begins with an event begins, after saving. -/
def whereIn (events : List (Nat × Ev)) : First → First
  | .parsed (some e) => .unparsed (some (offsetIn events e : Int))
  | _ => .unparsed none

/-- A sequence archive: names and attributes are the same; it is unparsed.  If it was before, its data and the offsets are
the same.  Otherwise its data are the bytes of its events, and each sequence begins where its first event was put. -/
structure SsarBack (x y : Ssar) : Prop where
  unk02 : y.obj.unk02 = x.obj.unk02
  parsed : y.obj.parsed = false
  attributes : (y.obj.sequences.map fun s => (s.1, { s.2 with first := .unparsed none })) =
    x.obj.sequences.map fun s => (s.1, { s.2 with first := .unparsed none })
  kept : x.obj.parsed = false → y.obj.eventsData = x.obj.eventsData ∧
    y.obj.sequences = x.obj.sequences.map fun s => (s.1, { s.2 with first := nowhere s.2.first })
  written : x.obj.parsed = true → ∃ es starts d offs, x.obj.events = some es ∧
    saveSequenceEvents es starts = .ok (d, offs) ∧ y.obj.eventsData = some d ∧
    ((es.map Prod.fst).Nodup → (∀ e ∈ es, InRange e.2 ∨ ∃ b, e.2 = .raw b) →
      y.obj.sequences = x.obj.sequences.map fun s => (s.1, { s.2 with first := whereIn es s.2.first }))

/-- A bank: the same instruments, and the same wave archives; -1 is an empty slot, and there
are no empty slots at the end. -/
structure BankBack (x y : Bank) : Prop where
  unk02 : y.obj.unk02 = x.obj.unk02
  instruments : y.obj.instruments.map (Option.map Model.SoundBank.Inst.kind) =
    x.obj.instruments.map (Option.map Model.SoundBank.Inst.kind)
  waveArchives : ∀ (i : Nat) (z : Int), y.obj.waveArchiveIDs[i]? = some (some z) ↔ x.obj.waveArchiveIDs[i]? = some (some z) ∧ z ≠ -1
  waveArchivesEnd : y.obj.waveArchiveIDs.getLast? ≠ some none
  inaccessible : x.obj.inaccessible = [] → y.obj.inaccessible = []

/-- A wave archive: the same waves. -/
structure SwarBack (x y : Swar) : Prop where
  unk02 : y.unk02 = x.unk02
  waves : y.waves = x.waves

/-- A stream: the same stream and attributes. -/
structure StrmBack (x y : Strm) : Prop where
  unk02 : y.unk02 = x.unk02
  volume : y.volume = x.volume
  priority : y.priority = x.priority
  playerID : y.playerID = x.playerID
  unk07 : y.unk07 = x.unk07
  stream : y.obj = x.obj

/-- A player: the same, with its channels in order, once each, and none from 16 on. -/
structure PlayerBack (x y : SeqPlayer) : Prop where
  maxSequences : y.maxSequences = x.maxSequences
  heapSize : y.heapSize = x.heapSize
  channels : y.channels.Pairwise (· < ·) ∧ ∀ c, c ∈ y.channels ↔ c ∈ x.channels ∧ c < 16

end Verif.Spec.SoundArchiveObject
