import Verif.Model.SoundArchive
import Verif.Model.SequenceObject
import Verif.Model.SoundBank
import Verif.Model.SoundWave

/-!
# Model of `SDAT` objects with the objects in them

`Model/SoundArchive.lean` models an item of a sound archive by what its `save()` returns.  Here the items are the objects
themselves: saving an archive saves them, and loading one constructs them.  The objects are saved before anything else
and constructed after everything else; since neither has effects on anything but the result, only which exception is
raised can differ if several would be.
-/

namespace Verif.Model.SoundArchiveObject

open Verif Verif.Model.SoundArchive Verif.Model.SequenceObject

/-- An `SSEQ` of an archive (soundSequence.py 28–64): its events, the merge ID and the attributes that are not in the file. -/
structure Seq where
  obj : SSEQObj
  mergeID : Int
  unk02 : Nat
  bankID : Nat
  volume : Nat
  channelPressure : Nat
  polyphonicPressure : Nat
  playerID : Nat
  deriving DecidableEq, Repr

/-- An `SSAR` of an archive (soundSequenceArchive.py 28–91). -/
structure Ssar where
  obj : SSARObj
  mergeID : Int
  deriving DecidableEq, Repr

/-- An `SBNK` of an archive (soundBank.py 514–544). -/
structure Bank where
  obj : SoundBank.SBNK
  mergeID : Int
  deriving DecidableEq, Repr

/-- A `SWAR` of an archive (soundWaveArchive.py 28–48). -/
structure Swar where
  waves : List SoundWave.SWAV
  mergeID : Int
  unk02 : Nat
  deriving DecidableEq, Repr

/-- A `STRM` of an archive (soundStream.py 28–73). -/
structure Strm where
  obj : SoundStream.STRM
  mergeID : Int
  unk02 : Nat
  volume : Nat
  priority : Nat
  playerID : Nat
  unk07 : Nat
  deriving DecidableEq, Repr

/-- `SDAT` (soundArchive.py 36–59). -/
structure Archive where
  sequences : List (Symbol × Option Seq)
  sequenceArchives : List (Symbol × Option Ssar)
  banks : List (Symbol × Option Bank)
  waveArchives : List (Symbol × Option Swar)
  sequencePlayers : List (Symbol × Option SeqPlayer)
  groups : List (Symbol × Option (List SoundStream.GroupEntry))
  streamPlayers : List (Symbol × Option (List Nat))
  streams : List (Symbol × Option Strm)
  fatLengthsIncludePadding : Bool
  firstFileAlignment : Option Nat
  fileAlignment : Nat
  padAtEnd : Bool
  padSymbSizeTo4InSDATHeader : Bool
  deriving DecidableEq, Repr

/-! ## Saving -/

/-- `sseq.save()` (soundArchive.py 565–567, soundSequence.py 129–155). -/
def Seq.save (x : Seq) : Py SeqItem := do
  let file ← x.obj.save
  return ⟨file, x.mergeID, x.unk02, x.bankID, x.volume, x.channelPressure, x.polyphonicPressure, x.playerID⟩

/-- `ssar.save()` (soundArchive.py 588–589, soundSequenceArchive.py 171–228). -/
def Ssar.save (x : Ssar) : Py SsarItem := do
  let r ← x.obj.save
  return ⟨r.1, x.mergeID, r.2.1, r.2.2⟩

/-- `sbnk.save()` (soundArchive.py 609–610, soundBank.py 697–782). -/
def Bank.save (x : Bank) : Py BankItem := do
  let r ← x.obj.save
  return ⟨r.1, x.mergeID, r.2.1, r.2.2⟩

/-- `swar.save()` (soundArchive.py 641–642, soundWaveArchive.py 107–135). -/
def Swar.save (x : Swar) : Py SwarItem := do
  let file ← SoundWave.saveSWAR x.waves
  return ⟨file, x.mergeID, x.unk02⟩

/-- `strm.save()` (soundArchive.py 741–742, soundStream.py 156–252). -/
def Strm.save (x : Strm) : Py StrmItem := do
  let file ← x.obj.save
  return ⟨file, x.mergeID, x.unk02, x.volume, x.priority, x.playerID, x.unk07⟩

/-- The loop over a list of items, which leaves empty slots alone (soundArchive.py 559–562 and so on). -/
def eachItem {α β : Type} (f : α → Py β) : List (Symbol × Option α) → Py (List (Symbol × Option β)) :=
  mapE fun p => match p.2 with
    | none => .ok (p.1, none)
    | some x => do
      let y ← f x
      return (p.1, some y)

/-- What the items of an archive save to. -/
def Archive.items (o : Archive) : Py SDAT := do
  let sequences ← eachItem Seq.save o.sequences
  let sequenceArchives ← eachItem Ssar.save o.sequenceArchives
  let banks ← eachItem Bank.save o.banks
  let waveArchives ← eachItem Swar.save o.waveArchives
  let streams ← eachItem Strm.save o.streams
  return {
    sequences := sequences, sequenceArchives := sequenceArchives, banks := banks, waveArchives := waveArchives
    sequencePlayers := o.sequencePlayers, groups := o.groups, streamPlayers := o.streamPlayers, streams := streams
    fatLengthsIncludePadding := o.fatLengthsIncludePadding, firstFileAlignment := o.firstFileAlignment
    fileAlignment := o.fileAlignment, padAtEnd := o.padAtEnd
    padSymbSizeTo4InSDATHeader := o.padSymbSizeTo4InSDATHeader }

/-- `SDAT.save()` (soundArchive.py 362–837). -/
def Archive.save (o : Archive) : Py Bytes := do
  let s ← o.items
  s.save

/-! ## Loading -/

/-- `SSEQ(files[fileID], unk02, ...)` (soundArchive.py 228–233, soundSequence.py 38–64). -/
def Seq.load (i : SeqItem) : Py Seq := do
  let o ← SSEQObj.init (some i.file)
  return ⟨o, i.mergeID, i.unk02, i.bankID, i.volume, i.channelPressure, i.polyphonicPressure, i.playerID⟩

/-- `SSAR(files[fileID], unk02, subSymb)` (soundArchive.py 243–246, soundSequenceArchive.py 41–91). -/
def Ssar.load (i : SsarItem) : Py Ssar := do
  let o ← SSARObj.init (some i.file) i.unk02 i.names
  return ⟨o, i.mergeID⟩

/-- `SBNK(files[fileID], unk02, swarIDs2)` (soundArchive.py 257–267, soundBank.py 524–544).  For `choose`, see
`Model/SoundBank.lean`. -/
def Bank.load (choose : List Nat → Nat) (i : BankItem) : Py Bank := do
  let o ← SoundBank.SBNK.load choose i.file i.unk02 i.waveArchiveIDs
  return ⟨o, i.mergeID⟩

/-- `SWAR(files[fileID], unk02)` (soundArchive.py 277–279, soundWaveArchive.py 37–86). -/
def Swar.load (i : SwarItem) : Py Swar := do
  let ws ← SoundWave.loadSWAR i.file
  return ⟨ws, i.mergeID, i.unk02⟩

/-- `STRM(files[fileID], unk02, ...)` (soundArchive.py 340–343, soundStream.py 37–153). -/
def Strm.load (i : StrmItem) : Py Strm := do
  let o ← SoundStream.STRM.load i.file
  return ⟨o, i.mergeID, i.unk02, i.volume, i.priority, i.playerID, i.unk07⟩

/-- The objects made from items (soundArchive.py 222–345). -/
def Archive.make (choose : List Nat → Nat) (s : SDAT) : Py Archive := do
  let sequences ← eachItem Seq.load s.sequences
  let sequenceArchives ← eachItem Ssar.load s.sequenceArchives
  let banks ← eachItem (Bank.load choose) s.banks
  let waveArchives ← eachItem Swar.load s.waveArchives
  let streams ← eachItem Strm.load s.streams
  return {
    sequences := sequences, sequenceArchives := sequenceArchives, banks := banks, waveArchives := waveArchives
    sequencePlayers := s.sequencePlayers, groups := s.groups, streamPlayers := s.streamPlayers, streams := streams
    fatLengthsIncludePadding := s.fatLengthsIncludePadding, firstFileAlignment := s.firstFileAlignment
    fileAlignment := s.fileAlignment, padAtEnd := s.padAtEnd
    padSymbSizeTo4InSDATHeader := s.padSymbSizeTo4InSDATHeader }

/-- `SDAT(data)` (soundArchive.py 40–350). -/
def Archive.load (choose : List Nat → Nat) (data : Bytes) : Py Archive := do
  let s ← SDAT.load data
  Archive.make choose s

end Verif.Model.SoundArchiveObject
