import Verif.Base.Str
import Verif.Base.Struct
import Verif.Model.Common
import Verif.Model.SoundStream

/-!
# Model of `ndspy/soundArchive.py`

An item of a sound archive (a sequence, a bank, ...) is modelled by the tuple that its `save()` returns, which is also
what its class is constructed from, together with its `dataMergeOptimizationID`.  The classes themselves are modelled in
their own files.  What `save()` of an item returns depends on that item only, so saving the items beforehand makes no
difference to the bytes.
-/

namespace Verif.Model.SoundArchive

open Verif Verif.Model.Common Verif.Model.SoundStream

/-- A symbol: `None` or a string. -/
abbrev Symbol := Option Str

/-- What `SSEQ.save()` returns (soundSequence.py 129–155), and the merge ID. -/
structure SeqItem where
  file : Bytes
  mergeID : Int
  unk02 : Nat
  bankID : Nat
  volume : Nat
  channelPressure : Nat
  polyphonicPressure : Nat
  playerID : Nat
  deriving DecidableEq, Repr

/-- What `SSAR.save()` returns (soundSequenceArchive.py 171–228), and the merge ID.  The names are those of
`entry.sequences` (soundArchive.py 403, 446).  On loading, `SSAR` treats `None` in place of the names like an empty list. -/
structure SsarItem where
  file : Bytes
  mergeID : Int
  unk02 : Nat
  names : List Symbol
  deriving DecidableEq, Repr

/-- What `SBNK.save()` returns (soundBank.py 636 ff.), and the merge ID. -/
structure BankItem where
  file : Bytes
  mergeID : Int
  unk02 : Nat
  waveArchiveIDs : List (Option Int)
  deriving DecidableEq, Repr

/-- What `SWAR.save()` returns (soundWaveArchive.py 107–135), and the merge ID. -/
structure SwarItem where
  file : Bytes
  mergeID : Int
  unk02 : Nat
  deriving DecidableEq, Repr

/-- `SequencePlayer` (soundSequencePlayer.py 22–40); the set of channels as a list. -/
structure SeqPlayer where
  maxSequences : Nat
  channels : List Nat
  heapSize : Nat
  deriving DecidableEq, Repr

/-- What `STRM.save()` returns (soundStream.py), and the merge ID. -/
structure StrmItem where
  file : Bytes
  mergeID : Int
  unk02 : Nat
  volume : Nat
  priority : Nat
  playerID : Nat
  unk07 : Nat
  deriving DecidableEq, Repr

/-- `SDAT` (soundArchive.py 36–59).  A stream player is the list of its channels. -/
structure SDAT where
  sequences : List (Symbol × Option SeqItem)
  sequenceArchives : List (Symbol × Option SsarItem)
  banks : List (Symbol × Option BankItem)
  waveArchives : List (Symbol × Option SwarItem)
  sequencePlayers : List (Symbol × Option SeqPlayer)
  groups : List (Symbol × Option (List GroupEntry))
  streamPlayers : List (Symbol × Option (List Nat))
  streams : List (Symbol × Option StrmItem)
  fatLengthsIncludePadding : Bool
  firstFileAlignment : Option Nat
  fileAlignment : Nat
  padAtEnd : Bool
  padSymbSizeTo4InSDATHeader : Bool
  deriving DecidableEq, Repr

/-- `SDAT()` (soundArchive.py 40–56). -/
def SDAT.new : SDAT := ⟨[], [], [], [], [], [], [], [], false, none, 0x20, true, false⟩

def magicSDAT : Bytes := [0x53, 0x44, 0x41, 0x54]
def magicSYMB : Bytes := [0x53, 0x59, 0x4D, 0x42]
def magicINFO : Bytes := [0x49, 0x4E, 0x46, 0x4F]
def magicFAT : Bytes := [0x46, 0x41, 0x54, 0x20]
def magicFILE : Bytes := [0x46, 0x49, 0x4C, 0x45]

/-! ## Saving the symbols -/

/-- The local variables of the code that makes the SYMB block (soundArchive.py 372–386): the strings, the parallel lists
`symbolsTableValues` and `shouldIncrementByTableLen` as a list of pairs, the offsets for the header, and whether there is
any symbol. -/
structure Symb where
  strings : Bytes
  table : List (Int × Bool)
  heads : List Nat
  any : Bool
  deriving DecidableEq, Repr

/-- `addSymbolAndGetOffset` (soundArchive.py 373–378): the offset and the strings afterwards. -/
def addSymbol (strings : Bytes) : Symbol → Py (Int × Bytes)
  | none => .ok (-1, strings)
  | some s => do
    let b ← latin1Encode s
    return ((strings.length : Int), strings ++ (b ++ [0]))

/-- Loop over a list of symbols (soundArchive.py 420–422, 452–454). -/
def addSymbols : List Symbol → Bytes → Py (List (Int × Bool) × Bytes)
  | [], strings => .ok ([], strings)
  | s :: ss, strings => do
    let r ← addSymbol strings s
    let rs ← addSymbols ss r.2
    return ((r.1, true) :: rs.1, rs.2)

/-- `addSymbolsFrom(namedList)` (soundArchive.py 388–422). -/
def addSymbolsFrom (symbols : List Symbol) (st : Symb) : Py Symb := do
  let r ← addSymbols symbols st.strings
  return ⟨r.2, st.table ++ ((symbols.length : Int), false) :: r.1, st.heads ++ [st.table.length * 4],
    st.any || symbols.any Option.isSome⟩

/-- The loop that looks for symbols in a nested list (soundArchive.py 399–406); `sub` is `anyActualSubsymbols`.  The
result is `anyActualSymbols or anyActualSubsymbols`. -/
def anyNested : List (Symbol × Option (List Symbol)) → Bool → Py Bool
  | [], sub => .ok sub
  | (some _, _) :: _, _ => .ok true
  | (none, none) :: _, _ => .error .attributeError
  | (none, some names) :: rest, sub => anyNested rest (sub || names.any Option.isSome)

/-- The loop over a nested list (soundArchive.py 436–461); `area` is `subListsAreaOffset` and `k` the length of
`subListsArea`.  Returns what is added to the main list, to the area of the lists inside, and the strings. -/
def addNested (area : Nat) : List (Symbol × Option (List Symbol)) → (k : Nat) → Bytes →
    Py (List (Int × Bool) × List (Int × Bool) × Bytes)
  | [], _, strings => .ok ([], [], strings)
  | (s, none) :: rest, k, strings => do
    let r ← addSymbol strings s
    let rs ← addNested area rest k r.2
    return ((r.1, true) :: (0, false) :: rs.1, rs.2.1, rs.2.2)
  | (s, some names) :: rest, k, strings => do
    let r ← addSymbol strings s
    let q ← addSymbols names r.2
    let rs ← addNested area rest (k + (1 + names.length)) q.2
    return ((r.1, true) :: (((area + k * 4 : Nat) : Int), false) :: rs.1,
      ((names.length : Int), false) :: q.1 ++ rs.2.1, rs.2.2)

/-- `addSymbolsFrom(namedList, True)` (soundArchive.py 388–414, 424–466). -/
def addSymbolsNested (entries : List (Symbol × Option (List Symbol))) (st : Symb) : Py Symb := do
  let any ← anyNested entries false
  let r ← addNested (0x40 + st.table.length * 4 + (1 + 2 * entries.length) * 4) entries 0 st.strings
  return ⟨r.2.2, st.table ++ (((entries.length : Int), false) :: r.1) ++ r.2.1, st.heads ++ [st.table.length * 4],
    st.any || any⟩

/-- The names of a list. -/
def symbolsOf {α : Type} (l : List (Symbol × Option α)) : List Symbol := l.map Prod.fst

/-- All symbols of an archive (soundArchive.py 468–475). -/
def allSymbols (s : SDAT) : Py Symb := do
  let st ← addSymbolsFrom (symbolsOf s.sequences) ⟨[], [], [], false⟩
  let st ← addSymbolsNested (s.sequenceArchives.map fun p => (p.1, p.2.map SsarItem.names)) st
  let st ← addSymbolsFrom (symbolsOf s.banks) st
  let st ← addSymbolsFrom (symbolsOf s.waveArchives) st
  let st ← addSymbolsFrom (symbolsOf s.sequencePlayers) st
  let st ← addSymbolsFrom (symbolsOf s.groups) st
  let st ← addSymbolsFrom (symbolsOf s.streamPlayers) st
  addSymbolsFrom (symbolsOf s.streams) st

/-- One value of the table (soundArchive.py 483–490). -/
def symbolWord (tableLen : Nat) (v : Int × Bool) : Py Bytes :=
  if v.1 = -1 then .ok (zeros 4) else packUInt .little 4 (if v.2 = true then v.1 + (tableLen + 0x40 : Nat) else v.1)

/-- The SYMB block and its size for the header, if there is one (soundArchive.py 478–517). -/
def symbBlock (s : SDAT) : Py (Option (Bytes × Nat)) := do
  let st ← allSymbols s
  if st.any = true then
    let tableLen := st.table.length * 4
    let table ← mapE (symbolWord tableLen) st.table
    let size := 0x40 + table.flatten.length + st.strings.length
    let paddedSize := size + padLen size 4
    let heads ← mapE (fun v => packU .little 4 (v + 0x40)) st.heads
    let h ← packU .little 4 paddedSize
    return some (magicSYMB ++ h ++ heads.flatten ++ zeros 0x18 ++ table.flatten ++ st.strings,
      if s.padSymbSizeTo4InSDATHeader = true then paddedSize else size)
  else return none

/-! ## Saving the information about the items -/

/-- `files` and `fileMergeIDs` (soundArchive.py 549–550), as a list of pairs. -/
abbrev Files := List (Bytes × Int)

/-- The search of `addFileAndGetID` (soundArchive.py 536–541) from a position on. -/
def findFile (file : Bytes) (mergeID : Int) : Files → Nat → Option Nat
  | [], _ => none
  | f :: fs, i => if f.1 = file ∧ mergeID = f.2 then some i else findFile file mergeID fs (i + 1)

/-- `addFileAndGetID` (soundArchive.py 535–545): the ID and the files afterwards. -/
def addFileAndGetID (files : Files) (file : Bytes) (mergeID : Int) : Nat × Files :=
  match findFile file mergeID files 0 with
  | some i => (i, files)
  | none => (files.length, files ++ [(file, mergeID)])

/-- A sequence's entry (soundArchive.py 565–571). -/
def packSeq (files : Files) (x : SeqItem) : Py (Bytes × Files) := do
  let r := addFileAndGetID files x.file x.mergeID
  let b ← packUs .little [(2, r.1), (2, x.unk02), (2, x.bankID), (1, x.volume), (1, x.channelPressure),
    (1, x.polyphonicPressure), (1, x.playerID)]
  return (b ++ zeros 2, r.2)

/-- A sequence archive's entry (soundArchive.py 588–592). -/
def packSsar (files : Files) (x : SsarItem) : Py (Bytes × Files) := do
  let r := addFileAndGetID files x.file x.mergeID
  let b ← packUs .little [(2, r.1), (2, x.unk02)]
  return (b, r.2)

/-- The four IDs of wave archives (soundArchive.py 612–620). -/
def swarIDs (l : List (Option Int)) : Py (List Int) :=
  let ids := l.map fun x => x.getD (-1)
  let ids := ids ++ List.replicate (4 - ids.length) (-1)
  if 4 < ids.length then .error .valueError else .ok ids

/-- A bank's entry (soundArchive.py 609–623). -/
def packBank (files : Files) (x : BankItem) : Py (Bytes × Files) := do
  let r := addFileAndGetID files x.file x.mergeID
  let ids ← swarIDs x.waveArchiveIDs
  let b ← packUs .little [(2, r.1), (2, x.unk02)]
  let c ← mapE (packS .little 2) ids
  return (b ++ c.flatten, r.2)

/-- A wave archive's entry (soundArchive.py 641–645). -/
def packSwar (files : Files) (x : SwarItem) : Py (Bytes × Files) := do
  let r := addFileAndGetID files x.file x.mergeID
  let b ← packUs .little [(2, r.1), (2, x.unk02)]
  return (b, r.2)

/-- `channelMask` (soundArchive.py 665–668). -/
def channelMask (channels : List Nat) : Nat :=
  (List.range 16).foldl (fun m j => if j ∈ channels then m ||| (1 <<< j) else m) 0

/-- A sequence player's entry (soundArchive.py 663–671). -/
def packPlayer (files : Files) (x : SeqPlayer) : Py (Bytes × Files) := do
  let b ← packUs .little [(2, x.maxSequences), (2, channelMask x.channels), (4, x.heapSize)]
  return (b, files)

/-- A group's entry (soundArchive.py 689–692). -/
def packGroupEntry (files : Files) (x : List GroupEntry) : Py (Bytes × Files) := do
  let b ← packGroup x
  return (b, files)

/-- A stream player's entry (soundArchive.py 710–725).  All other entries have a length that is a multiple of four, so
that padding the entry itself does the same as padding the whole data. -/
def packStreamPlayer (files : Files) (channels : List Nat) : Py (Bytes × Files) := do
  let n ← byteOf channels.length
  let cs ← mapE byteOf (channels ++ List.replicate (16 - channels.length) 0xFF)
  return (padTo (n :: cs ++ zeros 4) 4 0, files)

/-- A stream's entry (soundArchive.py 741–745). -/
def packStrm (files : Files) (x : StrmItem) : Py (Bytes × Files) := do
  let r := addFileAndGetID files x.file x.mergeID
  let b ← packUs .little [(2, r.1), (2, x.unk02), (1, x.volume), (1, x.priority), (1, x.playerID), (1, x.unk07)]
  return (b ++ zeros 4, r.2)

/-- The loop over the items of a part (soundArchive.py 559–573 and so on): the table of offsets, the entries and the files.
The table is reserved before and filled in one by one; here its words are collected.  `pos` is the length of the INFO block
so far. -/
def packEntries {α : Type} (pack : Files → α → Py (Bytes × Files)) : List (Option α) → (pos : Nat) → Files →
    Py (Bytes × Bytes × Files)
  | [], _, files => .ok ([], [], files)
  | none :: rest, pos, files => do
    let r ← packEntries pack rest pos files
    return (leBytes 4 0 ++ r.1, r.2.1, r.2.2)
  | some x :: rest, pos, files => do
    let b ← pack files x
    let t ← packU .little 4 pos
    let r ← packEntries pack rest (pos + b.1.length) b.2
    return (t ++ r.1, b.1 ++ r.2.1, r.2.2)

/-- The INFO block while it is built: what stands behind its header of 0x40 bytes, the files, and the offsets of the parts
for the header. -/
structure Info where
  body : Bytes
  files : Files
  parts : Bytes
  deriving DecidableEq, Repr

/-- One part (soundArchive.py 553–573 and so on). -/
def packPart {α : Type} (pack : Files → α → Py (Bytes × Files)) (items : List (Symbol × Option α)) (s : Info) : Py Info := do
  let p ← packU .little 4 (0x40 + s.body.length)
  let n ← packU .little 4 items.length
  let r ← packEntries pack (items.map Prod.snd) (0x40 + s.body.length + 4 + 4 * items.length) s.files
  return ⟨s.body ++ (n ++ r.1 ++ r.2.1), r.2.2, s.parts ++ p⟩

/-- The INFO block and the files (soundArchive.py 520–753). -/
def infoBlock (s : SDAT) : Py (Bytes × List Bytes) := do
  let i ← packPart packSeq s.sequences ⟨[], [], []⟩
  let i ← packPart packSsar s.sequenceArchives i
  let i ← packPart packBank s.banks i
  let i ← packPart packSwar s.waveArchives i
  let i ← packPart packPlayer s.sequencePlayers i
  let i ← packPart packGroupEntry s.groups i
  let i ← packPart packStreamPlayer s.streamPlayers i
  let i ← packPart packStrm s.streams i
  let h ← packU .little 4 (0x40 + i.body.length)
  return (magicINFO ++ h ++ i.parts ++ zeros 0x18 ++ i.body, i.files.map Prod.fst)

/-! ## Saving the files -/

/-- `while len(data) % align: data.append(0)`: how many zeros are appended. -/
def padZeros (len align : Nat) : Py Nat :=
  if align = 0 then .error .zeroDivisionError else .ok (padLen len align)

/-- The loop over the files (soundArchive.py 786–803): the file allocation table and the files; `pos` is the length of the
data so far. -/
def packFiles (s : SDAT) : List Bytes → (pos : Nat) → Py (Bytes × Bytes)
  | [], _ => .ok ([], [])
  | f :: fs, pos => do
    let k ← padZeros pos s.fileAlignment
    let e ← packUs .little [(4, pos + k),
      (4, if s.fatLengthsIncludePadding = true then f.length + padLen f.length s.fileAlignment else f.length)]
    let r ← packFiles s fs (pos + k + f.length)
    return (e ++ zeros 8 ++ r.1, zeros k ++ f ++ r.2)

/-- The padding before the first file (soundArchive.py 781–783). -/
def firstPadding (s : SDAT) (pos : Nat) : Py Nat :=
  match s.firstFileAlignment with
  | none => .ok 0
  | some a => padZeros pos a

/-- The padding behind the last file (soundArchive.py 807–809). -/
def lastPadding (s : SDAT) (pos : Nat) : Py Nat := if s.padAtEnd = true then padZeros pos s.fileAlignment else .ok 0

/-- The FAT block and the FILE block at a position (soundArchive.py 760–815). -/
def fileBlocks (s : SDAT) (files : List Bytes) (fatBlockOffset : Nat) : Py (Bytes × Bytes) := do
  let fh ← packUs .little [(4, 0xC + 0x10 * files.length), (4, files.length)]
  let fileBlockOffset := fatBlockOffset + (0xC + 0x10 * files.length)
  let first ← firstPadding s (fileBlockOffset + 0xC)
  let r ← packFiles s files (fileBlockOffset + 0xC + first)
  let last ← lastPadding s (fileBlockOffset + 0xC + first + r.2.length)
  let h ← packUs .little [(4, 0xC + first + r.2.length + last), (4, files.length)]
  return (magicFAT ++ fh ++ r.1, magicFILE ++ h ++ zeros first ++ r.2 ++ zeros last)

/-- `SDAT.save()` (soundArchive.py 362–837).  The header is written last, into the space reserved for it.  The lengths of
the INFO block and of the FAT block are multiples of four, so that no padding follows them. -/
def SDAT.save (s : SDAT) : Py Bytes := do
  let symb ← symbBlock s
  let symbData := match symb with
    | none => []
    | some x => x.1 ++ zeros (padLen x.1.length 4)
  let info ← infoBlock s
  let infoOff := 0x40 + symbData.length
  let fatOff := infoOff + info.1.length
  let r ← fileBlocks s info.2 fatOff
  let total := fatOff + r.1.length + r.2.length
  let blocks ← packUs .little [(4, match symb with | none => 0 | some _ => 0x40), (4, match symb with | none => 0 | some x => x.2),
    (4, infoOff), (4, info.1.length), (4, fatOff), (4, r.1.length), (4, fatOff + r.1.length), (4, r.2.length)]
  let h ← packStdHeader ⟨magicSDAT, 0xFEFF, 0x100, total, 0x40, match symb with | none => 3 | some _ => 4⟩
  return h ++ blocks ++ zeros 0x10 ++ symbData ++ info.1 ++ r.1 ++ r.2

/-! ## Loading the symbols -/

/-- `loadNullTerminatedStringFrom(data, offset)` (_common.py 52–59).  Without a NUL, `find` gives -1, so the last byte is cut
off. -/
def loadString (data : Bytes) (off : Nat) : Str :=
  latin1Decode (if 0 ∈ data.drop off then (data.drop off).takeWhile (· ≠ 0) else slice data off (data.length - 1))

/-- One symbol (soundArchive.py 113–121); `last` is `lastEndOfString`. -/
def readSymbol (data : Bytes) (block off last : Nat) : Py (Symbol × Nat) := do
  let o ← unpackU .little 4 data off
  if o = 0 then return (none, last)
  else
    let s := loadString data (block + o)
    return (some s, o + s.length + 1)

/-- The loop of `readSymbolsList` without lists inside (soundArchive.py 112–124). -/
def readSymbols (data : Bytes) (block : Nat) : (count off last : Nat) → Py (List Symbol × Nat)
  | 0, _, last => .ok ([], last)
  | n + 1, off, last => do
    let r ← readSymbol data block off last
    let rs ← readSymbols data block n (off + 4) r.2
    return (r.1 :: rs.1, rs.2)

/-- `readSymbolsList(offset, False)` (soundArchive.py 96–136). -/
def readSymbolsList (data : Bytes) (block off last : Nat) : Py (List Symbol × Nat) := do
  let n ← unpackU .little 4 data (block + off)
  readSymbols data block n (block + off + 4) last

/-- `readSymbolsList(offset, False)` where the offset may be `None` (soundArchive.py 106). -/
def readSymbolsOpt (data : Bytes) (block : Nat) (off : Option Nat) (last : Nat) : Py (List Symbol × Nat) :=
  match off with
  | none => .ok ([], last)
  | some o => readSymbolsList data block o last

/-- The loop of `readSymbolsList` with lists inside (soundArchive.py 112–134). -/
def readNested (data : Bytes) (block : Nat) : (count off last : Nat) → Py (List (Symbol × List Symbol) × Nat)
  | 0, _, last => .ok ([], last)
  | n + 1, off, last => do
    let r ← readSymbol data block off last
    let o ← unpackU .little 4 data (off + 4)
    let q ← if o = 0 then .ok ([], r.2) else readSymbolsList data block o r.2
    let rs ← readNested data block n (off + 8) q.2
    return ((r.1, q.1) :: rs.1, rs.2)

/-- `readSymbolsList(offset, True)` (soundArchive.py 96–136). -/
def readNestedList (data : Bytes) (block off last : Nat) : Py (List (Symbol × List Symbol) × Nat) := do
  let n ← unpackU .little 4 data (block + off)
  readNested data block n (block + off + 4) last

/-- `readSymbolsList(offset, True)` where the offset may be `None` (soundArchive.py 106). -/
def readNestedOpt (data : Bytes) (block : Nat) (off : Option Nat) (last : Nat) : Py (List (Symbol × List Symbol) × Nat) :=
  match off with
  | none => .ok ([], last)
  | some o => readNestedList data block o last

/-! ## Loading the files -/

/-- The nine tests of a file's offset (soundArchive.py 167–184). -/
def alignmentOf (fileOffset a : Nat) : Nat :=
  let a := if fileOffset % 0x200 = 0x100 then min a 0x100 else a
  let a := if fileOffset % 0x100 = 0x80 then min a 0x80 else a
  let a := if fileOffset % 0x80 = 0x40 then min a 0x40 else a
  let a := if fileOffset % 0x40 = 0x20 then min a 0x20 else a
  let a := if fileOffset % 0x20 = 0x10 then min a 0x10 else a
  let a := if fileOffset % 0x10 = 8 then min a 8 else a
  let a := if fileOffset % 8 = 4 then min a 4 else a
  let a := if fileOffset % 4 = 2 then min a 2 else a
  if fileOffset % 2 = 1 then min a 1 else a

/-- What the loop over the files computes (soundArchive.py 145–149, 186–187). -/
structure FatState where
  files : List Bytes
  fileAlignment : Nat
  firstFileAlignment : Option Nat
  lengthsIncludePadding : Bool
  finalFileEnd : Nat
  deriving DecidableEq, Repr

/-- Whether the lengths still seem to include padding after a file (soundArchive.py 158–162). -/
def checkPadding (data : Bytes) (fat count i fileOffset fileSize : Nat) (incl : Bool) : Py Bool :=
  if i + 1 = count then .ok incl
  else do
    let next ← unpackU .little 4 data (fat + 0xC + 0x10 * (i + 1))
    return if (next : Int) - fileOffset ≠ fileSize then false else incl

/-- One file (soundArchive.py 151–190). -/
def readFile (data : Bytes) (fat count : Nat) (s : FatState) (i : Nat) : Py FatState := do
  let x ← unpackUs .little [4, 4] data (fat + 0xC + 0x10 * i)
  match x with
  | [fileOffset, fileSize] => do
    let incl ← checkPadding data fat count i fileOffset fileSize s.lengthsIncludePadding
    let a := alignmentOf fileOffset s.fileAlignment
    return ⟨s.files ++ [slice data fileOffset (fileOffset + fileSize)], a,
      if i = 0 then some a else s.firstFileAlignment, incl, fileOffset + fileSize⟩
  | _ => .error .structError

/-- The loop over the files (soundArchive.py 150–190). -/
def readFiles (data : Bytes) (fat count : Nat) : List Nat → FatState → Py FatState
  | [], s => .ok s
  | i :: is, s => do
    let s ← readFile data fat count s i
    readFiles data fat count is s

/-! ## Loading the information about the items -/

/-- `getInfoEntryOffsets(partNum)` (soundArchive.py 210–219), the numbers. -/
def entryOffsets (data : Bytes) (info off : Nat) : Py (List Nat) := do
  let n ← unpackU .little 4 data (info + off)
  unpackUs .little (List.replicate n 4) data (info + off + 4)

/-- One entry, if there is one (soundArchive.py 215–219, 225–233 and so on). -/
def readEntry {α : Type} (read : Nat → Py α) (info : Nat) (o : Option Nat) : Py (Option α) :=
  match o with
  | none => .ok none
  | some 0 => .ok none
  | some o => do
    let x ← read (info + o)
    return some x

/-- `itertools.zip_longest` of the offsets and the symbols. -/
def zipLongest {α β : Type} : List α → List β → List (Option α × Option β)
  | [], bs => bs.map fun b => (none, some b)
  | a :: as, [] => (some a, none) :: zipLongest as []
  | a :: as, b :: bs => (some a, some b) :: zipLongest as bs

/-- One part without lists inside (soundArchive.py 223–235 and so on).  The symbols are read before the offsets.  Returns
`lastEndOfString` too. -/
def readPart {α : Type} (read : Nat → Py α) (data : Bytes) (block : Nat) (symbOff : Option Nat) (info off last : Nat) :
    Py (List (Symbol × Option α) × Nat) := do
  let s ← readSymbolsOpt data block symbOff last
  let offs ← entryOffsets data info off
  let l ← mapE (fun p : Option Nat × Option Symbol => do
    let x ← readEntry read info p.1
    return (p.2.getD none, x)) (zipLongest offs s.1)
  return (l, s.2)

/-- `struct.unpack_from('<3H4B', ...)` and the sequence (soundArchive.py 228–233). -/
def readSeq (data : Bytes) (files : List Bytes) (off : Nat) : Py SeqItem := do
  let x ← unpackUs .little [2, 2, 2, 1, 1, 1, 1] data off
  match x with
  | [fileID, unk02, bankID, volume, channelPressure, polyphonicPressure, playerID] => do
    let f ← pyIdx files fileID
    return ⟨f, (fileID : Int), unk02, bankID, volume, channelPressure, polyphonicPressure, playerID⟩
  | _ => .error .structError

/-- A sequence archive (soundArchive.py 243–246). -/
def readSsar (data : Bytes) (files : List Bytes) (names : List Symbol) (off : Nat) : Py SsarItem := do
  let x ← unpackUs .little [2, 2] data off
  match x with
  | [fileID, unk02] => do
    let f ← pyIdx files fileID
    return ⟨f, (fileID : Int), unk02, names⟩
  | _ => .error .structError

/-- A bank (soundArchive.py 257–267). -/
def readBank (data : Bytes) (files : List Bytes) (off : Nat) : Py BankItem := do
  let x ← unpackUs .little [2, 2] data off
  match x with
  | [fileID, unk02] => do
    let ids ← mapE (fun i => unpackS .little 2 data (off + 4 + 2 * i)) (List.range 4)
    let f ← pyIdx files fileID
    return ⟨f, (fileID : Int), unk02, ids.map fun z => if z = -1 then none else some z⟩
  | _ => .error .structError

/-- A wave archive (soundArchive.py 277–279). -/
def readSwar (data : Bytes) (files : List Bytes) (off : Nat) : Py SwarItem := do
  let x ← unpackUs .little [2, 2] data off
  match x with
  | [fileID, unk02] => do
    let f ← pyIdx files fileID
    return ⟨f, (fileID : Int), unk02⟩
  | _ => .error .structError

/-- A sequence player (soundArchive.py 289–299). -/
def readPlayer (data : Bytes) (off : Nat) : Py SeqPlayer := do
  let x ← unpackUs .little [2, 2, 4] data off
  match x with
  | [maxSequences, mask, heapSize] =>
    return ⟨maxSequences, (List.range 16).filter fun i => (mask >>> i) &&& 1 ≠ 0, heapSize⟩
  | _ => .error .structError

/-- A stream player (soundArchive.py 327–330). -/
def readStreamPlayer (data : Bytes) (off : Nat) : Py (List Nat) := do
  let n ← unpackU .little 1 data off
  unpackUs .little (List.replicate n 1) data (off + 1)

/-- A stream (soundArchive.py 340–343). -/
def readStrm (data : Bytes) (files : List Bytes) (off : Nat) : Py StrmItem := do
  let x ← unpackUs .little [2, 2, 1, 1, 1, 1] data off
  match x with
  | [fileID, unk02, volume, priority, playerID, unk07] => do
    let f ← pyIdx files fileID
    return ⟨f, (fileID : Int), unk02, volume, priority, playerID, unk07⟩
  | _ => .error .structError

/-- The part of the sequence archives (soundArchive.py 238–249). -/
def readSsars (data : Bytes) (files : List Bytes) (block : Nat) (symbOff : Option Nat) (info off last : Nat) :
    Py (List (Symbol × Option SsarItem) × Nat) := do
  let s ← readNestedOpt data block symbOff last
  let offs ← entryOffsets data info off
  let l ← mapE (fun p : Option Nat × Option (Symbol × List Symbol) => do
    let x ← readEntry (readSsar data files ((p.2.map Prod.snd).getD [])) info p.1
    return ((p.2.map Prod.fst).getD none, x)) (zipLongest offs s.1)
  return (l, s.2)

/-- `symbolsOffsets` (soundArchive.py 87–92); the empty list stands for `[None] * 8`. -/
def symbolOffsets (data : Bytes) (symb : Nat) (magic : Bytes) : Py (List Nat) :=
  if symb = 0 then .ok []
  else do
    let l ← unpackUs .little [4, 4, 4, 4, 4, 4, 4, 4] data (symb + 8)
    pyAssert (magic = magicSYMB)
    return l

/-- `SDAT._initFromData` (soundArchive.py 62–350). -/
def SDAT.load (data : Bytes) : Py SDAT := do
  let h ← unpackStdHeader data 0
  raiseIf (h.version ≠ 0x100) .valueError
  raiseIf (h.magic ≠ magicSDAT) .valueError
  let blocks ← unpackUs .little [4, 4, 4, 4, 4, 4, 4, 4] data 0x10
  match blocks with
  | [symb, symbSize, info, _, fat, _, file, _] => do
    let symbMagic ← unpackStr 4 data symb
    let _ ← unpackU .little 4 data (symb + 4)
    let symbOffs ← symbolOffsets data symb symbMagic
    let fatMagic ← unpackStr 4 data fat
    let _ ← unpackU .little 4 data (fat + 4)
    let fatCount ← unpackU .little 4 data (fat + 8)
    pyAssert (fatMagic = magicFAT)
    let fs ← readFiles data fat fatCount (List.range fatCount) ⟨[], 0x200, none, true, file + 8⟩
    let infoMagic ← unpackStr 4 data info
    let _ ← unpackU .little 4 data (info + 4)
    let infoOffs ← unpackUs .little [4, 4, 4, 4, 4, 4, 4, 4] data (info + 8)
    pyAssert (infoMagic = magicINFO)
    match infoOffs with
    | [i0, i1, i2, i3, i4, i5, i6, i7] => do
      let p0 ← readPart (readSeq data fs.files) data symb symbOffs[0]? info i0 0
      let p1 ← readSsars data fs.files symb symbOffs[1]? info i1 p0.2
      let p2 ← readPart (readBank data fs.files) data symb symbOffs[2]? info i2 p1.2
      let p3 ← readPart (readSwar data fs.files) data symb symbOffs[3]? info i3 p2.2
      let p4 ← readPart (readPlayer data) data symb symbOffs[4]? info i4 p3.2
      let p5 ← readPart (unpackGroup data) data symb symbOffs[5]? info i5 p4.2
      let p6 ← readPart (readStreamPlayer data) data symb symbOffs[6]? info i6 p5.2
      let p7 ← readPart (readStrm data fs.files) data symb symbOffs[7]? info i7 p6.2
      return {
        sequences := p0.1, sequenceArchives := p1.1, banks := p2.1, waveArchives := p3.1, sequencePlayers := p4.1,
        groups := p5.1, streamPlayers := p6.1, streams := p7.1
        fatLengthsIncludePadding := fs.lengthsIncludePadding
        firstFileAlignment := if fs.firstFileAlignment = some fs.fileAlignment then none else fs.firstFileAlignment
        fileAlignment := fs.fileAlignment
        padAtEnd := ! decide (fs.finalFileEnd = data.length ∧ fs.finalFileEnd % fs.fileAlignment ≠ 0)
        padSymbSizeTo4InSDATHeader := decide (symbSize % 4 = 0 ∧ p7.2 % 4 ≠ 0) }
    | _ => .error .structError
  | _ => .error .structError

end Verif.Model.SoundArchive
