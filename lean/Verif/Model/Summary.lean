import Verif.Model.BnText
import Verif.Model.ReprSound
import Verif.Model.Rom
import Verif.Base.Sort

/-!
# Printed summaries

`__str__` of code files, overlays, ROMs, messages, textures, palettes and the classes of sound.  (The other `__str__` methods
are in `Listing.lean`, `EventText.lean` and `BnText.lean`.)  Numbers are not negative unless the model of the class allows it.
-/

namespace Verif.Model.Summary

open Verif Verif.Model Verif.Model.Util Verif.Model.Repr Verif.Model.ReprClasses Verif.Model.NoteName
open Verif.Model.BnText (enumerated)
open Verif.Model.SoundArchiveObject

/-! ## Code -/

/-- `MainCodeFile.Section.__str__` (code.py 81–84). -/
def strSection (s : Code.Section) : Str :=
  lit "<code-section at " ++ reprHex8 s.ramAddress ++ lit ": " ++ shortBytesRepr s.data ++
    (if s.implicit then lit " implicit" else []) ++ lit ">"

/-- `MainCodeFile.__str__` (code.py 302–310). -/
def strMainCode (m : Code.MainCodeFile) : Str :=
  join [10] ((lit "<main-code at " ++ reprHex8 m.ramAddress) :: m.sections.map (fun s => lit "    " ++ strSection s) ++ [lit ">"])

/-- `Overlay.__str__` (code.py 397–406). -/
def strOverlay (o : Code.Overlay) : Str :=
  let fields := [lit "at " ++ reprHex8 o.ramAddress, lit "file=" ++ reprNat o.fileID]
  let fields := if Code.compressedFlag o.flags then fields ++ [lit "compressed"] else fields
  let fields := if Code.verifyHashFlag o.flags then fields ++ [lit "verify-hash"] else fields
  lit "<overlay " ++ join (lit " ") fields ++ lit ">"

/-! ## ROMs -/

/-- `repr(b)[2:-1]` of bytes. -/
def insideQuotes (b : Bytes) : Str := ((reprBytes b).drop 2).dropLast

/-- `s.rstrip(' ')`. -/
def rstripSpaces (s : Str) : Str := (s.reverse.dropWhile (· = 32)).reverse

/-- `NintendoDSRom.__str__` (rom.py 627–630). -/
def strRom (name idCode : Bytes) : Str :=
  lit "<rom \"" ++ rstripSpaces (insideQuotes name) ++ lit "\" (" ++ insideQuotes idCode ++ lit ")>"

/-! ## Messages -/

/-- `data.hex()`. -/
def hexText (d : Bytes) : Str := d.flatMap fun b => [hexDigit (b.toNat / 16), hexDigit (b.toNat % 16)]

/-- `str` of a part of a message; `Message.Escape.__str__` (bmg.py 420–421). -/
def strPart : Bmg.Part → Str
  | .text s => s
  | .escape t d => lit "[" ++ reprNat t ++ lit ":" ++ hexText d ++ lit "]"

/-- `Message.__str__` (bmg.py 463–464). -/
def strMessage (m : Bmg.Message) : Str := m.parts.flatMap strPart

/-- `BMG.__str__` (bmg.py 354–357). -/
def strBMG (b : Bmg.BMG) : Str :=
  lit "<bmg id=" ++ reprNat b.id ++ lit " (" ++ reprNat b.messages.length ++ lit " messages, " ++
    reprNat b.scripts.length ++ lit " scripts)>"

/-! ## Textures -/

/-- The names of the formats (texture.py 208–217). -/
def formatName : Nat → String
  | 0 => "unknown-0"
  | 1 => "a3i5"
  | 2 => "i2"
  | 3 => "i4"
  | 4 => "i8"
  | 5 => "texeled"
  | 6 => "a5i3"
  | 7 => "a1bgr5"
  | _ => "invalid"

/-- `Texture.__str__` (texture.py 207–218). -/
def strTexture (t : Texture.Texture) : Str :=
  lit "<texture " ++ lit (formatName t.format) ++ lit " " ++ reprNat t.width ++ lit "x" ++ reprNat t.height ++ lit ">"

/-- `Palette.__str__` (texture.py 263–264). -/
def strPalette (p : Texture.Palette) : Str :=
  lit "<palette (" ++ reprNat p.colors.length ++ lit " colors) " ++ shortColorsListRepr p.colors ++ lit ">"

/-! ## Waves and streams -/

/-- The type of a wave (soundWave.py 136–139, soundStream.py 281–284). -/
def waveTypeText (t : Nat) : Str := if t ≤ 2 then lit (ReprSound.waveTypeName t) else lit "waveType=" ++ reprHex t

/-- `SWAV.__str__` (soundWave.py 135–143). -/
def strSWAV (w : SoundWave.SWAV) : Str :=
  lit "<swav " ++ waveTypeText w.waveType ++ lit " " ++ reprNat w.sampleRate ++ lit "Hz" ++
    (if w.isLooped then lit " looped" else []) ++ lit ">"

/-- `SWAR.__str__` (soundWaveArchive.py 148–152). -/
def strSWAR (waves : List SoundWave.SWAV) : Str := join [10] (lit "<swar" :: enumerated (waves.map strSWAV) ++ [lit ">"])

/-- `channelsInfo` (soundStream.py 266–279). -/
def channelsInfo (channels : List (List Bytes)) : Str :=
  match channels with
  | [] => lit "[0 channels]"
  | c0 :: _ =>
    let blockInfo := if channels.all (fun c => c.length = c0.length) then
        lit "of " ++ reprNat c0.length ++ lit " " ++ (if c0.length = 1 then lit "block" else lit "blocks") ++ lit " each"
      else lit "of differing numbers of blocks each"
    lit "[" ++ reprNat channels.length ++ lit " " ++ (if channels.length = 1 then lit "channel" else lit "channels") ++ lit " " ++
      blockInfo ++ lit "]"

/-- `STRM.__str__` (soundStream.py 265–288). -/
def strSTRM (s : Strm) : Str :=
  lit "<strm " ++ waveTypeText s.obj.waveType ++ lit " " ++ reprNat s.obj.sampleRate ++ lit "Hz " ++
    channelsInfo s.obj.channels ++ lit " volume=" ++ reprNat s.volume ++ (if s.obj.isLooped then lit " looped" else []) ++ lit ">"

/-! ## Banks -/

/-- The percentages of the duty cycles (soundBank.py 115–122). -/
def dutyText : Nat → String
  | 0 => "12.5%"
  | 1 => "25%"
  | 2 => "37.5%"
  | 3 => "50%"
  | 4 => "62.5%"
  | 5 => "75%"
  | 6 => "87.5%"
  | _ => "0%"

/-- `NoteDefinition.__str__` (soundBank.py 111–129). -/
def strNote (n : SoundBank.Note) : Str :=
  let extraInfo :=
    if n.type = 2 then lit "PSG square wave: " ++ lit (dutyText (n.waveID &&& 7)) ++ lit " duty cycle"
    else if n.type = 3 then lit "PSG white noise"
    else lit "PCM: SWAR " ++ reprNat n.waveArchiveIDID ++ lit ", SWAV " ++ reprNat n.waveID
  lit "<note def " ++ noteName n.pitch ++ lit " (" ++ extraInfo ++ lit ")>"

/-- The texts of the notes of a range instrument (soundBank.py 276–279), from the note with the pitch `p` on. -/
def rangeTexts : Nat → List SoundBank.Note → List Str
  | _, [] => []
  | p, n :: ns => (noteName p ++ lit ": " ++ strNote n) :: rangeTexts (p + 1) ns

/-- `betterNoteName` (soundBank.py 366–369). -/
def betterNoteName (num : Nat) : Str := if num = 0 then lit "min" else if num = 127 then lit "max" else noteName num

/-- The texts of the regions (soundBank.py 363–373); `last` as in the code. -/
def regionTexts : Nat → List (Nat × SoundBank.Note) → List Str
  | _, [] => []
  | last, r :: rs =>
    (betterNoteName last ++ lit "-" ++ betterNoteName r.1 ++ lit ": " ++ strNote r.2) :: regionTexts (r.1 + 1) rs

/-- `RegionalInstrument.Region.__str__` (soundBank.py 307–309). -/
def strRegion (r : Nat × SoundBank.Note) : Str :=
  lit "<region through " ++ noteName r.1 ++ lit " " ++ strNote r.2 ++ lit ">"

/-- `__str__` of the instrument classes (soundBank.py 219–220, 275–282, 362–374). -/
def strKind : SoundBank.Kind → Str
  | .single n => lit "<single-note instrument " ++ strNote n ++ lit ">"
  | .range p notes =>
    lit "<range instrument starting at " ++ noteName p ++ lit " {" ++ join (lit ", ") (rangeTexts p notes) ++ lit "}>"
  | .regional regions => lit "<regional instrument {" ++ join (lit ", ") (regionTexts 0 regions) ++ lit "}>"

/-- `SBNK.__str__` (soundBank.py 795–799); a missing instrument prints as `None`. -/
def strSBNK (b : SoundBank.SBNK) : Str :=
  join [10] ((lit "<sbnk waveArchiveIDs=" ++ reprList (reprOption reprInt) b.waveArchiveIDs) ::
    enumerated (b.instruments.map (reprOption fun i => strKind i.kind)) ++ [lit ">"])

/-! ## Players, groups, archives -/

/-- `SequencePlayer.__str__` (soundSequencePlayer.py 40–42). -/
def strSeqPlayer (p : SoundArchive.SeqPlayer) : Str :=
  lit "<sequence-player maxSequences=" ++ reprNat p.maxSequences ++ lit " channels=" ++
    reprList reprNat (sortBy id p.channels) ++ lit " heapSize=" ++ reprNat p.heapSize ++ lit ">"

/-- `StreamPlayer.__str__` (soundStreamPlayer.py 38–39). -/
def strStreamPlayer (channels : List Nat) : Str := lit "<stream-player " ++ reprList reprNat channels ++ lit ">"

/-- The names of the types of group entries (soundGroup.py 103–108). -/
def groupTypeText : Nat → Str
  | 0 => lit "sseq"
  | 1 => lit "sbnk"
  | 2 => lit "swar"
  | 3 => lit "ssar"
  | t => reprNat t

/-- `GroupEntry.__str__` (soundGroup.py 102–122). -/
def strGroupEntry (g : SoundStream.GroupEntry) : Py Str := do
  let method ← if g.loadSBNKSWARsFrom = 0 then .ok []
    else if g.loadSBNKSWARsFrom = 1 then .ok [lit "load-swars-by-swar-id"] else .error .keyError
  let options := join (lit " ") ((if g.loadSSEQ then [lit "load-sseq"] else []) ++ method ++
    (if g.loadSWAR then [lit "load-swar"] else []) ++ (if g.loadSSAR then [lit "load-ssar"] else []))
  return lit "<group-entry-" ++ groupTypeText g.type ++ lit " " ++ reprNat g.id ++ (if options = [] then [] else lit " ") ++ options ++
    lit ">"

/-- `SSARSequence.__str__` (soundSequenceArchive.py 328–334). -/
def strSSARSequence (s : SoundSequenceArchive.Sequence) : Str :=
  let up := match s.first with
    | .unparsed _ => lit " unparsed"
    | .parsed _ => []
  lit "<ssar-sequence" ++ up ++ lit " bank=" ++ reprNat s.bankID ++ lit " volume=" ++ reprNat s.volume ++ lit " playerID=" ++
    reprNat s.playerID ++ lit ">"

/-- `SDAT.__str__` (soundArchive.py 850–859). -/
def strSDAT (a : Archive) : Str :=
  lit "<sdat " ++ reprNat a.sequences.length ++ lit " sequences " ++ reprNat a.sequenceArchives.length ++
    lit " sequence archives " ++ reprNat a.banks.length ++ lit " banks " ++ reprNat a.waveArchives.length ++
    lit " wave archives " ++ reprNat a.sequencePlayers.length ++ lit " sequence players " ++ reprNat a.groups.length ++
    lit " groups " ++ reprNat a.streamPlayers.length ++ lit " stream players " ++ reprNat a.streams.length ++ lit " streams>"

/-- `SSEQMusic.__str__` (music.py 812–815), with the keys of the dictionary of tracks. -/
def strMusic (tracks : List Nat) : Str :=
  lit "<sseq music [tracks: " ++ join (lit ", ") ((sortBy id tracks).map reprNat) ++ lit "]>"

end Verif.Model.Summary
