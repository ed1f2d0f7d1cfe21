import Verif.Model.Summary
import Verif.Spec.BnText

/-!
# Reading printed summaries

Readers for the texts that `print` shows for code files, overlays, ROMs, messages, textures, palettes and the classes of sound.
What a reader gives is what the text says about the object.
-/

namespace Verif.Spec.Summary

open Verif Verif.Spec.EventText Verif.Spec.BnText
open Verif.Props.NoteName (readName)

/-! ## Words -/

/-- What comes before a suffix. -/
def before (e w : Str) : Option Str := if w.drop (w.length - e.length) = e then some (w.take (w.length - e.length)) else none

/-- What comes between a prefix and a suffix. -/
def inside (p e : String) (w : Str) : Option Str := (after (chars p) w).bind (before (chars e))

/-- The words between `<` and `>`. -/
def words (s : Str) : Option (List Str) := (inside "<" ">" s).map (splitOn 32)

/-- `name=value`, for numbers that are not negative. -/
def natField (name : String) (w : Str) : Option Nat := (after (chars name ++ [61]) w).bind nat?

/-- A number with something before and after it. -/
def natIn (p e : String) (w : Str) : Option Nat := (inside p e w).bind nat?

/-- An address: `0x` and eight digits, or more if it needs more. -/
def address (w : Str) : Option Nat := (nat? w).bind fun n => if w.length = 10 ∨ 2 ^ 32 ≤ n then some n else none

/-- Words that are there or not, in this order. -/
def flags : List String → List Str → Option (List Bool)
  | [], [] => some []
  | [], _ :: _ => none
  | n :: ns, [] => (flags ns []).map (false :: ·)
  | n :: ns, w :: ws => if w = chars n then (flags ns ws).map (true :: ·) else (flags ns (w :: ws)).map (false :: ·)

/-- `[a, b, c]`, for items without commas. -/
def listOf {α : Type} (read : Str → Option α) (s : Str) : Option (List α) :=
  (inside "[" "]" s).bind fun t => if t = [] then some [] else all? (fun w => read (w.dropWhile (· = 32))) (splitOn 44 t)

/-- A line of a list: the number in brackets and the item. -/
def item {α : Type} (read : Str → Option α) (l : Str) : Option (Nat × α) :=
  (after (chars "    [") l).bind fun t => (nat? ((t.takeWhile (· ≠ 93)).dropWhile (· = 32))).bind fun i =>
    (after (chars "] ") (t.dropWhile (· ≠ 93))).bind fun e => (read e).map fun x => (i, x)

/-- A text of several lines: the first, the others, and a last line `>`. -/
def block {α β : Type} (first : Str → Option α) (line : Str → Option β) (s : Str) : Option (α × List β) :=
  match splitOn 10 s with
  | f :: rest => if rest.getLast? = some (chars ">") then (first f).bind fun x => (all? line rest.dropLast).map fun l => (x, l) else none
  | [] => none

/-! ## Code -/

/-- What is shown of a section: its address, the text for its data, and whether it is implicit. -/
def readSection (s : Str) : Option (Nat × Str × Bool) :=
  (inside "<code-section at " ">" s).bind fun t =>
    (address (t.takeWhile (· ≠ 58))).bind fun a => (after (chars ": ") (t.dropWhile (· ≠ 58))).map fun d =>
      match before (chars " implicit") d with
      | some d => (a, d, true)
      | none => (a, d, false)

/-- What is shown of a main code file: its address and its sections. -/
def readMainCode : Str → Option (Nat × List (Nat × Str × Bool)) :=
  block (fun f => (after (chars "<main-code at ") f).bind address) (fun l => (after (chars "    ") l).bind readSection)

/-- What is shown of an overlay: its address, the number of its file, and its two flags. -/
def readOverlay (s : Str) : Option (Nat × Nat × List Bool) :=
  (words s).bind fun
    | a :: b :: at_ :: f :: rest =>
      if a = chars "overlay" ∧ b = chars "at" then
        (address at_).bind fun x => (natField "file" f).bind fun f => (flags ["compressed", "verify-hash"] rest).map fun l => (x, f, l)
      else none
    | _ => none

/-! ## ROMs and messages -/

/-- Bytes without the spaces at their end. -/
def withoutSpaces (b : Bytes) : Bytes := (b.reverse.dropWhile (· = 32)).reverse

/-- What is shown of a ROM: a name and a code. -/
def readRom (s : Str) : Option (Bytes × Bytes) :=
  match splitOn 34 s with
  | [a, n, c] =>
    if a = chars "<rom " then
      (bytes? (98 :: 34 :: (n ++ [34]))).bind fun n => (inside " (" ")>" c).bind fun c =>
        (bytes? (98 :: 34 :: (c ++ [34]))).map fun c => (n, c)
    else none
  | _ => none

/-- Pairs of hexadecimal digits. -/
def hexBytes : Str → Option Bytes
  | [] => some []
  | [_] => none
  | a :: b :: s =>
    (nat? [48, 120, a, b]).bind fun n => (hexBytes s).map (UInt8.ofNat n :: ·)

/-- An escape without its opening bracket, and the text after it. -/
def readEscape (p : Str) : Option (Nat × Bytes × Str) :=
  (nat? (p.takeWhile (· ≠ 58))).bind fun t =>
    (hexBytes (((p.dropWhile (· ≠ 58)).drop 1).takeWhile (· ≠ 93))).map fun d => (t, d, (p.dropWhile (· ≠ 93)).drop 1)

/-- A message: the text before the first escape, and every escape with the text after it. -/
def readMessage (s : Str) : Option (Str × List (Nat × Bytes × Str)) :=
  match splitOn 91 s with
  | t :: ps => (all? readEscape ps).map fun l => (t, l)
  | [] => none

/-- The text before the first escape, and every escape with the text after it. -/
def escapes : List Model.Bmg.Part → Str × List (Nat × Bytes × Str)
  | [] => ([], [])
  | .text s :: ps => (s ++ (escapes ps).1, (escapes ps).2)
  | .escape t d :: ps => ([], (t, d, (escapes ps).1) :: (escapes ps).2)

/-- What is shown of a file of messages: its number, and how many messages and scripts it has. -/
def readBMG (s : Str) : Option (Nat × Nat × Nat) :=
  (words s).bind fun
    | [a, i, m, b, n, c] =>
      if a = chars "bmg" ∧ b = chars "messages," ∧ c = chars "scripts)" then
        (natField "id" i).bind fun i => (natIn "(" "" m).bind fun m => (nat? n).map fun n => (i, m, n)
      else none
    | _ => none

/-! ## Textures -/

/-- The format that a name stands for; `none` if it is not a format. -/
def formatOf (w : Str) : Option (Option Nat) :=
  if w = chars "unknown-0" then some (some 0)
  else if w = chars "a3i5" then some (some 1)
  else if w = chars "i2" then some (some 2)
  else if w = chars "i4" then some (some 3)
  else if w = chars "i8" then some (some 4)
  else if w = chars "texeled" then some (some 5)
  else if w = chars "a5i3" then some (some 6)
  else if w = chars "a1bgr5" then some (some 7)
  else if w = chars "invalid" then some none
  else none

/-- What is shown of a texture: its format, width and height. -/
def readTexture (s : Str) : Option (Option Nat × Nat × Nat) :=
  (words s).bind fun
    | [a, f, wh] =>
      if a = chars "texture" then
        (formatOf f).bind fun f =>
          match splitOn 120 wh with
          | [w, h] => (nat? w).bind fun w => (nat? h).map fun h => (f, w, h)
          | _ => none
      else none
    | _ => none

/-- `1,2,3,4)` and anything after it. -/
def readColor (w : Str) : Option (Nat × Nat × Nat × Nat) :=
  match splitOn 44 (w.takeWhile (· ≠ 41)) with
  | [r, g, b, a] => (nat? r).bind fun r => (nat? g).bind fun g => (nat? b).bind fun b => (nat? a).map fun a => (r, g, b, a)
  | _ => none

/-- What is shown of a palette: the number of its colors, the colors that are shown, and whether there are more. -/
def readPalette (s : Str) : Option (Nat × List (Nat × Nat × Nat × Nat) × Bool) :=
  (inside "<palette (" "]>" s).bind fun t =>
    (nat? (t.takeWhile (· ≠ 32))).bind fun n => (after (chars " colors) [") (t.dropWhile (· ≠ 32))).bind fun l =>
      match splitOn 40 l with
      | _ :: cs => (all? readColor cs).map fun cs => (n, cs, (before (chars ", ...") l).isSome)
      | [] => none

/-! ## Waves and streams -/

/-- The type of waves that a word stands for. -/
def waveTypeOf (w : Str) : Option Nat :=
  if w = chars "PCM8" then some 0
  else if w = chars "PCM16" then some 1
  else if w = chars "ADPCM" then some 2
  else natField "waveType" w

/-- What is shown of a wave: its type, its rate, and whether it loops. -/
def readSWAV (s : Str) : Option (Nat × Nat × List Bool) :=
  (words s).bind fun
    | a :: t :: r :: rest =>
      if a = chars "swav" then
        (waveTypeOf t).bind fun t => (natIn "" "Hz" r).bind fun r => (flags ["looped"] rest).map fun l => (t, r, l)
      else none
    | _ => none

/-- What is shown of an archive of waves: the waves and their numbers. -/
def readSWAR (s : Str) : Option (List (Nat × Nat × Nat × List Bool)) :=
  (block (fun f => if f = chars "<swar" then some () else none) (item readSWAV) s).map (·.2)

/-- The words about channels: their number, the number of blocks in each if there is one, and the words after these. -/
def readChannels : List Str → Option (Nat × Option Nat × List Str)
  | n :: c :: ws =>
    (natIn "[" "" n).bind fun n =>
      if c = chars "channels]" then if n = 0 then some (n, none, ws) else none
      else if c = (if n = 1 then chars "channel" else chars "channels") then
        match ws with
        | o :: b :: w :: e :: rest =>
          if o = chars "of" ∧ e = chars "each]" then
            (nat? b).bind fun b => if w = (if b = 1 then chars "block" else chars "blocks") then some (n, some b, rest) else none
          else if [o, b, w, e] = [chars "of", chars "differing", chars "numbers", chars "of"] then
            match rest with
            | b :: e :: rest => if b = chars "blocks" ∧ e = chars "each]" then some (n, none, rest) else none
            | _ => none
          else none
        | _ => none
      else none
  | _ => none

/-- What is shown of a stream: its type and rate, the number of channels, the number of blocks in each, its volume, and whether
it loops. -/
def readSTRM (s : Str) : Option (Nat × Nat × Nat × Option Nat × Nat × List Bool) :=
  (words s).bind fun
    | a :: t :: r :: ws =>
      if a = chars "strm" then
        (waveTypeOf t).bind fun t => (natIn "" "Hz" r).bind fun r => (readChannels ws).bind fun c =>
          match c.2.2 with
          | v :: rest => (natField "volume" v).bind fun v => (flags ["looped"] rest).map fun l => (t, r, c.1, c.2.1, v, l)
          | [] => none
      else none
    | _ => none

/-- The number of blocks in every channel, if there is one. -/
def commonBlocks : List (List Bytes) → Option Nat
  | [] => none
  | c :: cs => if ∀ d ∈ cs, d.length = c.length then some c.length else none

/-! ## Banks -/

/-- What a note plays. -/
inductive Sound where
  | wave (archive wave : Nat)
  | square (eighths : Nat)
  | noise
  deriving DecidableEq, Repr

/-- The eighths of its period for which a square wave is high. -/
def eighthsOf (w : Str) : Option Nat :=
  if w = chars "0%" then some 0
  else if w = chars "12.5%" then some 1
  else if w = chars "25%" then some 2
  else if w = chars "37.5%" then some 3
  else if w = chars "50%" then some 4
  else if w = chars "62.5%" then some 5
  else if w = chars "75%" then some 6
  else if w = chars "87.5%" then some 7
  else none

/-- What is shown of a note definition, without the angle brackets: its pitch and what it plays. -/
def readNoteWords (t : Str) : Option (Int × Sound) :=
  match splitOn 32 t with
  | a :: b :: p :: ws =>
    if a = chars "note" ∧ b = chars "def" then
      (readName p).bind fun p =>
        match ws with
        | [a, b, c] => if [a, b, c] = [chars "(PSG", chars "white", chars "noise)"] then some (p, .noise) else none
        | [a, b, x, c, y] =>
          if [a, b, c] = [chars "(PCM:", chars "SWAR", chars "SWAV"] then
            (natIn "" "," x).bind fun x => (natIn "" ")" y).map fun y => (p, .wave x y)
          else none
        | [a, b, c, x, d, e] =>
          if [a, b, c, d, e] = [chars "(PSG", chars "square", chars "wave:", chars "duty", chars "cycle)"] then
            (eighthsOf x).map fun x => (p, .square x)
          else none
        | _ => none
    else none
  | _ => none

def readNote (s : Str) : Option (Int × Sound) := (inside "<" ">" s).bind readNoteWords

/-- Notes with a label each: `label: <note>, label: <note>`.  The text of every note has no angle brackets inside. -/
def pieces : Str → List Str → Option (List (Str × Str))
  | t, [] => if t = [] then some [] else none
  | t, p :: ps => (pieces ((p.dropWhile (· ≠ 62)).drop 1) ps).map ((t, p.takeWhile (· ≠ 62)) :: ·)

/-- `label: ` or `, label: `. -/
def labelOf (t : Str) : Option Str := before (chars ": ") ((after (chars ", ") t).getD t)

def labelled {α : Type} (label : Str → Option α) (body : Str) : Option (List (α × Int × Sound)) :=
  match splitOn 60 body with
  | t :: ps => (pieces t ps).bind (all? fun p => (labelOf p.1).bind fun l => (label l).bind fun l => (readNoteWords p.2).map fun n => (l, n))
  | [] => none

/-- A key: `min` is the lowest, 0, and `max` the highest, 127. -/
def readKey (w : Str) : Option Int := if w = chars "min" then some 0 else if w = chars "max" then some 127 else readName w

/-- Two keys with a hyphen. -/
def readKeys (w : Str) : Option (Int × Int) :=
  match splitOn 45 w with
  | [a, b] => (readKey a).bind fun a => (readKey b).map fun b => (a, b)
  | _ => none

/-- What is shown of an instrument. -/
inductive Instrument where
  | single (note : Int × Sound)
  | range (first : Int) (notes : List (Int × Int × Sound))
  | regional (regions : List ((Int × Int) × Int × Sound))
  deriving DecidableEq, Repr

/-- What is shown of an instrument: the notes, with the key or the keys that play them. -/
def readInstrument (s : Str) : Option Instrument :=
  match inside "<single-note instrument " ">" s with
  | some t => (readNote t).map .single
  | none =>
    match inside "<range instrument starting at " "}>" s with
    | some t => (readName (t.takeWhile (· ≠ 32))).bind fun p => (after (chars " {") (t.dropWhile (· ≠ 32))).bind fun b =>
        (labelled readName b).map (.range p)
    | none => (inside "<regional instrument {" "}>" s).bind fun b => (labelled readKeys b).map .regional

/-- What is shown of a region: its last key and its note. -/
def readRegion (s : Str) : Option (Int × Int × Sound) :=
  (inside "<region through " ">" s).bind fun t => (readName (t.takeWhile (· ≠ 32))).bind fun p =>
    (after [32] (t.dropWhile (· ≠ 32))).bind fun n => (readNote n).map fun n => (p, n)

/-- Something or `None`. -/
def orNone {α : Type} (read : Str → Option α) (w : Str) : Option (Option α) :=
  if w = chars "None" then some none else (read w).map some

/-- What is shown of a bank: the numbers of its wave archives, and its instruments with their numbers. -/
def readSBNK (s : Str) : Option (List (Option Int) × List (Nat × Option Instrument)) :=
  block (fun f => (after (chars "<sbnk waveArchiveIDs=") f).bind (listOf (orNone int?))) (item (orNone readInstrument)) s

/-- What a note definition plays: type 2 is a square wave that is high for one more eighth of its period than the last three bits
of the wave ID say, or never if they are all set; type 3 is noise; other types play a wave. -/
def soundOf (n : Model.SoundBank.Note) : Sound :=
  if n.type = 2 then .square ((n.waveID + 1) % 8) else if n.type = 3 then .noise else .wave n.waveArchiveIDID n.waveID

def noteOf (n : Model.SoundBank.Note) : Int × Sound := (n.pitch, soundOf n)

/-- The notes of a range instrument, with the keys that play them. -/
def rangeOf : Int → List Model.SoundBank.Note → List (Int × Int × Sound)
  | _, [] => []
  | p, n :: ns => (p, noteOf n) :: rangeOf (p + 1) ns

/-- The notes of a regional instrument, with the first and the last key of each region. -/
def regionsOf : Int → List (Nat × Model.SoundBank.Note) → List ((Int × Int) × Int × Sound)
  | _, [] => []
  | p, (q, n) :: rs => ((p, q), noteOf n) :: regionsOf (q + 1) rs

def instrumentOf : Model.SoundBank.Kind → Instrument
  | .single n => .single (noteOf n)
  | .range p ns => .range p (rangeOf p ns)
  | .regional rs => .regional (regionsOf 0 rs)

/-! ## Players, groups and archives -/

/-- What is shown of a sequence player: the number of sequences, the channels, and the heap size. -/
def readSeqPlayer (s : Str) : Option (Nat × List Nat × Nat) :=
  (inside "<sequence-player maxSequences=" ">" s).bind fun t =>
    (nat? (t.takeWhile (· ≠ 32))).bind fun n => (after (chars " channels=") (t.dropWhile (· ≠ 32))).bind fun t =>
      (listOf nat? (t.takeWhile (· ≠ 93) ++ [93])).bind fun l =>
        (after (chars "] heapSize=") (t.dropWhile (· ≠ 93))).bind fun t => (nat? t).map fun h => (n, l, h)

/-- What is shown of a stream player: its channels. -/
def readStreamPlayer (s : Str) : Option (List Nat) := (inside "<stream-player " ">" s).bind (listOf nat?)

/-- The type of group entries that a word stands for. -/
def groupTypeOf (w : Str) : Option Nat :=
  if w = chars "sseq" then some 0
  else if w = chars "sbnk" then some 1
  else if w = chars "swar" then some 2
  else if w = chars "ssar" then some 3
  else nat? w

/-- What is shown of a group entry: its type, its number, and its flags. -/
def readGroupEntry (s : Str) : Option (Nat × Nat × List Bool) :=
  (words s).bind fun
    | t :: i :: rest =>
      (after (chars "group-entry-") t).bind fun t => (groupTypeOf t).bind fun t => (nat? i).bind fun i =>
        (flags ["load-sseq", "load-swars-by-swar-id", "load-swar", "load-ssar"] rest).map fun l => (t, i, l)
    | _ => none

/-- What is shown of a sequence of a sequence archive: whether it is unparsed, its bank, volume and player. -/
def readSSARSequence (s : Str) : Option (Bool × Nat × Nat × Nat) :=
  (words s).bind fun ws =>
    let rest (u : Bool) (b v p : Str) : Option (Bool × Nat × Nat × Nat) :=
      (natField "bank" b).bind fun b => (natField "volume" v).bind fun v => (natField "playerID" p).map fun p => (u, b, v, p)
    match ws with
    | [a, b, v, p] => if a = chars "ssar-sequence" then rest false b v p else none
    | [a, u, b, v, p] => if a = chars "ssar-sequence" ∧ u = chars "unparsed" then rest true b v p else none
    | _ => none

/-- Numbers, each followed by the given words. -/
def counts : List (List String) → List Str → Option (List Nat)
  | [], [] => some []
  | n :: ns, w :: ws =>
    if ws.take n.length = n.map chars then (nat? w).bind fun k => (counts ns (ws.drop n.length)).map (k :: ·) else none
  | _, _ => none

/-- What is shown of a sound archive: how many sequences, sequence archives, banks, wave archives, sequence players, groups,
stream players and streams it has. -/
def readSDAT (s : Str) : Option (List Nat) :=
  (words s).bind fun
    | a :: ws => if a = chars "sdat" then
        counts [["sequences"], ["sequence", "archives"], ["banks"], ["wave", "archives"], ["sequence", "players"], ["groups"],
          ["stream", "players"], ["streams"]] ws
      else none
    | [] => none

/-- What is shown of music: the numbers of its tracks. -/
def readMusic (s : Str) : Option (List Nat) := (inside "<sseq music [tracks: " ">" s).bind fun t => listOf nat? (91 :: t)

end Verif.Spec.Summary
