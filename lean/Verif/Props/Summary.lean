import Verif.Proofs.Summary
import Verif.Spec.Bmg

/-!
# C139: printed summaries
-/

namespace Verif.Props.Summary

open Verif Verif.Model Verif.Model.Summary Verif.Spec.Summary
open Verif.Spec.BnText (numberedFrom)
open Verif.Model.Util (shortBytesRepr)

/-! ## Code -/

/-- C139: what `print` shows of a section of code: its address in eight digits, the short form of its data (which is the subject
of C49), and whether it is implicit. -/
theorem section_str (s : Code.Section) : readSection (strSection s) = some (s.ramAddress, shortBytesRepr s.data, s.implicit) :=
  Proofs.Summary.read_section s

/-- C139: what `print` shows of a main code file: its address, and its sections in order. -/
theorem main_code_str (m : Code.MainCodeFile) : readMainCode (strMainCode m) =
    some (m.ramAddress, m.sections.map fun s => (s.ramAddress, shortBytesRepr s.data, s.implicit)) :=
  Proofs.Summary.read_mainCode m

/-- C139: what `print` shows of an overlay: its address, the number of its file, and its two flags, which are bits of `flags`. -/
theorem overlay_str (o : Code.Overlay) : readOverlay (strOverlay o) =
    some (o.ramAddress, o.fileID, [o.flags.testBit 0, o.flags.testBit 1]) := by
  have h0 : Code.compressedFlag o.flags = o.flags.testBit 0 := by
    rw [Bool.eq_iff_iff, ← Bits.and_two_pow_ne o.flags 0]
    simp [Code.compressedFlag]
  have h1 : Code.verifyHashFlag o.flags = o.flags.testBit 1 := by
    rw [Bool.eq_iff_iff, ← Bits.and_two_pow_ne o.flags 1]
    simp [Code.verifyHashFlag]
  rw [Proofs.Summary.read_overlay, h0, h1]

/-- The printed overlay in the documentation. -/
example : strOverlay ⟨[], 0x020986E0, 0, 0, 0, 0, 0, 0, 3⟩ = Spec.EventText.chars "<overlay at 0x020986E0 file=0 compressed verify-hash>" := by
  decide +kernel

example : readMainCode (strMainCode ⟨[⟨[1, 2], 0x02000000, 0, true⟩, ⟨[0x27], 0x01FF8000, 16, false⟩], 0x02000000, none⟩) =
    some (0x02000000, [(0x02000000, shortBytesRepr [1, 2], true), (0x01FF8000, shortBytesRepr [0x27], false)]) := main_code_str _

/-! ## ROMs and messages -/

/-- C139: what `print` shows of a ROM whose name and code have no quotation marks: its name without the spaces at the end, and its
code. -/
theorem rom_str (name idCode : Bytes) (h1 : 34 ∉ name) (h2 : 34 ∉ idCode) :
    readRom (strRom name idCode) = some (withoutSpaces name, idCode) :=
  Proofs.Summary.read_rom name idCode h1 h2

example : (34 : UInt8) ∉ ([0x41, 0x27, 0x20, 0x42, 0x00, 0x20, 0x20] : Bytes) ∧ (34 : UInt8) ∉ ([0x41, 0x32, 0x44, 0x45] : Bytes) := by decide

example : strRom [0x41, 0x27, 0x20, 0x42, 0x20, 0x20] [0x41, 0x32, 0x44, 0x45] = Spec.EventText.chars "<rom \"A' B\" (A2DE)>" := by
  decide +kernel

/-- C139: what `print` shows of a message whose texts have no opening brackets: its escapes, and the texts between them. -/
theorem message_str (m : Bmg.Message) (h : ∀ s, .text s ∈ m.parts → 91 ∉ s) : readMessage (strMessage m) = some (escapes m.parts) :=
  Proofs.Summary.read_message m h

/-- C139: messages as they are loaded, without opening brackets in their texts, print alike only if they are alike. -/
theorem message_str_injective (m n : Bmg.Message) (hm : Spec.Bmg.Merged m.parts) (hn : Spec.Bmg.Merged n.parts)
    (h1 : ∀ s, .text s ∈ m.parts → 91 ∉ s) (h2 : ∀ s, .text s ∈ n.parts → 91 ∉ s) (h : strMessage m = strMessage n) :
    m.parts = n.parts := by
  have e1 := message_str m h1
  rw [h, message_str n h2, Option.some.injEq] at e1
  have first : ∀ ps : List Bmg.Part, (∀ t r, ps ≠ .text t :: r) → (escapes ps).1 = [] := by
    intro ps hp
    cases ps with
    | nil => rfl
    | cons p ps =>
      cases p with
      | text t => exact absurd rfl (hp t ps)
      | escape t d => rfl
  have key : ∀ ps qs : List Bmg.Part, Spec.Bmg.Merged ps → Spec.Bmg.Merged qs → escapes ps = escapes qs → ps = qs := by
    intro ps
    induction ps with
    | nil =>
      intro qs _ hq e
      cases qs with
      | nil => rfl
      | cons q qs =>
        cases q with
        | text t =>
          have := congrArg Prod.fst e
          simp only [escapes] at this
          exact absurd (List.append_eq_nil_iff.1 this.symm).1 hq.1
        | escape t d =>
          have := congrArg Prod.snd e
          simp [escapes] at this
    | cons p ps ih =>
      intro qs hp hq e
      cases p with
      | text s =>
        cases qs with
        | nil =>
          have := congrArg Prod.fst e
          simp only [escapes] at this
          exact absurd (List.append_eq_nil_iff.1 this).1 hp.1
        | cons q qs =>
          cases q with
          | text t =>
            have e1 := congrArg Prod.fst e
            have e2 := congrArg Prod.snd e
            have f1 := first ps hp.2.1
            have f2 := first qs hq.2.1
            simp only [escapes, f1, f2, List.append_nil] at e1 e2
            rw [e1, ih qs hp.2.2 hq.2.2 (Prod.ext (f1.trans f2.symm) e2)]
          | escape t d =>
            have := congrArg Prod.fst e
            simp only [escapes] at this
            exact absurd (List.append_eq_nil_iff.1 this).1 hp.1
      | escape t d =>
        cases qs with
        | nil =>
          have := congrArg Prod.snd e
          simp [escapes] at this
        | cons q qs =>
          cases q with
          | text s =>
            have := congrArg Prod.fst e
            simp only [escapes] at this
            exact absurd (List.append_eq_nil_iff.1 this.symm).1 hq.1
          | escape t' d' =>
            have e2 := congrArg Prod.snd e
            simp only [escapes, List.cons.injEq, Prod.mk.injEq] at e2
            obtain ⟨⟨rfl, rfl, e3⟩, e4⟩ := e2
            rw [ih qs hp hq (Prod.ext e3 e4)]
  exact key _ _ hm hn e1.symm

/-- Two messages with brackets in a text that print alike. -/
theorem message_str_ambiguous : ∃ m n : Bmg.Message, Spec.Bmg.Merged m.parts ∧ Spec.Bmg.Merged n.parts ∧ strMessage m = strMessage n ∧
    m.parts ≠ n.parts :=
  ⟨⟨[], [.escape 1 [255]], false⟩, ⟨[], [.text (Repr.lit "[1:ff]")], false⟩, trivial, ⟨by decide, by simp, trivial⟩, by decide +kernel,
    by decide⟩

example : Spec.Bmg.Merged [.text [65, 93], .escape 12 [0, 255], .escape 0 [], .text [66]] ∧
    (∀ s, Bmg.Part.text s ∈ [.text [65, 93], .escape 12 [0, 255], .escape 0 [], .text [66]] → 91 ∉ s) := by
  refine ⟨⟨by decide, by simp, by decide, by simp, trivial⟩, ?_⟩
  intro s hs
  simp at hs
  rcases hs with rfl | rfl <;> decide

example : readMessage (strMessage ⟨[], [.text [65, 93], .escape 12 [0, 255], .escape 0 [], .text [66]], false⟩) =
    some ([65, 93], [(12, [0, 255], []), (0, [], [66])]) := by decide +kernel

/-- C139: what `print` shows of a file of messages: its number, and how many messages and scripts it has. -/
theorem bmg_str (b : Bmg.BMG) : readBMG (strBMG b) = some (b.id, b.messages.length, b.scripts.length) :=
  Proofs.Summary.read_bmg b

/-! ## Textures -/

/-- C139: what `print` shows of a texture: its format, if it is one of the eight, its width and its height. -/
theorem texture_str (t : Texture.Texture) : readTexture (strTexture t) =
    some (if t.format ≤ 7 then some t.format else none, t.width, t.height) :=
  Proofs.Summary.read_texture t

/-- C139: what `print` shows of a palette: the number of its colors, the first twenty of them, and whether there are more. -/
theorem palette_str (p : Texture.Palette) : readPalette (strPalette p) =
    some (p.colors.length, (p.colors.take 20).map (fun c => (c.r, c.g, c.b, c.a)), decide (20 < p.colors.length)) :=
  Proofs.Summary.read_palette p

/-! ## Sound -/

/-- C139: what `print` shows of a wave: its type, its rate, and whether it loops. -/
theorem swav_str (w : SoundWave.SWAV) : readSWAV (strSWAV w) = some (w.waveType, w.sampleRate, [w.isLooped]) :=
  Proofs.Summary.read_swav w

/-- C139: what `print` shows of an archive of waves: the waves, numbered in order. -/
theorem swar_str (ws : List SoundWave.SWAV) : readSWAR (strSWAR ws) =
    some (numberedFrom 0 (ws.map fun w => (w.waveType, w.sampleRate, [w.isLooped]))) :=
  Proofs.Summary.read_swar ws

/-- C139: what `print` shows of a stream: its type and rate, how many channels it has, how many blocks all of them have if it is the
same number, its volume, and whether it loops. -/
theorem strm_str (s : SoundArchiveObject.Strm) : readSTRM (strSTRM s) = some (s.obj.waveType, s.obj.sampleRate, s.obj.channels.length,
    commonBlocks s.obj.channels, s.volume, [s.obj.isLooped]) :=
  Proofs.Summary.read_strm s

/-- C139: what `print` shows of a note definition: its pitch and what it plays. -/
theorem note_str (n : SoundBank.Note) : readNote (strNote n) = some (noteOf n) :=
  Proofs.Summary.read_note n

example : Spec.Summary.readNote (strNote ⟨6, 0, 61, 127, 127, 127, 127, 64, 2⟩) = some (61, .square 7) := by
  rw [note_str]; decide

/-- C139: what `print` shows of an instrument: its notes, with the key or the keys that play each. -/
theorem instrument_str (k : SoundBank.Kind) : readInstrument (strKind k) = some (instrumentOf k) :=
  Proofs.Summary.read_instrument k

example : instrumentOf (.regional [(59, ⟨3, 0, 60, 127, 127, 127, 127, 64, 1⟩), (127, ⟨4, 1, 60, 127, 127, 127, 127, 64, 1⟩)]) =
    .regional [((0, 59), 60, .wave 0 3), ((60, 127), 60, .wave 1 4)] := by decide

/-- C139: what `print` shows of a region: its last key and its note. -/
theorem region_str (r : Nat × SoundBank.Note) : readRegion (strRegion r) = some ((r.1 : Int), noteOf r.2) :=
  Proofs.Summary.read_region r

/-- C139: what `print` shows of a bank: the numbers of its wave archives, and its instruments, numbered in order. -/
theorem sbnk_str (b : SoundBank.SBNK) : readSBNK (strSBNK b) =
    some (b.waveArchiveIDs, numberedFrom 0 (b.instruments.map fun i => i.map fun i => instrumentOf i.kind)) :=
  Proofs.Summary.read_sbnk b

/-- C139: what `print` shows of a sequence player: the number of sequences, the channels in order, and the heap size. -/
theorem seqPlayer_str (p : SoundArchive.SeqPlayer) : ∃ cs, readSeqPlayer (strSeqPlayer p) = some (p.maxSequences, cs, p.heapSize) ∧
    cs.Perm p.channels ∧ cs.Pairwise (· ≤ ·) :=
  ⟨_, Proofs.Summary.read_seqPlayer p, sortBy_perm id _, sortBy_sorted id _⟩

/-- C139: what `print` shows of a stream player: its channels. -/
theorem streamPlayer_str (channels : List Nat) : readStreamPlayer (strStreamPlayer channels) = some channels :=
  Proofs.Summary.read_streamPlayer channels

/-- C139: a group entry prints if its way of loading wave archives is 0 or 1, and otherwise raises `KeyError`. -/
theorem groupEntry_str_ok (g : SoundStream.GroupEntry) :
    ((∃ s, strGroupEntry g = .ok s) ↔ g.loadSBNKSWARsFrom ≤ 1) ∧ (strGroupEntry g = .error .keyError ↔ 1 < g.loadSBNKSWARsFrom) := by
  by_cases h : g.loadSBNKSWARsFrom ≤ 1
  · obtain ⟨s, hs, _⟩ := Proofs.Summary.read_groupEntry g h
    rw [hs]
    exact ⟨⟨fun _ => h, fun _ => ⟨s, rfl⟩⟩, by simp; omega⟩
  · have : strGroupEntry g = .error .keyError := by
      unfold strGroupEntry
      rw [if_neg (by omega), if_neg (by omega)]
      rfl
    rw [this]
    exact ⟨⟨by simp, fun h' => absurd h' h⟩, by simp; omega⟩

/-- C139: what `print` shows of a group entry: its type, its number, and its flags. -/
theorem groupEntry_str (g : SoundStream.GroupEntry) (s : Str) (h : strGroupEntry g = .ok s) :
    readGroupEntry s = some (g.type, g.id, [g.loadSSEQ, decide (g.loadSBNKSWARsFrom = 1), g.loadSWAR, g.loadSSAR]) := by
  obtain ⟨t, ht, hr⟩ := Proofs.Summary.read_groupEntry g ((groupEntry_str_ok g).1.1 ⟨s, h⟩)
  rw [h] at ht
  cases ht
  exact hr

example : strGroupEntry ⟨1, 5, false, 1, true, false⟩ =
    .ok (Spec.EventText.chars "<group-entry-sbnk 5 load-swars-by-swar-id load-swar>") := by decide +kernel

/-- C139: what `print` shows of a sequence of a sequence archive: whether it is unparsed, its bank, its volume and its player. -/
theorem ssarSequence_str (s : SoundSequenceArchive.Sequence) : readSSARSequence (strSSARSequence s) =
    some (match s.first with | .unparsed _ => true | .parsed _ => false, s.bankID, s.volume, s.playerID) :=
  Proofs.Summary.read_ssarSequence s

/-- C139: what `print` shows of a sound archive: how many items of each kind it has. -/
theorem sdat_str (a : SoundArchiveObject.Archive) : readSDAT (strSDAT a) = some [a.sequences.length, a.sequenceArchives.length,
    a.banks.length, a.waveArchives.length, a.sequencePlayers.length, a.groups.length, a.streamPlayers.length, a.streams.length] :=
  Proofs.Summary.read_sdat a

/-- C139: what `print` shows of music: the numbers of its tracks in order. -/
theorem music_str (tracks : List Nat) : ∃ ts, readMusic (strMusic tracks) = some ts ∧ ts.Perm tracks ∧ ts.Pairwise (· ≤ ·) :=
  ⟨_, Proofs.Summary.read_music tracks, sortBy_perm id _, sortBy_sorted id _⟩

end Verif.Props.Summary
