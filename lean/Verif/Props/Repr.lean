import Verif.Proofs.ReprClasses

/-!
# C127: what `repr()` of an object evaluates to

The documentation of Python asks that `repr()` return, if possible, an expression that gives an equal object when it is
evaluated, and ndspy's `__repr__` methods are written in this form.  `Evaluates s f x`: the text `s` is an expression, and
evaluating it with the constructors of the class (`f`) gives an object with the attributes of `x`.
-/

namespace Verif.Props.Repr

open Verif Verif.Model Verif.Spec.PyExpr Verif.Spec.Repr Verif.Model.ReprClasses Verif.Proofs.ReprClasses
open Verif.Model.SoundSequence (Ev)

/-- A text has at most one value. -/
theorem value_unique {α : Type} {s : Str} {f : Expr → Option α} {x y : α} (h : Evaluates s f x) (h' : Evaluates s f y) :
    x = y := evaluates_unique h h'

/-! ## Buttons -/

theorem repr_touchArea (t : Bn.TouchArea) : Evaluates (reprTouchArea t) Constructors.touchArea t :=
  evaluates_of (reads_touchArea t) (touchArea_eval t)

theorem repr_bnbl (b : Bn.BNBL) : Evaluates (reprBNBL b) Constructors.bnbl b :=
  evaluates_of (reads_bnbl b) (bnbl_eval b)

example : reprBNBL ⟨7, [⟨-1, 2, 30, 4, 0x11⟩]⟩ = str "BNBL.fromTouchAreas([BNBLTouchArea(-1, 2, 30, 4, 17)], 7)" := by
  decide +kernel

theorem repr_imagePosition (p : Bn.ImagePosition) : Evaluates (reprImagePosition p) Constructors.imagePosition p :=
  evaluates_of (reads_imagePosition p) (imagePosition_eval p)

theorem repr_bncl (b : Bn.BNCL) : Evaluates (reprBNCL b) Constructors.bncl b :=
  evaluates_of (reads_bncl b) (bncl_eval b)

example : reprBNCL ⟨0, [⟨-1, 2, 0x11, 5⟩, ⟨0, 0, 0, 0⟩]⟩ =
    str "BNCL.fromImagePositions([BNCLImagePosition(-1, 2, 17, 5), BNCLImagePosition(0, 0, 0, 0)])" := by
  decide +kernel

/-! ## File names -/

/-- The whole tree of folders, whatever characters its names have and whichever of them Python prints as they are. -/
theorem repr_folder (printable : Nat → Bool) (f : Fnt.Folder) (h : folderOk f) :
    ∃ n, ∀ m, n ≤ m → Evaluates (reprFolder printable f) (Constructors.folder m) f := by
  obtain ⟨n, hn⟩ := folder_eval f
  exact ⟨n, fun m hm => evaluates_of (reads_folder printable f h) (hn m hm)⟩

/-- A name with both quotes, a backslash, a line break and a character beyond the BMP. -/
def exampleFolder : Fnt.Folder :=
  .mk (.cons [39, 34, 92] (.mk .nil [[97, 10, 0x1F600]] 5) .nil) [[98]] 6

example : folderOk exampleFolder := by
  unfold exampleFolder
  simp [folderOk, foldersOk]

example : reprFolder (fun _ => true) exampleFolder =
    str "Folder([('\\'\"\\\\', Folder([], ['a\\n😀'], 5))], ['b'], 6)" := by
  decide +kernel

/-- An archive of at most one file of at most 32 bytes. -/
theorem repr_narc_partial (printable : Nat → Bool) (n : Narc.NARC) (he : n.beginning = .little) (hl : n.files.length ≤ 1)
    (hf : ∀ f ∈ n.files, f.length ≤ 32 ∧ 0x27 ∉ f) (ho : folderOk n.filenames) :
    ∃ k, ∀ m, k ≤ m → Evaluates (reprNARC printable n) (Constructors.narc m) n := by
  obtain ⟨k, hk⟩ := narc_eval n he
  exact ⟨k, fun m hm => evaluates_of (reads_narc printable n hl hf ho) (hk m hm)⟩

example : (Narc.fromFilesAndNames [[1, 0x32, 0xFF]] (some exampleFolder)).beginning = .little := rfl

/-- With more files there is no such value: all but the first are left out. -/
theorem repr_narc_many (printable : Nat → Bool) (n : Narc.NARC) (h2 : 2 ≤ n.files.length)
    (hf : ∀ f, n.files.head? = some f → 0x27 ∉ f.take 32) (ho : folderOk n.filenames) (m : Nat) (x : Narc.NARC) :
    ¬ Evaluates (reprNARC printable n) (Constructors.narc m) x := narc_many printable n h2 hf ho m x

example : reprNARC (fun _ => true) { files := [[1], [2]], filenames := .mk .nil [] 0, beginning := .little } =
    str "NARC.fromFilesAndNames([b'\\1', ...], Folder([], [], 0))" := by decide +kernel

/-! ## Code -/

/-- An overlay of at most 32 bytes: the data go through the constructor again, which decompresses them if the flag says
so. -/
theorem repr_overlay_partial (o o' : Code.Overlay) (hl : o.data.length ≤ 32) (hq : 0x27 ∉ o.data) :
    Evaluates (reprOverlay o) Constructors.overlay o' ↔
      Code.Overlay.init o.data o.ramAddress o.ramSize o.bssSize o.staticInitStart o.staticInitEnd o.fileID o.compressedSize
        o.flags = .ok o' := by
  have e := overlay_eval o
  constructor
  · intro h
    cases hi : Code.Overlay.init o.data o.ramAddress o.ramSize o.bssSize o.staticInitStart o.staticInitEnd o.fileID
        o.compressedSize o.flags with
    | error x =>
      rw [hi] at e
      exact absurd h (not_evaluates (reads_overlay o hl hq) e _)
    | ok x =>
      rw [hi] at e
      rw [evaluates_unique h (evaluates_of (reads_overlay o hl hq) e)]
  · intro h
    rw [h] at e
    exact evaluates_of (reads_overlay o hl hq) e

/-- So an overlay without this flag evaluates back. -/
theorem repr_overlay_uncompressed_partial (o : Code.Overlay) (hl : o.data.length ≤ 32) (hq : 0x27 ∉ o.data)
    (hc : o.flags % 2 = 0) : Evaluates (reprOverlay o) Constructors.overlay o := by
  rw [repr_overlay_partial o o hl hq]
  have : Code.compressedFlag o.flags = false := by
    unfold Code.compressedFlag
    rw [Nat.and_one_is_mod, hc]
    rfl
  unfold Code.Overlay.init
  rw [this]
  rfl

example : reprOverlay ⟨[1, 2], 0x2000000, 0x20, 0, 0x2000010, 0x2000014, 3, 10, 2⟩ =
    str "Overlay(b'\\1\\2', 0x02000000, 0x20, 0x0, 0x02000010, 0x02000014, 3, 0xA, 0x2)" := by decide +kernel

/-- One with more data is not printed as an expression at all. -/
theorem repr_overlay_long (o : Code.Overlay) (hl : 32 < o.data.length) (hq : 0x27 ∉ o.data.take 32) (e : Expr) :
    ¬ Parses (reprOverlay o) e := (bad_overlay o hl hq).not_parses e

example : 32 < (List.replicate 33 (0 : UInt8)).length ∧ 0x27 ∉ (List.replicate 33 (0 : UInt8)).take 32 := by decide

/-- Neither is a section with more data … -/
theorem repr_section_long (s : Code.Section) (hl : 32 < s.data.length) (hq : 0x27 ∉ s.data.take 32) (e : Expr) :
    ¬ Parses (reprSection s) e := (bad_section s hl hq).not_parses e

/-- … and one with less calls a class that is unknown under this name. -/
theorem repr_section (s x : Code.Section) (hl : s.data.length ≤ 32) (hq : 0x27 ∉ s.data) :
    ¬ Evaluates (reprSection s) Constructors.codeSection x := not_evaluates (reads_section s hl hq) (section_eval s) x

example : reprSection ⟨[1, 2], 0x2000000, 16, true⟩ = str "Section(b'\\1\\2', 0x02000000, 0x10, implicit=True)" := by
  decide +kernel

/-- So a main code file evaluates back only if it has no sections. -/
theorem repr_mainCode_partial (m : Code.MainCodeFile) (h : ∀ s ∈ m.sections, s.data.length ≤ 32 ∧ 0x27 ∉ s.data) :
    Evaluates (reprMainCode m) Constructors.mainCode m ↔ m.sections = [] ∧ m.codeSettingsOffs = none := by
  have e := mainCode_eval m
  constructor
  · intro he
    cases hs : m.sections with
    | cons a l =>
      rw [hs] at e
      exact absurd he (not_evaluates (reads_mainCode m h) e _)
    | nil =>
      rw [hs] at e
      have := evaluates_unique he (evaluates_of (reads_mainCode m h) e)
      exact ⟨rfl, by rw [this]⟩
  · rintro ⟨h1, h2⟩
    obtain ⟨a, b, c⟩ := m
    cases h1
    cases h2
    exact evaluates_of (reads_mainCode _ h) e

/-! ## Colours -/

/-- A palette evaluates back if and only if it has at most 20 colours. -/
theorem repr_palette_partial (p : Texture.Palette) :
    Evaluates (reprPalette p) Constructors.palette p ↔ p.colors.length ≤ 20 := by
  have e := palette_eval p
  constructor
  · intro h
    apply Classical.byContradiction
    intro hc
    rw [if_pos (by omega)] at e
    exact not_evaluates (reads_palette p) e _ h
  · intro h
    rw [if_neg (by omega)] at e
    exact evaluates_of (reads_palette p) e

example : reprPalette ⟨1, 0, 2, [⟨31, 0, 15, 1⟩, ⟨0, 0, 0, 0⟩]⟩ =
    str "Palette.fromColors(1, 0, 2, [(31,0,15,1), (0,0,0,0)])" := by decide +kernel

/-! ## Messages -/

/-- A message evaluates back if and only if it has no escape sequences and is not null. -/
theorem repr_message_partial (printable : Nat → Bool) (m : Bmg.Message) (h : ∀ p ∈ m.parts, partOk p) :
    Evaluates (reprMessage printable m) Constructors.message m ↔ allTexts m ∧ m.isNull = false := by
  constructor
  · intro he
    have ht : allTexts m := by
      intro p hp
      cases p with
      | text s => exact ⟨s, rfl⟩
      | escape t d => exact absurd he (not_evaluates (reads_message printable m h) (message_eval_escape m t d hp) _)
    have := evaluates_unique he (evaluates_of (reads_message printable m h) (message_eval m ht))
    exact ⟨ht, by rw [this]⟩
  · rintro ⟨ht, hn⟩
    have := evaluates_of (reads_message printable m h) (message_eval m ht)
    obtain ⟨a, b, c⟩ := m
    cases hn
    exact this

example : reprMessage (fun _ => true) ⟨[0, 0x41], [.text [104, 105], .escape 3 [1]], false⟩ =
    str "Message(b'\\x00A', ['hi', Escape(3, b'\\x01')])" := by decide +kernel

/-- A file of messages evaluates to a UTF-16 little-endian one with the same lists, in which no message is null. -/
theorem repr_bmg_partial (printable : Nat → Bool) (b : Bmg.BMG) (h : ∀ m ∈ b.messages, ∀ p ∈ m.parts, partOk p)
    (ht : ∀ m ∈ b.messages, allTexts m) :
    Evaluates (reprBMG printable b) Constructors.bmg
      { b with
        messages := b.messages.map fun m => { m with isNull := false }
        encoding := .utf16, endianness := .little, unk14 := 0, unk18 := 0, unk1C := 0 } :=
  evaluates_of (reads_bmg printable b h) (bmg_eval b ht)

example : reprBMG (fun _ => true) ⟨[⟨[], [.text [104]], false⟩], [], [(1, -2)], [(3, 4)], 0x1F, .utf16, .little, 0, 0, 0⟩ =
    str "BMG.fromMessages([Message(b'', ['h'])], labels=[(1, -2)], scripts=[(3, 4)], id=0x1f)" := by decide +kernel

/-! ## Sound -/

/-- Whatever the order in which the elements of the set are printed. -/
theorem repr_seqPlayer (order : List Nat → List Nat) (ho : ∀ l, (order l).Perm l) (p : SoundArchive.SeqPlayer)
    (hs : p.channels.Pairwise (· < ·)) : Evaluates (reprSeqPlayer order p) Constructors.seqPlayer p := by
  have := evaluates_of (reads_seqPlayer order p) (seqPlayer_eval order p)
  rwa [inOrder_perm hs (ho _)] at this

example : reprSeqPlayer List.reverse ⟨2, [0, 3, 15], 0⟩ = str "SequencePlayer(2, {15, 3, 0}, 0)" ∧
    reprSeqPlayer List.reverse ⟨2, [], 0⟩ = str "SequencePlayer(2, set(), 0)" := by decide +kernel

/-- A stream player always evaluates to one without channels. -/
theorem repr_streamPlayer (channels x : List Nat) :
    Evaluates (reprStreamPlayer channels) Constructors.streamPlayer x ↔ x = [] := by
  have h := evaluates_of (reads_streamPlayer channels) (streamPlayer_eval channels)
  exact ⟨fun h' => evaluates_unique h' h, fun e => e ▸ h⟩

example : reprStreamPlayer [0, 1] = str "StreamPlayer()" ∧ reprStreamPlayer [] = str "StreamPlayer([])" := by decide +kernel

/-- A note definition evaluates back if and only if its type is none of the members of `NoteType`; otherwise its text is
no expression. -/
theorem repr_note_partial (n : SoundBank.Note) :
    (Evaluates (reprNote n) Constructors.noteDefinition n ↔ ¬ (n.type = 1 ∨ n.type = 2 ∨ n.type = 3)) ∧
      ((n.type = 1 ∨ n.type = 2 ∨ n.type = 3) → ∀ e, ¬ Parses (reprNote n) e) := by
  have hb : (n.type = 1 ∨ n.type = 2 ∨ n.type = 3) → ∀ e, ¬ Parses (reprNote n) e := fun h => (bad_note n h).not_parses
  refine ⟨⟨?_, fun h => evaluates_of (reads_note n h) (note_eval n)⟩, hb⟩
  rintro ⟨e, hp, _⟩ h
  exact hb h e hp

example : reprNote ⟨0, 1, 60, 127, 127, 127, 127, 64, 1⟩ =
    str "NoteDefinition(0, 1, 60, 127, 127, 127, 127, 64, <NoteType.PCM: 1>)" := by decide +kernel

/-- An entry of a group is never printed as an expression. -/
theorem repr_groupEntry (g : SoundStream.GroupEntry) (e : Expr) : ¬ Parses (reprGroupEntry g) e :=
  (bad_groupEntry g).not_parses e

/-- Nothing but the members of `enum`s is to blame: with their numbers in place of their texts, the texts of note definitions
and of entries of groups evaluate back, whatever the attributes. -/
theorem repr_note_numbers (n : SoundBank.Note) : Evaluates (enumNumbers false (reprNote n)) Constructors.noteDefinition n :=
  evaluates_of (reads_noteNumbers n) (note_eval n)

theorem repr_groupEntry_numbers (g : SoundStream.GroupEntry) (h : g.type ≤ 3) :
    Evaluates (enumNumbers false (reprGroupEntry g)) Constructors.groupEntry g :=
  evaluates_of (reads_groupEntry g) (groupEntry_eval g h)

example : enumNumbers false (reprGroupEntry ⟨1, 7, false, 0, true, false⟩) =
    str "GroupEntry.fromFlags(1, 7, loadSBNKSWARsFrom=0, loadSWAR=True)" := by decide +kernel
example : enumNumbers false (reprNote ⟨0, 1, 60, 127, 127, 127, 127, 64, 1⟩) =
    str "NoteDefinition(0, 1, 60, 127, 127, 127, 127, 64, 1)" := by decide +kernel

/-- The members of `enum`s are printed with the name of the class and their own name. -/
theorem repr_enum_names (id : Nat) :
    reprNoteType 1 = str "<NoteType.PCM: 1>" ∧ reprNoteType 2 = str "<NoteType.PSG_SQUARE_WAVE: 2>" ∧
    reprNoteType 3 = str "<NoteType.PSG_WHITE_NOISE: 3>" ∧
    reprGroupEntry ⟨0, id, false, 1, false, false⟩ = str "GroupEntry.fromFlags(<GroupEntryType.SSEQ: 0>, " ++ Model.Repr.reprNat id ++ str ")" ∧
    reprGroupEntry ⟨1, id, false, 1, false, false⟩ = str "GroupEntry.fromFlags(<GroupEntryType.SBNK: 1>, " ++ Model.Repr.reprNat id ++ str ")" ∧
    reprGroupEntry ⟨2, id, false, 1, false, false⟩ = str "GroupEntry.fromFlags(<GroupEntryType.SWAR: 2>, " ++ Model.Repr.reprNat id ++ str ")" ∧
    reprGroupEntry ⟨3, id, false, 1, false, false⟩ = str "GroupEntry.fromFlags(<GroupEntryType.SSAR: 3>, " ++ Model.Repr.reprNat id ++ str ")" ∧
    reprGroupEntry ⟨1, id, false, 0, false, false⟩ = str "GroupEntry.fromFlags(<GroupEntryType.SBNK: 1>, " ++
      (Model.Repr.reprNat id ++ str ", " ++ str "loadSBNKSWARsFrom=<SWARLoadMethod.FILE_IDS: 0>") ++ str ")" := by
  refine ⟨by decide +kernel, by decide +kernel, by decide +kernel, ?_, ?_, ?_, ?_, ?_⟩
  all_goals
    unfold reprGroupEntry
    dsimp only
    generalize Model.Repr.reprNat id = x
    rfl

/-! ## Sequence events -/

/-- The text of an event is an expression that evaluates back if and only if it holds neither an event nor a member of an
`enum`, and it is not a note whose velocity is outside of 0 to 127. -/
theorem repr_event_partial (order : List Nat → List Nat) (ho : ∀ l, (order l).Perm l) (obj : Nat → Ev) (addr : Nat → Nat)
    (f : Nat) (e : Ev) (hs : ∀ l, e = .defineTracks l → l.Pairwise (· < ·)) (s : Str)
    (h : reprEv order obj addr f e = .ok s) :
    (Evaluates s Constructors.event e ↔
      plainEvent e = true ∧ ∀ p v flag d, e = .note p v flag d → 0 ≤ v ∧ v < 128) ∧
    (plainEvent e = false → ∀ x, ¬ Parses s x) := by
  have ht := event_text order obj addr f e s h
  rw [← eventV_eq ho e hs]
  cases hp : plainEvent e with
  | false =>
    rw [hp] at ht
    have hb := Bad.not_parses (show Bad s from ht)
    refine ⟨⟨?_, fun h => absurd h.1 (by simp)⟩, fun _ => hb⟩
    rintro ⟨x, hx, _⟩
    exact absurd hx (hb x)
  | true =>
    rw [hp] at ht
    have hv := evaluates_of (show Proofs.PyExpr.Reads s _ from ht) (event_eval order e hp)
    refine ⟨⟨fun h' => ⟨rfl, evaluates_unique hv h'⟩, fun h' => ?_⟩, fun h => absurd h (by simp)⟩
    rwa [h'.2] at hv

/-- Such an event can always be printed. -/
theorem repr_event_returns (order : List Nat → List Nat) (obj : Nat → Ev) (addr : Nat → Nat) (f : Nat) (e : Ev)
    (h : plainEvent e = true) : ∃ s, reprEv order obj addr (f + 1) e = .ok s := by
  obtain ⟨s, hs, _⟩ := reads_event order obj addr f e h
  exact ⟨s, hs⟩

example : reprEv id (fun _ => .ret) id 1 (.note 60 127 true 48) = .ok (str "NoteSequenceEvent(60, 255, 48)") ∧
    reprEv id (fun _ => .ret) id 1 (.simple .tie 1) = .ok (str "TieSequenceEvent(True)") ∧
    reprEv id (fun _ => .ret) id 1 (.monoPoly 1) =
      .ok (str "MonoPolySequenceEvent(<MonoPolySequenceEvent.Value.MONO: 1>)") ∧
    reprEv id (fun _ => .ret) id 2 (.jump 7) = .ok (str "JumpSequenceEvent(ReturnSequenceEvent() at 7)") := by
  decide +kernel

/-- Events of which each refers to another one of them, such as a jump to itself, cannot be printed: Python raises
`RecursionError`. -/
theorem repr_event_cycle (order : List Nat → List Nat) (obj : Nat → Ev) (addr : Nat → Nat) (C : Nat → Prop)
    (h : ∀ i, C i → ∃ j, C j ∧ ((∃ t, obj i = .beginTrack t j) ∨ obj i = .jump j ∨ obj i = .call j)) (f i : Nat) (hi : C i) :
    reprEv order obj addr f (obj i) = .error .recursionError := event_cycle order obj addr C h f i hi

example : reprEv id (fun _ => .jump 0) id 1000 (.jump 0) = .error .recursionError :=
  repr_event_cycle id (fun _ => .jump 0) id (fun i => i = 0) (fun _ _ => ⟨0, rfl, .inr (.inl rfl)⟩) 1000 0 rfl

/-- Events that hold a member of an `enum` are printed with the name of the class, the name of the member and its number. -/
theorem repr_enum_event (order : List Nat → List Nat) (obj : Nat → Ev) (addr : Nat → Nat) (f : Nat) :
    reprEv order obj addr (f + 1) (.monoPoly 0) = .ok (str "MonoPolySequenceEvent(<MonoPolySequenceEvent.Value.POLY: 0>)") ∧
    reprEv order obj addr (f + 1) (.monoPoly 1) = .ok (str "MonoPolySequenceEvent(<MonoPolySequenceEvent.Value.MONO: 1>)") ∧
    reprEv order obj addr (f + 1) (.vibratoType 0) = .ok (str "VibratoTypeSequenceEvent(<VibratoTypeSequenceEvent.Value.PITCH: 0>)") ∧
    reprEv order obj addr (f + 1) (.vibratoType 1) = .ok (str "VibratoTypeSequenceEvent(<VibratoTypeSequenceEvent.Value.VOLUME: 1>)") ∧
    reprEv order obj addr (f + 1) (.vibratoType 2) = .ok (str "VibratoTypeSequenceEvent(<VibratoTypeSequenceEvent.Value.PAN: 2>)") := by
  refine ⟨?_, ?_, ?_, ?_, ?_⟩
  all_goals
    unfold reprEv
    dsimp only
    congr 1

/-! ## Arguments that are left out -/

/-- The attributes of objects of classes that are called with fewer arguments than they have parameters, whatever the arguments. -/
theorem defaults (x y w h i a t : Nat) :
    Constructors.touchArea (.call [str "BNBLTouchArea"] []) = some ⟨0, 0, 0, 0, 0x11⟩ ∧
    Constructors.touchArea (.call [str "BNBLTouchArea"] [(none, .int x), (none, .int y), (none, .int w), (none, .int h)]) =
      some ⟨x, y, w, h, 0x11⟩ ∧
    Constructors.touchArea (.call [str "BNBLTouchArea"] [(some (str "alignment"), .int a), (some (str "height"), .int h)]) =
      some ⟨0, 0, 0, h, a⟩ ∧
    Constructors.imagePosition (.call [str "BNCLImagePosition"] []) = some ⟨0, 0, 0x11, 0⟩ ∧
    Constructors.imagePosition (.call [str "BNCLImagePosition"] [(some (str "imageID"), .int i)]) = some ⟨0, 0, 0x11, i⟩ ∧
    Constructors.part (.call [str "Message", str "Escape"] []) = some (.escape 0 []) ∧
    Constructors.part (.call [str "Message", str "Escape"] [(none, .int t)]) = some (.escape t []) ∧
    Constructors.message (.call [str "Message"] []) = some ⟨[], [], false⟩ ∧
    Constructors.seqPlayer (.call [str "SequencePlayer"] []) = some ⟨1, [], 0⟩ ∧
    Constructors.streamPlayer (.call [str "StreamPlayer"] []) = some [] ∧
    Constructors.noteDefinition (.call [str "NoteDefinition"] []) = some ⟨0, 0, 60, 127, 127, 127, 127, 64, 1⟩ ∧
    Constructors.noteDefinition (.call [str "NoteDefinition"] [(none, .int x), (some (str "pan"), .int y)]) =
      some ⟨x, 0, 60, 127, 127, 127, 127, y, 1⟩ ∧
    Constructors.bmg (.call [str "BMG", str "fromMessages"] [(none, .list []), (some (str "id"), .int i)]) =
      some ⟨[], [], [], [], i, .utf16, .little, 0, 0, 0⟩ ∧
    (∀ n, Constructors.folder (n + 1) (.call [str "Folder"] []) = some (.mk .nil [] 0)) := by
  refine ⟨?_, ?_, ?_, ?_, ?_, ?_, ?_, ?_, ?_, ?_, ?_, ?_, ?_, ?_⟩
  all_goals first
    | rfl
    | decide +kernel
    | (intro n; rfl)

/-! ## Not for every object -/

/-- Objects whose `repr()` is not an expression for an equal object. -/
theorem not_repr_evaluates :
    (∃ n : Narc.NARC, ∀ m, ¬ Evaluates (reprNARC (fun _ => true) n) (Constructors.narc m) n) ∧
    (∃ o : Code.Overlay, ¬ Evaluates (reprOverlay o) Constructors.overlay o) ∧
    (∃ s : Code.Section, ¬ Evaluates (reprSection s) Constructors.codeSection s) ∧
    (∃ m : Code.MainCodeFile, ¬ Evaluates (reprMainCode m) Constructors.mainCode m) ∧
    (∃ p : Texture.Palette, ¬ Evaluates (reprPalette p) Constructors.palette p) ∧
    (∃ m : Bmg.Message, ¬ Evaluates (reprMessage (fun _ => true) m) Constructors.message m) ∧
    (∃ l : List Nat, ¬ Evaluates (reprStreamPlayer l) Constructors.streamPlayer l) ∧
    (∃ n : SoundBank.Note, ¬ Evaluates (reprNote n) Constructors.noteDefinition n) := by
  refine ⟨⟨({ files := [[1], [2]], filenames := .mk .nil [] 0, beginning := .little }), fun m => ?_⟩, ⟨⟨List.replicate 33 0, 0, 0, 0, 0, 0, 0, 0, 0⟩, ?_⟩,
    ⟨⟨[], 0, 0, false⟩, ?_⟩, ⟨⟨[⟨[], 0, 0, false⟩], 0, none⟩, ?_⟩, ⟨⟨0, 0, 0, List.replicate 21 ⟨0, 0, 0, 0⟩⟩, ?_⟩,
    ⟨⟨[], [.escape 0 []], false⟩, ?_⟩, ⟨[0], ?_⟩, ⟨⟨0, 1, 60, 127, 127, 127, 127, 64, 1⟩, ?_⟩⟩
  · exact repr_narc_many _ _ (by decide) (by intro f hf; cases hf; decide) (by simp [folderOk, foldersOk]) m _
  · rintro ⟨e, hp, _⟩
    exact repr_overlay_long _ (by decide) (by decide) e hp
  · exact repr_section _ _ (by decide) (by decide)
  · rw [repr_mainCode_partial _ (by simp)]
    simp
  · rw [repr_palette_partial]
    simp
  · rw [repr_message_partial _ _ (by simp [partOk])]
    simp [allTexts]
  · rw [repr_streamPlayer]
    simp
  · rw [(repr_note_partial _).1]
    simp

end Verif.Props.Repr
