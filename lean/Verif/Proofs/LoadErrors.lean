import Verif.Proofs.SeqRead
import Verif.Proofs.SoundBankLoad
import Verif.Proofs.BmgLoad
import Verif.Props.Fnt
import Verif.Props.Nsbmd
import Verif.Props.SoundBank
import Verif.Model.Bn
import Verif.Model.Narc
import Verif.Model.SoundArchiveObject
import Verif.Model.Rom

/-!
# Which exceptions the loaders raise
-/

namespace Verif.Proofs.LoadErrors

open Verif Verif.Model.Common
open Verif.Proofs.SeqRead (Errs)

variable {p : PyErr → Prop}

/-! ## Building blocks -/

theorem unpackU (hs : p .structError) {e : Endian} {k : Nat} {d : Bytes} {o : Nat} : Errs p (unpackU e k d o) := by
  intro err h; rw [unpackU_err h]; exact hs

theorem unpackUs (hs : p .structError) {e : Endian} {ks : List Nat} {d : Bytes} {o : Nat} :
    Errs p (unpackUs e ks d o) := by
  intro err h; rw [SoundBank.unpackUs_err h]; exact hs

theorem unpackStr (hs : p .structError) {n : Nat} {d : Bytes} {o : Nat} : Errs p (unpackStr n d o) := by
  intro err h; rw [SoundBank.unpackStr_err h]; exact hs

theorem unpackS (hs : p .structError) {e : Endian} {k : Nat} {d : Bytes} {o : Nat} : Errs p (unpackS e k d o) := by
  unfold Verif.unpackS
  exact (unpackU hs).bind fun _ _ => Errs.pure _

theorem pyIdx {α : Type} (hi : p .indexError) {l : List α} {o : Nat} : Errs p (pyIdx l o) := by
  intro err h
  unfold Verif.pyIdx at h
  split at h
  · cases h
  · cases h; exact hi

theorem raiseIf {c : Prop} [Decidable c] {e : PyErr} (h : p e) : Errs p (raiseIf c e) := by
  intro err h'
  unfold Verif.raiseIf at h'
  split at h'
  · cases h'; exact h
  · cases h'

theorem pyAssert {c : Prop} [Decidable c] (h : p .assertionError) : Errs p (pyAssert c) := by
  intro err h'
  unfold Verif.pyAssert at h'
  split at h'
  · cases h'
  · cases h'; exact h

theorem stdHeader (hs : p .structError) {d : Bytes} {o : Nat} : Errs p (unpackStdHeader d o) := by
  unfold unpackStdHeader
  exact (unpackStr hs).bind fun _ _ => (unpackU hs).bind fun _ _ => (unpackU hs).bind fun _ _ =>
    (unpackU hs).bind fun _ _ => (unpackU hs).bind fun _ _ => (unpackU hs).bind fun _ _ => Errs.pure _

/-- Weaken what is known of the exceptions. -/
theorem weaken {α : Type} {q : PyErr → Prop} {x : Py α} (h : Errs p x) (hpq : ∀ e, p e → q e) : Errs q x :=
  fun e he => hpq e (h e he)

/-- Take a loader apart. -/
macro "errs" : tactic => `(tactic| repeat' (first
  | with_reducible exact Errs.ok _
  | with_reducible exact Errs.pure _
  | with_reducible apply Errs.error
  | with_reducible apply unpackU
  | with_reducible apply unpackUs
  | with_reducible apply unpackStr
  | with_reducible apply unpackS
  | with_reducible apply pyIdx
  | with_reducible apply raiseIf
  | with_reducible apply pyAssert
  | with_reducible apply stdHeader
  | with_reducible refine Errs.bind ?_ fun _ _ => ?_
  | with_reducible refine Errs.mapE (fun _ => ?_) _
  | with_reducible assumption
  | split
  | dsimp only))

/-! ## Touch areas and image positions -/

theorem bnbl (hs : p .structError) (hv : p .valueError) (d : Bytes) : Errs p (Model.Bn.BNBL.load d) := by
  unfold Model.Bn.BNBL.load Model.Bn.TouchArea.fromData
  errs

theorem bncl (hs : p .structError) (hv : p .valueError) (d : Bytes) : Errs p (Model.Bn.BNCL.load d) := by
  unfold Model.Bn.BNCL.load Model.Bn.ImagePosition.fromData
  errs

/-! ## Archives -/

theorem fnt (hs : p .structError) (hr : p .recursionError) (limit : Nat) (d : Bytes) : Errs p (Model.Fnt.load limit d) := by
  intro e h
  rcases Props.Fnt.fnt_load_total limit d with ⟨_, h'⟩ | h' | h' <;> rw [h'] at h <;> cases h
  · exact hs
  · exact hr

theorem narc (hs : p .structError) (hv : p .valueError) (ha : p .assertionError) (hr : p .recursionError) (limit : Nat)
    (d : Bytes) : Errs p (Model.Narc.load limit d) := by
  unfold Model.Narc.load Model.Narc.loadFile
  have := fnt hs hr limit
  errs
  exact this _

/-! ## Sound files -/

theorem ssar (hs : p .structError) (hv : p .valueError) (ha : p .assertionError) (d : Bytes) (unk02 : Nat)
    (names : List (Option Str)) : Errs p (Model.SoundSequenceArchive.SSAR.load d unk02 names) := by
  unfold Model.SoundSequenceArchive.SSAR.load Model.SoundSequenceArchive.loadSequence
  errs

theorem sbnk (hs : p .structError) (hv : p .valueError) (hi : p .indexError) (ha : p .assertionError)
    (choose : List Nat → Nat) (d : Bytes) (unk02 : Nat) (wa : List (Option Int)) :
    Errs p (Model.SoundBank.SBNK.load choose d unk02 wa) := by
  intro e h
  rcases Props.SoundBank.bank_load_total choose d unk02 wa e h with rfl | rfl | rfl | rfl <;> assumption

theorem waveInfo (hs : p .structError) (hv : p .valueError) (d : Bytes) (o : Nat) (x : Bytes) :
    Errs p (Model.SoundWave.unpackInfo d o x) := by
  unfold Model.SoundWave.unpackInfo Model.SoundWave.unpackBool Model.SoundWave.waveTypeOf
  errs

theorem swav (hs : p .structError) (hv : p .valueError) (ha : p .assertionError) (d : Bytes) :
    Errs p (Model.SoundWave.SWAV.load d) := by
  unfold Model.SoundWave.SWAV.load
  have := waveInfo hs hv
  errs
  exact this _ _ _

theorem swar (hs : p .structError) (hv : p .valueError) (ha : p .assertionError) (d : Bytes) :
    Errs p (Model.SoundWave.loadSWAR d) := by
  unfold Model.SoundWave.loadSWAR Model.SoundWave.loadWave
  have := waveInfo hs hv
  errs <;> exact this _ _ _

theorem strm (hs : p .structError) (hv : p .valueError) (ha : p .assertionError) (d : Bytes) :
    Errs p (Model.SoundStream.STRM.load d) := by
  unfold Model.SoundStream.STRM.load Model.SoundStream.STRM.loadBlocks Model.SoundWave.waveTypeOf
  errs

/-! ## Textures and models -/

theorem infoBlock (hs : p .structError) (ha : p .assertionError) (d : Bytes) (o : Nat) (x : Option Nat) :
    Errs p (Model.InfoBlock.loadInfoBlock d o x) := by
  unfold Model.InfoBlock.loadInfoBlock Model.InfoBlock.loadEntry
  errs

/-- An exception of one of the functions that a list is mapped over. -/
theorem mapE_mem {α β : Type} {f : α → Py β} : ∀ {l : List α}, (∀ a ∈ l, Errs p (f a)) → Errs p (mapE f l)
  | [], _ => Errs.ok _
  | a :: l, h => (h a (by simp)).bind fun _ _ => (mapE_mem fun b hb => h b (by simp [hb])).bind fun _ _ => Errs.ok _

theorem palette (hs : p .structError) (d : Bytes) : Errs p (Model.Color.loadPalette d) := by
  unfold Model.Color.loadPalette
  errs

/-- How keys are compared makes no difference. -/
theorem lookup_beq {κ ν : Type} [i : BEq κ] [LawfulBEq κ] [DecidableEq κ] (k : κ) : ∀ l : List (κ × ν),
    @List.lookup κ ν i k l = @List.lookup κ ν instBEqOfDecidableEq k l
  | [] => rfl
  | (a, v) :: l => by
    unfold List.lookup
    rw [lookup_beq k l]
    by_cases h : k = a
    · simp [h]
    · rw [beq_false_of_ne h, @beq_false_of_ne _ instBEqOfDecidableEq _ _ _ h]

/-- A dictionary made from a list has all its keys, with values from the list. -/
theorem fold_lookup {κ ν : Type} [DecidableEq κ] : ∀ (l d : List (κ × ν)) (k : κ) (s : List ν),
    (∀ v, d.lookup k = some v → v ∈ s) → (k ∈ l.map Prod.fst ∨ (d.lookup k).isSome) → (∀ x ∈ l, x.2 ∈ s) →
    ∃ v, (l.foldl (fun d k => dictSet d k.1 k.2) d).lookup k = some v ∧ v ∈ s
  | [], d, k, s, hd, hk, _ => by
    obtain ⟨v, hv⟩ := Option.isSome_iff_exists.1 (hk.resolve_left (by simp))
    exact ⟨v, hv, hd v hv⟩
  | x :: l, d, k, s, hd, hk, hl => by
    rw [List.foldl_cons]
    apply fold_lookup l _ k s _ _ fun y hy => hl y (by simp [hy])
    · intro v hv
      rw [dictSet_lookup] at hv
      split at hv
      · cases hv; exact hl x (by simp)
      · exact hd v hv
    · rw [dictSet_lookup]
      by_cases h : k = x.1
      · right; simp [h]
      · rcases hk with hk | hk
        · left; simpa [h] using hk
        · right; simpa [h] using hk

theorem tex0 (hs : p .structError) (ha : p .assertionError) (hi : p .indexError) (d : Bytes) :
    Errs p (Model.Texture.readTEX0 d) := by
  unfold Model.Texture.readTEX0
  have h1 := infoBlock hs ha
  have h2 := palette hs
  refine (pyAssert ha).bind fun _ _ => (unpackUs hs).bind fun f _ => ?_
  split
  · refine (h1 _ _ _).bind fun _ _ => Errs.bind (Errs.mapE (fun _ => ?_) _) fun _ _ => (h1 _ _ _).bind fun _ _ =>
      Errs.bind (Errs.mapE (fun _ => ?_) _) fun keys _ => Errs.bind (mapE_mem fun k hk => ?_) fun _ _ => Errs.pure _
    · unfold Model.Texture.readTexture
      errs
    · unfold Model.Texture.readPaletteKey
      errs
    · obtain ⟨v, hv, hm⟩ := fold_lookup keys [] k (keys.map (·.2)) (by simp) (.inl hk) fun x hx => List.mem_map_of_mem hx
      unfold Model.Texture.readPalette
      rw [lookup_beq, hv]
      dsimp only
      rw [if_pos ((sortBy_perm id _).mem_iff.2 (List.mem_append_left _ hm))]
      exact (pyIdx hi).bind fun _ _ => (h2 _).bind fun _ _ => Errs.pure _
  · exact Errs.error hs

theorem nsbtx (hs : p .structError) (hv : p .valueError) (ha : p .assertionError) (hi : p .indexError) (d : Bytes) :
    Errs p (Model.Texture.load d) := by
  unfold Model.Texture.load
  have := tex0 hs ha hi
  errs
  exact this _

theorem section_ (hs : p .structError) (ha : p .assertionError) (b : Bool) (d : Bytes) (o : Nat) :
    Errs p (Model.Nsbmd.readSection b d o) := by
  unfold Model.Nsbmd.readSection
  errs

theorem polygon (hs : p .structError) (d : Bytes) (o : Nat) : Errs p (Model.Nsbmd.readPolygon d o) := by
  unfold Model.Nsbmd.readPolygon
  refine (unpackUs hs).bind fun f _ => ?_
  split
  · rename_i c e _
    obtain ⟨cs, h, _⟩ := Props.Nsbmd.display_list_total (slice d (o + c) (o + c + e))
    rw [h, bind_ok]
    exact Errs.pure _
  · exact Errs.error hs

theorem mdl0 (hs : p .structError) (ha : p .assertionError) (d : Bytes) : Errs p (Model.Nsbmd.readMDL0 d) := by
  unfold Model.Nsbmd.readMDL0 Model.Nsbmd.readModel
  have h1 := section_ hs ha
  have h2 := polygon hs
  errs <;> first | exact h1 _ _ _ | exact h2 _ _

theorem nsbmd_blocks (hs : p .structError) (hv : p .valueError) (ha : p .assertionError) (hi : p .indexError) (d : Bytes) :
    ∀ (offs : List Nat) (m : Model.Nsbmd.NSBMD), Errs p (Model.Nsbmd.parseBlocks d m offs)
  | [], _ => Errs.ok _
  | o :: offs, m => by
    rw [Model.Nsbmd.parseBlocks]
    refine Errs.bind ?_ fun m' _ => nsbmd_blocks hs hv ha hi d offs m'
    unfold Model.Nsbmd.parseBlock
    have h1 := tex0 hs ha hi
    have h2 := mdl0 hs ha
    errs
    · exact h2 _
    · exact h1 _

theorem nsbmd (hs : p .structError) (hv : p .valueError) (ha : p .assertionError) (hi : p .indexError) (d : Bytes) :
    Errs p (Model.Nsbmd.NSBMD.load d) := by
  unfold Model.Nsbmd.NSBMD.load
  have := nsbmd_blocks hs hv ha hi
  errs
  exact this _ _ _

/-! ## Sound archives -/

open Verif.Model.SoundArchive in
theorem symbols (hs : p .structError) (d : Bytes) (block : Nat) :
    ∀ n off last, Errs p (readSymbols d block n off last)
  | 0, _, _ => Errs.ok _
  | n + 1, off, last => by
    rw [readSymbols]
    unfold readSymbol
    have := symbols hs d block n
    errs <;> exact this _ _

open Verif.Model.SoundArchive in
theorem symbolsList (hs : p .structError) (d : Bytes) (block off last : Nat) :
    Errs p (readSymbolsList d block off last) := by
  unfold readSymbolsList
  exact (unpackU hs).bind fun _ _ => symbols hs _ _ _ _ _

open Verif.Model.SoundArchive in
theorem nested (hs : p .structError) (d : Bytes) (block : Nat) :
    ∀ n off last, Errs p (readNested d block n off last)
  | 0, _, _ => Errs.ok _
  | n + 1, off, last => by
    rw [readNested]
    unfold readSymbol
    have h1 := nested hs d block n
    have h2 := symbolsList hs d block
    errs <;> first | exact h1 _ _ | exact h2 _ _

open Verif.Model.SoundArchive in
theorem files (hs : p .structError) (d : Bytes) (fat count : Nat) :
    ∀ (is : List Nat) (s : FatState), Errs p (readFiles d fat count is s)
  | [], _ => Errs.ok _
  | i :: is, s => by
    rw [readFiles]
    unfold readFile checkPadding
    have := files hs d fat count is
    errs <;> exact this _

open Verif.Model.SoundArchive in
theorem entries (hs : p .structError) (d : Bytes) (info off : Nat) : Errs p (entryOffsets d info off) := by
  unfold entryOffsets
  errs

open Verif.Model.SoundArchive in
theorem part {α : Type} (hs : p .structError) {read : Nat → Py α} (hr : ∀ o, Errs p (read o)) (d : Bytes) (block : Nat)
    (so : Option Nat) (info off last : Nat) : Errs p (readPart read d block so info off last) := by
  unfold readPart readSymbolsOpt readEntry
  have h1 := symbolsList hs d block
  have h2 := entries hs d
  errs <;> first | exact h1 _ _ | exact h2 _ _ | exact hr _

open Verif.Model.SoundArchive in
theorem ssars (hs : p .structError) (hi : p .indexError) (d : Bytes) (fs : List Bytes) (block : Nat)
    (so : Option Nat) (info off last : Nat) : Errs p (readSsars d fs block so info off last) := by
  unfold readSsars readNestedOpt readNestedList readEntry readSsar
  have h1 := nested hs d block
  have h2 := entries hs d
  errs <;> first | exact h1 _ _ _ | exact h2 _ _

open Verif.Model.SoundArchive in
theorem sdat (hs : p .structError) (hv : p .valueError) (ha : p .assertionError) (hi : p .indexError) (d : Bytes) :
    Errs p (SDAT.load d) := by
  unfold SDAT.load symbolOffsets
  have hf := files hs d
  have p1 : ∀ fs o, Errs p (readSeq d fs o) := fun _ _ => by unfold readSeq; errs
  have p2 : ∀ fs o, Errs p (readBank d fs o) := fun _ _ => by unfold readBank; errs
  have p3 : ∀ fs o, Errs p (readSwar d fs o) := fun _ _ => by unfold readSwar; errs
  have p4 : ∀ o, Errs p (readPlayer d o) := fun _ => by unfold readPlayer; errs
  have p5 : ∀ o, Errs p (Model.SoundStream.unpackGroup d o) := fun _ => by
    unfold Model.SoundStream.unpackGroup Model.SoundStream.unpackGroupEntry Model.SoundStream.GroupEntry.init; errs
  have p6 : ∀ o, Errs p (readStreamPlayer d o) := fun _ => by unfold readStreamPlayer; errs
  have p7 : ∀ fs o, Errs p (readStrm d fs o) := fun _ _ => by unfold readStrm; errs
  have p8 := ssars hs hi d
  refine (stdHeader hs).bind fun _ _ => (raiseIf hv).bind fun _ _ => (raiseIf hv).bind fun _ _ =>
    (unpackUs hs).bind fun _ _ => ?_
  split
  · refine (unpackStr hs).bind fun _ _ => (unpackU hs).bind fun _ _ => Errs.bind (by errs) fun _ _ =>
      (unpackStr hs).bind fun _ _ => (unpackU hs).bind fun _ _ => (unpackU hs).bind fun _ _ => (pyAssert ha).bind fun _ _ =>
      (hf _ _ _ _).bind fun _ _ => (unpackStr hs).bind fun _ _ => (unpackU hs).bind fun _ _ => (unpackUs hs).bind fun _ _ =>
      (pyAssert ha).bind fun _ _ => ?_
    split
    · exact (part hs (p1 _) _ _ _ _ _ _).bind fun _ _ => (p8 _ _ _ _ _ _).bind fun _ _ =>
        (part hs (p2 _) _ _ _ _ _ _).bind fun _ _ => (part hs (p3 _) _ _ _ _ _ _).bind fun _ _ =>
        (part hs p4 _ _ _ _ _ _).bind fun _ _ => (part hs p5 _ _ _ _ _ _).bind fun _ _ =>
        (part hs p6 _ _ _ _ _ _).bind fun _ _ => (part hs (p7 _) _ _ _ _ _ _).bind fun _ _ => Errs.pure _
    · exact Errs.error hs
  · exact Errs.error hs

open Verif.Model.SoundArchiveObject in
theorem items {α β : Type} {f : α → Py β} (hf : ∀ a, Errs p (f a))
    (l : List (Model.SoundArchive.Symbol × Option α)) : Errs p (eachItem f l) := by
  unfold eachItem
  errs
  exact hf _

theorem sseqObj (hs : p .structError) (hv : p .valueError) (d : Bytes) :
    Errs p (Model.SequenceObject.SSEQObj.init (some d)) := by
  unfold Model.SequenceObject.SSEQObj.init
  errs

theorem ssarObj (hs : p .structError) (hv : p .valueError) (ha : p .assertionError) (d : Bytes) (unk02 : Nat)
    (names : List (Option Str)) : Errs p (Model.SequenceObject.SSARObj.init (some d) unk02 names) := by
  unfold Model.SequenceObject.SSARObj.init
  refine (ssar hs hv ha _ _ _).bind fun a h => ?_
  have : ∃ x, a.events = .unparsed x := by
    unfold Model.SoundSequenceArchive.SSAR.load at h
    simp only [bind_eq_ok, pure_eq_ok] at h
    obtain ⟨_, _, _, _, _, _, _, _, _, _, _, _, _, _, _, _, _, _, _, _, rfl⟩ := h
    exact ⟨_, rfl⟩
  obtain ⟨x, hx⟩ := this
  rw [hx]
  exact Errs.pure _

open Verif.Model.SoundArchiveObject in
theorem archive (hs : p .structError) (hv : p .valueError) (ha : p .assertionError) (hi : p .indexError)
    (choose : List Nat → Nat) (d : Bytes) : Errs p (Archive.load choose d) := by
  unfold Archive.load Archive.make
  have h1 := sdat hs hv ha hi d
  have i1 : ∀ i, Errs p (Seq.load i) := fun _ => by
    unfold Seq.load; exact (sseqObj hs hv _).bind fun _ _ => Errs.pure _
  have i2 : ∀ i, Errs p (Ssar.load i) := fun i => by
    unfold Ssar.load; exact (ssarObj hs hv ha _ _ _).bind fun _ _ => Errs.pure _
  have i3 : ∀ i, Errs p (Bank.load choose i) := fun _ => by
    unfold Bank.load; exact (sbnk hs hv hi ha _ _ _ _).bind fun _ _ => Errs.pure _
  have i4 : ∀ i, Errs p (Swar.load i) := fun _ => by
    unfold Swar.load; exact (swar hs hv ha _).bind fun _ _ => Errs.pure _
  have i5 : ∀ i, Errs p (Strm.load i) := fun _ => by
    unfold Strm.load; exact (strm hs hv ha _).bind fun _ _ => Errs.pure _
  exact h1.bind fun _ _ => (items i1 _).bind fun _ _ => (items i2 _).bind fun _ _ => (items i3 _).bind fun _ _ =>
    (items i4 _).bind fun _ _ => (items i5 _).bind fun _ _ => Errs.pure _

/-! ## Messages -/

section
open Verif.Model.Text

theorem consOk_errs {x : Nat} {r : Py Str} (h : Errs p r) : Errs p (consOk x r) := by
  unfold consOk
  exact h.bind fun _ _ => Errs.pure _

theorem utf16_errs (hu : p .unicodeError) (e : Endian) : ∀ b, Errs p (utf16Dec e b)
  | [] => Errs.ok _
  | [_] => Errs.error hu
  | a :: b :: t => by
    rw [utf16Dec.eq_def]
    dsimp only
    split
    · exact consOk_errs (utf16_errs hu e t)
    · split
      · exact Errs.error hu
      · split
        · rename_i t'
          split
          · exact consOk_errs (utf16_errs hu e t')
          · exact Errs.error hu
        · exact Errs.error hu

theorem utf8_errs (hu : p .unicodeError) : ∀ b, Errs p (utf8Dec b)
  | [] => Errs.ok _
  | a :: t => by
    rw [utf8Dec.eq_def]
    dsimp only
    split
    · exact consOk_errs (utf8_errs hu t)
    · split
      · exact Errs.error hu
      · split
        · split
          · exact consOk_errs (utf8_errs hu _)
          · exact Errs.error hu
        · split
          · exact Errs.error hu
          · split
            · split
              · exact consOk_errs (utf8_errs hu _)
              · exact Errs.error hu
            · split
              · exact Errs.error hu
              · split
                · exact consOk_errs (utf8_errs hu _)
                · exact Errs.error hu

theorem codec_errs (hu : p .unicodeError) {sjis : Codec} (hj : ∀ b, Errs p (sjis.dec b)) (enc : Model.Bmg.Encoding)
    (e : Endian) (b : Bytes) : Errs p ((Model.Bmg.codecOf sjis enc e).dec b) := by
  cases enc with
  | cp1252 =>
    show Errs p (cp1252Dec b)
    unfold cp1252Dec
    errs
  | utf16 => exact utf16_errs hu e b
  | shiftJis => exact hj b
  | utf8 => exact utf8_errs hu b

end

open Verif.Model.Bmg Verif.Model.Text in
theorem flush_errs {c : Codec} (hc : ∀ b, Errs p (c.dec b)) (dat : Bytes) (start o : Nat) (acc : List Part) :
    Errs p (flush c dat start o acc) := by
  unfold flush
  errs
  exact hc _

open Verif.Model.Bmg Verif.Model.Text in
theorem readParts_errs (hv : p .valueError) (ho : p .outOfFuel) {c : Codec} (hc : ∀ b, Errs p (c.dec b)) (dat : Bytes) :
    ∀ fuel start o acc, Errs p (readParts c dat fuel start o acc)
  | 0, _, _, _ => Errs.error ho
  | fuel + 1, start, o, acc => by
    rw [readParts]
    have h1 := readParts_errs hv ho hc dat fuel
    have h2 := flush_errs hc dat
    unfold escapeHead
    errs <;> first | exact h1 _ _ _ | exact h2 _ _ _

open Verif.Model.Bmg in
theorem sections (hs : p .structError) (hv : p .valueError) (ha : p .assertionError) (e : Endian) (d : Bytes) :
    ∀ n o r, Errs p (parseSections e d n o r)
  | 0, _, _ => Errs.ok _
  | n + 1, o, r => by
    rw [parseSections]
    have := sections hs hv ha e d n
    unfold parseSection parseINF1 parseFLW1 parseFLI1 infEntry labelAt scriptAt
    errs <;> exact this _ _

open Verif.Model.Bmg Verif.Model.Text in
theorem bmg (hs : p .structError) (hv : p .valueError) (ha : p .assertionError) (hu : p .unicodeError) (ho : p .outOfFuel)
    {sjis : Codec} (hj : ∀ b, Errs p (sjis.dec b)) (fuel : Nat) (d : Bytes) (id0 : Nat) :
    Errs p (BMG.load sjis fuel d id0) := by
  unfold BMG.load BMG.loadAs encodingOf readMessage
  have h1 := sections hs hv ha
  errs
  · exact h1 _ _ _ _ _
  all_goals exact readParts_errs hv ho (codec_errs hu hj _ _) _ _ _ _ _

/-! ## ROMs -/

open Verif.Model.Rom in
theorem rom (hs : p .structError) (hr : p .recursionError) (limit : Nat) (d : Bytes) : Errs p (load limit d) := by
  have h1 : ∀ x o, Errs p (sigOffset x o) := fun _ _ => by unfold sigOffset; errs
  have h2 : ∀ x o, Errs p (readIconBanner x o) := fun _ _ => by unfold readIconBanner; errs
  have h3 : ∀ x y i, Errs p (readFile x y i) := fun _ _ _ => by unfold readFile; errs
  unfold load
  refine (unpackUs hs).bind fun _ _ => (unpackUs hs).bind fun _ _ => (unpackUs hs).bind fun _ _ =>
    (unpackUs hs).bind fun _ _ => (unpackUs hs).bind fun _ _ => ?_
  split
  · refine (h1 _ _).bind fun _ _ => (h2 _ _).bind fun _ _ => ?_
    dsimp only
    split
    · exact (Errs.ok _).bind fun _ _ => Errs.bind (Errs.mapE (fun _ => h3 _ _ _) _) fun _ _ => Errs.pure _
    · exact (fnt hs hr limit _).bind fun _ _ => Errs.bind (Errs.mapE (fun _ => h3 _ _ _) _) fun _ _ => Errs.pure _
  · exact Errs.error hs

end Verif.Proofs.LoadErrors
