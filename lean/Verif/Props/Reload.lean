import Verif.Props.LoadErrors
import Verif.Props.FormatNsbtx
import Verif.Props.SequenceObject
import Verif.Props.Bn

/-!
# What was loaded from a file survives saving (C134)
-/

namespace Verif.Props.Reload

open Verif Verif.Model.Common Verif.Spec.LoadErrors Verif.Props.LoadErrors

/-- The objects of each kind. -/
abbrev Obj : Kind → Type
  | .bnbl => Model.Bn.BNBL
  | .bncl => Model.Bn.BNCL
  | .bmg => Model.Bmg.BMG
  | .narc => Model.Narc.NARC
  | .sdat => Model.SoundArchiveObject.Archive
  | .sseq => Model.SequenceObject.SSEQObj
  | .ssar => Model.SequenceObject.SSARObj
  | .sbnk => Model.SoundBank.SBNK
  | .swar => List Model.SoundWave.SWAV
  | .swav => Model.SoundWave.SWAV
  | .strm => Model.SoundStream.STRM
  | .nsbtx => Model.Texture.NSBTX
  | .nsbmd => Model.Nsbmd.NSBMD

/-- Load the data as a file of a kind. -/
def load (v : Env) : (k : Kind) → Bytes → Py (Obj k)
  | .bnbl, d => Model.Bn.BNBL.load d
  | .bncl, d => Model.Bn.BNCL.load d
  | .bmg, d => Model.Bmg.BMG.load v.sjis v.fuel d v.id0
  | .narc, d => Model.Narc.load v.limit d
  | .sdat, d => Model.SoundArchiveObject.Archive.load v.choose d
  | .sseq, d => Model.SequenceObject.SSEQObj.init (some d)
  | .ssar, d => Model.SequenceObject.SSARObj.init (some d) v.unk02 v.names
  | .sbnk, d => Model.SoundBank.SBNK.load v.choose d v.unk02 v.waveArchiveIDs
  | .swar, d => Model.SoundWave.loadSWAR d
  | .swav, d => Model.SoundWave.SWAV.load d
  | .strm, d => Model.SoundStream.STRM.load d
  | .nsbtx, d => Model.Texture.load d
  | .nsbmd, d => Model.Nsbmd.NSBMD.load d

theorem load_any (v : Env) (k : Kind) (d : Bytes) : loadAny v k d = (load v k d).map fun _ => () := by
  cases k <;> rfl

/-- Save an object: the file, and what the caller keeps of what `save()` returns besides it, to pass it on when loading. -/
def save (v : Env) : (k : Kind) → Obj k → Py (Bytes × Env)
  | .bnbl, o => do return (← Model.Bn.BNBL.save o, v)
  | .bncl, o => do return (← Model.Bn.BNCL.save o, v)
  | .bmg, o => do return (← Model.Bmg.BMG.save v.sjis o, v)
  | .narc, o => do return (← Model.Narc.save o, v)
  | .sdat, o => do return (← Model.SoundArchiveObject.Archive.save o, v)
  | .sseq, o => do return (← Model.SequenceObject.SSEQObj.save o, v)
  | .ssar, o => do
    let r ← Model.SequenceObject.SSARObj.save o
    return (r.1, { v with unk02 := r.2.1, names := r.2.2 })
  | .sbnk, o => do
    let r ← Model.SoundBank.SBNK.save o
    return (r.1, { v with unk02 := r.2.1, waveArchiveIDs := r.2.2 })
  | .swar, o => do return (← Model.SoundWave.saveSWAR o, v)
  | .swav, o => do return ((← Model.SoundWave.SWAV.save o false false).1, v)
  | .strm, o => do return (← Model.SoundStream.STRM.save o, v)
  | .nsbtx, o => do return (← Model.Texture.save o, v)
  | .nsbmd, o => do return (← Model.Nsbmd.NSBMD.save o, v)

/-- The kinds for which it is so whatever the file. -/
def always : List Kind := [.bnbl, .bncl, .narc, .sseq, .ssar, .swar, .swav, .strm]

theorem swar_types {d : Bytes} {ws : List Model.SoundWave.SWAV} (h : Model.SoundWave.loadSWAR d = .ok ws) :
    ∀ w ∈ ws, w.waveType ≤ 2 := by
  unfold Model.SoundWave.loadSWAR at h
  simp only [bind_eq_ok] at h
  obtain ⟨_, _, hdr, _, _, _, _, _, _, _, _, _, n, _, _, _, h⟩ := h
  refine mapE_forall (fun i w hw => ?_) h
  unfold Model.SoundWave.loadWave at hw
  simp only [bind_eq_ok] at hw
  obtain ⟨o, ho, _, _, hw⟩ := hw
  exact (Proofs.SoundWave.unpackInfo_inv hw).2.1

theorem strm_type {d : Bytes} {s : Model.SoundStream.STRM} (h : Model.SoundStream.STRM.load d = .ok s) : s.waveType ≤ 2 := by
  unfold Model.SoundStream.STRM.load at h
  simp only [bind_eq_ok] at h
  obtain ⟨_, _, _, _, _, _, _, _, _, _, _, _, _, _, fs, _, h⟩ := h
  unfold Model.SoundStream.STRM.loadBlocks at h
  split at h
  · simp only [bind_eq_ok, pure_eq_ok] at h
    obtain ⟨_, _, t, ht, _, _, _, _, _, _, rfl⟩ := h
    unfold Model.SoundWave.waveTypeOf at ht
    split at ht
    · cases ht; assumption
    · cases ht
  · cases h

theorem narc_reload {limit : Nat} {d b : Bytes} {n : Model.Narc.NARC} (h : Model.Narc.load limit d = .ok n)
    (hs : Model.Narc.save n = .ok b) : Model.Narc.load limit b = .ok n := by
  unfold Model.Narc.load at h
  simp only [bind_eq_ok, pure_eq_ok] at h
  obtain ⟨_, _, _, _, _, _, _, _, _, _, _, _, _, _, _, _, _, _, _, _, _, _, _, _, _, _, fs, _, f, hf, rfl⟩ := h
  obtain ⟨-, h2, -, h4⟩ := Proofs.FntLoad.loadFolder_loaded hf
  exact Narc.narc_roundtrip _ b hs h2 limit h4

open Model.SequenceObject in
theorem sseq_reload {d b : Bytes} {o : SSEQObj} (h : SSEQObj.init (some d) = .ok o) (hs : o.save = .ok b) :
    SSEQObj.init (some b) = .ok o := by
  obtain ⟨x, rfl, -⟩ := SequenceObject.sseq_init d o h
  have hs' : Model.SoundSequence.SSEQ.save (.unparsed x) = .ok b := hs
  have hl : x.length + 0x1C < 2 ^ 32 := by
    rw [← Nat.not_le]
    intro hl
    rw [(Sequence.sseq_roundtrip x).2 hl] at hs'
    cases hs'
  obtain ⟨b', h1, -, h2⟩ := (Sequence.sseq_roundtrip x).1 hl
  rw [h1] at hs'
  cases hs'
  have := h2 []
  rw [List.append_nil] at this
  unfold Model.SoundSequence.SSEQ.load at this
  simp only [bind_eq_ok, pure_eq_ok] at this
  unfold SSEQObj.init
  simp only [bind_eq_ok, pure_eq_ok]
  obtain ⟨_, k1, v, k2, n, k3, _, k4, f, k5, k6⟩ := this
  cases k6
  exact ⟨_, k1, v, k2, n, k3, _, k4, f, k5, rfl⟩

open Model.SequenceObject in
theorem ssar_reload {d b : Bytes} {u u' : Nat} {names names' : List (Option Str)} {o : SSARObj}
    (h : SSARObj.init (some d) u names = .ok o) (hs : o.save = .ok (b, u', names')) :
    SSARObj.init (some b) u' names' = .ok o := by
  obtain ⟨x, ss, rfl, hl⟩ := SequenceObject.ssar_init d u names o h
  have hs' : Model.SoundSequenceArchive.SSAR.save ⟨u, ss, .unparsed x⟩ = .ok (b, u', names') := hs
  have hu : u' = u := by
    unfold SSARObj.save at hs
    simp only [bind_eq_ok, pure_eq_ok, Prod.mk.injEq] at hs
    obtain ⟨_, _, _, _, _, _, _, _, _, _, _, h, _⟩ := hs
    exact h.symm
  subst hu
  have hm : ∀ s ∈ ss, s.2.first ≠ .unparsed (some (-1)) := by
    unfold Model.SoundSequenceArchive.SSAR.load at hl
    simp only [bind_eq_ok, pure_eq_ok] at hl
    obtain ⟨_, _, _, _, _, _, _, _, _, _, _, _, _, _, _, _, _, _, seqs, hseqs, hl⟩ := hl
    cases hl
    intro s hs
    obtain ⟨p, hp, rfl⟩ := List.mem_map.1 hs
    have := mapE_forall (P := fun q : Model.SoundSequenceArchive.Sequence => q.first ≠ .unparsed (some (-1)))
      (fun i q hq => ?_) hseqs p.2 (List.of_mem_zip hp).2
    · exact this
    · unfold Model.SoundSequenceArchive.loadSequence at hq
      simp only [bind_eq_ok] at hq
      obtain ⟨off, -, fs, -, hq⟩ := hq
      split at hq
      · cases hq
        show Model.SoundSequenceArchive.firstOf off ≠ _
        unfold Model.SoundSequenceArchive.firstOf
        split
        · exact (fun h => nomatch h)
        · intro h
          cases h
          contradiction
      · cases hq
  have := SequenceArchive.ssar_roundtrip ⟨u', ss, .unparsed x⟩ x rfl hm b u' names' hs' []
  rw [List.append_nil] at this
  unfold SSARObj.init
  dsimp only
  rw [this]
  rfl

/-- **C134.** For eight kinds, an object that was loaded from any file and is saved comes back unchanged when it is loaded again. -/
theorem reload (v v' : Env) (k : Kind) (hk : k ∈ always) (d b : Bytes) (o : Obj k) (h : load v k d = .ok o)
    (hs : save v k o = .ok (b, v')) : load v' k b = .ok o := by
  cases k <;> simp [always] at hk <;> simp only [save, bind_eq_ok, pure_eq_ok, Prod.mk.injEq] at hs
  case bnbl =>
    obtain ⟨_, h1, rfl, rfl⟩ := hs
    obtain ⟨_, h2, h3⟩ := Bn.bnbl_resave d o h
    rw [h1] at h2
    cases h2
    exact h3
  case bncl =>
    obtain ⟨_, h1, rfl, rfl⟩ := hs
    obtain ⟨_, h2, h3⟩ := Bn.bncl_resave d o h
    rw [h1] at h2
    cases h2
    exact h3
  case narc =>
    obtain ⟨_, h1, rfl, rfl⟩ := hs
    exact narc_reload h h1
  case sseq =>
    obtain ⟨_, h1, rfl, rfl⟩ := hs
    exact sseq_reload h h1
  case ssar =>
    obtain ⟨⟨_, _, _⟩, h1, rfl, rfl⟩ := hs
    exact ssar_reload h h1
  case swar =>
    obtain ⟨_, h1, rfl, rfl⟩ := hs
    have := SoundWave.swar_roundtrip o _ [] (swar_types h) h1
    rw [List.append_nil] at this
    exact this
  case swav =>
    obtain ⟨⟨_, _⟩, h1, rfl, rfl⟩ := hs
    obtain ⟨_, h2, h3, -⟩ := SoundWave.swav_file_resave d o h
    rw [h1] at h2
    cases h2
    exact h3
  case strm =>
    obtain ⟨_, h1, rfl, rfl⟩ := hs
    have := SoundStream.strm_roundtrip o _ [] (strm_type h) h1
    rw [List.append_nil] at this
    exact this

/-! ## Textures and models -/

/-- What must hold of textures and palettes that were loaded: the data of every texture have the length that its format and size
need, no two palettes agree in name and numbers, and no palette without colours comes before one with colours. -/
def Whole (t : Model.Texture.NSBTX) : Prop :=
  (∀ x ∈ t.textures, 8 * x.2.data1.length = x.2.width * x.2.height * (Texture.bits x.2.format).1 ∧
    8 * x.2.data2.length = x.2.width * x.2.height * (Texture.bits x.2.format).2) ∧
  (t.palettes.map fun x => (x.1, x.2.unk00, x.2.unk02, x.2.unkHeader02)).Nodup ∧
  t.palettes.Pairwise fun x y => x.2.colors = [] → y.2.colors = []

open Spec.FormatNsbtx Spec.FormatFnt Spec.FormatNsbmd Spec.Reader in
theorem name_clean (d : Bytes) (o : Nat) : InfoBlock.Clean (some (stripped (text d o 16))) := by
  refine ⟨_, rfl, ?_, ?_⟩
  · unfold stripped
    rw [List.length_reverse]
    refine Nat.le_trans (List.dropWhile_sublist _).length_le ?_
    rw [List.length_reverse, text, List.length_map, bytesAt]
    exact Nat.le_trans (List.length_take_le _ _) (Nat.le_refl _)
  · intro t h
    unfold stripped at h
    have h' := congrArg List.reverse h
    rw [List.reverse_reverse, List.reverse_append] at h'
    have := List.head?_dropWhile_not (fun x : Nat => decide (x = 0)) (text d o 16).reverse
    rw [h'] at this
    simp at this

open Spec.FormatNsbtx in
theorem block_representable {d : Bytes} (h : Whole (block d)) : Texture.Representable (block d) := by
  obtain ⟨h1, h2, h3⟩ := h
  refine ⟨fun x hx => ?_, fun x hx => ?_, h2, h3⟩
  · obtain ⟨i, -, rfl⟩ := List.mem_map.1 hx
    refine ⟨⟨?_, ?_, h1 _ hx⟩, name_clean _ _⟩
    · show Spec.Reader.bits _ 10 3 < 8
      exact Nat.mod_lt _ (by decide)
    · show Spec.Reader.bits _ 14 2 < 4
      exact Nat.mod_lt _ (by decide)
  · obtain ⟨i, -, rfl⟩ := List.mem_map.1 hx
    refine ⟨name_clean _ _, fun c hc => ?_⟩
    obtain ⟨j, -, rfl⟩ := List.mem_map.1 hc
    exact ⟨Nat.mod_lt _ (by decide), Nat.mod_lt _ (by decide), Nat.mod_lt _ (by decide), Nat.mod_lt _ (by decide)⟩

/-- **C134.** Textures and palettes that were loaded from a file come back, if they are whole. -/
theorem nsbtx_reload_partial (d b : Bytes) (t : Model.Texture.NSBTX) (h : Model.Texture.load d = .ok t)
    (hs : Model.Texture.save t = .ok b) (hw : Whole t) : Model.Texture.load b = .ok t := by
  obtain ⟨-, rfl⟩ := (FormatNsbtx.nsbtx_load_iff d t).1 h
  exact Texture.nsbtx_roundtrip hs (block_representable hw)

/-- **C134.** So do models, if their textures are whole and their model block is not cut off by the end of the file. -/
theorem nsbmd_reload_partial (d b m : Bytes) (o : Model.Nsbmd.NSBMD) (h : Model.Nsbmd.NSBMD.load d = .ok o)
    (hs : o.save = .ok b) (hw : Whole o.tex) (hm : o.mdl0 = some m) (hl : Spec.Nsbmd.u32 m 4 = m.length) :
    Model.Nsbmd.NSBMD.load b = .ok o := by
  have hr : Texture.Representable o.tex := by
    obtain ⟨-, rfl⟩ := (FormatNsbtx.nsbmd_load_iff d o).1 h
    unfold Spec.FormatNsbtx.modelFile at hw ⊢
    dsimp only at hw ⊢
    cases hb : Spec.FormatNsbtx.lastTexture d with
    | none => exact ⟨fun _ h => (nomatch h), fun _ h => (nomatch h), List.Pairwise.nil, List.Pairwise.nil⟩
    | some x => rw [hb] at hw; exact block_representable hw
  exact Nsbmd.model_round_trip (t := o.tex) h hm hl hr hs

/-- Three palettes of four colours each, as a file. -/
def threePalettes : Bytes :=
  match Model.Texture.save ⟨0, 0, 0, 0, 0, 0, [], [(some [97], ⟨0, 0, 0, List.replicate 4 ⟨1, 0, 0, 0⟩⟩),
    (some [98], ⟨0, 0, 0, List.replicate 4 ⟨2, 0, 0, 0⟩⟩), (some [99], ⟨0, 0, 0, List.replicate 4 ⟨3, 0, 0, 0⟩⟩)]⟩ with
  | .ok b => b
  | .error _ => []

/-- The same file, but the second palette uses the colours of the first, and the third begins where the second did. -/
def sharedPalettes : Bytes := (threePalettes.set 128 0).set 132 1

/-- The palettes of what was loaded: name and number of colours. -/
def paletteSizes (x : Py Model.Texture.NSBTX) : Option (List (Option Str × Nat)) :=
  x.toOption.map fun t => t.palettes.map fun p => (p.1, p.2.colors.length)

/-- **C134**, the condition on palettes is needed: a file in which two palettes share their colours is loaded with both of them empty,
and what is saved then gives a file from which the third palette, which was loaded with all its colours, comes back without any. -/
theorem nsbtx_reload_fails : ∃ t b t', Model.Texture.load sharedPalettes = .ok t ∧ Model.Texture.save t = .ok b ∧
    Model.Texture.load b = .ok t' ∧ paletteSizes (.ok t) = some [(some [97], 0), (some [98], 0), (some [99], 8)] ∧
    paletteSizes (.ok t') = some [(some [97], 0), (some [98], 0), (some [99], 0)] := by
  have h : ∃ t, Model.Texture.load sharedPalettes = .ok t ∧
      paletteSizes (.ok t) = some [(some [97], 0), (some [98], 0), (some [99], 8)] ∧
      (Model.Texture.save t).toOption.isSome ∧
      paletteSizes (Model.Texture.save t >>= Model.Texture.load) = some [(some [97], 0), (some [98], 0), (some [99], 0)] := by
    refine ⟨⟨0, 0, 0, 0, 0, 0, [], [(some [97], ⟨0, 0, 0, []⟩), (some [98], ⟨0, 0, 0, []⟩), (some [99], ⟨0, 0, 0,
      List.replicate 4 ⟨2, 0, 0, 0⟩ ++ List.replicate 4 ⟨3, 0, 0, 0⟩⟩)]⟩, ?_⟩
    decide +kernel
  obtain ⟨t, h1, h2, h3, h4⟩ := h
  cases hs : Model.Texture.save t with
  | error e => rw [hs] at h3; cases h3
  | ok b =>
    rw [hs, bind_ok] at h4
    cases hl : Model.Texture.load b with
    | error e => rw [hl] at h4; cases h4
    | ok t' => exact ⟨t, b, t', h1, hs, hl, h2, by rw [hl] at h4; exact h4⟩

/-! ## Banks -/

/-- **C134.** A bank that was loaded without inaccessible instruments comes back with the same instruments, numbers and wave archives,
and from then on saving and loading change nothing: the same file is written again. -/
theorem sbnk_reload_partial (choose choose' : List Nat → Nat) (d b : Bytes) (u u' : Nat) (wa wa' : List (Option Int))
    (o : Model.SoundBank.SBNK) (h : Model.SoundBank.SBNK.load choose d u wa = .ok o) (hi : o.inaccessible = [])
    (hs : o.save = .ok (b, u', wa')) :
    ∃ o', Model.SoundBank.SBNK.load choose' b u' wa' = .ok o' ∧
      o'.instruments.map (Option.map Model.SoundBank.Inst.kind) = o.instruments.map (Option.map Model.SoundBank.Inst.kind) ∧
      o'.inaccessible = [] ∧ o'.unk02 = o.unk02 ∧ o'.waveArchiveIDs = o.waveArchiveIDs ∧ o'.save = .ok (b, u', wa') := by
  have hl : ∀ i, some i ∈ o.instruments → Spec.SoundBank.Loadable i.kind := by
    have h := h
    rw [Model.SoundBank.SBNK.load] at h
    simp only [bind_eq_ok, pure_eq_ok] at h
    obtain ⟨_, _, _, _, _, _, _, _, _, _, _, _, _, _, _, _, r, hr, _, _, rfl⟩ := h
    exact Proofs.SoundBank.loadTable_loadable hr
  have hw : o.waveArchiveIDs.getLast? ≠ some none := by
    have h := h
    rw [Model.SoundBank.SBNK.load] at h
    simp only [bind_eq_ok, pure_eq_ok] at h
    obtain ⟨_, _, _, _, _, _, _, _, _, _, _, _, _, _, _, _, r, hr, _, _, rfl⟩ := h
    show (Model.SoundBank.dropNones wa).getLast? ≠ _
    unfold Model.SoundBank.dropNones
    rw [List.getLast?_reverse]
    intro hh
    have := List.head?_dropWhile_not Option.isNone wa.reverse
    rw [hh] at this
    cases this
  obtain ⟨o', h1, h2⟩ := SoundBank.bank_resave choose' o b u' wa' hs hl hi
  obtain ⟨h3, h4, h5⟩ := SoundBank.bank_roundtrip_rest choose' o o' b u' wa' hs hl h1
  obtain ⟨o'', h6, h7⟩ := (SoundBank.bank_roundtrip_partial choose' o b u' wa' hs).2 hl
  rw [h1] at h6
  cases h6
  obtain ⟨-, he⟩ := Proofs.SoundBank.save_ok.1 hs
  cases he
  refine ⟨o', h1, h7, h5 hi, h3, h4 hw, ?_⟩
  rw [h2, h3, h4 hw]

/-! ## Examples -/

/-- A wave archive with bytes behind it that belong to nothing. -/
def waves : Bytes := ((Model.SoundWave.saveSWAR SoundWave.exWaves).toOption.getD []) ++ [1, 2, 3]

-- the waves are loaded, saved to a file that is shorter than the first, and loaded again
example : ∃ o b, load env .swar waves = .ok o ∧ save env .swar o = .ok (b, env) ∧ b ≠ waves ∧ load env .swar b = .ok o := by
  have h : load env .swar waves = .ok SoundWave.exWaves := by decide +kernel
  have hw : (Model.SoundWave.saveSWAR SoundWave.exWaves).toOption.any (fun b => b ≠ waves) = true := by decide +kernel
  cases hs : Model.SoundWave.saveSWAR SoundWave.exWaves with
  | error e => rw [hs] at hw; cases hw
  | ok b =>
    have hs' : save env .swar SoundWave.exWaves = .ok (b, env) := by
      show (do return (← Model.SoundWave.saveSWAR SoundWave.exWaves, env)) = _
      rw [hs]; rfl
    rw [hs] at hw
    exact ⟨_, b, h, hs', of_decide_eq_true hw, reload env env .swar (by decide) waves b _ h hs'⟩

-- the loaded object of the next theorems is not empty
example : ∃ b, Model.Texture.load b = .ok Texture.sample ∧ Model.Texture.save Texture.sample = .ok b ∧ Whole Texture.sample := by
  obtain ⟨r1, -, r3, r4⟩ := Texture.sample_representable
  have hw : Whole Texture.sample := ⟨fun x hx => (r1 x hx).1.2.2, r3, r4⟩
  have : (Model.Texture.save Texture.sample).toOption.isSome = true := by decide +kernel
  cases h : Model.Texture.save Texture.sample with
  | error e => rw [h] at this; cases this
  | ok b => exact ⟨b, Texture.nsbtx_roundtrip h Texture.sample_representable, rfl, hw⟩

example : ∃ b, Model.Nsbmd.NSBMD.load b = .ok (Nsbmd.one.importNSBTX Texture.sample) ∧
    (Nsbmd.one.importNSBTX Texture.sample).save = .ok b ∧ Whole (Nsbmd.one.importNSBTX Texture.sample).tex ∧
    (Nsbmd.one.importNSBTX Texture.sample).mdl0 = some Nsbmd.oneModel ∧
    Spec.Nsbmd.u32 Nsbmd.oneModel 4 = Nsbmd.oneModel.length := by
  obtain ⟨r1, -, r3, r4⟩ := Texture.sample_representable
  have hw : Whole Texture.sample := ⟨fun x hx => (r1 x hx).1.2.2, r3, r4⟩
  have : (Nsbmd.one.importNSBTX Texture.sample).save.toOption.isSome = true := by decide +kernel
  have hl : Spec.Nsbmd.u32 Nsbmd.oneModel 4 = Nsbmd.oneModel.length := by decide +kernel
  cases h : (Nsbmd.one.importNSBTX Texture.sample).save with
  | error e => rw [h] at this; cases this
  | ok b => exact ⟨b, Nsbmd.model_round_trip Nsbmd.oneFile_load rfl hl Texture.sample_representable h, rfl, hw, rfl, hl⟩

-- the bank of the examples of C35, which is loaded with other order keys than it was saved with
example : ∃ b o, SoundBank.exBank.save = .ok (b, 0, SoundBank.exBank.waveArchiveIDs) ∧
    Model.SoundBank.SBNK.load (fun _ => 16) b 0 SoundBank.exBank.waveArchiveIDs = .ok o ∧ o ≠ SoundBank.exBank ∧
    o.inaccessible = [] ∧ o.save.toOption.isSome = true := by
  have h : (SoundBank.exBank.save.toOption.any fun r => r.2 = (0, SoundBank.exBank.waveArchiveIDs) ∧
      (Model.SoundBank.SBNK.load (fun _ => 16) r.1 0 SoundBank.exBank.waveArchiveIDs).toOption.any fun o =>
        o ≠ SoundBank.exBank ∧ o.inaccessible = [] ∧ o.save.toOption.isSome = true) = true := by decide +kernel
  cases hs : SoundBank.exBank.save with
  | error e => rw [hs] at h; cases h
  | ok r =>
    obtain ⟨b, r2⟩ := r
    rw [hs] at h
    obtain ⟨h1, h2⟩ := of_decide_eq_true h
    cases hl : Model.SoundBank.SBNK.load (fun _ => 16) b 0 SoundBank.exBank.waveArchiveIDs with
    | error e => rw [hl] at h2; cases h2
    | ok o =>
      rw [hl] at h2
      exact ⟨b, o, by rw [← h1], hl, of_decide_eq_true h2⟩

end Verif.Props.Reload
