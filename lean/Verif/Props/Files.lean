import Verif.Proofs.Files
import Verif.Props.Bmg
import Verif.Props.Bn
import Verif.Props.Color
import Verif.Props.Graphics2D
import Verif.Props.Lz
import Verif.Props.MainCode
import Verif.Props.Narc
import Verif.Props.RomRoundTrip
import Verif.Props.SoundArchiveObject
import Verif.Props.SoundWave

/-!
# Files (C120–C123)
-/

namespace Verif.Props.Files

open Verif Verif.Model Verif.Model.Files Verif.Spec.Files Verif.Proofs.Files

/-! ## One call -/

/-- **C120.** A call that raises changes no file. -/
theorem file_error {op : Op} {fs fs' : FS} {e : PyErr} (h : op.run fs = (.error e, fs')) : fs' = fs := by
  cases op with
  | lz10Tool c =>
    cases c with
    | usage => exact nomatch (Prod.mk.inj h).1
    | compress i o a => exact handleCompress_error h
    | decompress i o => exact handleDecompress_error h
  | codeTool c =>
    cases c with
    | usage => exact nomatch (Prod.mk.inj h).1
    | compress i o a => exact handleCompress_error h
    | decompress i o => exact handleDecompress_error h
  | _ => exact (writeWith_error h).1

theorem tool_ok {comp : Bool → Bytes → Py Bytes} {dec : Bytes → Py Bytes} {c : Command} {fs fs' : FS}
    (hc : c ≠ .usage) {main : Py Unit × FS}
    (h1 : ∀ i o a, c = .compress i o a → main = handleCompress (comp a) i o fs)
    (h2 : ∀ i o, c = .decompress i o → main = handleDecompress dec i o fs) :
    main = (.ok (), fs') ↔ ∃ i conv p s d, Asks comp dec c i conv ∧ Target c p ∧ fs.content i = some s ∧ conv s = .ok d ∧
      fs.writable p = true ∧ Wrote fs fs' p d := by
  cases c with
  | usage => exact absurd rfl hc
  | compress i o a =>
    rw [h1 i o a rfl, handleCompress_ok (a := a)]
    constructor
    · rintro ⟨p, s, d, h⟩; exact ⟨i, _, p, s, d, .compress, h⟩
    · rintro ⟨i', conv, p, s, d, ha, h⟩; cases ha; exact ⟨p, s, d, h⟩
  | decompress i o =>
    rw [h2 i o rfl, handleDecompress_ok]
    constructor
    · rintro ⟨p, s, d, h⟩; exact ⟨i, _, p, s, d, .decompress, h⟩
    · rintro ⟨i', conv, p, s, d, ha, h⟩; cases ha; exact ⟨p, s, d, h⟩

/-- **C120.** A call succeeds exactly if what it asks to write can be made and its file can be written; then that file
holds it, and every other file is as it was.  (A tool without arguments prints its usage.) -/
theorem file_ok {op : Op} {fs fs' : FS} : op.run fs = (.ok (), fs') ↔
    (∃ p d, Op.Makes fs op p d ∧ fs.writable p = true ∧ Wrote fs fs' p d) ∨
    ((op = .lz10Tool .usage ∨ op = .codeTool .usage) ∧ fs' = fs) := by
  cases op with
  | lz10Tool c =>
    by_cases hc : c = .usage
    · subst hc
      constructor
      · intro h; exact .inr ⟨.inl rfl, (Prod.mk.inj h).2.symm⟩
      · rintro (⟨p, d, h, _⟩ | ⟨_, rfl⟩)
        · cases h with
          | lz10Tool h => cases h
        · rfl
    · refine (tool_ok (comp := fun _ => Lz10.compress) (dec := Lz10.decompress) hc (main := lz10Main c fs)
        (by rintro i o a rfl; rfl) (by rintro i o rfl; rfl)).trans ?_
      constructor
      · rintro ⟨i, conv, p, s, d, h1, h2, h3, h4, h5⟩
        exact .inl ⟨p, d, .lz10Tool h1 h2 h3 h4, h5⟩
      · rintro (⟨p, d, h, h5⟩ | ⟨h, _⟩)
        · cases h with
          | lz10Tool h1 h2 h3 h4 => exact ⟨_, _, p, _, d, h1, h2, h3, h4, h5⟩
        · rcases h with h | h
          · exact absurd (Op.lz10Tool.inj h) hc
          · exact nomatch h
  | codeTool c =>
    by_cases hc : c = .usage
    · subst hc
      constructor
      · intro h; exact .inr ⟨.inr rfl, (Prod.mk.inj h).2.symm⟩
      · rintro (⟨p, d, h, _⟩ | ⟨_, rfl⟩)
        · cases h with
          | codeTool h => cases h
        · rfl
    · refine (tool_ok (comp := fun a s => CodeCompression.compress s a) (dec := CodeCompression.decompress) hc
        (main := codeMain c fs) (by rintro i o a rfl; rfl) (by rintro i o rfl; rfl)).trans ?_
      constructor
      · rintro ⟨i, conv, p, s, d, h1, h2, h3, h4, h5⟩
        exact .inl ⟨p, d, .codeTool h1 h2 h3 h4, h5⟩
      · rintro (⟨p, d, h, h5⟩ | ⟨h, _⟩)
        · cases h with
          | codeTool h1 h2 h3 h4 => exact ⟨_, _, p, _, d, h1, h2, h3, h4, h5⟩
        · rcases h with h | h
          · exact nomatch h
          · exact absurd (Op.codeTool.inj h) hc
  | rom r p u =>
    refine writeWith_ok.trans ?_
    constructor
    · rintro ⟨d, h1, h2⟩
      obtain ⟨⟨d', r'⟩, h1', rfl⟩ := map_ok.1 h1
      exact .inl ⟨p, _, .rom h1', h2⟩
    · rintro (⟨p, d, h, h2⟩ | ⟨h | h, _⟩)
      · cases h with
        | rom h => exact ⟨d, map_ok.2 ⟨_, h, rfl⟩, h2⟩
      all_goals exact nomatch h
  | swav w p a b =>
    refine writeWith_ok.trans ?_
    constructor
    · rintro ⟨d, h1, h2⟩
      obtain ⟨⟨d', r'⟩, h1', rfl⟩ := map_ok.1 h1
      exact .inl ⟨p, _, .swav h1', h2⟩
    · rintro (⟨p, d, h, h2⟩ | ⟨h | h, _⟩)
      · cases h with
        | swav h => exact ⟨d, map_ok.2 ⟨_, h, rfl⟩, h2⟩
      all_goals exact nomatch h
  | sseq x p =>
    refine writeWith_ok.trans ?_
    constructor
    · rintro ⟨d, h1, h2⟩
      obtain ⟨i, h1', rfl⟩ := map_ok.1 h1
      exact .inl ⟨p, _, .sseq h1', h2⟩
    · rintro (⟨p, d, h, h2⟩ | ⟨h | h, _⟩)
      · cases h with
        | sseq h => exact ⟨_, map_ok.2 ⟨_, h, rfl⟩, h2⟩
      all_goals exact nomatch h
  | ssar x p =>
    refine writeWith_ok.trans ?_
    constructor
    · rintro ⟨d, h1, h2⟩
      obtain ⟨i, h1', rfl⟩ := map_ok.1 h1
      exact .inl ⟨p, _, .ssar h1', h2⟩
    · rintro (⟨p, d, h, h2⟩ | ⟨h | h, _⟩)
      · cases h with
        | ssar h => exact ⟨_, map_ok.2 ⟨_, h, rfl⟩, h2⟩
      all_goals exact nomatch h
  | sbnk x p =>
    refine writeWith_ok.trans ?_
    constructor
    · rintro ⟨d, h1, h2⟩
      obtain ⟨i, h1', rfl⟩ := map_ok.1 h1
      exact .inl ⟨p, _, .sbnk h1', h2⟩
    · rintro (⟨p, d, h, h2⟩ | ⟨h | h, _⟩)
      · cases h with
        | sbnk h => exact ⟨_, map_ok.2 ⟨_, h, rfl⟩, h2⟩
      all_goals exact nomatch h
  | swar x p =>
    refine writeWith_ok.trans ?_
    constructor
    · rintro ⟨d, h1, h2⟩
      obtain ⟨i, h1', rfl⟩ := map_ok.1 h1
      exact .inl ⟨p, _, .swar h1', h2⟩
    · rintro (⟨p, d, h, h2⟩ | ⟨h | h, _⟩)
      · cases h with
        | swar h => exact ⟨_, map_ok.2 ⟨_, h, rfl⟩, h2⟩
      all_goals exact nomatch h
  | strm x p =>
    refine writeWith_ok.trans ?_
    constructor
    · rintro ⟨d, h1, h2⟩
      obtain ⟨i, h1', rfl⟩ := map_ok.1 h1
      exact .inl ⟨p, _, .strm h1', h2⟩
    · rintro (⟨p, d, h, h2⟩ | ⟨h | h, _⟩)
      · cases h with
        | strm h => exact ⟨_, map_ok.2 ⟨_, h, rfl⟩, h2⟩
      all_goals exact nomatch h
  | _ =>
    refine writeWith_ok.trans ?_
    constructor
    · rintro ⟨d, h1, h2⟩
      exact .inl ⟨_, d, by constructor; exact h1, h2⟩
    · rintro (⟨p, d, h, h2⟩ | ⟨h | h, _⟩)
      · cases h with
        | _ h => exact ⟨d, h, h2⟩
      all_goals exact nomatch h

/-! ## Programs -/

theorem run_cases (op : Op) (fs : FS) : (op.run fs).2 = fs ∨
    ∃ p d, Op.Makes fs op p d ∧ fs.writable p = true ∧ Wrote fs (op.run fs).2 p d := by
  rcases h : op.run fs with ⟨r, fs'⟩
  cases r with
  | error e => exact .inl (file_error h)
  | ok u =>
    rcases file_ok.1 h with h | ⟨_, h⟩
    · exact .inr h
    · exact .inl h

/-- **C120.** A file that no call of a program asks to write is the same afterwards. -/
theorem program_spares {ops : List Op} {p : Path} (h : ∀ op ∈ ops, Op.Spares op p) (fs : FS) :
    (runAll fs ops).content p = fs.content p := by
  induction ops generalizing fs with
  | nil => rfl
  | cons op ops ih =>
    rw [runAll, ih (fun o ho => h o (List.mem_cons_of_mem _ ho))]
    rcases run_cases op fs with h' | ⟨q, d, hm, _, hw⟩
    · rw [h']
    · exact hw.elsewhere p (fun he => h op (by simp) fs q d hm he.symm)

/-- **C120.** After a program, every file is as it was before, or holds exactly what one call wrote to it. -/
theorem program_content (ops : List Op) (fs : FS) (p : Path) : (runAll fs ops).content p = fs.content p ∨
    ∃ pre op post d, ops = pre ++ op :: post ∧ Op.Makes (runAll fs pre) op p d ∧ (runAll fs ops).content p = some d := by
  induction ops generalizing fs with
  | nil => exact .inl rfl
  | cons op ops ih =>
    rw [runAll]
    rcases ih (op.run fs).2 with h | ⟨pre, o, post, d, rfl, h1, h2⟩
    · rcases run_cases op fs with h' | ⟨q, d, hm, _, hw⟩
      · rw [h, h']; exact .inl rfl
      · by_cases hq : p = q
        · subst hq
          exact .inr ⟨[], op, ops, d, rfl, hm, h.trans hw.here⟩
        · exact .inl (h.trans (hw.elsewhere p hq))
    · exact .inr ⟨op :: pre, o, post, d, rfl, h1, h2⟩

/-- The files at some time after `op` was called and raised nothing, without a call in between that asks to write `p`. -/
def After (op : Op) (p : Path) (fs : FS) : Prop :=
  ∃ fs0 fs1 ops, op.run fs0 = (.ok (), fs1) ∧ (∀ o ∈ ops, Op.Spares o p) ∧ fs = runAll fs1 ops

theorem after_content {op : Op} {p : Path} {fs : FS} (h : After op p fs) (hl : ∀ c, op ≠ .lz10Tool c)
    (hc : ∀ c, op ≠ .codeTool c) (hp : ∀ fs0 q d, Op.Makes fs0 op q d → q = p) :
    ∃ fs0 d, Op.Makes fs0 op p d ∧ fs.content p = some d := by
  obtain ⟨fs0, fs1, ops, h1, h2, rfl⟩ := h
  rcases file_ok.1 h1 with ⟨q, d, hm, _, hw⟩ | ⟨h | h, _⟩
  · obtain rfl := hp _ _ _ hm
    exact ⟨fs0, d, hm, (program_spares h2 fs1).trans hw.here⟩
  · exact absurd h (hl _)
  · exact absurd h (hc _)

/-! ## What comes back (C121) -/

/-- **C121.** Reading a missing file raises. -/
theorem file_missing {α : Type} {load : Bytes → Py α} {p : Path} {fs : FS} (h : fs.content p = none) :
    readWith load p fs = .error .osError := by
  unfold readWith FS.read
  rw [h]
  rfl

/-- **C121.** Compressing to a file and decompressing from it. -/
theorem lz10_file {data : Bytes} {p : Path} {fs : FS} (h : After (.lz10Compress data p) p fs) :
    lz10DecompressFromFile p fs = .ok data := by
  obtain ⟨_, d, hm, hc⟩ := after_content h (fun _ => nofun) (fun _ => nofun) (by rintro _ _ _ ⟨⟩; rfl)
  cases hm with
  | lz10Compress hm =>
    refine (readWith_of hc).trans ?_
    have hl : data.length < 2 ^ 24 := by
      refine Nat.lt_of_not_le fun hge => ?_
      rw [(Props.Lz.lz10_compress_error_iff data).1.2 hge] at hm
      exact nomatch hm
    obtain ⟨c, h1, h2⟩ := Props.Lz.lz10_roundtrip data hl
    rw [hm] at h1
    cases h1
    exact h2

/-- **C121.** Compressing the content of a file. -/
theorem compress_from_file {data : Bytes} {p : Path} {fs : FS} (h : fs.content p = some data) :
    (∀ a, codeCompressFromFile p a fs = CodeCompression.compress data a) ∧
    (data.length < 2 ^ 24 → ∃ c, lz10CompressFromFile p fs = .ok c ∧ Lz10.decompress c = .ok data) := by
  refine ⟨fun a => readWith_of h, fun hl => ?_⟩
  obtain ⟨c, h1, h2⟩ := Props.Lz.lz10_roundtrip data hl
  exact ⟨c, (readWith_of h).trans h1, h2⟩

/-- **C121.** Code compression, when it makes the data shorter (see C06). -/
theorem code_file {data : Bytes} {a : Bool} {p : Path} {fs : FS} (h : After (.codeCompress data p a) p fs) :
    ∃ c, fs.content p = some c ∧
      (c.length < data.length → c.length < 2 ^ 24 → codeDecompressFromFile p fs = .ok data) := by
  obtain ⟨_, d, hm, hc⟩ := after_content h (fun _ => nofun) (fun _ => nofun) (by rintro _ _ _ ⟨⟩; rfl)
  cases hm with
  | codeCompress hm =>
    exact ⟨d, hc, fun h1 h2 => (readWith_of hc).trans (Props.Lz.code_roundtrip_of_shorter data d a hm h1 h2)⟩

/-- **C121.** Touch areas, when they are in range. -/
theorem bnbl_file {b : Bn.BNBL} {p : Path} {fs : FS} (h : After (.bnbl b p) p fs)
    (hp : ∀ t ∈ b.touchAreas, (0 ≤ t.x ∧ t.x < 4096) ∧ (0 ≤ t.y ∧ t.y < 4096) ∧ Spec.Util.ProperAlignment t.alignment) :
    bnblFromFile p fs = .ok b := by
  obtain ⟨_, d, hm, hc⟩ := after_content h (fun _ => nofun) (fun _ => nofun) (by rintro _ _ _ ⟨⟩; rfl)
  cases hm with
  | bnbl hm => exact (readWith_of hc).trans (Props.Bn.bnbl_roundtrip b d hm hp).1

/-- **C121.** Image positions, when they are in range. -/
theorem bncl_file {b : Bn.BNCL} {p : Path} {fs : FS} (h : After (.bncl b p) p fs)
    (hp : ∀ t ∈ b.imagePositions, (0 ≤ t.x ∧ t.x < 4096) ∧ (0 ≤ t.y ∧ t.y < 4096) ∧
      Spec.Util.ProperAlignment t.alignment) :
    bnclFromFile p fs = .ok b := by
  obtain ⟨_, d, hm, hc⟩ := after_content h (fun _ => nofun) (fun _ => nofun) (by rintro _ _ _ ⟨⟩; rfl)
  cases hm with
  | bncl hm => exact (readWith_of hc).trans (Props.Bn.bncl_roundtrip b d hm hp).1

/-- **C121.** Messages, when the byte order can be told from the length (see C40). -/
theorem bmg_file {sjis : Text.Codec} {P : Nat → Prop} {b : Bmg.BMG} {p : Path} {fs : FS} (h : After (.bmg sjis b p) p fs)
    (hP : Spec.Bmg.TextOk sjis P b) : ∃ d, fs.content p = some d ∧
      (Spec.Bmg.Tellable b.endianness (Spec.Bmg.statedLength d.length) → ∀ fuel id, d.length ≤ fuel →
        bmgFromFile sjis fuel p id fs = .ok (Spec.Bmg.normal b)) := by
  obtain ⟨_, d, hm, hc⟩ := after_content h (fun _ => nofun) (fun _ => nofun) (by rintro _ _ _ ⟨⟩; rfl)
  cases hm with
  | bmg hm => exact ⟨d, hc, fun ht fuel id hf => (readWith_of hc).trans (Props.Bmg.bmg_roundtrip_partial hP hm ht fuel id hf)⟩

/-- **C121.** Palettes. -/
theorem palette_file {c : List Color.Color} {p : Path} {fs : FS} (h : After (.palette c p) p fs)
    (hc : ∀ x ∈ c, x.r < 32 ∧ x.g < 32 ∧ x.b < 32 ∧ x.a < 2) : loadPaletteFromFile p fs = .ok c := by
  obtain ⟨_, d, hm, hd⟩ := after_content h (fun _ => nofun) (fun _ => nofun) (by rintro _ _ _ ⟨⟩; rfl)
  cases hm with
  | palette hm =>
    have := Props.Color.palette_roundtrip c hc
    rw [hm] at this
    exact (readWith_of hd).trans this

/-- **C121.** Tiles. -/
theorem tiles_file {t : List Graphics2D.ImageTile} {f : Graphics2D.ImageFormat} {p : Path} {fs : FS}
    (h : After (.imageTiles t p) p fs) (ht : ∀ x ∈ t, x.format = f ∧ Props.Graphics2D.Valid x) :
    loadImageTilesFromFile p f fs = .ok t := by
  obtain ⟨_, d, hm, hd⟩ := after_content h (fun _ => nofun) (fun _ => nofun) (by rintro _ _ _ ⟨⟩; rfl)
  cases hm with
  | imageTiles hm =>
    obtain ⟨d', h1, _, h2⟩ := Props.Graphics2D.tiles_roundtrip f t ht
    rw [hm] at h1
    cases h1
    exact (readWith_of hd).trans h2

/-- **C121.** Tilemaps. -/
theorem tilemap_file {t : List Graphics2D.TilemapTile} {f : Graphics2D.TilemapFormat} {p : Path} {fs : FS}
    (h : After (.tilemapTiles t p) p fs) (ht : ∀ x ∈ t, x.format = f)
    (hr : ∀ x ∈ t, if f = .i8 then x.tileNum < 256 ∧ x.hFlip = false ∧ x.vFlip = false ∧ x.paletteNum = 0
      else x.tileNum < 1024 ∧ x.paletteNum < 16) : loadTilemapTilesFromFile p f fs = .ok t := by
  obtain ⟨_, d, hm, hd⟩ := after_content h (fun _ => nofun) (fun _ => nofun) (by rintro _ _ _ ⟨⟩; rfl)
  cases hm with
  | tilemapTiles hm =>
    obtain ⟨d', h1, _, h2⟩ := Props.Graphics2D.tilemap_roundtrip f t ht
    rw [hm] at h1
    cases h1
    exact (readWith_of hd).trans (h2 hr)

/-- **C121.** Archives of files. -/
theorem narc_file {n : Narc.NARC} {p : Path} {fs : FS} (h : After (.narc n p) p fs)
    (hne : Spec.Fnt.NoEmptyFileName n.filenames) (limit : Nat) (hd : Spec.Fnt.depth n.filenames ≤ limit) :
    narcFromFile limit p fs = .ok n := by
  obtain ⟨_, d, hm, hc⟩ := after_content h (fun _ => nofun) (fun _ => nofun) (by rintro _ _ _ ⟨⟩; rfl)
  cases hm with
  | narc hm => exact (readWith_of hc).trans (Props.Narc.narc_roundtrip n d hm hne limit hd)

/-- **C121.** Main code files, when the settings can be found without a pointer. -/
theorem main_code_file {f : Code.MainCodeFile} {s0 : Code.Section} {rest : List Code.Section} {cso : Nat} {p : Path} {fs : FS}
    (h : After (.mainCode f p false) p fs) (hf : Proofs.MainCode.Shape f s0 rest cso) :
    ∃ b, fs.content p = some b ∧ (CodeCompression.decompress b = .ok b →
      Code.findSettings b f.ramAddress none = .ok (some (cso : Int)) →
      ∃ d0 f', mainCodeFromFile p f.ramAddress fs = .ok f' ∧
        f' = ⟨⟨d0, f.ramAddress, 0, true⟩ ::
          ((rest.filter fun s => s.data.length != 0) ++ (rest.filter fun s => s.data.length == 0)),
          f.ramAddress, some (cso : Int)⟩ ∧
        Props.MainCode.Rewritten s0.data d0 cso (f.ramAddress + Props.MainCode.totalLength f.sections)
          (f.ramAddress + Props.MainCode.totalLength f.sections + 12 * rest.length) (f.ramAddress + s0.data.length) 0 ∧
        mainCodeSaveToFile f' p false fs = mainCodeSaveToFile f p false fs) := by
  obtain ⟨_, b, hm, hc⟩ := after_content h (fun _ => nofun) (fun _ => nofun) (by rintro _ _ _ ⟨⟩; rfl)
  cases hm with
  | mainCode hm =>
    refine ⟨b, hc, fun h1 h2 => ?_⟩
    obtain ⟨d0, f', h3, h4, h5, h6⟩ := Props.MainCode.main_code_roundtrip f s0 rest cso b none hf hm h1 h2
    refine ⟨d0, f', (readWith_of hc).trans h3, h4, h5, ?_⟩
    unfold mainCodeSaveToFile
    rw [h6, hm]

/-- **C121.** ROMs, apart from four attributes (see C39). -/
theorem rom_file {r : Rom.Rom} {u : Bool} {p : Path} {fs : FS} (h : After (.rom r p u) p fs) (limit : Nat)
    (hname : r.name.length ≤ 12) (hnul : r.name.getLast? ≠ some 0) (hsad : r.secureAreaDisable.length = 8)
    (hne : Spec.Fnt.NoEmptyFileName r.filenames) (hd : Spec.Fnt.depth r.filenames ≤ limit) :
    ∃ b r' q, Rom.save r u = .ok (b, r') ∧ romFromFile limit p fs = .ok q ∧ q = { r' with
      pad200 := q.pad200, rsaSignature := q.rsaSignature, arm9PostData := q.arm9PostData,
      sortedFileIds := q.sortedFileIds } := by
  obtain ⟨_, b, hm, hc⟩ := after_content h (fun _ => nofun) (fun _ => nofun) (by rintro _ _ _ ⟨⟩; rfl)
  cases hm with
  | @rom _ _ _ _ r' hm =>
    obtain ⟨q, h1, h2⟩ := Props.Rom.rom_roundtrip r r' u b hm limit hname hnul hsad hne hd
    exact ⟨b, r', q, hm, (readWith_of hc).trans h1, h2⟩

/-- **C121.** Sound archives. -/
theorem sdat_file {o : SoundArchiveObject.Archive} {p : Path} {fs : FS} (choose : List Nat → Nat)
    (h : After (.sdat o p) p fs) (hr : Props.SoundArchiveObject.Readable o) :
    ∃ t, sdatFromFile choose p fs = .ok t ∧ Props.SoundArchiveObject.ArchiveBack o t := by
  obtain ⟨_, b, hm, hc⟩ := after_content h (fun _ => nofun) (fun _ => nofun) (by rintro _ _ _ ⟨⟩; rfl)
  cases hm with
  | sdat hm =>
    obtain ⟨t, h1, h2⟩ := Props.SoundArchiveObject.archive_objects choose hm hr
    exact ⟨t, (readWith_of hc).trans h1, h2⟩

/-- **C121.** Waves. -/
theorem swav_file {w : SoundWave.SWAV} {ut ul : Bool} {p : Path} {fs : FS} (h : After (.swav w p ut ul) p fs)
    (ht : w.waveType ≤ 2) : ∃ b w', w.save ut ul = .ok (b, w') ∧ swavFromFile p fs = .ok w' := by
  obtain ⟨_, b, hm, hc⟩ := after_content h (fun _ => nofun) (fun _ => nofun) (by rintro _ _ _ ⟨⟩; rfl)
  cases hm with
  | @swav _ _ _ _ _ w' hm =>
    have := Props.SoundWave.swav_roundtrip w w' b [] ut ul ht hm
    rw [List.append_nil] at this
    exact ⟨b, w', hm, (readWith_of hc).trans this⟩

/-! The attributes that are not in the file are those given when loading. -/

/-- **C121.** Sequences. -/
theorem sseq_file {x : SoundArchiveObject.Seq} {p : Path} {fs : FS} (h : After (.sseq x p) p fs)
    (unk02 bankID volume channelPressure polyphonicPressure playerID : Nat) :
    ∃ y, sseqFromFile p unk02 bankID volume channelPressure polyphonicPressure playerID fs = .ok y ∧
      Spec.SoundArchiveObject.SeqBack { x with
        unk02 := unk02, bankID := bankID, volume := volume, channelPressure := channelPressure
        polyphonicPressure := polyphonicPressure, playerID := playerID } y := by
  obtain ⟨_, b, hm, hc⟩ := after_content h (fun _ => nofun) (fun _ => nofun) (by rintro _ _ _ ⟨⟩; rfl)
  cases hm with
  | sseq hm =>
    unfold SoundArchiveObject.Seq.save at hm
    simp only [bind_eq_ok, pure_eq_ok] at hm
    obtain ⟨b, hb, rfl⟩ := hm
    obtain ⟨y, h1, h2, _⟩ := Proofs.SoundArchiveObject.seq_item (x := { x with
        unk02 := unk02, bankID := bankID, volume := volume, channelPressure := channelPressure
        polyphonicPressure := polyphonicPressure, playerID := playerID })
      (i := ⟨b, x.mergeID, unk02, bankID, volume, channelPressure, polyphonicPressure, playerID⟩)
      (by unfold SoundArchiveObject.Seq.save; dsimp only; rw [hb]; rfl) [] 0
    dsimp only at h1
    rw [List.append_nil] at h1
    exact ⟨y, (readWith_of hc).trans h1, h2⟩

/-- **C121.** Streams. -/
theorem strm_file {x : SoundArchiveObject.Strm} {p : Path} {fs : FS} (h : After (.strm x p) p fs)
    (ht : x.obj.waveType ≤ 2) (unk02 volume priority playerID unk07 : Nat) :
    ∃ y, strmFromFile p unk02 volume priority playerID unk07 fs = .ok y ∧
      Spec.SoundArchiveObject.StrmBack { x with
        unk02 := unk02, volume := volume, priority := priority, playerID := playerID, unk07 := unk07 } y := by
  obtain ⟨_, b, hm, hc⟩ := after_content h (fun _ => nofun) (fun _ => nofun) (by rintro _ _ _ ⟨⟩; rfl)
  cases hm with
  | strm hm =>
    unfold SoundArchiveObject.Strm.save at hm
    simp only [bind_eq_ok, pure_eq_ok] at hm
    obtain ⟨b, hb, rfl⟩ := hm
    obtain ⟨y, h1, h2, _⟩ := Proofs.SoundArchiveObject.strm_item (x := { x with
        unk02 := unk02, volume := volume, priority := priority, playerID := playerID, unk07 := unk07 })
      (i := ⟨b, x.mergeID, unk02, volume, priority, playerID, unk07⟩)
      (by unfold SoundArchiveObject.Strm.save; dsimp only; rw [hb]; rfl) ht [] 0
    dsimp only at h1
    rw [List.append_nil] at h1
    exact ⟨y, (readWith_of hc).trans h1, h2⟩

/-- **C121.** Sequence archives; the names are given when loading, too. -/
theorem ssar_file {x : SoundArchiveObject.Ssar} {p : Path} {fs : FS} (h : After (.ssar x p) p fs) :
    ∃ y, ssarFromFile p x.obj.unk02 (x.obj.sequences.map Prod.fst) fs = .ok y ∧
      Spec.SoundArchiveObject.SsarBack x y := by
  obtain ⟨_, b, hm, hc⟩ := after_content h (fun _ => nofun) (fun _ => nofun) (by rintro _ _ _ ⟨⟩; rfl)
  cases hm with
  | @ssar _ _ i hm =>
    obtain ⟨y, h1, h2, _⟩ := Proofs.SoundArchiveObject.ssar_item hm [] 0 i.names fun _ => rfl
    rw [List.append_nil] at h1
    refine ⟨y, (readWith_of hc).trans ?_, h2⟩
    unfold SoundArchiveObject.Ssar.save at hm
    simp only [bind_eq_ok, pure_eq_ok] at hm
    obtain ⟨⟨b, u, nm⟩, hb, rfl⟩ := hm
    obtain ⟨hu, hn, _⟩ := Proofs.SoundArchiveObject.ssar_back hb
    dsimp only at h1 hu hn ⊢
    rw [← hu, ← hn]
    exact h1

/-- **C121.** The waves come back, but `unk02` is 0, whatever was asked for. -/
theorem swar_file_partial {x : SoundArchiveObject.Swar} {p : Path} {fs : FS} (h : After (.swar x p) p fs)
    (ht : ∀ w ∈ x.waves, w.waveType ≤ 2) (unk02 : Nat) :
    ∃ y, swarFromFile p unk02 fs = .ok y ∧ y.waves = x.waves ∧ y.unk02 = 0 := by
  obtain ⟨_, b, hm, hc⟩ := after_content h (fun _ => nofun) (fun _ => nofun) (by rintro _ _ _ ⟨⟩; rfl)
  cases hm with
  | swar hm =>
    unfold SoundArchiveObject.Swar.save at hm
    simp only [bind_eq_ok, pure_eq_ok] at hm
    obtain ⟨b, hb, rfl⟩ := hm
    have := Props.SoundWave.swar_roundtrip _ _ [] ht hb
    rw [List.append_nil] at this
    refine ⟨⟨x.waves, 0, 0⟩, (readWith_of hc).trans ?_, rfl, rfl⟩
    unfold SoundArchiveObject.Swar.load
    dsimp only
    rw [this]
    rfl

/-- **C121.** Banks; empty slots at the end of the list of wave archives are dropped. -/
theorem sbnk_file {x : SoundArchiveObject.Bank} {p : Path} {fs : FS} (h : After (.sbnk x p) p fs)
    (hl : ∀ i, some i ∈ x.obj.instruments → Spec.SoundBank.Loadable i.kind) (choose : List Nat → Nat) (unk02 : Nat)
    (waveArchiveIDs : List (Option Int)) :
    ∃ y, sbnkFromFile choose p unk02 waveArchiveIDs fs = .ok y ∧
      y.obj.unk02 = unk02 ∧ (∃ k, waveArchiveIDs = y.obj.waveArchiveIDs ++ List.replicate k none) ∧
      y.obj.waveArchiveIDs.getLast? ≠ some none ∧ (x.obj.inaccessible = [] → y.obj.inaccessible = []) ∧
      y.obj.instruments.map (Option.map SoundBank.Inst.kind) = x.obj.instruments.map (Option.map SoundBank.Inst.kind) := by
  obtain ⟨_, b, hm, hc⟩ := after_content h (fun _ => nofun) (fun _ => nofun) (by rintro _ _ _ ⟨⟩; rfl)
  cases hm with
  | sbnk hm =>
    unfold SoundArchiveObject.Bank.save at hm
    simp only [bind_eq_ok, pure_eq_ok] at hm
    obtain ⟨r, hb, rfl⟩ := hm
    obtain ⟨hs, he⟩ := Proofs.SoundBank.save_ok.1 hb
    cases he
    obtain ⟨inacc, h1, h2⟩ := Proofs.SoundBank.load_file_any (d := Proofs.SoundBank.fileOf x.obj ++ [])
      (At.first _ _) choose unk02 waveArchiveIDs hs hl
    rw [List.append_nil] at h1
    refine ⟨⟨⟨unk02, Model.SoundBank.dropNones waveArchiveIDs, Proofs.SoundBank.reloaded x.obj, inacc⟩, 0⟩,
      (readWith_of hc).trans ?_, rfl, ?_, ?_, h2, Proofs.SoundBank.reloaded_kinds x.obj⟩
    · unfold SoundArchiveObject.Bank.load
      dsimp only
      rw [h1, bind_ok]
      rfl
    · obtain ⟨k, h3, _⟩ := Proofs.SoundArchiveObject.dropNones_spec waveArchiveIDs
      exact ⟨k, h3⟩
    · exact (Proofs.SoundArchiveObject.dropNones_spec _).choose_spec.2

/-- **C121.** So `SWAR.fromFile(path, unk02)` does not give a wave archive with this value. -/
theorem swar_file_attribute_lost : ∃ (x : SoundArchiveObject.Swar) (p : Path) (fs : FS),
    After (.swar x p) p fs ∧ (∀ w ∈ x.waves, w.waveType ≤ 2) ∧
    ¬ ∃ y, swarFromFile p x.unk02 fs = .ok y ∧ Spec.SoundArchiveObject.SwarBack x y := by
  let x : SoundArchiveObject.Swar := ⟨[], 0, 5⟩
  let p : Path := ⟨[], [0x61]⟩
  let fs : FS := ⟨fun _ => none, fun _ => true⟩
  have hf : ∃ i, x.save = .ok i := by
    cases h : x.save with
    | ok i => exact ⟨i, rfl⟩
    | error e =>
      have h1 : x.save.toOption.isSome = true := by decide +kernel
      rw [h] at h1
      exact nomatch h1
  obtain ⟨i, hi⟩ := hf
  have hr : (Op.swar x p).run fs = (.ok (), ⟨fun q => if q = p then some i.file else none, fun _ => true⟩) := by
    show writeWith (x.save.map fun i => i.file) p fs = _
    rw [hi]
    rfl
  have ha : After (.swar x p) p ⟨fun q => if q = p then some i.file else none, fun _ => true⟩ :=
    ⟨fs, _, [], hr, by simp, rfl⟩
  refine ⟨x, p, _, ha, by simp [x], ?_⟩
  rintro ⟨y, h1, h2⟩
  obtain ⟨y', h3, _, h4⟩ := swar_file_partial ha (by simp [x]) x.unk02
  rw [h1] at h3
  cases h3
  have := h2.unk02
  rw [h4] at this
  exact nomatch this

/-! ## The tools (C122) -/

/-- **C122.** There is a file to write unless the input has no name and no output is given, and it is only one. -/
theorem tool_target_iff {i : Path} {o : Option Path} {a : Bool} :
    ((∃ p, Target (.compress i o a) p) ↔ o ≠ none ∨ i.name ≠ []) ∧
    ((∃ p, Target (.decompress i o) p) ↔ o ≠ none ∨ i.name ≠ []) ∧
    (∀ c p q, Target c p → Target c q → p = q) := by
  refine ⟨?_, ?_, fun c p q h h' => target_unique h h'⟩
  · constructor
    · rintro ⟨p, h⟩
      cases h with
      | compressTo => exact .inl nofun
      | compress h => exact .inr (by rw [h.1]; simp [h.2.1])
    · rintro h
      cases o with
      | some p => exact ⟨p, .compressTo p⟩
      | none =>
        obtain ⟨f, n⟩ := i
        obtain ⟨stem, ext, hs⟩ := splits_exists (name := n) (h.resolve_left fun h => h rfl)
        exact ⟨_, .compress hs⟩
  · constructor
    · rintro ⟨p, h⟩
      cases h with
      | decompressTo => exact .inl nofun
      | decompress h => exact .inr (by rw [h.1]; simp [h.2.1])
    · rintro h
      cases o with
      | some p => exact ⟨p, .decompressTo p⟩
      | none =>
        obtain ⟨f, n⟩ := i
        obtain ⟨stem, ext, hs⟩ := splits_exists (name := n) (h.resolve_left fun h => h rfl)
        exact ⟨_, .decompress hs⟩

/-- **C122.** Without an output given, the input is overwritten exactly if it already has the suffix of the output. -/
theorem tool_overwrites_iff {folder name stem ext : Str} {a : Bool} (h : Splits name stem ext) :
    (Target (.compress ⟨folder, name⟩ none a) ⟨folder, name⟩ ↔ ext = [46, 99, 109, 112]) ∧
    (Target (.decompress ⟨folder, name⟩ none) ⟨folder, name⟩ ↔ ext = [46, 100, 101, 99]) := by
  constructor
  · constructor
    · intro ht
      have h1 := congrArg Path.name (target_unique ht (.compress h))
      dsimp only at h1
      rw [h.1] at h1
      exact List.append_cancel_left h1
    · rintro rfl
      have := Target.compress (folder := folder) (a := a) h
      rw [← h.1] at this
      exact this
  · constructor
    · intro ht
      have h1 := congrArg Path.name (target_unique ht (.decompress h))
      dsimp only at h1
      rw [h.1] at h1
      exact List.append_cancel_left h1
    · rintro rfl
      have := Target.decompress (folder := folder) h
      rw [← h.1] at this
      exact this

/-- **C122.** What the `lz10` tool compressed, it decompresses to the data there was, whatever is done in between to
other files. -/
theorem lz10_tool_roundtrip {i p q : Path} {o o' : Option Path} {a : Bool} {fs fs1 : FS} {s : Bytes} {ops : List Op}
    (hs : fs.content i = some s) (h : lz10Main (.compress i o a) fs = (.ok (), fs1)) (hp : Target (.compress i o a) p)
    (hops : ∀ op ∈ ops, Op.Spares op p) (hq : Target (.decompress p o') q) (hw : (runAll fs1 ops).writable q = true) :
    (∀ r, r ≠ p → fs1.content r = fs.content r) ∧
    ∃ fs2, lz10Main (.decompress p o') (runAll fs1 ops) = (.ok (), fs2) ∧ Wrote (runAll fs1 ops) fs2 q s := by
  obtain ⟨p', s', c, h1, h2, h3, _, h5⟩ := (handleCompress_ok (a := a)).1 h
  obtain rfl := target_unique hp h1
  rw [hs] at h2
  cases h2
  have hc : (runAll fs1 ops).content p = some c := (program_spares hops fs1).trans h5.here
  have hd : Lz10.decompress c = .ok s := by
    have hl : s.length < 2 ^ 24 := by
      refine Nat.lt_of_not_le fun hge => ?_
      rw [(Props.Lz.lz10_compress_error_iff s).1.2 hge] at h3
      exact nomatch h3
    obtain ⟨c', g1, g2⟩ := Props.Lz.lz10_roundtrip s hl
    rw [h3] at g1
    cases g1
    exact g2
  refine ⟨h5.elsewhere, ?_⟩
  obtain ⟨fs2, hf⟩ : ∃ fs2, Wrote (runAll fs1 ops) fs2 q s :=
    ⟨_, (write_ok.1 (show (runAll fs1 ops).write q s = (.ok (), _) by unfold FS.write; rw [if_pos hw])).2⟩
  exact ⟨fs2, handleDecompress_ok.2 ⟨q, c, s, hq, hc, hd, hw, hf⟩, hf⟩

/-- **C122.** The same for the `codeCompression` tool, if the compressed file is smaller (see C06). -/
theorem code_tool_roundtrip {i p q : Path} {o o' : Option Path} {a : Bool} {fs fs1 : FS} {s c : Bytes} {ops : List Op}
    (hs : fs.content i = some s) (h : codeMain (.compress i o a) fs = (.ok (), fs1)) (hp : Target (.compress i o a) p)
    (hc1 : fs1.content p = some c) (hlt : c.length < s.length) (h24 : c.length < 2 ^ 24)
    (hops : ∀ op ∈ ops, Op.Spares op p) (hq : Target (.decompress p o') q) (hw : (runAll fs1 ops).writable q = true) :
    (∀ r, r ≠ p → fs1.content r = fs.content r) ∧
    ∃ fs2, codeMain (.decompress p o') (runAll fs1 ops) = (.ok (), fs2) ∧ Wrote (runAll fs1 ops) fs2 q s := by
  obtain ⟨p', s', c', h1, h2, h3, _, h5⟩ := (handleCompress_ok (a := a)).1 h
  obtain rfl := target_unique hp h1
  rw [hs] at h2
  cases h2
  rw [h5.here] at hc1
  cases hc1
  have hc : (runAll fs1 ops).content p = some c := (program_spares hops fs1).trans h5.here
  have hd := Props.Lz.code_roundtrip_of_shorter s c a h3 hlt h24
  refine ⟨h5.elsewhere, ?_⟩
  obtain ⟨fs2, hf⟩ : ∃ fs2, Wrote (runAll fs1 ops) fs2 q s :=
    ⟨_, (write_ok.1 (show (runAll fs1 ops).write q s = (.ok (), _) by unfold FS.write; rw [if_pos hw])).2⟩
  exact ⟨fs2, handleDecompress_ok.2 ⟨q, c, s, hq, hc, hd, hw, hf⟩, hf⟩

/-! ## `fromCompressed` (C123) -/

/-- **C123.** For data that decompresses to something that does not look compressed, `fromCompressed` is the same as the
constructor. -/
theorem from_compressed_partial {data u : Bytes} (h : CodeCompression.decompress data = .ok u)
    (h' : CodeCompression.decompress u = .ok u) (ram : Nat) (ptr : Option Nat) :
    mainCodeFromCompressed data ram ptr = Code.MainCodeFile.load data ram ptr := by
  unfold mainCodeFromCompressed Code.MainCodeFile.load
  rw [h, bind_ok, bind_ok, h', bind_ok]

theorem mem_of_slice {d : Bytes} {a e : Nat} {b : UInt8} (h : b ∈ slice d a e) : b ∈ d := by
  unfold slice at h
  first
    | exact List.mem_of_mem_drop (List.mem_of_mem_take h)
    | exact List.mem_of_mem_take (List.mem_of_mem_drop h)

theorem search_none {d endBytes : Bytes} {t : Nat} {b : UInt8} (hb : b ∈ endBytes) (hd : b ∉ d) :
    ∀ ms, Code.searchTableEnd d t endBytes ms = .ok none
  | [] => rfl
  | m :: ms => by
    unfold Code.searchTableEnd
    rw [if_neg (fun h => hd (mem_of_slice (h ▸ hb)))]
    exact search_none hb hd ms

/-- Data in which the settings cannot be found is one section. -/
theorem load_one {c d : Bytes} {ram : Nat} {b : UInt8} (hc : CodeCompression.decompress c = .ok d) (h : 0x21 ∉ d)
    (hl : ram + d.length < 2 ^ 32) (hb : b ∈ enBytes .little 4 (ram + d.length)) (hd : b ∉ d) :
    Code.MainCodeFile.load c ram none = .ok ⟨[⟨d, ram, 0, true⟩], ram, none⟩ := by
  have hs : Code.findSettings d ram none = .ok none := by
    unfold Code.findSettings Code.settingsByPointer Code.searchForCodeSettingsOffs
    dsimp only
    have hf : (List.range 0x2000).find? (fun i => slice d (4 * i) (4 * i + 8) = Code.settingsMagic) = none := by
      rw [List.find?_eq_none]
      intro i _ hi
      rw [decide_eq_true_eq] at hi
      refine h (mem_of_slice (a := 4 * i) (e := 4 * i + 8) ?_)
      rw [hi]
      decide
    rw [hf]
    dsimp only
    rw [packU_eq_ok.2 ⟨hl, rfl⟩, bind_ok]
    exact search_none hb hd _
  unfold Code.MainCodeFile.load
  rw [hc, bind_ok, hs, bind_ok]
  have hp : Code.pySliceI d 0 (d.length : Int) = d := by
    unfold Code.pySliceI
    unfold Code.sliceBound
    rw [if_neg (by omega), if_neg (by omega)]
    simp [slice]
  show (do
    let rest ← Code.loadSections d ((0 - 0 + 11 : Int) / 12).toNat 0 d.length
    return ⟨⟨Code.pySliceI d 0 d.length, ram, 0, true⟩ :: rest, ram, none⟩ : Py Code.MainCodeFile) = _
  rw [hp]
  rfl

/-- 300 bytes, compressed. -/
def once : Bytes := [3, 48, 15, 240, 15, 240, 15, 240, 15, 240, 15, 240, 252, 15, 240, 15, 240, 15, 240, 15, 240, 15, 240,
  15, 240, 15, 240, 15, 240, 255, 15, 240, 15, 240, 9, 144, 3, 48, 0, 0, 7, 7, 7, 31, 52, 0, 0, 8, 248, 0, 0, 0]

/-- The same compressed again. -/
def twice : Bytes := [3, 48, 8, 112, 252, 5, 80, 1, 16, 208, 2, 16, 255, 15, 240, 15, 240, 9, 144, 1, 3, 48, 0, 0, 7, 7, 7,
  31, 0, 52, 0, 0, 8, 248, 0, 0, 0, 0, 255, 255, 48, 0, 0, 10, 4, 0, 0, 0]

theorem once_plain : CodeCompression.decompress once = .ok (List.replicate 300 7) := by decide +kernel
theorem twice_plain : CodeCompression.decompress twice = .ok once := by decide +kernel

/-- **C123.** In general it is not: data that is still compressed after decompressing it is decompressed twice. -/
theorem from_compressed_twice :
    Code.MainCodeFile.load twice 0x2000000 none = .ok ⟨[⟨once, 0x2000000, 0, true⟩], 0x2000000, none⟩ ∧
    mainCodeFromCompressed twice 0x2000000 none =
      .ok ⟨[⟨List.replicate 300 7, 0x2000000, 0, true⟩], 0x2000000, none⟩ := by
  refine ⟨load_one (b := 2) twice_plain (by decide) (by decide) (by decide) (by decide), ?_⟩
  unfold mainCodeFromCompressed
  rw [twice_plain, bind_ok]
  refine load_one (b := 2) once_plain ?_ ?_ ?_ ?_
  · rw [List.mem_replicate]; decide
  · rw [List.length_replicate]; decide
  · rw [List.length_replicate]; decide
  · rw [List.mem_replicate]; decide

/-- The hypotheses of `from_compressed_partial` hold for what compressing 64 bytes gives. -/
example : ∃ d, CodeCompression.compress (List.replicate 60 0 ++ [1, 1, 1, 1]) false = .ok d ∧
    CodeCompression.decompress d = .ok (List.replicate 60 0 ++ [1, 1, 1, 1]) ∧
    CodeCompression.decompress (List.replicate 60 0 ++ [1, 1, 1, 1]) = .ok (List.replicate 60 0 ++ [1, 1, 1, 1]) := by
  have h : (CodeCompression.compress (List.replicate 60 0 ++ [1, 1, 1, 1]) false >>= CodeCompression.decompress) =
      .ok (List.replicate 60 0 ++ [1, 1, 1, 1]) := by decide +kernel
  obtain ⟨d, h1, h2⟩ := bind_eq_ok.1 h
  exact ⟨d, h1, h2, by decide +kernel⟩

/-! ## Examples -/

/-- Files "x.bin" and "y.cmp" in a folder, all of which can be written. -/
def exFiles : FS where
  content p := if p = ⟨[0x64], [0x78, 46, 0x62, 0x69, 0x6E]⟩ then some [1, 2, 3, 1, 2, 3, 1, 2, 3, 9]
    else if p = ⟨[0x64], [0x79, 46, 99, 109, 112]⟩ then some [5, 5] else none
  writable p := p.folder = [0x64]

/-- "x.bin" is "x" and ".bin"; ".bin" is all stem; so is "x."; "x.y.z" is "x.y" and ".z". -/
example : Splits [0x78, 46, 0x62, 0x69, 0x6E] [0x78] [46, 0x62, 0x69, 0x6E] ∧
    Splits [46, 0x62, 0x69, 0x6E] [46, 0x62, 0x69, 0x6E] [] ∧ Splits [0x78, 46] [0x78, 46] [] ∧
    Splits [0x78, 46, 0x79, 46, 0x7A] [0x78, 46, 0x79] [46, 0x7A] := by
  refine ⟨⟨rfl, by decide, .inl ⟨_, rfl, by decide, by decide⟩⟩, ⟨rfl, by decide, .inr ⟨rfl, .inl (by decide)⟩⟩,
    ⟨rfl, by decide, .inr ⟨rfl, .inr rfl⟩⟩, ⟨rfl, by decide, .inl ⟨_, rfl, by decide, by decide⟩⟩⟩

/-- Compressing "x.bin" writes "x.cmp", and decompressing that writes "x.dec", which holds the data. -/
example : (lz10Main (.compress ⟨[0x64], [0x78, 46, 0x62, 0x69, 0x6E]⟩ none false) exFiles).1 = .ok () ∧
    ((lz10Main (.decompress ⟨[0x64], [0x78, 46, 99, 109, 112]⟩ none)
      (lz10Main (.compress ⟨[0x64], [0x78, 46, 0x62, 0x69, 0x6E]⟩ none false) exFiles).2).2.content
        ⟨[0x64], [0x78, 46, 100, 101, 99]⟩) = some [1, 2, 3, 1, 2, 3, 1, 2, 3, 9] := by
  decide +kernel

/-- Compressing "y.cmp" overwrites it. -/
example : (lz10Main (.compress ⟨[0x64], [0x79, 46, 99, 109, 112]⟩ none false) exFiles).1 = .ok () ∧
    (lz10Main (.compress ⟨[0x64], [0x79, 46, 99, 109, 112]⟩ none false) exFiles).2.content
      ⟨[0x64], [0x79, 46, 99, 109, 112]⟩ = some [0x10, 2, 0, 0, 0, 5, 5, 0, 0, 0, 0, 0, 0] := by
  decide +kernel

/-- Writing elsewhere raises; so does an input that is missing. -/
example : (lz10Main (.compress ⟨[0x64], [0x79, 46, 99, 109, 112]⟩ (some ⟨[0x65], [0x79]⟩) false) exFiles).1 =
      .error .osError ∧
    (lz10Main (.decompress ⟨[0x64], [0x7A]⟩ none) exFiles).1 = .error .osError := by
  decide +kernel

/-- `After` is reachable: a layout is saved, and then a palette next to it. -/
example : After (.bnbl ⟨5, [⟨100, 4095, 7, 255, 0x42⟩]⟩ ⟨[0x64], [0x61]⟩) ⟨[0x64], [0x61]⟩
    (runAll ((Op.bnbl ⟨5, [⟨100, 4095, 7, 255, 0x42⟩]⟩ ⟨[0x64], [0x61]⟩).run exFiles).2
      [.palette [⟨1, 2, 3, 1⟩] ⟨[0x64], [0x62]⟩]) := by
  refine ⟨exFiles, _, _, ?_, ?_, rfl⟩
  · have h : ((Op.bnbl ⟨5, [⟨100, 4095, 7, 255, 0x42⟩]⟩ ⟨[0x64], [0x61]⟩).run exFiles).1 = .ok () := by decide +kernel
    exact Prod.ext h rfl
  · intro o ho
    rw [List.mem_singleton] at ho
    subst ho
    intro fs q d h
    cases h
    decide

/-! ### One file of each kind -/

/-- A place that can be written to. -/
def here : Path := ⟨[0x64], [0x61]⟩

theorem after_run {op : Op} {p : Path} (h : (op.run exFiles).1 = .ok ()) : After op p (op.run exFiles).2 :=
  ⟨exFiles, _, [], Prod.ext h rfl, nofun, rfl⟩

example : lz10DecompressFromFile here ((Op.lz10Compress [1, 1, 1, 1, 1, 2] here).run exFiles).2 = .ok [1, 1, 1, 1, 1, 2] :=
  lz10_file (after_run (by decide +kernel))

example : ∃ c, lz10CompressFromFile ⟨[0x64], [0x78, 46, 0x62, 0x69, 0x6E]⟩ exFiles = .ok c ∧
    Lz10.decompress c = .ok [1, 2, 3, 1, 2, 3, 1, 2, 3, 9] :=
  (compress_from_file (fs := exFiles) rfl).2 (by decide)

example : codeDecompressFromFile here ((Op.codeCompress (List.replicate 60 0 ++ [1, 1, 1, 1]) here false).run exFiles).2 =
    .ok (List.replicate 60 0 ++ [1, 1, 1, 1]) := by
  obtain ⟨c, h1, h2⟩ := code_file (data := List.replicate 60 0 ++ [1, 1, 1, 1]) (a := false) (p := here)
    (after_run (by decide +kernel))
  have h : (((Op.codeCompress (List.replicate 60 0 ++ [1, 1, 1, 1]) here false).run exFiles).2.content here).map List.length =
      some 28 := by decide +kernel
  rw [h1] at h
  simp only [Option.map_some, Option.some.injEq] at h
  exact h2 (by rw [h]; decide) (by omega)

example : bnblFromFile here ((Op.bnbl ⟨5, [⟨100, 4095, 7, 255, 0x42⟩]⟩ here).run exFiles).2 =
    .ok ⟨5, [⟨100, 4095, 7, 255, 0x42⟩]⟩ := by
  refine bnbl_file (after_run (by decide +kernel)) fun t ht => ?_
  rw [List.mem_singleton] at ht
  subst ht
  exact ⟨by decide, by decide, 2, 64, by decide, by decide, rfl⟩

example : bmgFromFile Text.cp1252 300 here 0 ((Op.bmg Text.cp1252 (Props.Bmg.exBMG .big) here).run exFiles).2 =
    .ok (Spec.Bmg.normal (Props.Bmg.exBMG .big)) := by
  obtain ⟨d, h1, h2⟩ := bmg_file (sjis := Text.cp1252) (P := fun _ => True) (b := Props.Bmg.exBMG .big) (p := here)
    (after_run (by decide +kernel)) (by intro h; cases h)
  have h : (((Op.bmg Text.cp1252 (Props.Bmg.exBMG .big) here).run exFiles).2.content here).map List.length = some 256 := by
    decide +kernel
  rw [h1] at h
  simp only [Option.map_some, Option.some.injEq] at h
  exact h2 (by rw [h]; show _ ≤ _; decide +kernel) 300 0 (by omega)

example : loadPaletteFromFile here ((Op.palette [⟨1, 2, 3, 1⟩, ⟨31, 0, 31, 0⟩] here).run exFiles).2 =
    .ok [⟨1, 2, 3, 1⟩, ⟨31, 0, 31, 0⟩] :=
  palette_file (after_run (by decide +kernel)) (by decide)

example : loadImageTilesFromFile here .i4 ((Op.imageTiles [⟨List.replicate 63 3 ++ [15], .i4⟩] here).run exFiles).2 =
    .ok [⟨List.replicate 63 3 ++ [15], .i4⟩] := by
  refine tiles_file (after_run (by decide +kernel)) fun x hx => ?_
  rw [List.mem_singleton] at hx
  subst hx
  exact ⟨rfl, by unfold Props.Graphics2D.Valid; decide⟩

example : loadTilemapTilesFromFile here .i10h1v1p4 ((Op.tilemapTiles [⟨.i10h1v1p4, 1023, true, false, 9⟩] here).run exFiles).2 =
    .ok [⟨.i10h1v1p4, 1023, true, false, 9⟩] :=
  tilemap_file (after_run (by decide +kernel)) (by decide) (by decide)

example : narcFromFile 1 here ((Op.narc Props.Narc.sample here).run exFiles).2 = .ok Props.Narc.sample :=
  narc_file (after_run (by decide +kernel)) (by
    unfold Props.Narc.sample Spec.Fnt.NoEmptyFileName
    simp [Spec.Fnt.All, Spec.Fnt.AllIn, Fnt.Folder.files]) 1 (by decide)

/-- A main code file whose settings are marked, so that they are found. -/
def exCode : Code.MainCodeFile where
  sections := [⟨[4, 0, 0, 2] ++ List.replicate 28 7 ++ [0x21, 6, 0xC0, 0xDE, 0xDE, 0xC0, 6, 0x21] ++ zeros 4,
      0x2000000, 0, true⟩,
    ⟨[], 0x3000000, 0x100, false⟩, ⟨[1, 2, 3, 4, 5, 6, 7, 8], 0x1FF8000, 0x20, false⟩]
  ramAddress := 0x2000000
  codeSettingsOffs := some 4

example : ∃ d0, mainCodeFromFile here 0x2000000 ((Op.mainCode exCode here false).run exFiles).2 =
    .ok ⟨[⟨d0, 0x2000000, 0, true⟩, ⟨[1, 2, 3, 4, 5, 6, 7, 8], 0x1FF8000, 0x20, false⟩, ⟨[], 0x3000000, 0x100, false⟩],
      0x2000000, some 4⟩ := by
  obtain ⟨b, h1, h2⟩ := main_code_file (f := exCode) (cso := 4) (p := here) (after_run (by decide +kernel))
    ⟨rfl, rfl, rfl, by decide, by decide, by decide⟩
  have h : (((Op.mainCode exCode here false).run exFiles).2.content here).map CodeCompression.decompress =
      (((Op.mainCode exCode here false).run exFiles).2.content here).map .ok := by
    decide +kernel
  have h' : (((Op.mainCode exCode here false).run exFiles).2.content here).map
      (fun b => Code.findSettings b exCode.ramAddress none) = some (.ok (some 4)) := by
    decide +kernel
  rw [h1] at h h'
  simp only [Option.map_some, Option.some.injEq] at h h'
  obtain ⟨d0, f', h3, rfl, _⟩ := h2 h h'
  exact ⟨d0, h3⟩

theorem rom_runs {r r' : Rom.Rom} {u : Bool} {b : Bytes} (h : Rom.save r u = .ok (b, r')) :
    ((Op.rom r here u).run exFiles).1 = .ok () := by
  unfold Op.run romSaveToFile writeWith
  dsimp only
  rw [h]
  rfl

example : ∃ b r' q, Rom.save Props.Rom.sample false = .ok (b, r') ∧
    romFromFile 1 here ((Op.rom Props.Rom.sample here false).run exFiles).2 = .ok q ∧ q = { r' with
      pad200 := q.pad200, rsaSignature := q.rsaSignature, arm9PostData := q.arm9PostData,
      sortedFileIds := q.sortedFileIds } := by
  obtain ⟨-, -, b, r', h⟩ := Props.Rom.sample_ok
  exact rom_file (after_run (rom_runs h)) 1 (by decide) (by decide) (by decide) (by
    unfold Props.Rom.sample Spec.Fnt.NoEmptyFileName
    simp [Spec.Fnt.All, Spec.Fnt.AllIn, Fnt.Folder.files]) (by decide)

example : ∃ t, sdatFromFile (fun _ => 0) here ((Op.sdat Props.SoundArchiveObject.exObjects here).run exFiles).2 = .ok t ∧
    Props.SoundArchiveObject.ArchiveBack Props.SoundArchiveObject.exObjects t :=
  sdat_file _ (after_run (by decide +kernel)) Props.SoundArchiveObject.exObjects_readable

example : swavFromFile here ((Op.swav Props.SoundWave.exWave here true true).run exFiles).2 = .ok Props.SoundWave.exWave := by
  obtain ⟨b, w', h1, h2⟩ := swav_file (w := Props.SoundWave.exWave) (ut := true) (ul := true) (p := here)
    (after_run (by decide +kernel)) (by decide)
  have h : (Props.SoundWave.exWave.save true true).map Prod.snd = .ok Props.SoundWave.exWave := by decide +kernel
  rw [h1] at h
  cases h
  exact h2

example : ∃ y, sseqFromFile here 1 2 3 4 5 6 ((Op.sseq ⟨⟨[(0, .simple .pan 1), (1, .endTrack)], none, true⟩, 0, 0, 0, 0, 0, 0, 0⟩
      here).run exFiles).2 = .ok y ∧ y.obj.parsed = false ∧ y.volume = 3 := by
  obtain ⟨y, h1, h2⟩ := sseq_file (x := ⟨⟨[(0, .simple .pan 1), (1, .endTrack)], none, true⟩, 0, 0, 0, 0, 0, 0, 0⟩) (p := here)
    (after_run (by decide +kernel)) 1 2 3 4 5 6
  exact ⟨y, h1, h2.parsed, h2.volume⟩

example : ∃ y, strmFromFile here 1 2 3 4 5 ((Op.strm ⟨Props.SoundStream.exStream, 0, 0, 0, 0, 0, 0⟩ here).run exFiles).2 = .ok y ∧
    y.obj = Props.SoundStream.exStream ∧ y.priority = 3 := by
  obtain ⟨y, h1, h2⟩ := strm_file (x := ⟨Props.SoundStream.exStream, 0, 0, 0, 0, 0, 0⟩) (p := here)
    (after_run (by decide +kernel)) (by decide) 1 2 3 4 5
  exact ⟨y, h1, h2.stream, h2.priority⟩

example : ∃ y, ssarFromFile here 0 [some [0x43], none] ((Op.ssar ⟨⟨0, [(some [0x43], ⟨.parsed (some 9), 3, 127, 64, 50, 1⟩),
      (none, ⟨.parsed none, 3, 127, 64, 50, 1⟩)], some [(4, .simple .pan 1), (9, .endTrack)], none, true⟩, 0⟩ here).run
        exFiles).2 = .ok y ∧ y.obj.parsed = false ∧ y.obj.unk02 = 0 := by
  obtain ⟨y, h1, h2⟩ := ssar_file (x := ⟨⟨0, [(some [0x43], ⟨.parsed (some 9), 3, 127, 64, 50, 1⟩),
    (none, ⟨.parsed none, 3, 127, 64, 50, 1⟩)], some [(4, .simple .pan 1), (9, .endTrack)], none, true⟩, 0⟩) (p := here)
    (after_run (by decide +kernel))
  exact ⟨y, h1, h2.parsed, h2.unk02⟩

example : ∃ y, swarFromFile here 9 ((Op.swar ⟨Props.SoundWave.exWaves, 0, 9⟩ here).run exFiles).2 = .ok y ∧
    y.waves = Props.SoundWave.exWaves ∧ y.unk02 = 0 :=
  swar_file_partial (x := ⟨Props.SoundWave.exWaves, 0, 9⟩) (after_run (by decide +kernel)) (by decide) 9

example : ∃ y, sbnkFromFile (fun _ => 0) here 7 [some 3, none] ((Op.sbnk ⟨Props.SoundBank.exBank, 0⟩ here).run exFiles).2 = .ok y ∧
    y.obj.unk02 = 7 ∧ y.obj.instruments.map (Option.map SoundBank.Inst.kind) =
      Props.SoundBank.exBank.instruments.map (Option.map SoundBank.Inst.kind) := by
  obtain ⟨y, h1, h2, _, _, _, h3⟩ := sbnk_file (x := ⟨Props.SoundBank.exBank, 0⟩) (p := here) (after_run (by decide +kernel)) (by
    intro i hi
    simp only [Props.SoundBank.exBank, List.mem_cons, Option.some.injEq, reduceCtorEq, List.not_mem_nil, or_false, false_or] at hi
    rcases hi with rfl | rfl | rfl | rfl <;> simp [Spec.SoundBank.Loadable, Props.SoundBank.exNote]) (fun _ => 0) 7 [some 3, none]
  exact ⟨y, h1, h2, h3⟩

end Verif.Props.Files
