import Verif.Model.Build
import Verif.Props.Files
import Verif.Props.Texture
import Verif.Props.Graphics2D

/-!
# Objects made from their parts (C131)

What is given to a `from…` method is what comes back after saving and loading.  The results of `save()` are the
arguments of the constructor, so for the classes with attributes that are not in the file, `C(*x.save())` is meant.
-/

namespace Verif.Props.Build

open Verif Verif.Model Verif.Model.SoundArchiveObject Verif.Spec.SoundArchiveObject

/-! ## Sound -/

/-- **C131.** A wave made from data: all that was given comes back. -/
theorem swav_built (data b extra : Bytes) (waveType : Nat) (isLooped : Bool) (sampleRate time loopOffset totalLength : Nat)
    (w' : SoundWave.SWAV) (ht : waveType ≤ 2)
    (h : (Build.swav data waveType isLooped sampleRate time loopOffset totalLength).save false false = .ok (b, w')) :
    ∃ w, SoundWave.SWAV.load (b ++ extra) = .ok w ∧ w.data = data ∧ w.waveType = waveType ∧ w.isLooped = isLooped ∧
      w.sampleRate = sampleRate ∧ w.time = time ∧ w.loopOffset = loopOffset ∧ w.totalLength = totalLength := by
  obtain ⟨h1, h2, h3, h4, h5, h6, h7⟩ := Props.SoundWave.swav_save_updates _ _ _ _ _ h
  exact ⟨w', Props.SoundWave.swav_roundtrip _ _ _ extra _ _ ht h, h5, h1, h2, h3, h6, h4, h7⟩

/-- **C131.** A wave made from data alone can be saved if its file is shorter than 4 GiB.  With a loop offset but
without a total length it can not. -/
theorem swav_default (data : Bytes) :
    ((∃ r, (Build.swav data).save false false = .ok r) ↔ data.length < 2 ^ 32 - 0x24) ∧
    ∀ (ty : Nat) (l : Bool) (r t o : Nat), 0 < o → (Build.swav data ty l r t o).save false false = .error .valueError := by
  constructor
  · have h := Props.SoundWave.swav_save_iff (Build.swav data)
    constructor
    · rintro ⟨⟨b, w⟩, hs⟩
      unfold SoundWave.SWAV.save SoundWave.SWAV.update at hs
      simp only [bind_eq_ok, pure_eq_ok] at hs
      obtain ⟨_, ⟨_, _, rfl⟩, b, hb, _⟩ := hs
      have := (h.1 ⟨b, hb⟩).2.1
      change 0x24 + data.length < 2 ^ 32 at this
      omega
    · intro hd
      obtain ⟨b, hb⟩ := h.2 ⟨Nat.le_refl _, by show 0x24 + data.length < 2 ^ 32; omega,
        show 0 < 256 by decide, show 8000 < 2 ^ 16 by decide, show 0 < 2 ^ 16 by decide, show 0 < 2 ^ 16 by decide,
        show 0 < 2 ^ 32 by decide⟩
      refine ⟨(b, Build.swav data), ?_⟩
      unfold SoundWave.SWAV.save SoundWave.SWAV.update
      rw [raiseIf_false (by simp), bind_ok]
      simp only [Bool.false_eq_true, if_false, pure_def, bind_ok, hb]
  · intro ty l r t o ho
    unfold SoundWave.SWAV.save SoundWave.SWAV.update
    rw [raiseIf_false (by simp), bind_ok]
    simp only [Bool.false_eq_true, if_false, pure_def, bind_ok]
    unfold SoundWave.SWAV.saveBytes
    rw [raiseIf_true (show (Build.swav data ty l r t o).loopOffset > (Build.swav data ty l r t o).totalLength from ho)]
    rfl

/-- **C131.** A wave made from no data is a new wave, and a wave made from data is a new wave with the data; a new wave is
silent, plays 8000 samples a second and is not looped. -/
theorem swav_new : (∀ data, Build.swav data = { Build.emptySWAV with data := data }) ∧ Build.swav [] = Build.emptySWAV ∧
    ∃ b, Build.emptySWAV.save false false = .ok (b, Build.emptySWAV) ∧ ∀ extra, ∃ w, SoundWave.SWAV.load (b ++ extra) = .ok w ∧
      w.data = [] ∧ w.sampleRate = 8000 ∧ w.isLooped = false := by
  refine ⟨fun _ => rfl, rfl, _, rfl, fun extra => ?_⟩
  obtain ⟨w, h1, h2, _, h3, h4, _⟩ := swav_built [] _ extra 0 false 8000 0 0 0 Build.emptySWAV (by decide) rfl
  exact ⟨w, h1, h2, h4, h3⟩

/-- **C131.** A wave archive made from waves. -/
theorem swar_built (waves : List SoundWave.SWAV) (unk02 : Nat) (i : SoundArchive.SwarItem) (ht : ∀ w ∈ waves, w.waveType ≤ 2)
    (h : (Build.swar waves unk02).save = .ok i) :
    ∃ y, Swar.load i = .ok y ∧ y.waves = waves ∧ y.unk02 = unk02 := by
  obtain ⟨y, h1, h2, _⟩ := Proofs.SoundArchiveObject.swar_item h ht [] i.mergeID
  rw [List.append_nil] at h1
  exact ⟨y, h1, h2.waves, h2.unk02⟩

/-- **C131.** A stream made from channels; its other attributes are the defaults. -/
theorem strm_built (channels : List (List Bytes)) (unk02 volume priority playerID unk07 : Nat) (i : SoundArchive.StrmItem)
    (h : (Build.strm channels unk02 volume priority playerID unk07).save = .ok i) :
    ∃ y, Strm.load i = .ok y ∧ y.obj.channels = channels ∧ y.obj.waveType = 0 ∧ y.obj.isLooped = false ∧
      y.obj.sampleRate = 8000 ∧ y.obj.samplesPerBlock = 0 ∧ y.obj.samplesInLastBlock = 0 ∧
      y.unk02 = unk02 ∧ y.volume = volume ∧ y.priority = priority ∧ y.playerID = playerID ∧ y.unk07 = unk07 := by
  obtain ⟨y, h1, h2, _⟩ := Proofs.SoundArchiveObject.strm_item h (Nat.zero_le _) [] i.mergeID
  rw [List.append_nil] at h1
  refine ⟨y, h1, ?_, ?_, ?_, ?_, ?_, ?_, h2.unk02, h2.volume, h2.priority, h2.playerID, h2.unk07⟩ <;> rw [h2.stream] <;> rfl

/-- **C131.** A bank made from instruments that a file can hold: the same instruments, and the same wave archives but for
empty slots at the end. -/
theorem sbnk_built (instruments : List (Option SoundBank.Inst)) (unk02 : Nat) (waveArchiveIDs : List (Option Int))
    (choose : List Nat → Nat) (i : SoundArchive.BankItem)
    (hl : ∀ k, some k ∈ instruments → Spec.SoundBank.Loadable k.kind)
    (h : (Build.sbnk instruments unk02 (some waveArchiveIDs)).save = .ok i) :
    ∃ y, Bank.load choose i = .ok y ∧
      y.obj.instruments.map (Option.map SoundBank.Inst.kind) = instruments.map (Option.map SoundBank.Inst.kind) ∧
      y.obj.inaccessible = [] ∧ y.obj.unk02 = unk02 ∧
      (∃ k, waveArchiveIDs = y.obj.waveArchiveIDs ++ List.replicate k none) ∧
      y.obj.waveArchiveIDs.getLast? ≠ some none := by
  unfold Bank.save at h
  simp only [bind_eq_ok, pure_eq_ok] at h
  obtain ⟨⟨b, u, ids⟩, hb, rfl⟩ := h
  obtain ⟨s', h1, h2⟩ := (Props.SoundBank.bank_roundtrip_partial choose _ _ _ _ hb).2 hl
  obtain ⟨h3, h4, h5⟩ := Props.SoundBank.bank_roundtrip_rest choose _ _ _ _ _ hb hl h1
  obtain ⟨k, h6, h7⟩ := Proofs.SoundArchiveObject.dropNones_spec waveArchiveIDs
  have h8 := h4 h7
  refine ⟨⟨s', 0⟩, ?_, h2, h5 rfl, h3, ⟨k, ?_⟩, ?_⟩
  · unfold Bank.load
    dsimp only
    rw [h1]
    rfl
  · dsimp only
    rw [h8]
    exact h6
  · dsimp only
    rw [h8]
    exact h7

/-- **C131.** Without wave archives there are none. -/
theorem sbnk_default (instruments : List (Option SoundBank.Inst)) (unk02 : Nat) :
    Build.sbnk instruments unk02 none = Build.sbnk instruments unk02 (some []) := rfl

/-- **C131.** A sequence made from events: an unparsed sequence comes back, with the bytes of the events and the attributes
that were given. -/
theorem sseq_built (events : List (Nat × SoundSequence.Ev))
    (unk02 bankID volume channelPressure polyphonicPressure playerID : Nat) (x : Seq) (i : SoundArchive.SeqItem)
    (hx : Build.sseq events unk02 bankID volume channelPressure polyphonicPressure playerID = .ok x)
    (h : x.save = .ok i) :
    ∃ y, Seq.load i = .ok y ∧ y.obj.parsed = false ∧
      (∃ d offs, SoundSequence.saveSequenceEvents events [] = .ok (d, offs) ∧ y.obj.eventsData = some d) ∧
      y.unk02 = unk02 ∧ y.bankID = bankID ∧ y.volume = volume ∧ y.channelPressure = channelPressure ∧
      y.polyphonicPressure = polyphonicPressure ∧ y.playerID = playerID := by
  cases hx
  obtain ⟨y, h1, h2, _⟩ := Proofs.SoundArchiveObject.seq_item h [] i.mergeID
  rw [List.append_nil] at h1
  exact ⟨y, h1, h2.parsed, h2.written rfl, h2.unk02, h2.bankID, h2.volume, h2.channelPressure, h2.polyphonicPressure,
    h2.playerID⟩

/-- **C131.** A sequence archive made from events and sequences: an unparsed archive comes back, with the bytes of the events,
and with the names and attributes of the sequences. -/
theorem ssar_built (events : List (Nat × SoundSequence.Ev)) (sequences : List (Option Str × SoundSequenceArchive.Sequence))
    (unk02 : Nat) (x : Ssar) (i : SoundArchive.SsarItem) (hx : Build.ssar events sequences unk02 = .ok x)
    (h : x.save = .ok i) :
    ∃ y, Ssar.load i = .ok y ∧ y.obj.parsed = false ∧ y.obj.unk02 = unk02 ∧
      (y.obj.sequences.map fun s => (s.1, { s.2 with first := .unparsed none })) =
        (sequences.map fun s => (s.1, { s.2 with first := .unparsed none })) ∧
      ∃ starts d offs, SoundSequence.saveSequenceEvents events starts = .ok (d, offs) ∧ y.obj.eventsData = some d ∧
        ((events.map Prod.fst).Nodup → (∀ e ∈ events, Spec.Sequence.InRange e.2 ∨ ∃ b, e.2 = .raw b) →
          y.obj.sequences = sequences.map fun s => (s.1, { s.2 with first := whereIn events s.2.first })) := by
  cases hx
  obtain ⟨y, h1, h2, _⟩ := Proofs.SoundArchiveObject.ssar_item h [] i.mergeID i.names fun _ => rfl
  rw [List.append_nil] at h1
  obtain ⟨es, starts, d, offs, h3, h4, h5, h6⟩ := h2.written rfl
  cases h3
  exact ⟨y, h1, h2.parsed, h2.unk02, h2.attributes, starts, d, offs, h4, h5, h6⟩

/-! ## Textures and tiles -/

/-- **C131.** A texture made from flags can be saved if its size is allowed; what `save()` returns makes the same texture. -/
theorem texture_built (a b : Nat) (rs rt ms mt : Bool) (w h f : Nat) (tr : Bool) (m u : Nat) (d1 d2 : Bytes) :
    ((∃ r, Build.textureSave (Build.texture a b rs rt ms mt w h f tr m u d1 d2) = .ok r) ↔
      Texture.AllowedSize w ∧ Texture.AllowedSize h) ∧
    (f < 8 → m < 4 → ∀ a' b' p u' d1' d2',
      Build.textureSave (Build.texture a b rs rt ms mt w h f tr m u d1 d2) = .ok (a', b', p, u', d1', d2') →
        Model.Texture.Texture.new a' b' p u' d1' d2' = ⟨a, b, rs, rt, ms, mt, w, h, f, tr, m, u, d1, d2⟩) := by
  constructor
  · rw [show (Texture.AllowedSize w ∧ Texture.AllowedSize h) ↔ _ from
      (Props.Texture.word_iff (Build.texture a b rs rt ms mt w h f tr m u d1 d2)).symm]
    constructor
    · rintro ⟨r, hr⟩
      unfold Build.textureSave at hr
      simp only [bind_eq_ok] at hr
      obtain ⟨p, hp, _⟩ := hr
      exact ⟨p, hp⟩
    · rintro ⟨p, hp⟩
      unfold Build.textureSave
      rw [hp]
      exact ⟨_, rfl⟩
  · intro hf hm a' b' p u' d1' d2' hs
    unfold Build.textureSave at hs
    simp only [bind_eq_ok, pure_eq_ok, Prod.mk.injEq] at hs
    obtain ⟨p, hp, rfl, rfl, rfl, rfl, rfl, rfl⟩ := hs
    exact Props.Texture.fields_roundtrip hp hf hm

/-- **C131.** The size of a texture is its width and height, and can be set. -/
theorem texture_size (t : Model.Texture.Texture) (w h : Nat) :
    Build.textureSize (Build.setTextureSize t (w, h)) = (w, h) ∧
    Build.setTextureSize t (w, h) = { t with width := w, height := h } ∧
    Build.setTextureSize t (Build.textureSize t) = t := ⟨rfl, rfl, rfl⟩

/-- **C131.** A palette made from colours with components in range: what `save()` returns makes the same palette. -/
theorem palette_built (a b c : Nat) (colors : List Color.Color)
    (hc : ∀ x ∈ colors, x.r < 32 ∧ x.g < 32 ∧ x.b < 32 ∧ x.a < 2) :
    ∃ p r, Build.palette a b c colors = .ok p ∧ Build.paletteSave p = .ok r ∧
      Build.newPalette r.1 r.2.1 r.2.2.1 r.2.2.2 = .ok ⟨a, b, c, colors⟩ := by
  have h := Props.Color.palette_roundtrip colors hc
  obtain ⟨d, h1, h2⟩ := bind_eq_ok.1 h
  refine ⟨⟨a, b, c, colors⟩, (a, b, c, d), rfl, ?_, ?_⟩
  · unfold Build.paletteSave
    dsimp only
    rw [h1]
    rfl
  · unfold Build.newPalette
    dsimp only
    rw [h2]
    rfl

/-- **C131.** A texture file made from textures and palettes. -/
theorem nsbtx_built (u1 u2 u3 u4 u5 u6 : Nat) (textures : List (Option Str × Model.Texture.Texture))
    (palettes : List (Option Str × Model.Texture.Palette)) (b : Bytes)
    (h : Model.Texture.save (Build.nsbtx u1 u2 u3 u4 u5 u6 textures palettes) = .ok b)
    (hr : Texture.Representable ⟨u1, u2, u3, u4, u5, u6, textures, palettes⟩) :
    ∃ t, Model.Texture.load b = .ok t ∧ t.textures = textures ∧ t.palettes = palettes ∧ t.unk08 = u1 ∧ t.unk10 = u2 ∧
      t.unk18 = u3 ∧ t.unk20 = u4 ∧ t.unk2C = u5 ∧ t.unk32 = u6 :=
  ⟨_, Props.Texture.nsbtx_roundtrip h hr, rfl, rfl, rfl, rfl, rfl, rfl, rfl, rfl⟩

/-- **C131.** A tile made from 64 pixels that the format can hold. -/
theorem tile_built (pixels : List Nat) (f : Graphics2D.ImageFormat) (hl : pixels.length = 64)
    (hp : ∀ x ∈ pixels, x < if f = .i4 then 16 else 256) :
    ∃ d t, (Build.imageTile pixels f).save = .ok d ∧ d.length = (if f = .i4 then 32 else 64) ∧
      Graphics2D.ImageTile.load d f = .ok t ∧ t.pixels = pixels ∧ t.format = f := by
  obtain ⟨d, h1, h2, h3⟩ := Props.Graphics2D.tile_roundtrip (Build.imageTile pixels f) ⟨hl, hp⟩
  exact ⟨d, _, h1, h2, h3, rfl, rfl⟩

/-- **C131.** A tile made from nothing is the one that zeros are loaded as, is saved as zeros, and is transparent with any
palettes. -/
theorem tile_default (f : Graphics2D.ImageFormat) (colors : List Color.Color) (p : Nat) :
    Graphics2D.ImageTile.load (List.replicate (if f = .i4 then 32 else 64) 0) f = .ok (Graphics2D.ImageTile.new f) ∧
    (Graphics2D.ImageTile.new f).save = .ok (List.replicate (if f = .i4 then 32 else 64) 0) ∧
    (Graphics2D.ImageTile.new f).render colors p = .ok (List.replicate 64 ⟨0, 0, 0, 0⟩) := by
  refine ⟨by cases f <;> decide +kernel, by cases f <;> decide +kernel, ?_⟩
  unfold Graphics2D.ImageTile.render Graphics2D.ImageTile.new
  rw [mapE_congr (g := fun _ => .ok ⟨0, 0, 0, 0⟩)]
  · decide +kernel
  · intro i hi
    rw [List.mem_range] at hi
    unfold Graphics2D.renderPixel
    have : pyIdx (List.replicate 64 0) i = .ok 0 := by
      unfold pyIdx
      rw [List.getElem?_replicate, if_pos hi]
    rw [this]
    rfl

/-- **C131.** A tilemap tile made from parameters holds them, and its value makes a tile with the same parameters if and
only if the format has room for them. -/
theorem tilemap_tile_built (n : Nat) (f : Graphics2D.TilemapFormat) (h v : Bool) (p : Nat) :
    Build.tilemapTile n f h v p = ⟨f, n, h, v, p⟩ ∧
    (Graphics2D.TilemapTile.load (Build.tilemapTile n f h v p).value f = ⟨f, n, h, v, p⟩ ↔
      if f = .i8 then n < 256 ∧ h = false ∧ v = false ∧ p = 0 else n < 1024 ∧ p < 16) :=
  ⟨rfl, (Props.Graphics2D.tilemap_entry ⟨f, n, h, v, p⟩).2⟩

/-! ## Buttons, messages and files -/

/-- **C131.** A file of touch areas. -/
theorem bnbl_built (areas : List Bn.TouchArea) (u : Int) (d : Bytes) (h : (Build.bnbl areas u).save = .ok d)
    (hp : ∀ t ∈ areas, (0 ≤ t.x ∧ t.x < 4096) ∧ (0 ≤ t.y ∧ t.y < 4096) ∧ Spec.Util.ProperAlignment t.alignment) :
    ∃ b, Bn.BNBL.load d = .ok b ∧ b.touchAreas = areas ∧ b.unk04 = u :=
  ⟨_, (Props.Bn.bnbl_roundtrip _ d h hp).1, rfl, rfl⟩

/-- **C131.** A file of image positions. -/
theorem bncl_built (l : List Bn.ImagePosition) (u : Int) (d : Bytes) (h : (Build.bncl l u).save = .ok d)
    (hp : ∀ t ∈ l, (0 ≤ t.x ∧ t.x < 4096) ∧ (0 ≤ t.y ∧ t.y < 4096) ∧ Spec.Util.ProperAlignment t.alignment) :
    ∃ b, Bn.BNCL.load d = .ok b ∧ b.imagePositions = l ∧ b.unk04 = u :=
  ⟨_, (Props.Bn.bncl_roundtrip _ d h hp).1, rfl, rfl⟩

/-- **C131.** An archive of files. -/
theorem narc_built (files : List Bytes) (names : Fnt.Folder) (d : Bytes)
    (h : Narc.save (Narc.fromFilesAndNames files (some names)) = .ok d) (hne : Spec.Fnt.NoEmptyFileName names) (limit : Nat)
    (hd : Spec.Fnt.depth names ≤ limit) :
    ∃ n, Narc.load limit d = .ok n ∧ n.files = files ∧ n.filenames = names :=
  ⟨_, Props.Narc.narc_roundtrip _ d h hne limit hd, rfl, rfl⟩

/-- **C131.** A file of messages that the format can hold exactly, as UTF-16; see `tellable_short` for when the byte order can
be told from the length. -/
theorem bmg_built (sjis : Text.Codec) (messages : List Bmg.Message) (instructions : List Bytes) (labels : List (Int × Int))
    (scripts : List (Nat × Nat)) (id id' : Nat) (d : Bytes)
    (h : (Build.bmg messages (some instructions) (some labels) (some scripts) id).save sjis = .ok d)
    (hc : Spec.Bmg.Canonical (Build.bmg messages (some instructions) (some labels) (some scripts) id))
    (ht : Spec.Bmg.Tellable .little (Spec.Bmg.statedLength d.length)) (fuel : Nat) (hf : d.length ≤ fuel) :
    ∃ b, Bmg.BMG.load sjis fuel d id' = .ok b ∧ b.messages = messages ∧ b.instructions = instructions ∧ b.labels = labels ∧
      b.scripts = scripts ∧ b.id = id ∧ b.encoding = .utf16 ∧ b.endianness = .little :=
  ⟨_, (Props.Bmg.bmg_roundtrip_iff (P := fun _ => True) (fun h => by cases h) h ht fuel id' hf).2 hc, rfl, rfl, rfl, rfl, rfl,
    rfl, rfl⟩

/-- **C131.** In files of less than 64 KiB the byte order can be told. -/
theorem tellable_short {n : Nat} (h0 : 0 < n) (h : n < 65536) : Spec.Bmg.Tellable .little n := by
  unfold Spec.Bmg.Tellable Spec.Bmg.swap32
  dsimp only
  have h1 : n / 256 / 256 = 0 := by omega
  have h2 : n / 256 / 256 / 256 = 0 := by omega
  simp [leBytes, leVal, h1, h2]
  omega

/-- **C131.** Instructions, labels and scripts that are not given are empty lists. -/
theorem bmg_default (messages : List Bmg.Message) :
    Build.bmg messages = Build.bmg messages (some []) (some []) (some []) 0 := rfl

/-- **C131.** What the arguments that are left out stand for. -/
theorem built_defaults (data : Bytes) (waves : List SoundWave.SWAV) (channels : List (List Bytes))
    (instruments : List (Option SoundBank.Inst)) (events : List (Nat × SoundSequence.Ev))
    (sequences : List (Option Str × SoundSequenceArchive.Sequence)) (pixels : List Nat) (n : Nat) (areas : List Bn.TouchArea)
    (positions : List Bn.ImagePosition) :
    Build.swav data = Build.swav data 0 false 8000 0 0 0 ∧ Build.swav = Build.swav [] ∧
    Build.swar waves = Build.swar waves 0 ∧
    Build.strm channels = Build.strm channels 0 127 64 0 0 ∧
    Build.sbnk instruments = Build.sbnk instruments 0 (some []) ∧
    Build.sseq events = Build.sseq events 0 0 127 64 50 0 ∧
    Build.ssar events sequences = Build.ssar events sequences 0 ∧
    Build.imageTile pixels = Build.imageTile pixels .i8 ∧
    Build.tilemapTile n = Build.tilemapTile n .i10h1v1p4 false false 0 ∧
    Build.bnbl areas = Build.bnbl areas 0 ∧ Build.bncl positions = Build.bncl positions 0 :=
  ⟨rfl, rfl, rfl, rfl, rfl, rfl, rfl, rfl, rfl, rfl, rfl⟩

/-! ## Examples -/

-- a short looped wave
example : ∃ b, (Build.swav [1, 2, 3, 4, 5, 6, 7, 8] 1 true 16000 1047 1 2).save false false =
    .ok (b, Build.swav [1, 2, 3, 4, 5, 6, 7, 8] 1 true 16000 1047 1 2) := ⟨_, rfl⟩

-- two waves
example : ∃ i, (Build.swar [Build.swav [1, 2, 3, 4], Build.swav [5, 6, 7, 8] 2] 9).save = .ok i := ⟨_, rfl⟩

-- two channels of two blocks
example : ∃ i, (Build.strm [[[1, 2, 3, 4], [5, 6]], [[7, 8, 9, 10], [11, 12]]] 1 2 3 4 5).save = .ok i := ⟨_, rfl⟩

-- one instrument, two empty slots at the end of the wave archives
example : ∃ i, (Build.sbnk [some ⟨.single ⟨3, 0, 60, 127, 127, 127, 127, 64, 1⟩, 0, 0⟩, none] 7
    (some [none, some 3, none, none])).save = .ok i ∧ i.waveArchiveIDs = [none, some 3] := ⟨_, rfl, rfl⟩

-- a rest and the end
example : ∃ x i, Build.sseq [(0, .rest 5), (1, .endTrack)] 1 2 3 4 5 6 = .ok x ∧ x.save = .ok i := ⟨_, _, rfl, rfl⟩

example : ∃ x i, Build.ssar [(0, .rest 5), (1, .endTrack)] [(some [97], ⟨.parsed (some 1), 3, 127, 64, 50, 1⟩), (none, ⟨.parsed none, 3, 127, 64, 50, 1⟩)] 1 = .ok x ∧
    x.save = .ok i := ⟨_, _, rfl, rfl⟩

example : Texture.AllowedSize 64 ∧ Texture.AllowedSize 1024 ∧ ¬ Texture.AllowedSize 24 := by
  unfold Texture.AllowedSize; decide

-- two colours in range
example : ∀ x ∈ [(⟨31, 0, 17, 1⟩ : Color.Color), ⟨1, 2, 3, 0⟩], x.r < 32 ∧ x.g < 32 ∧ x.b < 32 ∧ x.a < 2 := by decide

-- a file of textures and palettes
example : ∃ b, Model.Texture.save (Build.nsbtx Props.Texture.sample.unk08 Props.Texture.sample.unk10 Props.Texture.sample.unk18
    Props.Texture.sample.unk20 Props.Texture.sample.unk2C Props.Texture.sample.unk32 Props.Texture.sample.textures
    Props.Texture.sample.palettes) = .ok b := by
  have h : (Model.Texture.save Props.Texture.sample).toOption.isSome := by decide +kernel
  show ∃ b, Model.Texture.save Props.Texture.sample = .ok b
  cases e : Model.Texture.save Props.Texture.sample with
  | ok b => exact ⟨b, rfl⟩
  | error _ => rw [e] at h; cases h
example : Texture.Representable Props.Texture.sample := Props.Texture.sample_representable

-- 64 pixels, the last of them the largest
example : (List.replicate 63 3 ++ [15]).length = 64 ∧ ∀ x ∈ List.replicate 63 3 ++ [15], x < 16 := by decide

-- a touch area and an image position
example : (Build.bnbl [⟨100, 4095, 7, 255, 0x42⟩] 5).save =
      .ok [74, 78, 66, 76, 5, 0, 1, 0, 100, 32, 255, 31, 7, 255] ∧ Spec.Util.ProperAlignment 0x42 :=
  ⟨by decide +kernel, 2, 64, by decide, by decide, rfl⟩
example : ∃ d, (Build.bncl [⟨100, 4095, 0x42, 3⟩] 5).save = .ok d := ⟨_, rfl⟩

-- a file in a folder
example : ∃ d, Narc.save (Narc.fromFilesAndNames [[1, 2], [3]]
      (some (.mk (.cons [100] (.mk .nil [[99]] 1) .nil) [[97]] 0))) = .ok d := by
  have h : (Narc.save (Narc.fromFilesAndNames [[1, 2], [3]]
      (some (.mk (.cons [100] (.mk .nil [[99]] 1) .nil) [[97]] 0)))).toOption.isSome := by decide +kernel
  cases e : Narc.save (Narc.fromFilesAndNames [[1, 2], [3]]
      (some (.mk (.cons [100] (.mk .nil [[99]] 1) .nil) [[97]] 0))) with
  | ok b => exact ⟨b, rfl⟩
  | error _ => rw [e] at h; cases h
example : Spec.Fnt.NoEmptyFileName (.mk (.cons [100] (.mk .nil [[99]] 1) .nil) [[97]] 0) ∧
    Spec.Fnt.depth (.mk (.cons [100] (.mk .nil [[99]] 1) .nil) [[97]] 0) ≤ 2 := by
  refine ⟨?_, by decide⟩
  simp [Spec.Fnt.NoEmptyFileName, Spec.Fnt.All, Spec.Fnt.AllIn, Fnt.Folder.files]

-- a message with text and an escape, an instruction, a label and a script
example : Spec.Bmg.Canonical (Build.bmg [⟨[7, 0], [.text [72, 105], .escape 1 [5, 6]], false⟩]
    (some [[1, 2, 3, 4, 5, 6, 7, 8]]) (some [(1, -1)]) (some [(4, 9)]) 3) := by
  refine ⟨by decide, ?_, by decide, by decide, by decide⟩
  simp [Build.bmg, Spec.Bmg.Merged]
example : ((Build.bmg [⟨[7, 0], [.text [72, 105], .escape 1 [5, 6]], false⟩]
    (some [[1, 2, 3, 4, 5, 6, 7, 8]]) (some [(1, -1)]) (some [(4, 9)]) 3).save Text.cp1252).toOption.map (fun d =>
      (d.length, Spec.Bmg.statedLength d.length)) = some (184, 192) := by decide +kernel

end Verif.Props.Build
