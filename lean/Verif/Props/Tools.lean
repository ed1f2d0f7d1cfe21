import Verif.Props.Files
import Verif.Props.Fnt
import Verif.Props.Json
import Verif.Props.RomCode
import Verif.Props.RomLoad
import Verif.Spec.Tools

/-!
# The programs in `tools/` (C142)
-/

namespace Verif.Props.Tools

open Verif Verif.Model.Files Verif.Model.Tools Verif.Spec.Files Verif.Spec.Tools
open Verif.Model.Fnt (Folder Folders)

/-! ## What loaded ROMs are like -/

theorem loaded_filenames {p : Prop} [Decidable p] {x : Py Folder} {q : Model.Rom.Rom} {g : Folder → Model.Rom.Rom} {f0 : Folder}
    (h : (if p then .ok (g f0) else x >>= fun f => .ok (g f)) = Except.ok (ε := PyErr) q) :
    ∃ f, g f = q ∧ (f = f0 ∨ x = .ok f) := by
  split at h
  · exact ⟨f0, by cases h; rfl, .inl rfl⟩
  · obtain ⟨f, hx, hf⟩ := bind_eq_ok.1 h
    exact ⟨f, by cases hf; rfl, .inr hx⟩

/-- What is true of every loaded ROM: its name fits and does not end in zeros, and its names of files are not empty. -/
theorem rom_loaded {limit : Nat} {raw : Bytes} {q : Model.Rom.Rom} (h : Model.Rom.load limit raw = .ok q) (hl : 1 ≤ limit) :
    q.name.length ≤ 12 ∧ q.name.getLast? ≠ some 0 ∧ q.secureAreaDisable.length = 8 ∧
    Spec.Fnt.NoEmptyFileName q.filenames ∧ Spec.Fnt.depth q.filenames ≤ limit ∧ Spec.Fnt.NamesOk q.filenames := by
  have hl' := Rom.image_length raw
  unfold Model.Rom.load at h
  rw [show raw ++ zeros (0x200 - raw.length) = Rom.image raw from rfl] at h
  generalize Rom.image raw = d at hl' h ⊢
  dsimp only at h
  rw [Rom.unpackUs_le (by simp only [List.sum_cons, List.sum_nil]; omega), bind_ok,
    Rom.unpackUs_le (by simp only [List.sum_cons, List.sum_nil]; omega), bind_ok,
    Rom.unpackUs_le (by simp only [List.sum_cons, List.sum_nil]; omega), bind_ok,
    Rom.unpackUs_le (by simp only [List.sum_cons, List.sum_nil]; omega), bind_ok,
    Rom.unpackUs_le (by simp only [List.sum_cons, List.sum_nil]; omega), bind_ok] at h
  simp only [Rom.fieldVals, Rom.readFiles_ok, bind_ok, bind_eq_ok, Nat.reduceAdd] at h
  obtain ⟨o, ho, ic, hic, h⟩ := h
  obtain ⟨f, rfl, hf⟩ := loaded_filenames h
  obtain ⟨k, e1, e2⟩ := Proofs.InfoBlock.rstripZero_eq (slice d 0 12)
  refine ⟨?_, e2, ?_, ?_⟩
  · have := congrArg List.length e1
    rw [slice_length, List.length_append] at this
    show (Model.InfoBlock.rstripZero (slice d 0 12)).length ≤ 12
    omega
  · show (slice d 0x78 0x80).length = 8
    rw [slice_length]; omega
  · rcases hf with rfl | hf
    · refine ⟨?_, ?_, ?_⟩
      · simp [Model.Fnt.emptyFolder, Spec.Fnt.NoEmptyFileName, Spec.Fnt.All, Spec.Fnt.AllIn, Folder.files]
      · simp only [Model.Fnt.emptyFolder, Spec.Fnt.depth, Spec.Fnt.depthIn]; omega
      · simp [Model.Fnt.emptyFolder, Spec.Fnt.NamesOk, Spec.Fnt.All, Spec.Fnt.AllIn, Folder.files, Folder.folders,
          Spec.Fnt.names]
    · obtain ⟨h1, h2, h3, h4⟩ := Proofs.FntLoad.loadFolder_loaded hf
      exact ⟨h2, h4, h1⟩

/-! ## fnttool -/

theorem utf8_ascii {s : Str} (h : ∀ c ∈ s, c < 128) : Model.Text.encodeWith Model.Text.utf8Char s = .ok (ascii s) := by
  induction s with
  | nil => rfl
  | cons c s ih =>
    refine Proofs.Text.encodeWith_cons.2 ⟨[UInt8.ofNat c], ascii s, ?_, ih fun x hx => h x (by simp [hx]), rfl⟩
    have := h c (by simp)
    rw [Model.Text.utf8Char, if_pos (by omega)]

theorem ascii_utf8 {s : Str} (h : ∀ c ∈ s, c < 128) : Model.Text.utf8Dec (ascii s) = .ok s :=
  Proofs.Text.dec_enc rfl Proofs.Text.utf8_step s _ (utf8_ascii h)

mutual
theorem all_mono {p q : Folder → Prop} (h : ∀ f, p f → q f) : ∀ f, Spec.Fnt.All p f → Spec.Fnt.All q f
  | .mk fs files i, h1 => ⟨h _ h1.1, allIn_mono h fs h1.2⟩
theorem allIn_mono {p q : Folder → Prop} (h : ∀ f, p f → q f) : ∀ fs, Spec.Fnt.AllIn p fs → Spec.Fnt.AllIn q fs
  | .nil, _ => trivial
  | .cons _ f rest, h1 => ⟨all_mono h f h1.1, allIn_mono h rest h1.2⟩
end

theorem texts_of_names {t : Folder} (h : Spec.Fnt.NamesOk t) : Spec.Json.Texts t :=
  all_mono (fun _ hf => ⟨fun n hn c hc => .inl (by have := (hf.1 n hn).2 c hc; omega),
    fun n hn c hc => .inl (by have := (hf.2 n hn).2 c hc; omega)⟩) t h

/-- What a table in a file is like. -/
theorem holds_inv {limit : Nat} {k : Kind} {d : Bytes} {t : Folder} (h : Holds limit k d t) (hl : 1 ≤ limit) :
    tableIn limit k d = .ok t ∧ Spec.Fnt.NoEmptyFileName t ∧ Spec.Fnt.depth t ≤ limit ∧ Spec.Json.Texts t := by
  cases k with
  | bin =>
    obtain ⟨h1, h2, h3, h4⟩ := Proofs.FntLoad.loadFolder_loaded h
    exact ⟨h, h2, h4, texts_of_names h1⟩
  | rom =>
    obtain ⟨q, hq, rfl⟩ := h
    obtain ⟨-, -, -, h1, h2, h3⟩ := rom_loaded hq hl
    refine ⟨?_, h1, h2, texts_of_names h3⟩
    unfold tableIn
    dsimp only
    rw [hq]; rfl
  | json =>
    obtain ⟨rfl, h1, h2, h3⟩ := h
    cases t with
    | mk fs files i =>
      obtain rfl : fs = .nil := h1
      have ht : Spec.Json.Texts (.mk .nil files i) :=
        ⟨⟨h3, fun n hn => nomatch hn⟩, trivial⟩
      refine ⟨?_, ⟨h2, trivial⟩, hl, ht⟩
      unfold tableIn
      dsimp only
      rw [ascii_utf8 (Json.json_ascii _), bind_ok]
      exact Json.json_roundtrip_partial _ ht rfl limit hl
  | narc => exact h.elim

/-- **C142.** A call of `fnttool` that raises an exception changes no file. -/
theorem fnttool_error {limit : Nat} {i o : Kind} {infile outfile : Path} {fs fs' : FS} {e : PyErr}
    (h : fnttool limit i o infile outfile fs = (.error e, fs')) : fs' = fs := by
  unfold fnttool at h
  split at h
  · cases h; rfl
  · split at h
    · cases h; rfl
    · unfold writeWith at h
      split at h
      · cases h; rfl
      · unfold FS.write at h
        split at h
        · cases h
        · cases h; rfl

/-- What a call that returns did. -/
theorem fnttool_inv {limit : Nat} {i o : Kind} {infile outfile : Path} {fs fs' : FS}
    (h : fnttool limit i o infile outfile fs = (.ok (), fs')) :
    ∃ s t d, fs.content infile = some s ∧ tableIn limit i s = .ok t ∧ dataOut limit o t (fs.content outfile) = .ok d ∧
      fs.writable outfile = true ∧ Wrote fs fs' outfile d := by
  unfold fnttool at h
  split at h
  · cases h
  · unfold readWith FS.read at h
    cases hc : fs.content infile with
    | none => rw [hc] at h; cases h
    | some s =>
      rw [hc] at h
      dsimp only at h
      rw [bind_ok] at h
      cases ht : tableIn limit i s with
      | error e => rw [ht] at h; cases h
      | ok t =>
        rw [ht] at h
        dsimp only at h
        unfold writeWith at h
        cases hd : dataOut limit o t (fs.content outfile) with
        | error e => rw [hd] at h; cases h
        | ok d =>
          rw [hd] at h
          dsimp only at h
          unfold FS.write at h
          split at h
          · rename_i hw
            cases h
            exact ⟨s, t, d, rfl, ht, hd, hw, by simp, fun q hq => by simp [hq], fun q => rfl⟩
          · cases h

/-- **C142.** A call of `fnttool` that returns has written the output file and no other. -/
theorem fnttool_ok {limit : Nat} {i o : Kind} {infile outfile : Path} {fs fs' : FS}
    (h : fnttool limit i o infile outfile fs = (.ok (), fs')) : ∃ d, Wrote fs fs' outfile d :=
  let ⟨_, _, d, _, _, _, _, hw⟩ := fnttool_inv h
  ⟨d, hw⟩

/-- **C142.** With an input file that holds a table, the output file holds that table afterwards.  As JSON, its text stands
for the table (`document`), with folders and all.  In a ROM, nothing but the names is different from what was there. -/
theorem fnttool_table {limit : Nat} {i o : Kind} {infile outfile : Path} {fs fs' : FS} {s : Bytes} {t : Folder}
    (h : fnttool limit i o infile outfile fs = (.ok (), fs')) (hl : 1 ≤ limit) (hc : fs.content infile = some s)
    (ht : Holds limit i s t) : ∃ d, fs'.content outfile = some d ∧
      (o ≠ .json → Holds limit o d t) ∧
      (o = .json → ∃ text, d = ascii text ∧ Model.Json.loads text = .ok (Spec.Json.document t)) ∧
      (o = .rom → ∃ d0 r q, fs.content outfile = some d0 ∧ Model.Rom.load limit d0 = .ok r ∧ Model.Rom.load limit d = .ok q ∧
        OnlyNamesDiffer q r) := by
  obtain ⟨s', t', d, h1, h2, h3, h4, h5⟩ := fnttool_inv h
  obtain ⟨g1, g2, g3, g4⟩ := holds_inv ht hl
  rw [hc] at h1
  cases h1
  rw [g1] at h2
  cases h2
  refine ⟨d, h5.here, ?_⟩
  cases o with
  | bin =>
    refine ⟨fun _ => ?_, nofun, nofun⟩
    have := Fnt.fnt_roundtrip t d [] h3 g2 limit g3
    rwa [List.append_nil] at this
  | json =>
    refine ⟨fun hn => absurd rfl hn, fun _ => ⟨Model.Json.fntToJson t, ?_, Json.json_text t g4⟩, nofun⟩
    have h3' : Model.Text.encodeWith Model.Text.utf8Char (Model.Json.fntToJson t) = .ok d := h3
    rw [utf8_ascii (Json.json_ascii t)] at h3'
    exact (Except.ok.inj h3').symm
  | rom =>
    cases hx : fs.content outfile with
    | none => rw [hx] at h3; cases h3
    | some d0 =>
      rw [hx] at h3
      unfold dataOut at h3
      dsimp only at h3
      obtain ⟨r, hr, h3⟩ := bind_eq_ok.1 h3
      obtain ⟨⟨b, r'⟩, hb, h3⟩ := bind_eq_ok.1 h3
      cases h3
      obtain ⟨k1, k2, k3, -⟩ := rom_loaded hr hl
      obtain ⟨q, hq, e⟩ := Rom.rom_roundtrip { r with filenames := t } r' false b hb limit k1 k2 k3 g2 g3
      have e' : r' = { r with filenames := t } := by
        unfold Model.Rom.save at hb
        simp only [bind_eq_ok, pure_eq_ok] at hb
        obtain ⟨_, _, _, _, hb⟩ := hb
        exact (Prod.mk.inj hb).2.symm
      have hn : q.filenames = t := by rw [e, e']
      refine ⟨fun _ => ⟨q, hq, hn⟩, nofun, fun _ => ⟨d0, r, q, rfl, hr, hq, ?_⟩⟩
      unfold OnlyNamesDiffer
      rw [hn]
      rw [e'] at e
      exact e
  | narc => cases hx : fs.content outfile <;> rw [hx] at h3 <;> cases h3

/-- A folder with these files, where everything can be written. -/
def files (l : List (Path × Bytes)) : FS :=
  ⟨fun p => (l.find? fun x => x.1 = p).map Prod.snd, fun _ => true⟩

/-- The files `a`, `b` and `c`. -/
def pathA : Path := ⟨[], [97]⟩
def pathB : Path := ⟨[], [98]⟩
def pathC : Path := ⟨[], [99]⟩

/-- A raw table. -/
def rawTable : Bytes := [24, 0, 0, 0, 0, 0, 3, 0, 33, 0, 0, 0, 1, 0, 0, 240, 40, 0, 0, 0, 2, 0, 1, 240,
  3, 97, 46, 98, 129, 100, 1, 240, 0, 1, 99, 129, 101, 2, 240, 0, 0]

example : Holds 3 .bin rawTable Fnt.sample ∧
    (fnttool 3 .bin .json pathA pathB (files [(pathA, rawTable)])).1 = .ok () ∧
    (fnttool 3 .json .bin pathA pathB (files [(pathA, ascii (Model.Json.fntToJson Json.flat))])).1 = .ok () ∧
    (fnttool 3 .bin .bin pathC pathB (files [(pathA, rawTable)])).1 = .error .osError := by
  refine ⟨?_, ?_, ?_, ?_⟩
  · show Model.Fnt.load 3 rawTable = .ok Fnt.sample
    decide +kernel
  all_goals decide +kernel

/-- **C142.** Names taken out of a ROM with `-ir -ob` and put into another one with `-ib -or`: the second ROM then has the
names of the first, and is otherwise as it was. -/
theorem fnttool_transfer {limit : Nat} {a b c : Path} {fs fs1 fs2 : FS} (hl : 1 ≤ limit) (hbc : c ≠ b)
    (h1 : fnttool limit .rom .bin a b fs = (.ok (), fs1)) (h2 : fnttool limit .bin .rom b c fs1 = (.ok (), fs2)) :
    ∃ da dc d p r q, fs.content a = some da ∧ fs.content c = some dc ∧ fs2.content c = some d ∧
      Model.Rom.load limit da = .ok p ∧ Model.Rom.load limit dc = .ok r ∧ Model.Rom.load limit d = .ok q ∧
      q.filenames = p.filenames ∧ OnlyNamesDiffer q r := by
  obtain ⟨da, t, _, g1, g2, -, -, hw⟩ := fnttool_inv h1
  obtain ⟨p, hp, g2⟩ := bind_eq_ok.1 (show (Model.Rom.load limit da >>= fun r => pure r.filenames) = .ok t from g2)
  cases g2
  obtain ⟨x, hx, hb, -, -⟩ := fnttool_table h1 hl g1 ⟨p, hp, rfl⟩
  obtain ⟨d, hd, hr, -, hrom⟩ := fnttool_table h2 hl hx (hb nofun)
  obtain ⟨dc, r, q, k1, k2, k3, k4⟩ := hrom rfl
  obtain ⟨q', k3', k5⟩ := hr nofun
  rw [k3] at k3'
  cases k3'
  exact ⟨da, dc, d, p, r, q, g1, by rw [← hw.elsewhere c hbc]; exact k1, hd, hp, k2, k3, k5, k4⟩

/-- **C142.** When `fnttool` returns: writing JSON always works if the file can be written; writing a raw table works if the
names fit, the numbers have 16 bits and there are not too many folders. -/
theorem fnttool_returns {limit : Nat} {i : Kind} {infile outfile : Path} {fs : FS} {s : Bytes} {t : Folder} (hl : 1 ≤ limit)
    (hc : fs.content infile = some s) (ht : Holds limit i s t) (hw : fs.writable outfile = true) :
    (∃ fs', fnttool limit i .json infile outfile fs = (.ok (), fs')) ∧
    (Spec.Fnt.byteSize t ≤ 2 ^ 32 → ((∃ fs', fnttool limit i .bin infile outfile fs = (.ok (), fs')) ↔
      Spec.Fnt.NamesOk t ∧ Spec.Fnt.FirstIDsOk t ∧ Spec.Fnt.folderCount t ≤ 4096)) := by
  obtain ⟨g1, g2, g3, g4⟩ := holds_inv ht hl
  have key : ∀ o, o = .bin ∨ o = .json → fnttool limit i o infile outfile fs =
      writeWith (dataOut limit o t (fs.content outfile)) outfile fs := by
    intro o ho
    unfold fnttool
    rw [if_neg (by rcases ho with rfl | rfl <;> simp)]
    unfold readWith FS.read
    rw [hc]
    dsimp only
    rw [bind_ok, g1]
  refine ⟨?_, fun hs => ?_⟩
  · rw [key _ (.inr rfl), show dataOut limit .json t (fs.content outfile) =
      Model.Text.encodeWith Model.Text.utf8Char (Model.Json.fntToJson t) from rfl, utf8_ascii (Json.json_ascii t)]
    unfold writeWith FS.write
    dsimp only
    rw [if_pos hw]
    exact ⟨_, rfl⟩
  · rw [key _ (.inl rfl), show dataOut limit .bin t (fs.content outfile) = Model.Fnt.save t from rfl,
      ← (Fnt.fnt_save_ok_iff t hs).1]
    unfold writeWith FS.write
    cases Model.Fnt.save t with
    | error e => exact ⟨fun ⟨_, h⟩ => (nomatch (Prod.mk.inj h).1), fun ⟨_, h⟩ => nomatch h⟩
    | ok d =>
      dsimp only
      rw [if_pos hw]
      exact ⟨fun _ => ⟨d, rfl⟩, fun _ => ⟨_, rfl⟩⟩

/-- Two ROMs for which `fnttool_transfer` can be used. -/
example : ∃ fs fs1 fs2, fnttool 1 .rom .bin pathA pathB fs = (.ok (), fs1) ∧ fnttool 1 .bin .rom pathB pathC fs1 = (.ok (), fs2) := by
  obtain ⟨b, q, hb, hq, -, -, -, -, hs⟩ := Rom.sample_resaves
  obtain ⟨q', hq', -, hn, -⟩ := RomCode.reload Rom.sample _ false b hb 1 Rom.sample_names.1 (by rw [Rom.sample_names.2]; decide)
  rw [hq] at hq'
  cases hq'
  have hn' : q.filenames = .mk .nil [[97], [98]] 0 := hn
  have he : ({ q with filenames := .mk .nil [[97], [98]] 0 } : Model.Rom.Rom) = q := by rw [← hn']
  have hx : ∃ x, Model.Fnt.save (.mk .nil [[97], [98]] 0) = .ok x ∧ Model.Fnt.load 1 x = .ok (.mk .nil [[97], [98]] 0) :=
    ⟨_, by rfl, by decide +kernel⟩
  obtain ⟨x, hx, hx'⟩ := hx
  let fs : FS := ⟨fun p => if p = pathA ∨ p = pathC then some b else none, fun _ => true⟩
  let fs1 : FS := ⟨fun p => if p = pathB then some x else fs.content p, fun _ => true⟩
  let fs2 : FS := ⟨fun p => if p = pathC then some b else fs1.content p, fun _ => true⟩
  refine ⟨fs, fs1, fs2, ?_, ?_⟩
  · have h1 : readWith (tableIn 1 .rom) pathA fs = .ok (.mk .nil [[97], [98]] 0) := by
      show (Model.Rom.load 1 b >>= fun r => pure r.filenames) = _
      rw [hq, bind_ok, hn']; rfl
    unfold fnttool
    rw [if_neg (by simp), h1]
    show writeWith (Model.Fnt.save _) pathB fs = _
    rw [hx]; rfl
  · have h1 : readWith (tableIn 1 .bin) pathB fs1 = .ok (.mk .nil [[97], [98]] 0) := hx'
    unfold fnttool
    rw [if_neg (fun h => nomatch (show some b = none from h.2)), h1]
    show writeWith (Model.Rom.load 1 b >>= fun r => Model.Rom.save { r with filenames := .mk .nil [[97], [98]] 0 } false >>=
      fun y => pure y.1) pathC fs1 = _
    rw [hq, bind_ok, he, hs, bind_ok]; rfl

/-- **C142.** To put names into a ROM that is not there is refused, and so is everything with NARCs: `fnttool` does not
return, and no file is changed. -/
theorem fnttool_refuses (limit : Nat) (i o : Kind) (infile outfile : Path) (fs : FS) :
    (o = .rom → fs.content outfile = none → fnttool limit i o infile outfile fs = (.error .valueError, fs)) ∧
    (i = .narc ∨ o = .narc → ∃ e, fnttool limit i o infile outfile fs = (.error e, fs) ∧
      (fs.content infile ≠ none → fs.content outfile ≠ none → i = .narc → e = .attributeError)) := by
  constructor
  · rintro rfl h
    unfold fnttool
    rw [if_pos ⟨.inl rfl, h⟩]
  · intro h
    rcases hx : fnttool limit i o infile outfile fs with ⟨e | _, fs'⟩
    · have hfs := fnttool_error hx
      subst hfs
      refine ⟨e, rfl, ?_⟩
      rintro h1 h2 rfl
      cases hc : fs'.content infile with
      | none => exact absurd hc h1
      | some s =>
        unfold fnttool at hx
        rw [if_neg (fun h => h2 h.2)] at hx
        unfold readWith FS.read at hx
        rw [hc] at hx
        cases hx; rfl
    · obtain ⟨s, t, d, h1, h2, h3, -⟩ := fnttool_inv hx
      rcases h with rfl | rfl
      · cases h2
      · cases hc : fs.content outfile <;> rw [hc] at h3 <;> cases h3

example : fnttool 3 .bin .rom pathA pathB (files [(pathA, rawTable)]) = (.error .valueError, files [(pathA, rawTable)]) :=
  (fnttool_refuses 3 .bin .rom pathA pathB _).1 rfl (by decide)

/-! ## lz10tool -/

/-- Whether the program compresses the data. -/
def Compresses (m : Mode) (s : Bytes) (c : Bool) : Prop :=
  match m with
  | .compress => c = true
  | .decompress => c = false
  | .guess => s ≠ [] ∧ (c = true ↔ s.head? ≠ some 0x10)

/-- Where the program writes: to the file that was given, or to the input's name with `.lz10` or `.raw` at its end. -/
def Goes (c : Bool) (i : Path) : Option Path → Path → Prop
  | some p, q => q = p
  | none, q => q = ⟨i.folder, i.name ++ Model.Repr.lit (if c then ".lz10" else ".raw")⟩

theorem goes_iff {c : Bool} {i : Path} {o : Option Path} {q : Path} : Goes c i o q ↔
    q = o.getD (Path.plus i (if c then [46, 108, 122, 49, 48] else [46, 114, 97, 119])) := by
  cases o with
  | some p => exact Iff.rfl
  | none => cases c <;> exact Iff.rfl

theorem compresses_iff {m : Mode} {s : Bytes} {c : Bool} : Compresses m s c ↔ shouldCompress m s = .ok c := by
  cases m with
  | compress => cases c <;> simp [Compresses, shouldCompress]
  | decompress => cases c <;> simp [Compresses, shouldCompress]
  | guess =>
    cases s with
    | nil => simp [Compresses, shouldCompress]
    | cons b s =>
      unfold Compresses shouldCompress
      by_cases hb : b = 0x10 <;> cases c <;> simp [hb]

/-- **C142.** `lz10tool` returns exactly when there is data that can be converted and a file that can be written; it has
then written the converted data to that file, and nothing else. -/
theorem lz10tool_ok {m : Mode} {i : Path} {o : Option Path} {fs fs' : FS} : lz10tool m i o fs = (.ok (), fs') ↔
    ∃ s c p d, fs.content i = some s ∧ Compresses m s c ∧ Goes c i o p ∧
      (if c then Model.Lz10.compress s else Model.Lz10.decompress s) = .ok d ∧ fs.writable p = true ∧ Wrote fs fs' p d := by
  unfold lz10tool readWith FS.read
  cases hc : fs.content i with
  | none => exact ⟨fun h => (nomatch (Prod.mk.inj h).1), fun ⟨_, _, _, _, h, _⟩ => nomatch h⟩
  | some s =>
    dsimp only
    rw [bind_ok]
    cases hs : shouldCompress m s with
    | error e =>
      refine ⟨fun h => (nomatch (Prod.mk.inj h).1), fun ⟨s', c, p, d, h, h1, _⟩ => ?_⟩
      cases h
      rw [compresses_iff, hs] at h1
      cases h1
    | ok c =>
      rw [bind_ok]
      show writeWith _ _ fs = _ ↔ _
      rw [Proofs.Files.writeWith_ok]
      constructor
      · rintro ⟨d, h1, h2, h3⟩
        exact ⟨s, c, _, d, rfl, compresses_iff.2 hs, goes_iff.2 rfl, h1, h2, h3⟩
      · rintro ⟨s', c', p, d, h, h1, h2, h3, h4, h5⟩
        cases h
        rw [compresses_iff, hs] at h1
        cases h1
        rw [goes_iff] at h2
        subst h2
        exact ⟨d, h3, h4, h5⟩

/-- **C142.** A call of `lz10tool` that raises an exception changes no file.  Without an option, an empty file makes it
raise `IndexError`. -/
theorem lz10tool_error {m : Mode} {i : Path} {o : Option Path} {fs fs' : FS} {e : PyErr}
    (h : lz10tool m i o fs = (.error e, fs')) : fs' = fs ∧ (m = .guess → fs.content i = some [] → e = .indexError) := by
  unfold lz10tool at h
  split at h
  · rename_i e' hr
    cases h
    refine ⟨rfl, ?_⟩
    rintro rfl hc
    unfold readWith FS.read at hr
    rw [hc] at hr
    cases hr; rfl
  · rename_i c ind hr
    refine ⟨(Proofs.Files.writeWith_error h).1, ?_⟩
    rintro rfl hc
    unfold readWith FS.read at hr
    rw [hc] at hr
    cases hr

/-- **C142.** Called twice without options, `lz10tool` gives back the data, if it is not empty and does not begin with the
byte 0x10: first `x.lz10` is written, and then `x.lz10.raw` with what was in `x`.  Nothing else is changed. -/
theorem lz10tool_twice {i : Path} {fs fs1 fs2 : FS} {s : Bytes} (hc : fs.content i = some s) (h10 : s.head? ≠ some 0x10)
    (h1 : lz10tool .guess i none fs = (.ok (), fs1))
    (h2 : lz10tool .guess ⟨i.folder, i.name ++ Model.Repr.lit ".lz10"⟩ none fs1 = (.ok (), fs2)) :
    fs2.content ⟨i.folder, i.name ++ Model.Repr.lit ".lz10.raw"⟩ = some s ∧
    ∀ p, p ≠ ⟨i.folder, i.name ++ Model.Repr.lit ".lz10"⟩ → p ≠ ⟨i.folder, i.name ++ Model.Repr.lit ".lz10.raw"⟩ →
      fs2.content p = fs.content p := by
  obtain ⟨s1, c1, p1, d1, a1, a2, a3, a4, a5, a6⟩ := lz10tool_ok.1 h1
  rw [hc] at a1
  cases a1
  obtain rfl : c1 = true := a2.2.2 h10
  rw [if_pos rfl] at a4
  have hp1 : p1 = ⟨i.folder, i.name ++ Model.Repr.lit ".lz10"⟩ := a3
  have hl : s.length < 2 ^ 24 := Nat.lt_of_not_le fun hge => by
    rw [(Lz.lz10_compress_error_iff s).1.2 hge] at a4
    cases a4
  obtain ⟨c, k1, k2, -⟩ := (Lz.lz10_compress_error_iff s).2 hl
  obtain ⟨c', k3, k4⟩ := Lz.lz10_roundtrip s hl
  rw [a4] at k1 k3
  cases k1
  cases k3
  obtain ⟨s2, c2, p2, d2, b1, b2, b3, b4, b5, b6⟩ := lz10tool_ok.1 h2
  rw [← hp1, a6.here] at b1
  cases b1
  obtain rfl : c2 = false := by
    cases c2 with
    | false => rfl
    | true => exact absurd k2 (b2.2.1 rfl)
  rw [if_neg (by decide), k4] at b4
  cases b4
  have hp2 : p2 = ⟨i.folder, i.name ++ Model.Repr.lit ".lz10.raw"⟩ := by
    rw [show p2 = ⟨i.folder, i.name ++ Model.Repr.lit ".lz10" ++ Model.Repr.lit ".raw"⟩ from b3, List.append_assoc]
    rfl
  refine ⟨by rw [← hp2]; exact b6.here, fun p n1 n2 => ?_⟩
  rw [b6.elsewhere p (by rw [hp2]; exact n2), a6.elsewhere p (by rw [hp1]; exact n1)]

example : ∃ fs1 fs2, lz10tool .guess pathA none (files [(pathA, [1, 2, 3])]) = (.ok (), fs1) ∧
    lz10tool .guess ⟨[], [97] ++ Model.Repr.lit ".lz10"⟩ none fs1 = (.ok (), fs2) := by
  refine ⟨(lz10tool .guess pathA none (files [(pathA, [1, 2, 3])])).2,
    (lz10tool .guess ⟨[], [97] ++ Model.Repr.lit ".lz10"⟩ none (lz10tool .guess pathA none (files [(pathA, [1, 2, 3])])).2).2,
    Prod.ext ?_ rfl, Prod.ext ?_ rfl⟩
  · decide +kernel
  · decide +kernel

/-! ## narctool -/

/-- **C142.** `narctool` never returns, and changes no file. -/
theorem narctool_never (m : NarcMode) (l d : Bool) (i : Path) (o : Option Path) (fs : FS) :
    ∃ e, narctool m l d i o fs = (.error e, fs) := by
  unfold narctool
  split
  · exact ⟨_, rfl⟩
  · split <;> exact ⟨_, rfl⟩
  · exact ⟨_, rfl⟩

/-- **C142.** With what error: `TypeError` if it is left to `narctool` what to do and there is no such file or folder; the error
of reading if a file is to be extracted that cannot be read; and `AttributeError` in all other cases. -/
theorem narctool_error (m : NarcMode) (l d : Bool) (i : Path) (o : Option Path) (fs : FS) :
    (narctool m l d i o fs).1 = .error (
      if m = .guess ∧ fs.content i = none ∧ d = false then .typeError
      else if m = .extract ∧ fs.content i = none then .osError
      else .attributeError) := by
  unfold narctool shouldExtract FS.read
  cases m <;> cases h : fs.content i <;> cases d <;> simp

end Verif.Props.Tools
