import Verif.Props.RomRoundTrip

/-!
# Loading any image, saving it again, files by name (C80–C83)
-/

namespace Verif.Props.Rom

open Verif Verif.Model.Rom Verif.Model.Util Verif.Spec.Rom Verif.Proofs.Rom

/-! ## Loading any image -/

/-- An image as it is read: filled up with zeros to the size of a header. -/
def image (raw : Bytes) : Bytes := raw ++ List.replicate (0x200 - raw.length) 0

/-- The part of an image at an offset, as far as the image goes. -/
def part (d : Bytes) (o n : Nat) : Bytes := (d.drop o).take n

theorem part_eq (d : Bytes) (o n : Nat) : slice d o (o + n) = part d o n := by
  unfold slice part
  rw [Nat.add_sub_cancel_left]

theorem unpackU_le {k o : Nat} {d : Bytes} (h : o + k ≤ d.length) :
    unpackU .little k d o = .ok (leVal (slice d o (o + k))) := by
  rw [unpackU, if_pos h]; rfl

/-- The numbers in consecutive fields. -/
def fieldVals (d : Bytes) : List Nat → Nat → List Nat
  | [], _ => []
  | k :: ks, o => leVal (slice d o (o + k)) :: fieldVals d ks (o + k)

theorem unpackUs_le {d : Bytes} : ∀ {ks : List Nat} {o : Nat}, o + ks.sum ≤ d.length →
    unpackUs .little ks d o = .ok (fieldVals d ks o)
  | [], _, _ => rfl
  | k :: ks, o, h => by
    rw [List.sum_cons] at h
    rw [unpackUs, unpackU_le (by omega), bind_ok, unpackUs_le (by omega)]; rfl

theorem readFile_ok {d fat : Bytes} {i : Nat} (h : 8 * i + 8 ≤ fat.length) :
    readFile d fat i = .ok (u32 fat (8 * i), slice d (u32 fat (8 * i)) (u32 fat (8 * i + 4))) := by
  unfold readFile
  rw [unpackUs_le (by simp only [List.sum_cons, List.sum_nil]; omega)]
  rfl

theorem readFiles_ok (d fat : Bytes) : mapE (readFile d fat) (List.range (fat.length / 8)) =
    .ok ((List.range (fat.length / 8)).map fun i =>
      (u32 fat (8 * i), slice d (u32 fat (8 * i)) (u32 fat (8 * i + 4)))) := by
  have : ∀ l : List Nat, (∀ i ∈ l, 8 * i + 8 ≤ fat.length) → mapE (readFile d fat) l =
      .ok (l.map fun i => (u32 fat (8 * i), slice d (u32 fat (8 * i)) (u32 fat (8 * i + 4)))) := by
    intro l
    induction l with
    | nil => intro _; rfl
    | cons a l ih =>
      intro h
      rw [mapE, readFile_ok (h a (by simp)), bind_ok, ih (fun i hi => h i (by simp [hi]))]; rfl
  apply this
  intro i hi
  have := List.mem_range.1 hi
  omega

theorem sigOffset_ok (d : Bytes) (n : Nat) : ∃ o, sigOffset d n = .ok o := by
  unfold sigOffset
  split
  · rename_i h
    rw [unpackU_le (by omega), bind_ok]
    dsimp only
    split <;> exact ⟨_, rfl⟩
  · rw [bind_ok]
    dsimp only
    split <;> exact ⟨_, rfl⟩

theorem readIconBanner_ok {d : Bytes} {o : Nat} :
    (∃ b, readIconBanner d o = .ok b) ↔ (o = 0 ∨ o + 2 ≤ d.length) := by
  unfold readIconBanner
  by_cases h : o = 0
  · simp [h]
  · rw [if_neg h]
    simp only [h, false_or, bind_eq_ok, pure_eq_ok]
    constructor
    · rintro ⟨b, v, hv, -⟩
      have := (At.of_unpackU hv).bound
      rwa [enBytes_length] at this
    · intro h2
      exact ⟨_, _, unpackU_le h2, rfl⟩

theorem filenames_inv {p : Prop} [Decidable p] {x : Py Model.Fnt.Folder} {q : Rom} {g : Model.Fnt.Folder → Rom}
    {f0 : Model.Fnt.Folder} (h : (if p then .ok (g f0) else x >>= fun f => .ok (g f)) = Except.ok (ε := PyErr) q) :
    ∃ f, g f = q := by
  split at h
  · exact ⟨f0, by cases h; rfl⟩
  · obtain ⟨f, -, hf⟩ := bind_eq_ok.1 h
    exact ⟨f, by cases hf; rfl⟩

theorem image_length (raw : Bytes) : 0x200 ≤ (image raw).length := by
  unfold image
  rw [List.length_append, List.length_replicate]; omega

/-- C80: an image can be loaded unless its banner begins behind its end or its file name table cannot be loaded.  (The
image may be of any length; nothing else is checked.) -/
theorem rom_load_iff (limit : Nat) (raw : Bytes) : (∃ q, load limit raw = .ok q) ↔
    (u32 (image raw) 0x68 = 0 ∨ u32 (image raw) 0x68 + 2 ≤ (image raw).length) ∧
    (part (image raw) (u32 (image raw) 0x40) (u32 (image raw) 0x44) = [] ∨
      ∃ f, Model.Fnt.load limit (part (image raw) (u32 (image raw) 0x40) (u32 (image raw) 0x44)) = .ok f) := by
  have hl := image_length raw
  unfold load
  rw [show raw ++ zeros (0x200 - raw.length) = image raw from rfl]
  generalize image raw = d at hl ⊢
  dsimp only
  rw [unpackUs_le (by simp only [List.sum_cons, List.sum_nil]; omega), bind_ok,
    unpackUs_le (by simp only [List.sum_cons, List.sum_nil]; omega), bind_ok,
    unpackUs_le (by simp only [List.sum_cons, List.sum_nil]; omega), bind_ok,
    unpackUs_le (by simp only [List.sum_cons, List.sum_nil]; omega), bind_ok,
    unpackUs_le (by simp only [List.sum_cons, List.sum_nil]; omega), bind_ok]
  simp only [fieldVals, readFiles_ok, bind_ok, bind_eq_ok, Nat.reduceAdd]
  have e40 : leVal (slice d 64 68) = u32 d 0x40 := rfl
  have e44 : leVal (slice d 68 72) = u32 d 0x44 := rfl
  have e68 : leVal (slice d 104 108) = u32 d 0x68 := rfl
  rw [e40, e44, e68, part_eq]
  constructor
  · rintro ⟨q, o, ho, ic, hic, hf⟩
    refine ⟨readIconBanner_ok.1 ⟨_, hic⟩, ?_⟩
    split at hf
    · rename_i h; exact .inl h
    · obtain ⟨f, hf, -⟩ := bind_eq_ok.1 hf
      exact .inr ⟨_, hf⟩
  · rintro ⟨h1, h2⟩
    obtain ⟨o, ho⟩ := sigOffset_ok d (leVal (slice d 128 132))
    obtain ⟨ic, hic⟩ := readIconBanner_ok.2 h1
    by_cases hp : part d (u32 d 0x40) (u32 d 0x44) = []
    · exact ⟨_, o, ho, ic, hic, if_pos hp⟩
    · obtain ⟨f, hf⟩ := h2.resolve_left hp
      exact ⟨_, o, ho, ic, hic, (if_neg hp).trans (bind_eq_ok.2 ⟨f, hf, rfl⟩)⟩

example : load 1 [] = .ok { new with
    idCode := zeros 4, deviceCapacity := 0, arm9EntryAddress := 0, arm9RamAddress := 0, arm7EntryAddress := 0,
    arm7RamAddress := 0, normalCardControlRegisterSettings := 0, secureCardControlRegisterSettings := 0,
    secureTransferDelay := 0, nintendoLogo := zeros 0x9C, pad200 := [] } := by decide +kernel
example : load 1 (zeros 0x68 ++ [0xFF, 1, 0, 0]) = .error .structError := by decide +kernel

/-- C80: the parts of a loaded image are those that its header points at, and its files those that its file allocation
table points at, in the order of the table. -/
theorem rom_load_parts (limit : Nat) (raw : Bytes) (q : Rom) (h : load limit raw = .ok q) :
    q.arm9 = part (image raw) (u32 (image raw) 0x20) (u32 (image raw) 0x2C) ∧
    q.arm7 = part (image raw) (u32 (image raw) 0x30) (u32 (image raw) 0x3C) ∧
    q.arm9OverlayTable = part (image raw) (u32 (image raw) 0x50) (u32 (image raw) 0x54) ∧
    q.arm7OverlayTable = part (image raw) (u32 (image raw) 0x58) (u32 (image raw) 0x5C) ∧
    q.debugRom = (if u32 (image raw) 0x160 = 0 then []
      else part (image raw) (u32 (image raw) 0x160) (u32 (image raw) 0x164)) ∧
    (∀ fat, fat = part (image raw) (u32 (image raw) 0x48) (u32 (image raw) 0x4C) → q.files.length = fat.length / 8 ∧
      ∀ i f, q.files[i]? = some f → f = slice (image raw) (u32 fat (8 * i)) (u32 fat (8 * i + 4))) := by
  have hl := image_length raw
  unfold load at h
  rw [show raw ++ zeros (0x200 - raw.length) = image raw from rfl] at h
  generalize image raw = d at hl h ⊢
  dsimp only at h
  rw [unpackUs_le (by simp only [List.sum_cons, List.sum_nil]; omega), bind_ok,
    unpackUs_le (by simp only [List.sum_cons, List.sum_nil]; omega), bind_ok,
    unpackUs_le (by simp only [List.sum_cons, List.sum_nil]; omega), bind_ok,
    unpackUs_le (by simp only [List.sum_cons, List.sum_nil]; omega), bind_ok,
    unpackUs_le (by simp only [List.sum_cons, List.sum_nil]; omega), bind_ok] at h
  simp only [fieldVals, readFiles_ok, bind_ok, bind_eq_ok, Nat.reduceAdd] at h
  obtain ⟨o, ho, ic, hic, h⟩ := h
  have h := filenames_inv h
  obtain ⟨f, rfl⟩ := h
  refine ⟨part_eq _ _ _, part_eq _ _ _, part_eq _ _ _, part_eq _ _ _, ?_, ?_⟩
  · dsimp only
    rw [part_eq]; rfl
  · dsimp only
    rw [part_eq]
    rintro _ rfl
    refine ⟨by simp; rfl, ?_⟩
    intro i g hg
    simp only [List.map_map, List.getElem?_map, Option.map_eq_some_iff] at hg
    obtain ⟨j, hj, rfl⟩ := hg
    obtain ⟨hj, rfl⟩ := List.getElem?_eq_some_iff.1 hj
    rw [List.getElem_range]; rfl

/-- Where the signature of an image is: at the place that stands at 0x1000 or, if the image is too short for that or there
is a zero, at the place that stands at 0x80 of the header. -/
def signaturePlace (d : Bytes) : Nat :=
  if d.length < 0x1004 ∨ u32 d 0x1000 = 0 then u32 d 0x80 else u32 d 0x1000

theorem signature_eq {d : Bytes} {o : Nat} (ho : sigOffset d (u32 d 0x80) = .ok o) :
    (if o = 0 then [] else part d o 0x88) = if signaturePlace d = 0 then [] else part d (signaturePlace d) 0x88 := by
  have key : ∀ x : Nat, (if x = 0 ∧ u32 d 0x80 < d.length then (pure (u32 d 0x80) : Py Nat) else pure x) = .ok o →
      (if o = 0 then [] else part d o 0x88) = if (if x = 0 then u32 d 0x80 else x) = 0 then []
        else part d (if x = 0 then u32 d 0x80 else x) 0x88 := by
    intro x hx
    by_cases h2 : x = 0
    · rw [if_pos h2]
      by_cases h3 : u32 d 0x80 < d.length
      · rw [if_pos ⟨h2, h3⟩, pure_eq_ok] at hx
        rw [hx]
      · rw [if_neg (fun h => h3 h.2), pure_eq_ok] at hx
        have h4 : part d (u32 d 0x80) 0x88 = [] := by
          rw [← part_eq, slice, List.drop_of_length_le (by omega)]; exact List.take_nil
        rw [← hx, if_pos h2, h4, ite_self]
    · rw [if_neg (fun h => h2 h.1), pure_eq_ok] at hx
      rw [if_neg h2, hx]
  unfold sigOffset at ho
  unfold signaturePlace
  by_cases h1 : 0x1004 ≤ d.length
  · rw [if_pos h1, unpackU_le h1, bind_ok] at ho
    rw [key _ ho]
    show (if (if u32 d 0x1000 = 0 then _ else _) = 0 then _ else _) = _
    simp only [show ¬ d.length < 0x1004 by omega, false_or]
    rfl
  · rw [if_neg h1, bind_ok] at ho
    rw [key _ ho]
    simp only [show d.length < 0x1004 by omega, true_or, if_true]

/-- C80: the signature of a loaded image is what stands at the place for it (up to 0x88 bytes), and the banner what stands at
its offset in the header; neither exists if its offset is zero. -/
theorem rom_load_signature (limit : Nat) (raw : Bytes) (q : Rom) (h : load limit raw = .ok q) :
    q.rsaSignature = (if signaturePlace (image raw) = 0 then [] else part (image raw) (signaturePlace (image raw)) 0x88) ∧
    (u32 (image raw) 0x68 = 0 → q.iconBanner = []) ∧
    (u32 (image raw) 0x68 ≠ 0 → q.iconBanner = part (image raw) (u32 (image raw) 0x68)
      (iconBannerLength (leVal (part (image raw) (u32 (image raw) 0x68) 2)))) := by
  have hl := image_length raw
  unfold load at h
  rw [show raw ++ zeros (0x200 - raw.length) = image raw from rfl] at h
  generalize image raw = d at hl h ⊢
  dsimp only at h
  rw [unpackUs_le (by simp only [List.sum_cons, List.sum_nil]; omega), bind_ok,
    unpackUs_le (by simp only [List.sum_cons, List.sum_nil]; omega), bind_ok,
    unpackUs_le (by simp only [List.sum_cons, List.sum_nil]; omega), bind_ok,
    unpackUs_le (by simp only [List.sum_cons, List.sum_nil]; omega), bind_ok,
    unpackUs_le (by simp only [List.sum_cons, List.sum_nil]; omega), bind_ok] at h
  simp only [fieldVals, readFiles_ok, bind_ok, bind_eq_ok, Nat.reduceAdd] at h
  obtain ⟨o, ho, ic, hic, h⟩ := h
  have h := filenames_inv h
  obtain ⟨f, rfl⟩ := h
  have hslice : ∀ p n : Nat, slice d p (min d.length (p + n)) = part d p n := by
    intro p n
    rw [← part_eq]
    unfold slice
    rw [List.take_eq_take_iff, List.length_drop]
    omega
  refine ⟨?_, ?_, ?_⟩
  · dsimp only
    rw [hslice]
    exact signature_eq ho
  · intro h0
    have hic' : readIconBanner d (u32 d 0x68) = .ok ic := hic
    rw [readIconBanner, if_pos h0] at hic'
    cases hic'; rfl
  · intro h0
    have hic' : readIconBanner d (u32 d 0x68) = .ok ic := hic
    rw [readIconBanner, if_neg h0] at hic'
    obtain ⟨v, hv, hic'⟩ := bind_eq_ok.1 hic'
    have hb : u32 d 0x68 + 2 ≤ d.length := by
      have := readIconBanner_ok.1 ⟨ic, hic⟩
      exact this.resolve_left h0
    rw [unpackU_le hb] at hv
    cases hv
    rw [part_eq, part_eq, pure_eq_ok] at hic'
    exact hic'.symm

/-- An image of which the place at 0x1000 does not exist, so that the one at 0x80 counts. -/
example : (load 1 (zeros 0x80 ++ [0, 2, 0, 0] ++ zeros 0x17C ++ [1, 2, 3])).toOption.map (·.rsaSignature) =
    some [1, 2, 3] := by decide +kernel

/-- C81: the sorted file IDs of a loaded image are in the order in which the files begin in the image; of several files
that begin at the same place, only the last is among them. -/
theorem rom_sorted_ids (limit : Nat) (raw : Bytes) (q : Rom) (h : load limit raw = .ok q) :
    ∀ fat, fat = part (image raw) (u32 (image raw) 0x48) (u32 (image raw) 0x4C) →
    (∀ k, k ∈ q.sortedFileIds ↔ ∃ i : Nat, k = i ∧ i < q.files.length ∧
      ∀ j, i < j → j < q.files.length → u32 fat (8 * j) ≠ u32 fat (8 * i)) ∧
    q.sortedFileIds.Pairwise fun a b => u32 fat (8 * a.toNat) < u32 fat (8 * b.toNat) := by
  have hf := (rom_load_parts limit raw q h).2.2.2.2.2
  have hs : ∀ fat, fat = part (image raw) (u32 (image raw) 0x48) (u32 (image raw) 0x4C) →
      q.sortedFileIds = sortIds ((List.range (fat.length / 8)).map fun i => u32 fat (8 * i)) := by
    have hl := image_length raw
    unfold load at h
    rw [show raw ++ zeros (0x200 - raw.length) = image raw from rfl] at h
    generalize image raw = d at hl h ⊢
    dsimp only at h
    rw [unpackUs_le (by simp only [List.sum_cons, List.sum_nil]; omega), bind_ok,
      unpackUs_le (by simp only [List.sum_cons, List.sum_nil]; omega), bind_ok,
      unpackUs_le (by simp only [List.sum_cons, List.sum_nil]; omega), bind_ok,
      unpackUs_le (by simp only [List.sum_cons, List.sum_nil]; omega), bind_ok,
      unpackUs_le (by simp only [List.sum_cons, List.sum_nil]; omega), bind_ok] at h
    simp only [fieldVals, readFiles_ok, bind_ok, bind_eq_ok, Nat.reduceAdd] at h
    obtain ⟨o, ho, ic, hic, h⟩ := h
    have h := filenames_inv h
    obtain ⟨f, rfl⟩ := h
    dsimp only
    rw [part_eq]
    rintro _ rfl
    rw [List.map_map]; rfl
  intro fat hfat
  rw [hs fat hfat, (hf fat hfat).1]
  have hget : ∀ i s, ((List.range (fat.length / 8)).map fun i => u32 fat (8 * i))[i]? = some s ↔
      i < fat.length / 8 ∧ s = u32 fat (8 * i) := by
    intro i s
    rw [List.getElem?_map, Option.map_eq_some_iff]
    constructor
    · rintro ⟨j, hj, rfl⟩
      obtain ⟨hl, rfl⟩ := List.getElem?_eq_some_iff.1 hj
      rw [List.getElem_range]
      exact ⟨by simpa using hl, rfl⟩
    · rintro ⟨hi, rfl⟩
      exact ⟨i, by simp [hi], rfl⟩
  obtain ⟨h1, h2⟩ := sortIds_spec ((List.range (fat.length / 8)).map fun i => u32 fat (8 * i))
  constructor
  · intro k
    rw [h1]
    constructor
    · rintro ⟨i, s, rfl, hi, hj⟩
      obtain ⟨hil, rfl⟩ := (hget i s).1 hi
      exact ⟨i, rfl, hil, fun j hij hjl e => hj j hij ((hget j _).2 ⟨hjl, e.symm⟩)⟩
    · rintro ⟨i, rfl, hi, hj⟩
      refine ⟨i, _, rfl, (hget i _).2 ⟨hi, rfl⟩, ?_⟩
      intro j hij e
      obtain ⟨hjl, e⟩ := (hget j _).1 e
      exact hj j hij hjl e.symm
  · refine List.Pairwise.imp_of_mem ?_ h2
    intro a b ha hb hab
    obtain ⟨i, s, rfl, hi, -⟩ := (h1 a).1 ha
    obtain ⟨j, t, rfl, hj, -⟩ := (h1 b).1 hb
    have := hab s t hi hj
    rw [((hget i s).1 hi).2, ((hget j t).1 hj).2] at this
    exact this

example : sortIds [0x600, 0x200, 0x600, 0x400] = [1, 3, 2] := by decide +kernel

/-! ## Saving a loaded image -/

/-- C82: saving, loading and saving again gives the same image, if no file is empty, the sorted file IDs are not negative,
the signature is not too long and the data behind ARM9 came back. -/
theorem rom_resave (r r' q : Rom) (u : Bool) (b : Bytes) (h : save r u = .ok (b, r')) (limit : Nat)
    (hname : Spec.Fnt.NoEmptyFileName r.filenames) (hd : Spec.Fnt.depth r.filenames ≤ limit) (hq : load limit b = .ok q)
    (hpost : q.arm9PostData = r.arm9PostData) (hne : ∀ f ∈ r.files, f ≠ []) (hpos : ∀ k ∈ r.sortedFileIds, 0 ≤ k)
    (hrsa : r.rsaSignature.length ≤ 0x88) : save q u = .ok (b, q) := by
  obtain ⟨fnt, ids9, ids7, es9, es7, es, starts, hdr, hs, hh, hr⟩ := save_inv' h
  rw [load_save hs hname hd] at hq
  cases hq
  have e : loaded r r'.deviceCapacity b (sigPos (full r es9 es7 es fnt (fatOf r starts)).length) starts =
      again r r'.deviceCapacity b (sigPos (full r es9 es7 es fnt (fatOf r starts)).length) starts := by
    unfold again
    rw [← hpost]
  rw [e]
  exact save_again hs rfl hh hne hpos hrsa u (by intro hu; rw [hr, if_pos hu])

/-- The sample can be saved, loaded and saved again. -/
theorem sample_resaves : ∃ b q, save sample false = .ok (b, sample) ∧ load 1 b = .ok q ∧ q.arm9PostData = sample.arm9PostData ∧
    q.rsaSignature = sample.rsaSignature ∧ (∀ f ∈ sample.files, f ≠ []) ∧ (∀ k ∈ sample.sortedFileIds, 0 ≤ k) ∧
    save q false = .ok (b, q) := by
  obtain ⟨b, q, h, hq⟩ := sample_loads
  have hd : Spec.Fnt.depth sample.filenames ≤ 1 := by rw [sample_names.2]; decide
  have h1 := rom_post_data sample sample q false b h 1 sample_names.1 hd hq sample_records
    (rom_post_data_padded sample sample false b h (by decide))
  have h2 := rom_signature_roundtrip sample sample q false b h 1 sample_names.1 hd hq (by decide +kernel)
  exact ⟨b, q, h, hq, h1, h2, by decide, by decide,
    rom_resave sample sample q false b h 1 sample_names.1 hd hq h1 (by decide) (by decide) (by decide +kernel)⟩

/-! ## Files by name -/

/-- C83: after a successful `setFileByName`, reading the same name gives the new data, reading a name that denotes another
position gives what it gave before, and nothing else has changed. -/
theorem rom_set_get (r r' : Rom) (name : Str) (data : Bytes) (h : setFileByName r name data = .ok r') :
    getFileByName r' name = .ok data ∧ r' = { r with files := r'.files } ∧ r'.files.length = r.files.length ∧
    ∃ id k, Model.Fnt.idOf r.filenames name = .ok (some id) ∧ pyPos r.files.length id = some k ∧
      (∀ j, j ≠ k → r'.files[j]? = r.files[j]?) ∧
      ∀ name' id', Model.Fnt.idOf r.filenames name' = .ok (some id') → pyPos r.files.length id' ≠ some k →
        getFileByName r' name' = getFileByName r name' := by
  unfold setFileByName at h
  rw [bind_eq_ok] at h
  obtain ⟨x, hr, h⟩ := h
  cases x with
  | none => cases h
  | some id =>
    simp only [bind_eq_ok, pure_eq_ok] at h
    obtain ⟨files, hf, rfl⟩ := h
    unfold pySetI at hf
    split at hf
    · rename_i k hk
      cases hf
      have hlt := pyPos_lt hk
      refine ⟨?_, rfl, by simp, id, k, hr, hk, ?_, ?_⟩
      · unfold getFileByName
        simp only [hr, bind_ok]
        rw [pyIdxI_eq, List.length_set, hk]
        simp [pyIdx, hlt]
      · intro j hj
        simp only
        rw [List.getElem?_set_ne (by omega)]
      · intro name' id' hid' hne
        unfold getFileByName
        simp only [hid', bind_ok]
        rw [pyIdxI_eq, pyIdxI_eq, List.length_set]
        split
        · rename_i k' hk'
          have : k' ≠ k := by rintro rfl; exact hne hk'
          unfold pyIdx
          rw [List.getElem?_set_ne (by omega)]
        · rfl
    · cases hf

/-- C83: a name that is not in the table raises `ValueError` in both directions. -/
theorem rom_unknown_name (r : Rom) (name : Str) (data : Bytes) (h : Model.Fnt.idOf r.filenames name = .ok none) :
    getFileByName r name = .error .valueError ∧ setFileByName r name data = .error .valueError := by
  unfold getFileByName setFileByName
  simp only [h, bind_ok]
  simp

example : getFileByName sample [98] = .ok [12] ∧ Model.Fnt.idOf sample.filenames [99] = .ok none ∧
    (setFileByName sample [98] [9, 9]).toOption.map (·.files) = some [[10, 11], [9, 9]] := by decide +kernel

end Verif.Props.Rom
