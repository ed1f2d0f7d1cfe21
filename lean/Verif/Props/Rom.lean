import Verif.Proofs.RomResave

/-!
# Properties of ROM images (C37–C39, C77–C82)
-/

namespace Verif.Props.Rom

open Verif Verif.Model.Rom Verif.Model.Util Verif.Spec.Rom Verif.Proofs.Rom

/-! ## Saving succeeds -/

/-- The banner has the length that its version number asks for. -/
def IconOk (icon : Bytes) : Prop :=
  icon = [] ∨ ∃ v, v < 2 ^ 16 ∧ At icon 0 (leBytes 2 v) ∧
    icon.length = if v = 2 then 0x940 else if v = 3 then 0x1240 else if v = 0x103 then 0x23C0 else 0x840

/-- The parts of the header have the right lengths and the numbers fit, with `c` for the device capacity. -/
def HeaderOk (r : Rom) (c : Int) : Prop :=
  r.idCode.length = 4 ∧ r.developerCode.length = 2 ∧ r.pad088.length = 0x38 ∧ r.nintendoLogo.length = 0x9C ∧
  r.pad16C.length = 0x94 ∧ 0 ≤ c ∧ c < 2 ^ 8 ∧
  (∀ n ∈ [r.unitCode, r.encryptionSeedSelect, r.pad015, r.pad016, r.pad017, r.pad018, r.pad019, r.pad01A, r.pad01B,
    r.pad01C, r.region, r.version, r.autostart], n < 2 ^ 8) ∧
  (∀ n ∈ [r.secureAreaChecksum, r.secureTransferDelay], n < 2 ^ 16) ∧
  (∀ n ∈ [r.arm9EntryAddress, r.arm9RamAddress, r.arm7EntryAddress, r.arm7RamAddress,
    r.normalCardControlRegisterSettings, r.secureCardControlRegisterSettings, r.arm9CodeSettingsPointerAddress,
    r.arm7CodeSettingsPointerAddress, r.debugRomAddress], n < 2 ^ 32)

/-- The overlay tables have whole records, as far as the file ID in them goes, and refer to files; the sorted file IDs
are not too far below zero; the names can be saved; the banner has the right length. -/
def PartsOk (r : Rom) : Prop :=
  (∃ ids9 ids7, OverlayIds r.arm9OverlayTable ids9 ∧ OverlayIds r.arm7OverlayTable ids7 ∧
    ∀ id ∈ ids9 ++ ids7, id < r.files.length) ∧
  (∀ k ∈ r.sortedFileIds, -(r.files.length : Int) ≤ k) ∧ (∃ fnt, Model.Fnt.save r.filenames = .ok fnt) ∧
  IconOk r.iconBanner

/-- A bound for the size of the image: the parts, the files as often as they are stored, and the padding. -/
def sizeBound (r : Rom) (ids9 ids7 : List Nat) (fnt : Bytes) : Nat :=
  0x8000 + r.pad200.length + r.arm9.length + r.arm9PostData.length +
      r.arm7.length + r.arm9OverlayTable.length + r.arm7OverlayTable.length + fnt.length + 8 * r.files.length +
      r.iconBanner.length + r.debugRom.length +
      (((ids9 ++ ids7).map Int.ofNat ++ remaining r.files.length ((ids9 ++ ids7).map Int.ofNat)
        (r.sortedFileIds ++ (List.range r.files.length).map Int.ofNat)).map fun k => fileLen r.files k + 0x200).sum

/-- The image is not too large for 32-bit offsets. -/
def SizeOk (r : Rom) : Prop :=
  ∀ ids9 ids7 fnt, OverlayIds r.arm9OverlayTable ids9 → OverlayIds r.arm7OverlayTable ids7 →
    Model.Fnt.save r.filenames = .ok fnt → sizeBound r ids9 ids7 fnt < 2 ^ 32

theorem iconOk_iff {icon : Bytes} : IconOk icon ↔ checkIconBanner icon = .ok () := by
  have hl : ∀ v, iconBannerLength v =
      if v = 2 then 0x940 else if v = 3 then 0x1240 else if v = 0x103 then 0x23C0 else 0x840 := by
    intro v
    unfold iconBannerLength
    simp only [List.lookup_cons, List.lookup_nil]
    by_cases h1 : v = 1
    · subst h1; rfl
    · by_cases h2 : v = 2
      · subst h2; rfl
      · by_cases h3 : v = 3
        · subst h3; rfl
        · by_cases h4 : v = 0x103
          · subst h4; rfl
          · rw [beq_false_of_ne h1, beq_false_of_ne h2, beq_false_of_ne h3, beq_false_of_ne h4]
            simp only [if_neg h2, if_neg h3, if_neg h4]
  unfold IconOk checkIconBanner
  by_cases he : icon = []
  · simp [he]
  · rw [if_neg he]
    simp only [he, false_or, bind_eq_ok, pyAssert_eq_ok]
    constructor
    · rintro ⟨v, h1, h2, h3⟩
      exact ⟨v, At.unpackU h2 (by omega), by rw [h3, hl]⟩
    · rintro ⟨v, h1, h2⟩
      have := unpackU_lt h1
      exact ⟨v, by omega, At.of_unpackU h1, by rw [h2, hl]⟩

theorem headerOk_small {r : Rom} {c : Int} (h : HeaderOk r c) : ∀ v ∈ headerSmall r c, 0 ≤ v ∧ v < 256 := by
  obtain ⟨-, -, -, -, -, h1, h2, h3, -, -⟩ := h
  simp only [List.mem_cons, List.not_mem_nil, or_false, forall_eq_or_imp, forall_eq] at h3
  simp only [headerSmall, List.mem_cons, List.not_mem_nil, or_false, forall_eq_or_imp, forall_eq]
  omega

theorem headerOk_of_saved {r : Rom} {c : Int} {o : Offsets} {h : Bytes} (hh : Header r c o h) : HeaderOk r c := by
  have h1 := hh.small
  have h2 := hh.fits1
  have h3 := hh.fits2
  have h4 := hh.fits3
  simp only [headerSmall, List.mem_cons, List.not_mem_nil, or_false, forall_eq_or_imp, forall_eq] at h1
  simp only [headerWords1, headerWords2, headerWords3, Fits, and_true] at h2 h3 h4
  refine ⟨hh.idCode, hh.developerCode, hh.pad088, hh.logo, hh.pad16C, by omega, by omega, ?_, ?_, ?_⟩
  · simp only [List.mem_cons, List.not_mem_nil, or_false, forall_eq_or_imp, forall_eq]
    omega
  · simp only [List.mem_cons, List.not_mem_nil, or_false, forall_eq_or_imp, forall_eq]
    omega
  · simp only [List.mem_cons, List.not_mem_nil, or_false, forall_eq_or_imp, forall_eq]
    omega

theorem overlayIds_lt {r : Rom} {fnt : Bytes} {ids9 ids7 : List Nat} {es9 es7 : List (Int × Bytes)}
    (h : Front r fnt ids9 ids7 es9 es7) : ∀ id ∈ ids9 ++ ids7, id < r.files.length := by
  have key : ∀ {ids : List Nat} {es : List (Int × Bytes)}, es.map Prod.fst = ids.map Int.ofNat →
      (∀ e ∈ es, FileNo r.files e.1 e.2) → ∀ id ∈ ids, id < r.files.length := by
    intro ids es h1 h2 id hid
    have : Int.ofNat id ∈ es.map Prod.fst := by rw [h1]; exact List.mem_map.2 ⟨id, hid, rfl⟩
    obtain ⟨e, he, he'⟩ := List.mem_map.1 this
    have h3 := h2 e he
    rw [he'] at h3
    rcases h3 with ⟨-, h4⟩ | ⟨h4, -, -⟩
    · have := (List.getElem?_eq_some_iff.1 h4).1
      simpa using this
    · simp only [Int.ofNat_eq_natCast] at h4; omega
  intro id hid
  rcases List.mem_append.1 hid with h' | h'
  · exact key h.es9_ids h.es9_files id h'
  · exact key h.es7_ids h.es7_files id h'

theorem partsOk_of_placed {r : Rom} {fnt : Bytes} {ids9 ids7 : List Nat} {es9 es7 es : List (Int × Bytes)}
    (h : Placed r fnt ids9 ids7 es9 es7 es) : PartsOk r := by
  refine ⟨⟨ids9, ids7, h.ids9_ok, h.ids7_ok, overlayIds_lt h.toFront⟩, ?_, ⟨fnt, h.fnt_ok⟩, iconOk_iff.2 h.icon⟩
  intro k hk
  by_cases hc : (r.files.length : Int) ≤ k
  · omega
  · by_cases hs : k ∈ (ids9 ++ ids7).map Int.ofNat
    · obtain ⟨i, -, rfl⟩ := List.mem_map.1 hs
      simp only [Int.ofNat_eq_natCast]; omega
    · have : k ∈ es.map Prod.fst := by
        rw [h.es_ids, mem_remaining]
        exact ⟨List.mem_append.2 (.inl hk), hs, by omega⟩
      obtain ⟨e, he, rfl⟩ := List.mem_map.1 this
      rcases h.es_files e he with ⟨h0, -⟩ | ⟨-, h1, -⟩ <;> omega

/-- The image is built when the parts are as they must be. -/
theorem build_ok {r : Rom} (hp : PartsOk r) (hs : SizeOk r) : ∃ img o, buildImage r = .ok (img, o) := by
  obtain ⟨⟨ids9, ids7, h9, h7, hn⟩, hk, ⟨fnt, hf⟩, hi⟩ := hp
  obtain ⟨⟨img, o⟩, h⟩ := buildImage_ok h9 h7 hn hf (iconOk_iff.1 hi) hk (by
    intro ids9' ids7' es9 es7 es fnt' fat hpl hfat
    exact Nat.lt_of_le_of_lt (full_length_le hpl hfat) (hs _ _ _ hpl.ids9_ok hpl.ids7_ok hpl.fnt_ok))
  exact ⟨img, o, h⟩

theorem header_of_build {r : Rom} {c : Int} {img : Bytes} {o : Offsets} (h : buildImage r = .ok (img, o))
    (hc : HeaderOk r c) : ∃ hdr, header r c o = .ok hdr := by
  obtain ⟨fnt, ids9, ids7, es9, es7, es, starts, hb, h1, h2, h3⟩ := buildImage_inv h
  obtain ⟨f1, f2, f3⟩ := fits_of_size (r := r) (es9 := es9) (es7 := es7) (es := es) (fnt := fnt)
    (fat := fatBytes (entriesOf starts r.files))
    (by rw [fatBytes_length, entriesOf_length hb.starts_len]) rfl h1 hc.2.2.2.2.2.2.2.2.2 hc.2.2.2.2.2.2.2.2.1
  have hsm := headerOk_small hc
  obtain ⟨a1, a2, a3, a4, a5, -⟩ := hc
  rw [h2]
  exact header_ok hsm f1 f2 f3 (by simpa [offsetsOf] using h1) a1 a2 a3 a4 a5

/-- C77: a ROM whose image is not too large is saved exactly when its tables, names, banner and header are as they must
be. -/
theorem rom_save_iff (r : Rom) (hs : SizeOk r) :
    (∃ b r', save r false = .ok (b, r')) ↔ PartsOk r ∧ HeaderOk r r.deviceCapacity := by
  constructor
  · rintro ⟨b, r', h⟩
    obtain ⟨fnt, ids9, ids7, es9, es7, es, starts, hdr, hsv, rfl⟩ := save_inv h
    exact ⟨partsOk_of_placed hsv.toPlaced, headerOk_of_saved hsv.hdr_ok⟩
  · rintro ⟨hp, hh⟩
    obtain ⟨img, o, hb⟩ := build_ok hp hs
    obtain ⟨hdr, hh⟩ := header_of_build hb hh
    unfold save
    rw [hb, bind_ok]
    dsimp only
    rw [if_neg (by decide), hh, bind_ok]
    exact ⟨_, _, rfl⟩

/-- A ROM with two files, one of which is an overlay, data behind ARM9 and a signature. -/
def sample : Rom := { new with
  name := [78, 68, 83]
  deviceCapacity := 5
  pad200 := [1, 2, 3]
  rsaSignature := List.replicate 0x88 7
  arm9 := [1, 2, 3, 4]
  arm9PostData := [0x21, 0x06, 0xC0, 0xDE, 0, 0, 0, 0, 1, 0, 0, 0]
  arm7 := [5, 6]
  arm9OverlayTable := zeros 0x18 ++ [1, 0, 0, 0] ++ zeros 4
  filenames := .mk .nil [[97], [98]] 0
  files := [[10, 11], [12]]
  sortedFileIds := [1, 0] }

theorem overlayIds_one {table : Bytes} {id : Nat} (h1 : table.length = 0x20) (h2 : id < 2 ^ 32)
    (h3 : slice table 0x18 0x1C = leBytes 4 id) : OverlayIds table [id] := by
  refine ⟨by rw [h1]; rfl, ?_⟩
  intro i k hk
  obtain ⟨hi, rfl⟩ := List.getElem?_eq_some_iff.1 hk
  have : i = 0 := by simpa using hi
  subst this
  exact ⟨h2, At.of_slice (b := 0x1C) (by omega) (by omega) h3⟩

theorem overlayIds_nil : OverlayIds [] [] := ⟨rfl, fun i k h => by simp at h⟩

/-- To see that a ROM with at most one record in the overlay table of ARM9 and none in the other can be saved, it suffices
to compute. -/
theorem saves_of {r : Rom} {ids : List Nat} {fnt : Bytes} (h9 : OverlayIds r.arm9OverlayTable ids)
    (h7 : r.arm7OverlayTable = []) (hf : Model.Fnt.save r.filenames = .ok fnt)
    (hc : (ids.all (· < r.files.length) && r.sortedFileIds.all (fun k => decide (-(r.files.length : Int) ≤ k)) &&
      decide (sizeBound r ids [] fnt < 2 ^ 32)) = true) (hi : IconOk r.iconBanner) (hh : HeaderOk r r.deviceCapacity) :
    SizeOk r ∧ PartsOk r ∧ ∃ b r', save r false = .ok (b, r') := by
  simp only [Bool.and_eq_true, List.all_eq_true, decide_eq_true_eq] at hc
  obtain ⟨⟨c1, c2⟩, c3⟩ := hc
  have h7' : OverlayIds r.arm7OverlayTable [] := by rw [h7]; exact overlayIds_nil
  have hs : SizeOk r := by
    intro ids9 ids7 fnt' g9 g7 gf
    rw [overlayIds_unique g9 h9, overlayIds_unique g7 h7', Except.ok.inj (gf.symm.trans hf)]
    exact c3
  have hp : PartsOk r := ⟨⟨ids, [], h9, h7', by simpa using c1⟩, c2, ⟨fnt, hf⟩, hi⟩
  exact ⟨hs, hp, (rom_save_iff r hs).2 ⟨hp, hh⟩⟩

theorem sample_header : HeaderOk sample sample.deviceCapacity := by
  refine ⟨by decide +kernel, by decide +kernel, by decide +kernel, by decide +kernel, by decide +kernel,
    by decide +kernel, by decide +kernel, ?_, ?_, ?_⟩ <;> decide +kernel

theorem sample_ids : OverlayIds sample.arm9OverlayTable [1] :=
  overlayIds_one (by decide +kernel) (by decide) (by decide +kernel)

theorem sample_ok : SizeOk sample ∧ PartsOk sample ∧ ∃ b r', save sample false = .ok (b, r') :=
  saves_of (fnt := [8, 0, 0, 0, 0, 0, 1, 0, 1, 97, 1, 98, 0]) sample_ids rfl (by decide +kernel) (by decide +kernel)
    (.inl rfl) sample_header

example : SizeOk sample ∧ PartsOk sample ∧ HeaderOk sample sample.deviceCapacity :=
  ⟨sample_ok.1, sample_ok.2.1, sample_header⟩
example : ¬ HeaderOk { sample with version := 256 } sample.deviceCapacity := by
  intro h
  exact absurd (h.2.2.2.2.2.2.2.1 256 (by simp)) (by decide)
example : ¬ PartsOk { sample with files := [[10]] } := by
  rintro ⟨⟨ids9, ids7, h9, -, h⟩, -⟩
  have := overlayIds_unique h9 sample_ids
  subst this
  exact absurd (h 1 (by simp)) (by decide)

/-- A saved image is not larger than the bound, the signature and the padding at the end. -/
theorem saved_length_le {r r' : Rom} {u : Bool} {b : Bytes} (h : save r u = .ok (b, r')) : ∃ ids9 ids7 fnt,
    OverlayIds r.arm9OverlayTable ids9 ∧ OverlayIds r.arm7OverlayTable ids7 ∧ Model.Fnt.save r.filenames = .ok fnt ∧
    b.length ≤ sizeBound r ids9 ids7 fnt + r.rsaSignature.length + 0x400 := by
  obtain ⟨fnt, ids9, ids7, es9, es7, es, starts, hdr, hs, -⟩ := save_inv h
  refine ⟨ids9, ids7, fnt, hs.ids9_ok, hs.ids7_ok, hs.fnt_ok, ?_⟩
  have hl : (fatOf r starts).length = 8 * r.files.length := by
    unfold fatOf
    rw [fatBytes_length, entriesOf_length hs.starts_len]
  have h1 := full_length_le hs.toPlaced hl
  rw [hs.len]
  unfold whole sizeBound
  rw [List.length_append, List.length_append, List.length_append]
  generalize (full r es9 es7 es fnt (fatOf r starts)).length = n at h1 ⊢
  unfold sigPos at h1
  simp only [zeroFill, List.length_replicate] at h1 ⊢
  omega

/-! ## The device capacity -/

theorem capacity_ge {n : Nat} (h : 2 ^ 16 < n) : 0 ≤ capacity n := by
  have h1 : 16 ≤ Nat.log2 (n - 1) := (Nat.le_log2 (by omega)).2 (by omega)
  unfold capacity
  omega

theorem capacity_neg {n : Nat} (h1 : 2 ≤ n) (h : n ≤ 2 ^ 16) : capacity n < 0 := by
  have h1 : Nat.log2 (n - 1) < 16 := (Nat.log2_lt (by omega)).2 (by omega)
  unfold capacity
  omega

theorem capacity_bounds {n : Nat} {c : Nat} (hn : 2 ≤ n) (h : capacity n = c) : 2 ^ (16 + c) < n ∧ n ≤ 2 ^ (17 + c) := by
  unfold capacity at h
  have h1 : Nat.log2 (n - 1) = 16 + c := by omega
  have h2 : n - 1 ≠ 0 := by omega
  have h3 := (Nat.le_log2 h2 (k := 16 + c)).1 (by omega)
  have h4 := (Nat.log2_lt h2 (k := 17 + c)).1 (by omega)
  omega

theorem capacity_lt {n : Nat} (hn : 2 ≤ n) (h : n ≤ 2 ^ 272) : capacity n < 256 := by
  have h1 : Nat.log2 (n - 1) < 272 := (Nat.log2_lt (by omega)).2 (by omega)
  unfold capacity
  omega

/-- The header is the same for different device capacities, apart from one byte and a checksum. -/
theorem header_shape {r : Rom} {c : Int} {o : Offsets} {h : Bytes} (hh : header r c o = .ok h) :
    ∃ x y z, (x.length = 0x14 ∧ y.length = 0x149 ∧ z.length = 0xA0) ∧
      ∀ c' h', header r c' o = .ok h' → h' = x ++ [UInt8.ofNat c'.toNat] ++ y ++
        leBytes 2 (crc16 (x ++ [UInt8.ofNat c'.toNat] ++ y)) ++ z := by
  have hd := header_inv hh
  refine ⟨fixed 12 r.name ++ r.idCode ++ r.developerCode ++ structBytes .little [(1, r.unitCode), (1, r.encryptionSeedSelect)],
    structBytes .little ([r.pad015, r.pad016, r.pad017, r.pad018, r.pad019, r.pad01A, r.pad01B, r.pad01C, r.region,
      r.version, r.autostart].map fun v => (1, v)) ++ structBytes .little (headerWords1 r o) ++
      structBytes .little (headerWords2 r o) ++ fixed 8 r.secureAreaDisable ++
      structBytes .little [(4, o.rsaSignature), (4, 0x4000)] ++ r.pad088 ++ r.nintendoLogo ++
      leBytes 2 (crc16 r.nintendoLogo), structBytes .little (headerWords3 r o) ++ r.pad16C, ⟨?_, ?_, ?_⟩, ?_⟩
  · simp [fixed_length, hd.idCode, hd.developerCode, structBytes, enBytes]
  · rw [List.length_append, List.length_append, List.length_append, List.length_append, List.length_append,
      List.length_append, List.length_append, structBytes_length, words1_length, words2_length, fixed_length,
      structBytes_length, hd.pad088, hd.logo, leBytes_length]
    rfl
  · rw [List.length_append, words3_length, hd.pad16C]
  · intro c' h' hh'
    unfold header at hh'
    simp only [bind_eq_ok, pure_eq_ok, pyAssert_eq_ok, packUs_eq_ok, packU_eq_ok] at hh'
    obtain ⟨front, hf, _, ⟨h1, rfl⟩, _, ⟨h2, rfl⟩, _, h3, rfl⟩ := hh'
    obtain ⟨-, -, -, -, -, hfront⟩ := headerFront_inv hf
    have e : front = fixed 12 r.name ++ r.idCode ++ r.developerCode ++
        structBytes .little [(1, r.unitCode), (1, r.encryptionSeedSelect)] ++ [UInt8.ofNat c'.toNat] ++
        (structBytes .little ([r.pad015, r.pad016, r.pad017, r.pad018, r.pad019, r.pad01A, r.pad01B, r.pad01C, r.region,
      r.version, r.autostart].map fun v => (1, v)) ++ structBytes .little (headerWords1 r o) ++
      structBytes .little (headerWords2 r o) ++ fixed 8 r.secureAreaDisable ++
      structBytes .little [(4, o.rsaSignature), (4, 0x4000)] ++ r.pad088 ++ r.nintendoLogo ++
      leBytes 2 (crc16 r.nintendoLogo)) := by
      rw [hfront]
      simp [smallFields, headerSmall, structBytes, enBytes, leBytes]
    rw [← e]
    simp [enBytes]

theorem save_false_inv {r r0 : Rom} {b : Bytes} (h : save r false = .ok (b, r0)) :
    ∃ img o hdr, buildImage r = .ok (img, o) ∧ header r r.deviceCapacity o = .ok hdr ∧ b = patch img 0 hdr ∧
      0x4000 ≤ img.length ∧ hdr.length = 0x200 := by
  unfold save at h
  simp only [bind_eq_ok, pure_eq_ok] at h
  obtain ⟨⟨img, o⟩, hi, hdr, hh, h⟩ := h
  rw [if_neg (by decide)] at hh
  obtain ⟨rfl, -⟩ := Prod.mk.inj h
  refine ⟨img, o, hdr, hi, hh, rfl, ?_, (header_inv hh).len⟩
  obtain ⟨fnt, ids9, ids7, es9, es7, es, starts, hb, h1, h2, h3⟩ := buildImage_inv hi
  have g1 := whole_length (full r es9 es7 es fnt (fatBytes (entriesOf starts r.files))) r.rsaSignature
  have g2 := full_ge (r := r) (es9 := es9) (es7 := es7) (es := es) (fnt := fnt) (fat := fatBytes (entriesOf starts r.files))
  rw [h3, patch_length]
  · omega
  · rw [leBytes_length]; omega

theorem getElem?_apart {x y z q q' : Bytes} {p p' : UInt8} {i : Nat} (hq : q.length = 2) (hq' : q'.length = 2)
    (h1 : i ≠ x.length) (h2 : i ≠ x.length + 1 + y.length) (h3 : i ≠ x.length + 1 + y.length + 1) :
    (x ++ [p] ++ y ++ q ++ z)[i]? = (x ++ [p'] ++ y ++ q' ++ z)[i]? := by
  simp only [List.append_assoc, List.getElem?_append, hq, hq', List.length_singleton]
  by_cases i1 : i < x.length
  · rw [if_pos i1, if_pos i1]
  · have i3 : ¬ i - x.length < 1 := by omega
    rw [if_neg i1, if_neg i1, if_neg i3, if_neg i3]
    by_cases i2 : i - x.length - 1 < y.length
    · rw [if_pos i2, if_pos i2]
    · have i4 : ¬ i - x.length - 1 - y.length < 2 := by omega
      rw [if_neg i2, if_neg i2, if_neg i4, if_neg i4]

/-- C78: a ROM that is saved with its device capacity kept, and whose image is larger than 64 KiB, is saved with the
capacity updated too.  (Partial: smaller images are missing, for which it is false, see
`rom_update_capacity_small`.)  The new capacity is the least that has room for the image, and only its byte and the checksum of
the header differ between the images. -/
theorem rom_update_capacity_partial (r r0 : Rom) (b : Bytes) (h : save r false = .ok (b, r0)) (hmin : 2 ^ 16 < b.length)
    (hmax : b.length ≤ 2 ^ 272) :
    ∃ b' c, save r true = .ok (b', { r with deviceCapacity := (c : Nat) }) ∧ 2 ^ (16 + c) < b.length ∧
      b.length ≤ 2 ^ (17 + c) ∧ b'.length = b.length ∧ c < 256 ∧ b'[0x14]? = some (UInt8.ofNat c) ∧
      ∀ i, i ≠ 0x14 → i ≠ 0x15E → i ≠ 0x15F → b'[i]? = b[i]? := by
  obtain ⟨img, o, hdr, hi, hh, rfl, hl, hdl⟩ := save_false_inv h
  have hbl : (patch img 0 hdr).length = img.length := patch_length (by omega)
  rw [hbl] at hmin hmax ⊢
  have c0 := capacity_ge hmin
  have c1 := capacity_lt (by omega) hmax
  obtain ⟨c, hc⟩ := Int.eq_ofNat_of_zero_le c0
  obtain ⟨b1, b2⟩ := capacity_bounds (by omega) hc
  have hok := headerOk_of_saved (header_inv hh)
  obtain ⟨hdr', hh'⟩ := header_of_build (c := (c : Int)) hi (by
    obtain ⟨a1, a2, a3, a4, a5, -, -, a6, a7, a8⟩ := hok
    exact ⟨a1, a2, a3, a4, a5, by omega, by omega, a6, a7, a8⟩)
  have hdl' := (header_inv hh').len
  obtain ⟨x, y, z, ⟨hx, hy, hz⟩, hsh⟩ := header_shape hh
  have e1 := hsh _ _ hh
  have e2 := hsh _ _ hh'
  rw [Int.toNat_natCast] at e2
  have hp1 : patch img 0 hdr = hdr ++ img.drop 0x200 := by unfold patch; rw [hdl]; simp
  have hp2 : patch img 0 hdr' = hdr' ++ img.drop 0x200 := by unfold patch; rw [hdl']; simp
  refine ⟨patch img 0 hdr', c, ?_, b1, b2, patch_length (by omega), by omega, ?_, ?_⟩
  · unfold save
    rw [hi, bind_ok]
    dsimp only
    rw [if_pos rfl, hc, hh', bind_ok]
    rfl
  · rw [hp2, e2]
    simp [hx]
  · intro i h1 h2 h3
    rw [hp1, hp2]
    by_cases hi' : i < 0x200
    · rw [List.getElem?_append_left (by omega), List.getElem?_append_left (by omega), e1, e2]
      exact getElem?_apart (by simp) (by simp) (by omega) (by omega) (by omega)
    · rw [List.getElem?_append_right (by omega), List.getElem?_append_right (by omega), hdl, hdl']

/-- An image of more than 64 KiB. -/
def big : Rom := { sample with pad200 := zeros 0x10000 }

theorem big_ok : SizeOk big ∧ PartsOk big ∧ ∃ b r', save big false = .ok (b, r') :=
  saves_of (fnt := [8, 0, 0, 0, 0, 0, 1, 0, 1, 97, 1, 98, 0]) (r := big) sample_ids rfl (by decide +kernel)
    (by
      have : sizeBound big [1] [] [8, 0, 0, 0, 0, 0, 1, 0, 1, 97, 1, 98, 0] < 2 ^ 32 := by
        unfold sizeBound
        rw [show big.pad200.length = 0x10000 from zeros_length _]
        decide +kernel
      rw [decide_eq_true this]
      decide +kernel)
    (.inl rfl) sample_header

example : ∃ b r0, save big false = .ok (b, r0) ∧ 2 ^ 16 < b.length ∧ b.length ≤ 2 ^ 272 := by
  obtain ⟨hs, hp, b, r0, h⟩ := big_ok
  refine ⟨b, r0, h, ?_, ?_⟩
  · obtain ⟨fnt, ids9, ids7, es9, es7, es, starts, hdr, hsv, -⟩ := save_inv h
    have h1 : 0x10200 ≤ (sec0 big).length := by
      unfold sec0
      rw [padTo_zero, List.length_append, List.length_append, zeros_length]
      have : big.pad200.length = 0x10000 := zeros_length _
      omega
    have h2 := whole_length (full big es9 es7 es fnt (fatOf big starts)) big.rsaSignature
    have h3 := congrArg List.length (full_eq big es9 es7 es fnt (fatOf big starts))
    rw [List.length_append] at h3
    rw [hsv.len]
    omega
  · obtain ⟨ids9, ids7, fnt, h9, h7, hf, hl⟩ := saved_length_le h
    have h1 := hs ids9 ids7 fnt h9 h7 hf
    have h2 : big.rsaSignature.length = 0x88 := by decide +kernel
    have h3 : b.length ≤ 2 ^ 33 := by omega
    exact Nat.le_trans h3 (Nat.pow_le_pow_right (by omega) (by omega))

/-- C78: a ROM whose image has at most 64 KiB cannot be saved with the capacity updated, though it can be saved
otherwise: the computed capacity is negative. -/
theorem rom_update_capacity_small (r r0 : Rom) (b : Bytes) (h : save r false = .ok (b, r0)) (hmax : b.length ≤ 2 ^ 16) :
    save r true = .error .valueError := by
  obtain ⟨img, o, hdr, hi, hh, rfl, hl, hdl⟩ := save_false_inv h
  have hbl : (patch img 0 hdr).length = img.length := patch_length (by omega)
  rw [hbl] at hmax
  have hc := capacity_neg (by omega) hmax
  have hd := header_inv hh
  have hsm := hd.small
  simp only [headerSmall, List.mem_cons, List.not_mem_nil, or_false, forall_eq_or_imp, forall_eq] at hsm
  unfold save
  rw [hi, bind_ok]
  dsimp only
  rw [if_pos rfl]
  unfold header headerFront
  rw [pyAssert_true hd.idCode, bind_ok, pyAssert_true hd.developerCode, bind_ok]
  have hm : mapE write8 (headerSmall r (capacity img.length)) = .error .valueError := by
    unfold headerSmall
    rw [mapE_cons, write8_eq_ok.2 ⟨by omega, by omega, rfl⟩, bind_ok, mapE_cons,
      write8_eq_ok.2 ⟨by omega, by omega, rfl⟩, bind_ok, mapE_cons]
    have : write8 (capacity img.length) = .error .valueError := by
      unfold write8; rw [if_neg (by omega)]
    rw [this]
    rfl
  rw [hm]
  rfl

/-- Such an image is small. -/
theorem sample_small {b : Bytes} {r' : Rom} (h : save sample false = .ok (b, r')) : b.length ≤ 2 ^ 16 := by
  obtain ⟨ids9, ids7, fnt, h9, h7, hf, hl⟩ := saved_length_le h
  rw [overlayIds_unique h9 sample_ids, overlayIds_unique h7 overlayIds_nil,
    Except.ok.inj (hf.symm.trans (show _ = Except.ok [8, 0, 0, 0, 0, 0, 1, 0, 1, 97, 1, 98, 0] by decide +kernel))] at hl
  refine Nat.le_trans hl ?_
  decide +kernel

example : ∃ b r0, save sample false = .ok (b, r0) ∧ b.length ≤ 2 ^ 16 := by
  obtain ⟨-, -, b, r0, h⟩ := sample_ok
  exact ⟨b, r0, h, sample_small h⟩
/-- A new ROM cannot be saved with its device capacity updated. -/
example : save new true = .error .valueError := by
  have h := saves_of (r := new) (ids := []) (fnt := [8, 0, 0, 0, 0, 0, 1, 0, 0]) overlayIds_nil rfl (by decide +kernel)
    (by decide +kernel) (.inl rfl) (by
      refine ⟨by decide +kernel, by decide +kernel, by decide +kernel, by decide +kernel, by decide +kernel,
        by decide +kernel, by decide +kernel, ?_, ?_, ?_⟩ <;> decide +kernel)
  obtain ⟨-, -, b, r0, h⟩ := h
  refine rom_update_capacity_small new r0 b h ?_
  obtain ⟨ids9, ids7, fnt, h9, h7, hf, hl⟩ := saved_length_le h
  rw [overlayIds_unique h9 overlayIds_nil, overlayIds_unique h7 overlayIds_nil,
    Except.ok.inj (hf.symm.trans (show _ = Except.ok [8, 0, 0, 0, 0, 0, 1, 0, 0] by decide +kernel))] at hl
  refine Nat.le_trans hl ?_
  decide +kernel

/-! ## Checksums -/

/-- C37: the checksum at 0x15E is the one of the bytes before it, as they are in the image; the checksum at 0x15C is the
one of the logo, which lies before it. -/
theorem rom_checksums (r r' : Rom) (u : Bool) (b : Bytes) (h : save r u = .ok (b, r')) :
    slice b 0x15E 0x160 = leBytes 2 (crc16 (slice b 0 0x15E)) ∧
    slice b 0x15C 0x15E = leBytes 2 (crc16 (slice b 0xC0 0x15C)) ∧ slice b 0xC0 0x15C = r.nintendoLogo := by
  obtain ⟨fnt, ids9, ids7, es9, es7, es, starts, hdr, hs, -⟩ := save_inv h
  have hh := hs.hdr_ok
  have e1 : slice b 0xC0 0x15C = r.nintendoLogo := (hs.at_hdr hh.at0C0).slice_eq (by rw [hh.logo])
  have e2 : slice b 0 0x15E = hdr.take 0x15E := by
    have h1 : At hdr 0 (hdr.take 0x15E) := by
      have := At.first (hdr.take 0x15E) (hdr.drop 0x15E)
      rwa [List.take_append_drop] at this
    exact (hs.at_hdr h1).slice_eq (by rw [List.length_take, hh.len]; rfl)
  refine ⟨?_, ?_, e1⟩
  · rw [e2]
    exact (hs.at_hdr hh.at15E).slice_eq (by rw [leBytes_length])
  · rw [e1]
    exact (hs.at_hdr hh.at15C).slice_eq (by rw [leBytes_length])

example : ∃ b r', save sample false = .ok (b, r') := sample_ok.2.2

/-- C37: so a change within two adjacent bytes of the header before 0x15E does not agree with the checksum any more. -/
theorem rom_checksum_detects (r r' : Rom) (u : Bool) (b x : Bytes) (h : save r u = .ok (b, r'))
    (hl : x.length = 0x15E) (hne : x ≠ slice b 0 0x15E) (k : Nat)
    (hk : ∀ i, i ≠ k → i ≠ k + 1 → x[i]? = (slice b 0 0x15E)[i]?) :
    slice b 0x15E 0x160 ≠ leBytes 2 (crc16 x) := by
  obtain ⟨fnt, ids9, ids7, es9, es7, es, starts, hdr, hs, -⟩ := save_inv h
  have hb := hs.len_ge
  obtain ⟨h1, -, -⟩ := rom_checksums r r' u b h
  rw [h1]
  intro e
  have hlen : x.length = (slice b 0 0x15E).length := by rw [slice_length, hl]; omega
  refine Props.Util.crc16_detects x (slice b 0 0x15E) hlen hne k hk ?_
  have := congrArg leVal e
  rw [leVal_leBytes_of_lt (crc_lt _), leVal_leBytes_of_lt (crc_lt _)] at this
  exact this.symm

example : ∃ b r' x k, save sample false = .ok (b, r') ∧ x.length = 0x15E ∧ x ≠ slice b 0 0x15E ∧
    ∀ i, i ≠ k → i ≠ k + 1 → x[i]? = (slice b 0 0x15E)[i]? := by
  obtain ⟨-, -, b, r', h⟩ := sample_ok
  obtain ⟨fnt, ids9, ids7, es9, es7, es, starts, hdr, hs, -⟩ := save_inv h
  have hb := hs.len_ge
  have hl : (slice b 0 0x15E).length = 0x15E := by rw [slice_length]; omega
  have key : ∀ y : Bytes, y.length = 0x15E → ∃ (x : Bytes) (k : Nat), x.length = 0x15E ∧ x ≠ y ∧
      ∀ i, i ≠ k → i ≠ k + 1 → x[i]? = y[i]? := by
    intro y hl
    refine ⟨y.set 3 (y[3] + 1), 3, by rw [List.length_set, hl], ?_, fun i h1 h2 => by rw [List.getElem?_set_ne (by omega)]⟩
    intro e
    have := congrArg (·[3]?) e
    simp only [List.getElem?_set_self (show 3 < y.length by omega), List.getElem?_eq_getElem (show 3 < y.length by omega),
      Option.some.injEq] at this
    have := congrArg (· - y[3]) this
    simp [UInt8.add_comm] at this
  obtain ⟨x, k, h1, h2, h3⟩ := key _ hl
  exact ⟨b, r', x, k, h, h1, h2, h3⟩

/-! ## The files -/

theorem u32_at {b : Bytes} {o v : Nat} (h : At b o (leBytes 4 v)) (hv : v < 256 ^ 4) : u32 b o = v := by
  unfold u32
  rw [h.slice_eq (by simp)]
  exact leVal_leBytes_of_lt hv

/-- The offsets of arm9, of the names and of the table in the header. -/
theorem header_words {r : Rom} {c : Int} {b fnt : Bytes} {ids9 ids7 : List Nat} {es9 es7 es : List (Int × Bytes)}
    {starts : List Nat} {hdr : Bytes} (hs : Saved r c b fnt ids9 ids7 es9 es7 es starts hdr) :
    u32 b 0x20 = (sec0 r).length ∧ u32 b 0x2C = r.arm9.length ∧ u32 b 0x48 = (sec5 r es9 es7 fnt).length ∧
      u32 b 0x4C = 8 * r.files.length ∧ u32 b 0x80 = sigPos (full r es9 es7 es fnt (fatOf r starts)).length ∧
      u32 b 0x1000 = sigPos (full r es9 es7 es fnt (fatOf r starts)).length := by
  have hh := hs.hdr_ok
  have h1 := hs.at_hdr hh.at020
  have h2 := hs.at_hdr hh.at080
  have h3 := hh.fits1
  have h4 := hh.fitsSig
  simp only [headerWords1, offsetsOf, structBytes, enBytes, At.split, leBytes_length, Fits] at h1 h2 h3 h4
  obtain ⟨a1, a2, a3, a4, a5, a6, a7, a8, a9, a10, a11, a12, -⟩ := h1
  obtain ⟨b1, b2, b3, b4, b5, b6, b7, b8, b9, b10, b11, b12, -⟩ := h3
  refine ⟨u32_at a1 b1, u32_at a4 b4, u32_at a11 b11, ?_, u32_at h2.1 h4, u32_at hs.at_sig h4⟩
  rw [u32_at a12 b12, Nat.mul_comm]

/-- C38: in a saved image, the entry of the file allocation table with a file's number delimits exactly the bytes of
that file.  The table lies where the header says and has one entry for each file.  Files begin at multiples of 0x200, and
different files do not overlap. -/
theorem rom_files (r r' : Rom) (u : Bool) (b : Bytes) (h : save r u = .ok (b, r')) :
    u32 b 0x4C = 8 * r.files.length ∧
    (∀ i f, r.files[i]? = some f →
      let start := u32 b (u32 b 0x48 + 8 * i)
      let stop := u32 b (u32 b 0x48 + 8 * i + 4)
      start % 0x200 = 0 ∧ 0x4000 ≤ start ∧ stop = start + f.length ∧ stop ≤ b.length ∧ slice b start stop = f) ∧
    ∀ i j, i ≠ j → i < r.files.length → j < r.files.length →
      u32 b (u32 b 0x48 + 8 * i + 4) ≤ u32 b (u32 b 0x48 + 8 * j) ∨
      u32 b (u32 b 0x48 + 8 * j + 4) ≤ u32 b (u32 b 0x48 + 8 * i) := by
  obtain ⟨fnt, ids9, ids7, es9, es7, es, starts, hdr, hs, -⟩ := save_inv h
  obtain ⟨-, -, w1, w2, -⟩ := header_words hs
  have key : ∀ i f, r.files[i]? = some f → ∃ s, starts[i]? = some s ∧
      u32 b (u32 b 0x48 + 8 * i) = s ∧ u32 b (u32 b 0x48 + 8 * i + 4) = s + f.length := by
    intro i f hf
    have hlt : i < starts.length := by rw [hs.starts_len]; exact (List.getElem?_eq_some_iff.1 hf).1
    have hst : starts[i]? = some starts[i] := List.getElem?_eq_getElem hlt
    obtain ⟨-, hb⟩ := hs.starts_ok i _ f hst hf
    have he : (entriesOf starts r.files)[i]? = some (starts[i], starts[i] + f.length) := by
      unfold entriesOf
      have hz : (starts.zip r.files)[i]? = some (starts[i], f) := List.getElem?_zip_eq_some.2 ⟨hst, hf⟩
      rw [List.getElem?_map, hz]
      rfl
    have hat : At (fatOf r starts) (8 * i) (leBytes 4 starts[i] ++ leBytes 4 (starts[i] + f.length)) := by
      have := flatten_at (n := 8) (parts := (entriesOf starts r.files).map fun e => leBytes 4 e.1 ++ leBytes 4 e.2) (by
        intro p hp
        obtain ⟨e, -, rfl⟩ := List.mem_map.1 hp
        simp) (i := i) (by
        rw [List.length_map]
        exact (List.getElem?_eq_some_iff.1 he).1)
      rw [List.getElem_map, (List.getElem?_eq_some_iff.1 he).2, Nat.mul_comm] at this
      exact this
    have h2 := hs.at_fat.sub hat
    rw [At.split, leBytes_length] at h2
    refine ⟨starts[i], hst, ?_, ?_⟩
    · rw [w1]; exact u32_at h2.1 (by omega)
    · rw [w1]; exact u32_at h2.2 (by omega)
  refine ⟨w2, ?_, ?_⟩
  · intro i f hf
    obtain ⟨s, k1, k2, k3⟩ := key i f hf
    obtain ⟨-, g1, g2⟩ := starts_at hs.toBuilt k1 hf
    have g3 := hs.at_file k1 hf
    dsimp only
    rw [k2, k3]
    have h3 := (pre01 (r := r)).length_le
    have h4 := sec0_ge r
    exact ⟨g2, by omega, rfl, g3.bound, g3.slice_eq rfl⟩
  · intro i j hij hi hj
    obtain ⟨s, k1, k2, k3⟩ := key i _ (List.getElem?_eq_getElem hi)
    obtain ⟨t, l1, l2, l3⟩ := key j _ (List.getElem?_eq_getElem hj)
    have := starts_disjoint hs.toBuilt hij k1 (List.getElem?_eq_getElem hi) l1 (List.getElem?_eq_getElem hj)
    have b1 := le_block_length r.files[i]
    have b2 := le_block_length r.files[j]
    rw [k2, k3, l2, l3]
    omega

example : (∃ b r', save sample false = .ok (b, r')) ∧ sample.files.length = 2 := ⟨sample_ok.2.2, rfl⟩

/-- C38: a saved image consists of a header area, whose length is a multiple of 0x4000, and of the parts of the ROM in a
fixed order.  Each part begins at a multiple of 0x200: `block` fills up with bytes 0xFF.  The overlays stand behind their
tables, in the order of the tables; the other files stand last, in the order of the sorted file IDs, and then of the IDs. -/
theorem rom_layout (r r' : Rom) (u : Bool) (b : Bytes) (h : save r u = .ok (b, r')) :
    ∃ (front fnt fat : Bytes) (ids9 ids7 : List Nat) (fs9 fs7 fs : List (Int × Bytes)),
      OverlayIds r.arm9OverlayTable ids9 ∧ OverlayIds r.arm7OverlayTable ids7 ∧
      Model.Fnt.save r.filenames = .ok fnt ∧ fat.length = 8 * r.files.length ∧
      fs9.map Prod.fst = ids9.map Int.ofNat ∧ fs7.map Prod.fst = ids7.map Int.ofNat ∧
      fs.map Prod.fst = remaining r.files.length ((ids9 ++ ids7).map Int.ofNat)
        (r.sortedFileIds ++ (List.range r.files.length).map Int.ofNat) ∧
      (∀ x ∈ fs9 ++ fs7 ++ fs, FileNo r.files x.1 x.2) ∧
      front.length % 0x4000 = 0 ∧ 0x200 + r.pad200.length ≤ front.length ∧ front.length < 0x4200 + r.pad200.length ∧
      ∃ body, body = front ++ block (r.arm9 ++ r.arm9PostData) ++ block r.arm9OverlayTable ++
          (fs9.map fun x => block x.2).flatten ++ block r.arm7 ++ block r.arm7OverlayTable ++
          (fs7.map fun x => block x.2).flatten ++ block fnt ++ block fat ++ block r.iconBanner ++ block r.debugRom ++
          blocks (fs.map Prod.snd) ∧
        b = body ++ zeroFill 0x20 body.length ++ r.rsaSignature ++
          zeroFill 0x400 (body.length + (zeroFill 0x20 body.length).length + r.rsaSignature.length) := by
  obtain ⟨fnt, ids9, ids7, es9, es7, es, starts, hdr, hs, -⟩ := save_inv h
  have hl0 : (sec0 r).length < 0x4200 + r.pad200.length ∧ 0x200 + r.pad200.length ≤ (sec0 r).length := by
    unfold sec0
    rw [padTo_length, List.length_append, zeros_length]
    have := padLen_lt (len := 0x200 + r.pad200.length) (align := 0x4000) (by decide)
    omega
  have g0 := sec0_ge r
  have g1 := hs.hdr_ok.len
  have hd1 : (patch (sec0 r) 0x1000 (leBytes 4 (sigPos (full r es9 es7 es fnt (fatOf r starts)).length))).length =
      (sec0 r).length := patch_length (by rw [leBytes_length]; omega)
  have hd2 : (patch (patch (sec0 r) 0x1000 (leBytes 4 (sigPos (full r es9 es7 es fnt (fatOf r starts)).length))) 0 hdr).length =
      (sec0 r).length := by rw [patch_length (by omega), hd1]
  refine ⟨patch (patch (sec0 r) 0x1000 (leBytes 4 (sigPos (full r es9 es7 es fnt (fatOf r starts)).length))) 0 hdr, fnt,
    fatOf r starts, ids9, ids7, es9, es7, es, hs.ids9_ok, hs.ids7_ok, hs.fnt_ok, ?_, hs.es9_ids, hs.es7_ids, hs.es_ids, ?_, ?_, ?_, ?_, _, rfl, ?_⟩
  · rw [fatBytes_length, entriesOf_length hs.starts_len]
  · intro x hx
    rw [List.mem_append, List.mem_append] at hx
    rcases hx with (hx | hx) | hx
    · exact hs.es9_files x hx
    · exact hs.es7_files x hx
    · exact hs.es_files x hx
  · rw [hd2]; exact sec0_mod' r
  · rw [hd2]; exact hl0.2
  · rw [hd2]; exact hl0.1
  · have hf : ∀ d0 : Bytes, d0.length = (sec0 r).length → (d0 ++ block (r.arm9 ++ r.arm9PostData) ++ block r.arm9OverlayTable ++
          (es9.map fun x => block x.2).flatten ++ block r.arm7 ++ block r.arm7OverlayTable ++
          (es7.map fun x => block x.2).flatten ++ block fnt ++ block (fatOf r starts) ++ block r.iconBanner ++ block r.debugRom ++
          blocks (es.map Prod.snd)).length = (full r es9 es7 es fnt (fatOf r starts)).length := by
      intro d0 hd
      simp only [full, sec8, sec7, sec6, sec5, sec4, sec3, sec2, sec1, padded, List.length_append, hd]
    rw [hf _ hd2]
    rw [hs.img]
    have e : whole (full r es9 es7 es fnt (fatOf r starts)) r.rsaSignature = sec0 r ++ (block (r.arm9 ++ r.arm9PostData) ++ block r.arm9OverlayTable ++
          (es9.map fun x => block x.2).flatten ++ block r.arm7 ++ block r.arm7OverlayTable ++
          (es7.map fun x => block x.2).flatten ++ block fnt ++ block (fatOf r starts) ++ block r.iconBanner ++ block r.debugRom ++
          blocks (es.map Prod.snd) ++ zeroFill 0x20 (full r es9 es7 es fnt (fatOf r starts)).length ++ r.rsaSignature ++
          zeroFill 0x400 ((full r es9 es7 es fnt (fatOf r starts)).length + (zeroFill 0x20 (full r es9 es7 es fnt (fatOf r starts)).length).length + r.rsaSignature.length)) := by
      unfold whole
      conv => lhs; arg 1; arg 1; arg 1; rw [full, sec8, sec7, sec6, sec5, sec4, sec3, sec2, sec1, padded, padded]
      simp only [List.append_assoc, sigPos]
    rw [e, patch_append (by rw [leBytes_length]; omega), patch_append (by omega)]
    simp only [List.append_assoc]

example : (∃ b r', save sample false = .ok (b, r')) ∧ OverlayIds sample.arm9OverlayTable [1] :=
  ⟨sample_ok.2.2, sample_ids⟩

/-- C38: the order of the files in an image (`rom_layout`) has each file exactly once if no file ID occurs twice in the
overlay tables and no sorted file ID is negative. -/
theorem rom_files_once_partial (n : Nat) (ids : List Nat) (sorted : List Int) (hids : ids.Nodup) (hlt : ∀ id ∈ ids, id < n)
    (hs : ∀ k ∈ sorted, 0 ≤ k) :
    (ids.map Int.ofNat ++ remaining n (ids.map Int.ofNat) (sorted ++ (List.range n).map Int.ofNat)).Perm
      ((List.range n).map Int.ofNat) := by
  have inj : ∀ a b : Nat, a ≠ b → Int.ofNat a ≠ Int.ofNat b := by
    intro a b h e; exact h (Int.ofNat.inj e)
  rw [List.perm_ext_iff_of_nodup]
  · intro k
    rw [List.mem_append, mem_remaining]
    constructor
    · rintro (h | ⟨h1, h2, h3⟩)
      · obtain ⟨i, hi, rfl⟩ := List.mem_map.1 h
        exact List.mem_map.2 ⟨i, List.mem_range.2 (hlt i hi), rfl⟩
      · rcases List.mem_append.1 h1 with h | h
        · have := hs k h
          exact List.mem_map.2 ⟨k.toNat, List.mem_range.2 (by omega), by simp only [Int.ofNat_eq_natCast]; omega⟩
        · exact h
    · intro h
      by_cases hk : k ∈ ids.map Int.ofNat
      · exact .inl hk
      · refine .inr ⟨List.mem_append.2 (.inr h), hk, ?_⟩
        obtain ⟨i, hi, rfl⟩ := List.mem_map.1 h
        have := List.mem_range.1 hi
        simp only [Int.ofNat_eq_natCast]; omega
  · rw [List.nodup_append]
    refine ⟨?_, remaining_nodup n, ?_⟩
    · exact List.Pairwise.map _ (fun a b h => inj a b h) hids
    · intro a ha b hb e
      rw [mem_remaining] at hb
      exact hb.2.1 (e ▸ ha)
  · exact List.Pairwise.map _ (fun a b h => inj a b h) List.nodup_range

example : [2, 0].Nodup ∧ (∀ id ∈ [2, 0], id < 4) ∧ (∀ k ∈ [3, 3, 9], (0 : Int) ≤ k) ∧
    [2, 0].map Int.ofNat ++ remaining 4 ([2, 0].map Int.ofNat) ([3, 3, 9] ++ (List.range 4).map Int.ofNat) = [2, 0, 3, 1] := by
  decide

/-- Two places of the same file. -/
theorem two_copies {r : Rom} {c : Int} {b fnt : Bytes} {ids9 ids7 : List Nat} {es9 es7 es : List (Int × Bytes)}
    {starts : List Nat} {hdr : Bytes} (hs : Saved r c b fnt ids9 ids7 es9 es7 es starts hdr) {i j : Nat} {k l : Int}
    {f : Bytes} (hij : i < j) (hi : (es9 ++ es7 ++ es)[i]?.map Prod.fst = some k)
    (hj : (es9 ++ es7 ++ es)[j]?.map Prod.fst = some l) (hk : FileNo r.files k f) (hl : FileNo r.files l f) :
    ∃ s t, At b s f ∧ At b t f ∧ s + f.length ≤ t := by
  have hm : (places r es9 es7 es fnt (fatOf r starts)).map Prod.fst = (es9 ++ es7 ++ es).map Prod.fst := by
    rw [places, ovPlaces, List.map_append, List.map_append, place_map_fst, place_map_fst, place_map_fst,
      List.map_append, List.map_append]
  rw [← List.getElem?_map, ← hm, List.getElem?_map, Option.map_eq_some_iff] at hi hj
  obtain ⟨x, hx, rfl⟩ := hi
  obtain ⟨y, hy, rfl⟩ := hj
  obtain ⟨a1, a2⟩ := List.getElem?_eq_some_iff.1 hx
  obtain ⟨b1, b2⟩ := List.getElem?_eq_some_iff.1 hy
  have hp := List.pairwise_iff_getElem.1 (places_pairwise (fat := fatOf r starts) hs.toPlaced) i j a1 b1 hij
  rw [a2, b2] at hp
  have hge := sec0_ge r
  have hge' := (pre01 (r := r)).length_le
  obtain ⟨f1, c1, c2, c3, -⟩ := places_at (fat := fatOf r starts) hs.toPlaced x (List.mem_of_getElem? hx)
  obtain ⟨f2, d1, d2, d3, -⟩ := places_at (fat := fatOf r starts) hs.toPlaced y (List.mem_of_getElem? hy)
  rw [fileNo_unique c1 hk] at c2
  rw [fileNo_unique d1 hl] at d2
  have := hp f hk
  have := le_block_length f
  exact ⟨x.2, y.2, hs.at_full (by omega) c2, hs.at_full (by omega) d2, by omega⟩

/-- C38 is false without the conditions of `rom_files_once_partial`: a file whose ID occurs twice in the overlay table is
stored twice. -/
theorem rom_overlay_stored_twice (r r' : Rom) (u : Bool) (b : Bytes) (h : save r u = .ok (b, r')) (ids9 : List Nat)
    (h9 : OverlayIds r.arm9OverlayTable ids9) (i j k : Nat) (f : Bytes) (hij : i < j) (hi : ids9[i]? = some k)
    (hj : ids9[j]? = some k) (hf : r.files[k]? = some f) :
    ∃ s t, At b s f ∧ At b t f ∧ s + f.length ≤ t := by
  obtain ⟨fnt, ids9', ids7, es9, es7, es, starts, hdr, hs, -⟩ := save_inv h
  have he : ids9' = ids9 := overlayIds_unique hs.ids9_ok h9
  subst he
  have hl : es9.length = ids9'.length := by
    have := congrArg List.length hs.es9_ids
    simpa using this
  have key : ∀ m : Nat, ids9'[m]? = some k → (es9 ++ es7 ++ es)[m]?.map Prod.fst = some (Int.ofNat k) := by
    intro m hm
    have hlt := (List.getElem?_eq_some_iff.1 hm).1
    rw [List.append_assoc, List.getElem?_append_left (by omega), ← List.getElem?_map, hs.es9_ids, List.getElem?_map, hm]
    rfl
  have hf' : FileNo r.files (Int.ofNat k) f := .inl ⟨by simp, by simpa using hf⟩
  exact two_copies hs hij (key i hi) (key j hj) hf' hf'

/-- The same overlay twice. -/
def twice : Rom := { sample with arm9OverlayTable := sample.arm9OverlayTable ++ sample.arm9OverlayTable }

example : ∃ b r', save twice false = .ok (b, r') ∧ OverlayIds twice.arm9OverlayTable [1, 1] ∧ [1, 1][0]? = some 1 ∧
    [1, 1][1]? = some 1 ∧ twice.files[1]? = some [12] := by
  have hids : OverlayIds twice.arm9OverlayTable [1, 1] := by
    refine ⟨by decide +kernel, ?_⟩
    intro i k hk
    have h64 : twice.arm9OverlayTable.length = 64 := by decide +kernel
    match i, hk with
    | 0, hk => cases hk; exact ⟨by decide, At.of_slice (b := 0x1C) (by omega) (by omega) (by decide +kernel)⟩
    | 1, hk => cases hk; exact ⟨by decide, At.of_slice (b := 0x3C) (by omega) (by omega) (by decide +kernel)⟩
    | i + 2, hk => simp at hk
  obtain ⟨-, -, b, r', h⟩ := saves_of (r := twice) (fnt := [8, 0, 0, 0, 0, 0, 1, 0, 1, 97, 1, 98, 0]) hids rfl
    (by decide +kernel) (by decide +kernel) (.inl rfl) sample_header
  exact ⟨b, r', h, hids, rfl, rfl, rfl⟩

/-- C38 is false without the conditions of `rom_files_once_partial`: with -1 among the sorted file IDs, the last file is
stored twice. -/
theorem rom_negative_id_stored_twice (r r' : Rom) (u : Bool) (b : Bytes) (h : save r u = .ok (b, r'))
    (hk : -1 ∈ r.sortedFileIds) (f : Bytes) (hf : r.files.getLast? = some f) :
    ∃ s t, At b s f ∧ At b t f ∧ s + f.length ≤ t := by
  obtain ⟨fnt, ids9, ids7, es9, es7, es, starts, hdr, hs, -⟩ := save_inv h
  rw [List.getLast?_eq_getElem?] at hf
  have hpos : 0 < r.files.length := by
    have := (List.getElem?_eq_some_iff.1 hf).1
    omega
  have f1 : FileNo r.files (-1) f := .inr ⟨by omega, by omega, by
    rw [show ((r.files.length : Int) + -1).toNat = r.files.length - 1 by omega]; exact hf⟩
  have f2 : FileNo r.files ((r.files.length - 1 : Nat) : Int) f := .inl ⟨by omega, by simpa using hf⟩
  have m1 : (-1 : Int) ∈ (es9 ++ es7 ++ es).map Prod.fst := by
    rw [List.map_append, hs.es_ids]
    refine List.mem_append.2 (.inr ?_)
    rw [mem_remaining]
    refine ⟨List.mem_append.2 (.inl hk), ?_, by omega⟩
    intro hm
    obtain ⟨x, -, hx⟩ := List.mem_map.1 hm
    simp only [Int.ofNat_eq_natCast] at hx
    omega
  have m2 : ((r.files.length - 1 : Nat) : Int) ∈ (es9 ++ es7 ++ es).map Prod.fst := by
    rw [List.map_append, List.map_append, hs.es_ids, hs.es9_ids, hs.es7_ids, ← List.map_append]
    by_cases hm : ((r.files.length - 1 : Nat) : Int) ∈ (ids9 ++ ids7).map Int.ofNat
    · exact List.mem_append.2 (.inl hm)
    · refine List.mem_append.2 (.inr ?_)
      rw [mem_remaining]
      refine ⟨List.mem_append.2 (.inr (List.mem_map.2 ⟨r.files.length - 1, List.mem_range.2 (by omega), rfl⟩)), hm, by omega⟩
  obtain ⟨i, hi, ei⟩ := List.getElem_of_mem m1
  obtain ⟨j, hj, ej⟩ := List.getElem_of_mem m2
  have gi : (es9 ++ es7 ++ es)[i]?.map Prod.fst = some (-1) := by
    rw [← List.getElem?_map, List.getElem?_eq_getElem hi, ei]
  have gj : (es9 ++ es7 ++ es)[j]?.map Prod.fst = some ((r.files.length - 1 : Nat) : Int) := by
    rw [← List.getElem?_map, List.getElem?_eq_getElem hj, ej]
  rcases Nat.lt_trichotomy i j with hij | hij | hij
  · exact two_copies hs hij gi gj f1 f2
  · subst hij
    rw [ei] at ej
    omega
  · exact two_copies hs hij gj gi f2 f1

example : ∃ b r', save { sample with sortedFileIds := [-1] } false = .ok (b, r') := by
  obtain ⟨-, -, h⟩ := saves_of (r := { sample with sortedFileIds := [-1] })
    (fnt := [8, 0, 0, 0, 0, 0, 1, 0, 1, 97, 1, 98, 0]) sample_ids rfl (by decide +kernel) (by decide +kernel) (.inl rfl)
    sample_header
  exact h

end Verif.Props.Rom
