import Verif.Proofs.RomFiles
import Verif.Props.Fnt

namespace Verif.Proofs.Rom

open Verif Verif.Model.Rom Verif.Model.Util Verif.Spec.Rom

/-- The table in an image. -/
abbrev fatOf (r : Rom) (starts : List Nat) : Bytes := fatBytes (entriesOf starts r.files)

/-- Everything about a saved image. -/
structure Saved (r : Rom) (c : Int) (b : Bytes) (fnt : Bytes) (ids9 ids7 : List Nat) (es9 es7 es : List (Int × Bytes))
    (starts : List Nat) (hdr : Bytes) : Prop extends Built r fnt ids9 ids7 es9 es7 es starts where
  sigLt : sigPos (full r es9 es7 es fnt (fatOf r starts)).length < 2 ^ 32
  hdr_ok : Header r c (offsetsOf r es9 es7 fnt (fatOf r starts)
    (sigPos (full r es9 es7 es fnt (fatOf r starts)).length)) hdr
  img : b = patch (patch (whole (full r es9 es7 es fnt (fatOf r starts)) r.rsaSignature) 0x1000
    (leBytes 4 (sigPos (full r es9 es7 es fnt (fatOf r starts)).length))) 0 hdr

theorem full_ge {r : Rom} {es9 es7 es : List (Int × Bytes)} {fnt fat : Bytes} :
    0x4000 ≤ (full r es9 es7 es fnt fat).length := by
  have h := (pre01.trans (pre1 (r := r) (es9 := es9) (es7 := es7) (es := es) (fnt := fnt) (fat := fat))).length_le
  have := sec0_ge r
  omega

theorem whole_prefix (d rsa : Bytes) : d <+: whole d rsa := ⟨zeroFill 0x20 d.length ++ (rsa ++ zeroFill 0x400 (sigPos d.length + rsa.length)), by simp [whole]⟩

theorem whole_length (d rsa : Bytes) : d.length ≤ (whole d rsa).length := (whole_prefix d rsa).length_le

theorem save_inv {r r' : Rom} {u : Bool} {b : Bytes} (h : save r u = .ok (b, r')) :
    ∃ fnt ids9 ids7 es9 es7 es starts hdr, Saved r r'.deviceCapacity b fnt ids9 ids7 es9 es7 es starts hdr ∧
      r' = { r with deviceCapacity := if u = true then capacity b.length else r.deviceCapacity } := by
  unfold save at h
  simp only [bind_eq_ok, pure_eq_ok] at h
  obtain ⟨⟨img, o⟩, hi, hdr, hh, h⟩ := h
  obtain ⟨fnt, ids9, ids7, es9, es7, es, starts, hb, h1, h2, h3⟩ := buildImage_inv hi
  dsimp only at hh h
  obtain ⟨rfl, rfl⟩ := Prod.mk.inj h
  have hd := header_inv hh
  have hl : (patch img 0 hdr).length = img.length := by
    apply patch_length
    rw [hd.len, h3, patch_length]
    · have := whole_length (full r es9 es7 es fnt (fatBytes (entriesOf starts r.files))) r.rsaSignature
      have := full_ge (r := r) (es9 := es9) (es7 := es7) (es := es) (fnt := fnt) (fat := fatBytes (entriesOf starts r.files))
      omega
    · have := whole_length (full r es9 es7 es fnt (fatBytes (entriesOf starts r.files))) r.rsaSignature
      have := full_ge (r := r) (es9 := es9) (es7 := es7) (es := es) (fnt := fnt) (fat := fatBytes (entriesOf starts r.files))
      rw [leBytes_length]
      omega
  refine ⟨fnt, ids9, ids7, es9, es7, es, starts, hdr, { hb with sigLt := h1, hdr_ok := ?_, img := ?_ }, ?_⟩
  · rw [← h2]; exact hd
  · rw [← h3]
  · rw [hl]

section

variable {r : Rom} {c : Int} {b fnt : Bytes} {ids9 ids7 : List Nat} {es9 es7 es : List (Int × Bytes)} {starts : List Nat}
  {hdr : Bytes}

theorem Saved.len (hs : Saved r c b fnt ids9 ids7 es9 es7 es starts hdr) :
    b.length = (whole (full r es9 es7 es fnt (fatOf r starts)) r.rsaSignature).length := by
  have h1 := whole_length (full r es9 es7 es fnt (fatOf r starts)) r.rsaSignature
  have h2 := full_ge (r := r) (es9 := es9) (es7 := es7) (es := es) (fnt := fnt) (fat := fatOf r starts)
  have h3 := hs.hdr_ok.len
  rw [hs.img, patch_length, patch_length]
  · rw [leBytes_length]; omega
  · rw [patch_length]
    · omega
    · rw [leBytes_length]; omega

theorem Saved.len_ge (hs : Saved r c b fnt ids9 ids7 es9 es7 es starts hdr) : 0x4000 ≤ b.length := by
  have h1 := whole_length (full r es9 es7 es fnt (fatOf r starts)) r.rsaSignature
  have h2 := full_ge (r := r) (es9 := es9) (es7 := es7) (es := es) (fnt := fnt) (fat := fatOf r starts)
  rw [hs.len]; omega

/-- What lies behind the pointer to the signature is in the image. -/
theorem Saved.at_whole (hs : Saved r c b fnt ids9 ids7 es9 es7 es starts hdr) {p : Nat} {x : Bytes} (hp : 0x1004 ≤ p)
    (h : At (whole (full r es9 es7 es fnt (fatOf r starts)) r.rsaSignature) p x) : At b p x := by
  have h1 := whole_length (full r es9 es7 es fnt (fatOf r starts)) r.rsaSignature
  have h2 := full_ge (r := r) (es9 := es9) (es7 := es7) (es := es) (fnt := fnt) (fat := fatOf r starts)
  have h3 := hs.hdr_ok.len
  rw [hs.img]
  refine (h.patch_disjoint ?_ ?_).patch_disjoint ?_ ?_
  · rw [leBytes_length]; omega
  · rw [leBytes_length]; omega
  · omega
  · rw [patch_length]
    · omega
    · rw [leBytes_length]; omega

theorem Saved.at_full (hs : Saved r c b fnt ids9 ids7 es9 es7 es starts hdr) {p : Nat} {x : Bytes} (hp : 0x1004 ≤ p)
    (h : At (full r es9 es7 es fnt (fatOf r starts)) p x) : At b p x :=
  hs.at_whole hp (at_prefix h (whole_prefix _ _))

theorem Saved.at_hdr (hs : Saved r c b fnt ids9 ids7 es9 es7 es starts hdr) {p : Nat} {x : Bytes} (h : At hdr p x) :
    At b p x := by
  rw [hs.img]
  have := At.patch_self (d := patch (whole (full r es9 es7 es fnt (fatOf r starts)) r.rsaSignature) 0x1000
    (leBytes 4 (sigPos (full r es9 es7 es fnt (fatOf r starts)).length))) (bs := hdr) (p := 0) (Nat.zero_le _)
  simpa using this.sub h

theorem Saved.at_sig (hs : Saved r c b fnt ids9 ids7 es9 es7 es starts hdr) :
    At b 0x1000 (leBytes 4 (sigPos (full r es9 es7 es fnt (fatOf r starts)).length)) := by
  have h1 := whole_length (full r es9 es7 es fnt (fatOf r starts)) r.rsaSignature
  have h2 := full_ge (r := r) (es9 := es9) (es7 := es7) (es := es) (fnt := fnt) (fat := fatOf r starts)
  have h3 := hs.hdr_ok.len
  rw [hs.img]
  refine (At.patch_self (by omega)).patch_disjoint (by omega) ?_
  rw [patch_length]
  · omega
  · rw [leBytes_length]; omega

theorem Saved.at_arm9 (hs : Saved r c b fnt ids9 ids7 es9 es7 es starts hdr) :
    At b (sec0 r).length (r.arm9 ++ r.arm9PostData) :=
  hs.at_full (by have := sec0_ge r; omega) (at_prefix (at_block _ _) pre1)

theorem Saved.at_ovt9 (hs : Saved r c b fnt ids9 ids7 es9 es7 es starts hdr) :
    At b (sec1 r).length r.arm9OverlayTable := by
  have h1 := (pre01 (r := r)).length_le
  have h2 := sec0_ge r
  exact hs.at_full (by omega) (at_prefix ((at_block _ _).append_right _) pre2)

theorem Saved.at_arm7 (hs : Saved r c b fnt ids9 ids7 es9 es7 es starts hdr) : At b (sec2 r es9).length r.arm7 := by
  have h1 := (pre01.trans (pre12 (r := r) (es9 := es9))).length_le
  have h2 := sec0_ge r
  exact hs.at_full (by omega) (at_prefix (at_block _ _) pre3)

theorem Saved.at_ovt7 (hs : Saved r c b fnt ids9 ids7 es9 es7 es starts hdr) :
    At b (sec3 r es9).length r.arm7OverlayTable := by
  have h1 := (pre01.trans ((pre12 (r := r) (es9 := es9)).trans pre23)).length_le
  have h2 := sec0_ge r
  exact hs.at_full (by omega) (at_prefix ((at_block _ _).append_right _) pre4)

theorem sec4_ge (r : Rom) (es9 es7 : List (Int × Bytes)) : 0x4000 ≤ (sec4 r es9 es7).length := by
  have h1 := (pre01.trans ((pre12 (r := r) (es9 := es9)).trans (pre23.trans (pre34 (es7 := es7))))).length_le
  have h2 := sec0_ge r
  omega

theorem Saved.at_fnt (hs : Saved r c b fnt ids9 ids7 es9 es7 es starts hdr) : At b (sec4 r es9 es7).length fnt := by
  have h2 := sec4_ge r es9 es7
  exact hs.at_full (by omega) (at_prefix (at_block _ _) pre5)

theorem Saved.at_fat (hs : Saved r c b fnt ids9 ids7 es9 es7 es starts hdr) :
    At b (sec5 r es9 es7 fnt).length (fatOf r starts) := by
  have h1 := (pre45 (r := r) (es9 := es9) (es7 := es7) (fnt := fnt)).length_le
  have h2 := sec4_ge r es9 es7
  exact hs.at_full (by omega) (at_prefix (at_block _ _) pre6)

theorem sec6_ge (r : Rom) (es9 es7 : List (Int × Bytes)) (fnt fat : Bytes) : 0x4000 ≤ (sec6 r es9 es7 fnt fat).length := by
  have h1 := (pre45.trans (pre56 (r := r) (es9 := es9) (es7 := es7) (fnt := fnt) (fat := fat))).length_le
  have h2 := sec4_ge r es9 es7
  omega

theorem Saved.at_icon (hs : Saved r c b fnt ids9 ids7 es9 es7 es starts hdr) :
    At b (sec6 r es9 es7 fnt (fatOf r starts)).length r.iconBanner := by
  have h2 := sec6_ge r es9 es7 fnt (fatOf r starts)
  exact hs.at_full (by omega) (at_prefix (at_block _ _) pre7)

theorem sec7_ge (r : Rom) (es9 es7 : List (Int × Bytes)) (fnt fat : Bytes) : 0x4000 ≤ (sec7 r es9 es7 fnt fat).length := by
  have h1 := (pre67 (r := r) (es9 := es9) (es7 := es7) (fnt := fnt) (fat := fat)).length_le
  have h2 := sec6_ge r es9 es7 fnt fat
  omega

theorem Saved.at_debug (hs : Saved r c b fnt ids9 ids7 es9 es7 es starts hdr) :
    At b (sec7 r es9 es7 fnt (fatOf r starts)).length r.debugRom := by
  have h2 := sec7_ge r es9 es7 fnt (fatOf r starts)
  exact hs.at_full (by omega) (at_prefix (at_block _ _) pre8)

theorem Saved.at_file (hs : Saved r c b fnt ids9 ids7 es9 es7 es starts hdr) {i s : Nat} {f : Bytes}
    (h : starts[i]? = some s) (hf : r.files[i]? = some f) : At b s f := by
  obtain ⟨h1, h2, -⟩ := starts_at hs.toBuilt h hf
  have h3 := (pre01 (r := r)).length_le
  have h4 := sec0_ge r
  exact hs.at_full (by omega) h1

theorem Saved.at_rsa (hs : Saved r c b fnt ids9 ids7 es9 es7 es starts hdr) :
    At b (sigPos (full r es9 es7 es fnt (fatOf r starts)).length) r.rsaSignature := by
  have h2 := full_ge (r := r) (es9 := es9) (es7 := es7) (es := es) (fnt := fnt) (fat := fatOf r starts)
  refine hs.at_whole (by unfold sigPos; omega) ?_
  unfold whole
  exact At.mk' (by rw [List.length_append, sigPos])

/-! ## Loading -/

theorem readFile_eq (hs : Saved r c b fnt ids9 ids7 es9 es7 es starts hdr) {i s : Nat} {f : Bytes}
    (h : starts[i]? = some s) (hf : r.files[i]? = some f) : readFile b (fatOf r starts) i = .ok (s, f) := by
  have he : (entriesOf starts r.files)[i]? = some (s, s + f.length) := by
    unfold entriesOf
    have hz : (starts.zip r.files)[i]? = some (s, f) := List.getElem?_zip_eq_some.2 ⟨h, hf⟩
    rw [List.getElem?_map, hz]
    rfl
  obtain ⟨-, hlt⟩ := hs.starts_ok i s f h hf
  have hat : At (fatOf r starts) (8 * i) (structBytes .little [(4, s), (4, s + f.length)]) := by
    have := flatten_at (n := 8) (parts := (entriesOf starts r.files).map fun e => leBytes 4 e.1 ++ leBytes 4 e.2) (by
      intro p hp
      obtain ⟨e, -, rfl⟩ := List.mem_map.1 hp
      simp) (i := i) (by
      rw [List.length_map]
      exact (List.getElem?_eq_some_iff.1 he).1)
    rw [List.getElem_map, (List.getElem?_eq_some_iff.1 he).2, Nat.mul_comm] at this
    simpa [structBytes, enBytes, fatOf, fatBytes] using this
  unfold readFile
  have hu := unpackUs_at hat (by simp only [Fits, and_true]; omega)
  simp only [List.map_cons, List.map_nil] at hu
  rw [hu, bind_ok]
  dsimp only
  rw [(hs.at_file h hf).slice_eq rfl]
  rfl

/-- What is loaded from an image. -/
def loaded (r : Rom) (c : Int) (b : Bytes) (p : Nat) (starts : List Nat) : Rom :=
  { r with
    name := Model.InfoBlock.rstripZero (fixed 12 r.name)
    deviceCapacity := c
    secureAreaDisable := fixed 8 r.secureAreaDisable
    pad200 := slice b 0x200 (sec0 r).length
    rsaSignature := slice b p (min b.length (p + 0x88))
    arm9PostData := readPostData b b.length ((sec0 r).length + r.arm9.length)
    sortedFileIds := sortIds starts }

theorem slice_ifAny {part : Bytes} {off : Nat} (h : At b off part) :
    slice b (ifAny part off) (ifAny part off + part.length) = part := by
  unfold ifAny
  split
  · next hp => rw [hp]; simp
  · exact h.slice_eq rfl

theorem readIconBanner_eq {b part : Bytes} {off : Nat} (h : At b off part) (h0 : off ≠ 0)
    (hc : checkIconBanner part = .ok ()) : readIconBanner b (ifAny part off) = .ok part := by
  unfold readIconBanner ifAny
  unfold checkIconBanner at hc
  split at hc
  · next hp => rw [if_pos hp, if_pos rfl, hp]
  · next hp =>
    rw [if_neg hp, if_neg h0]
    simp only [bind_eq_ok, pyAssert_eq_ok] at hc
    obtain ⟨v, hv, hl⟩ := hc
    have : unpackU .little 2 b off = .ok v := by
      have := (h.sub (At.of_unpackU hv)).unpackU (unpackU_lt hv)
      simpa using this
    rw [this, bind_ok, ← hl, h.slice_eq rfl]
    rfl

theorem sigOffset_eq (hs : Saved r c b fnt ids9 ids7 es9 es7 es starts hdr) (n : Nat) :
    sigOffset b n = .ok (sigPos (full r es9 es7 es fnt (fatOf r starts)).length) := by
  unfold sigOffset
  have h1 := hs.len_ge
  have h2 := hs.sigLt
  have h3 := full_ge (r := r) (es9 := es9) (es7 := es7) (es := es) (fnt := fnt) (fat := fatOf r starts)
  rw [if_pos (by omega), At.unpackU (n := sigPos (full r es9 es7 es fnt (fatOf r starts)).length) hs.at_sig (by omega), bind_ok]
  dsimp only
  rw [if_neg (by unfold sigPos; omega)]
  rfl

theorem fnt_ne_nil {root : Model.Fnt.Folder} {b : Bytes} (h : Model.Fnt.save root = .ok b) : b ≠ [] := by
  obtain ⟨-, -, -, hl⟩ := Proofs.Fnt.save_inv h
  intro e
  rw [e] at hl
  cases root
  rw [Spec.Fnt.byteSize] at hl
  simp at hl
  omega

/-- Loading, when everything that is read is known. -/
theorem load_fields {limit : Nat} {b : Bytes} {x1 x2 x3 x4 x5 x6 x7 x8 x9 x10 x11 x12 x13 x14 : Nat}
    {y1 y2 y3 y4 y5 y6 y7 y8 y9 y10 y11 y12 y13 y14 y15 y16 : Nat} {z1 z2 z3 z4 z5 z6 z7 : Nat} {w1 w2 : Nat}
    {v1 v2 v3 : Nat} {sp : Nat} {a9 a7 t9 t7 icon dbg fnt fat name idc dev sad p088 logo p16 : Bytes}
    {root : Model.Fnt.Folder} {entries : List (Nat × Bytes)} (hlen : 0x200 ≤ b.length)
    (u0 : unpackUs .little [1, 1, 1, 1, 1, 1, 1, 1, 1, 1, 1, 1, 1, 1] b 0x12 =
      .ok [x1, x2, x3, x4, x5, x6, x7, x8, x9, x10, x11, x12, x13, x14])
    (u1 : unpackUs .little [4, 4, 4, 4, 4, 4, 4, 4, 4, 4, 4, 4, 4, 4, 4, 4] b 0x20 =
      .ok [y1, y2, y3, y4, y5, y6, y7, y8, y9, y10, y11, y12, y13, y14, y15, y16])
    (u2 : unpackUs .little [4, 4, 4, 2, 2, 4, 4] b 0x60 = .ok [z1, z2, z3, z4, z5, z6, z7])
    (u3 : unpackUs .little [4, 4] b 0x80 = .ok [w1, w2])
    (u4 : unpackUs .little [4, 4, 4] b 0x160 = .ok [v1, v2, v3])
    (hsig : sigOffset b w1 = .ok sp) (hicon : readIconBanner b z3 = .ok icon)
    (hfn : slice b y9 (y9 + y10) = fnt) (hfnt : fnt ≠ []) (hload : Model.Fnt.load limit fnt = .ok root)
    (hfat : slice b y11 (y11 + y12) = fat) (hents : mapE (readFile b fat) (List.range (fat.length / 8)) = .ok entries)
    (h9 : slice b y1 (y1 + y4) = a9) (h7 : slice b y5 (y5 + y8) = a7) (ht9 : slice b y13 (y13 + y14) = t9)
    (ht7 : slice b y15 (y15 + y16) = t7) (hmin : min y1 b.length = y1)
    (hdbg : (if v1 = 0 then [] else slice b v1 (v1 + v2)) = dbg) (hsp : sp ≠ 0)
    (q1 : slice b 0 12 = name) (q2 : slice b 12 16 = idc) (q3 : slice b 16 18 = dev) (q4 : slice b 0x78 0x80 = sad)
    (q5 : slice b 0x88 0xC0 = p088) (q6 : slice b 0xC0 0x15C = logo) (q7 : slice b 0x16C 0x200 = p16) :
    load limit b = .ok
      ⟨Model.InfoBlock.rstripZero name, idc, dev, x1, x2, (x3 : Int), x4, x5, x6, x7, x8, x9, x10, x11, x12, x13, x14, y2, y3, y6, y7, z1, z2,
        z4, z5, z6, z7, sad, p088, logo, v3, p16, slice b 0x200 y1, slice b sp (min b.length (sp + 0x88)), a9,
        readPostData b b.length (y1 + y4), a7, t9, t7, icon, dbg, root, entries.map Prod.snd,
        sortIds (entries.map Prod.fst)⟩ := by
  have hz : b ++ zeros (0x200 - b.length) = b := by
    rw [show 0x200 - b.length = 0 by omega]; simp [zeros]
  unfold load
  dsimp only
  rw [hz, u0, bind_ok, u1, bind_ok, u2, bind_ok, u3, bind_ok, u4, bind_ok]
  dsimp only
  rw [hsig, bind_ok, hicon, bind_ok, hfn, if_neg hfnt, hload, bind_ok, hfat, hents, bind_ok]
  rw [h9, h7, ht9, ht7, hmin, hdbg, if_neg hsp, q1, q2, q3, q4, q5, q6, q7]
  rfl

theorem load_save (hs : Saved r c b fnt ids9 ids7 es9 es7 es starts hdr) {limit : Nat}
    (hne : Spec.Fnt.NoEmptyFileName r.filenames) (hd : Spec.Fnt.depth r.filenames ≤ limit) :
    load limit b = .ok (loaded r c b (sigPos (full r es9 es7 es fnt (fatOf r starts)).length) starts) := by
  have hlen := hs.len_ge
  have hh := hs.hdr_ok
  have hsm : Fits (smallFields r c) := by
    have := hh.small
    simp only [headerSmall, List.mem_cons, List.not_mem_nil, or_false, forall_eq_or_imp, forall_eq] at this
    simp only [smallFields, headerSmall, List.map_cons, List.map_nil, Fits, and_true]
    omega
  have u0 := unpackUs_at (hs.at_hdr hh.at012) hsm
  have u1 := unpackUs_at (hs.at_hdr hh.at020) hh.fits1
  have u2 := unpackUs_at (hs.at_hdr hh.at060) hh.fits2
  have u3 := unpackUs_at (hs.at_hdr hh.at080) (by simp only [Fits, and_true]; exact ⟨hh.fitsSig, by decide⟩)
  have u4 := unpackUs_at (hs.at_hdr hh.at160) hh.fits3
  simp only [smallFields, headerSmall, headerWords1, headerWords2, headerWords3, List.map_cons, List.map_nil] at u0 u1 u2 u3 u4
  have hicon := readIconBanner_eq hs.at_icon (by have := sec6_ge r es9 es7 fnt (fatOf r starts); omega) hs.icon
  have hfnt : fnt ≠ [] := fnt_ne_nil hs.fnt_ok
  have hload : Model.Fnt.load limit fnt = .ok r.filenames := by
    have := Props.Fnt.fnt_roundtrip r.filenames fnt [] hs.fnt_ok hne limit hd
    simpa using this
  have hfat : slice b (sec5 r es9 es7 fnt).length ((sec5 r es9 es7 fnt).length + r.files.length * 8) = fatOf r starts :=
    hs.at_fat.slice_eq (by rw [fatBytes_length, entriesOf_length hs.starts_len, Nat.mul_comm])
  have hfl : (fatOf r starts).length / 8 = r.files.length := by
    rw [fatBytes_length, entriesOf_length hs.starts_len]; omega
  have hents : mapE (readFile b (fatOf r starts)) (List.range r.files.length) = .ok (starts.zip r.files) := by
    refine mapE_range_eq (by simp [hs.starts_len]) ?_
    intro i hi
    have h1 : i < starts.length := by rw [List.length_zip] at hi; omega
    have h2 : i < r.files.length := by rw [List.length_zip] at hi; omega
    rw [List.getElem_zip]
    exact readFile_eq hs (List.getElem?_eq_getElem h1) (List.getElem?_eq_getElem h2)
  have h9 := (At.split.1 hs.at_arm9).1.slice_eq rfl
  have h7 := hs.at_arm7.slice_eq rfl
  have ht9 := slice_ifAny hs.at_ovt9
  have ht7 := slice_ifAny hs.at_ovt7
  have hmin : min (sec0 r).length b.length = (sec0 r).length := by
    have := hs.at_arm9.bound
    omega
  have hdbg : (if ifAny r.debugRom (sec7 r es9 es7 fnt (fatOf r starts)).length = 0 then [] else
      slice b (ifAny r.debugRom (sec7 r es9 es7 fnt (fatOf r starts)).length)
        (ifAny r.debugRom (sec7 r es9 es7 fnt (fatOf r starts)).length + r.debugRom.length)) = r.debugRom := by
    have h2 := sec7_ge r es9 es7 fnt (fatOf r starts)
    rw [slice_ifAny hs.at_debug]
    unfold ifAny
    by_cases he : r.debugRom = []
    · rw [if_pos he, if_pos rfl, he]
    · rw [if_neg he, if_neg (by omega)]
  have hsp : sigPos (full r es9 es7 es fnt (fatOf r starts)).length ≠ 0 := by
    have h3 := full_ge (r := r) (es9 := es9) (es7 := es7) (es := es) (fnt := fnt) (fat := fatOf r starts)
    unfold sigPos; omega
  have hfn : slice b (sec4 r es9 es7).length ((sec4 r es9 es7).length + fnt.length) = fnt := hs.at_fnt.slice_eq rfl
  have q1 : slice b 0 12 = fixed 12 r.name := (hs.at_hdr hh.at000).slice_eq (by rw [fixed_length])
  have q2 : slice b 12 16 = r.idCode := (hs.at_hdr hh.at00C).slice_eq (by rw [hh.idCode])
  have q3 : slice b 16 18 = r.developerCode := (hs.at_hdr hh.at010).slice_eq (by rw [hh.developerCode])
  have q4 : slice b 0x78 0x80 = fixed 8 r.secureAreaDisable := (hs.at_hdr hh.at078).slice_eq (by rw [fixed_length])
  have q5 : slice b 0x88 0xC0 = r.pad088 := (hs.at_hdr hh.at088).slice_eq (by rw [hh.pad088])
  have q6 : slice b 0xC0 0x15C = r.nintendoLogo := (hs.at_hdr hh.at0C0).slice_eq (by rw [hh.logo])
  have q7 : slice b 0x16C 0x200 = r.pad16C := (hs.at_hdr hh.at16C).slice_eq (by rw [hh.pad16C])
  have hhs := hh.small
  simp only [headerSmall, List.mem_cons, List.not_mem_nil, or_false, forall_eq_or_imp, forall_eq] at hhs
  have hc : (c.toNat : Int) = c := by omega
  rw [← hfl] at hents
  have := load_fields (by omega) u0 u1 u2 u3 u4 (sigOffset_eq hs _) hicon hfn hfnt hload hfat hents h9 h7 ht9 ht7 hmin hdbg
    hsp q1 q2 q3 q4 q5 q6 q7
  rw [this, List.map_fst_zip (by rw [hs.starts_len]; exact Nat.le_refl _),
    List.map_snd_zip (by rw [hs.starts_len]; exact Nat.le_refl _), hc]
  rfl

end

end Verif.Proofs.Rom
