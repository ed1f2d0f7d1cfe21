import Verif.Spec.RomHeader
import Verif.Props.RomRoundTrip
import Verif.Proofs.MainCode

/-!
# Changing attributes in the header of a ROM (C159)
-/

namespace Verif.Props.RomHeader

open Verif Verif.Model.Rom Verif.Model.Util Verif.Spec.Rom Verif.Proofs.Rom Verif.Spec.RomHeader
open Verif.Props.Rom (HeaderOk header_of_build headerOk_of_saved sample sample_ok sample_names)

/-! ## Two lists that agree at one place -/

/-- The lists agree at the place `i - o`, if there is such a place. -/
def L (o i : Nat) (x x' : Bytes) : Prop := ∀ j, i = o + j → x[j]? = x'[j]?

theorem app {o i n : Nat} {a a' x x' : Bytes} (h1 : a.length = n) (h2 : a'.length = n)
    (h : o ≤ i → i < o + n → a = a') (hx : L (o + n) i x x') : L o i (a ++ x) (a' ++ x') := by
  intro j hj
  rw [List.getElem?_append, List.getElem?_append, h1, h2]
  split
  · next hlt => rw [h (by omega) (by omega)]
  · next hge => exact hx (j - n) (by omega)

theorem one {o i n : Nat} {a a' : Bytes} (h1 : a.length = n) (h2 : a'.length = n)
    (h : o ≤ i → i < o + n → a = a') : L o i a a' := by
  have := app (x := []) (x' := []) h1 h2 h (fun j _ => rfl)
  simpa using this

theorem fld {o i n v v' : Nat} {fs fs' : List (Nat × Nat)} (h : o ≤ i → i < o + n → v' = v)
    (hx : L (o + n) i (structBytes .little fs) (structBytes .little fs')) :
    L o i (structBytes .little ((n, v) :: fs)) (structBytes .little ((n, v') :: fs')) := by
  rw [structBytes, structBytes]
  exact app (n := n) (by simp) (by simp) (fun h1 h2 => by rw [h h1 h2]) hx

theorem fld_nil {o i : Nat} : L o i (structBytes .little []) (structBytes .little []) := fun _ _ => rfl

/-! ## The header -/

theorem small_local {i : Nat} {r r' : Rom} {c c' : Int} (hs : SameAt i r r') (hc : i = 0x14 → c' = c) :
    L 0x12 i (structBytes .little (smallFields r c)) (structBytes .little (smallFields r' c')) := by
  unfold smallFields headerSmall
  simp only [List.map_cons, List.map_nil]
  refine fld (fun h1 h2 => by rw [hs.unitCode (by omega)]) ?_
  refine fld (fun h1 h2 => by rw [hs.encryptionSeedSelect (by omega)]) ?_
  refine fld (fun h1 h2 => by rw [hc (by omega)]) ?_
  refine fld (fun h1 h2 => by rw [hs.pad015 (by omega)]) ?_
  refine fld (fun h1 h2 => by rw [hs.pad016 (by omega)]) ?_
  refine fld (fun h1 h2 => by rw [hs.pad017 (by omega)]) ?_
  refine fld (fun h1 h2 => by rw [hs.pad018 (by omega)]) ?_
  refine fld (fun h1 h2 => by rw [hs.pad019 (by omega)]) ?_
  refine fld (fun h1 h2 => by rw [hs.pad01A (by omega)]) ?_
  refine fld (fun h1 h2 => by rw [hs.pad01B (by omega)]) ?_
  refine fld (fun h1 h2 => by rw [hs.pad01C (by omega)]) ?_
  refine fld (fun h1 h2 => by rw [hs.region (by omega)]) ?_
  refine fld (fun h1 h2 => by rw [hs.version (by omega)]) ?_
  refine fld (fun h1 h2 => by rw [hs.autostart (by omega)]) ?_
  exact fld_nil

theorem words1_local {i : Nat} {r r' : Rom} {o : Offsets} (hb : SameBody r r') (hs : SameAt i r r') :
    L 0x20 i (structBytes .little (headerWords1 r o)) (structBytes .little (headerWords1 r' o)) := by
  unfold headerWords1
  refine fld (fun h1 h2 => rfl) ?_
  refine fld (fun h1 h2 => hs.arm9Entry (by omega) (by omega)) ?_
  refine fld (fun h1 h2 => hs.arm9Ram (by omega) (by omega)) ?_
  refine fld (fun h1 h2 => by rw [hb.arm9]) ?_
  refine fld (fun h1 h2 => rfl) ?_
  refine fld (fun h1 h2 => hs.arm7Entry (by omega) (by omega)) ?_
  refine fld (fun h1 h2 => hs.arm7Ram (by omega) (by omega)) ?_
  refine fld (fun h1 h2 => by rw [hb.arm7]) ?_
  refine fld (fun h1 h2 => rfl) ?_
  refine fld (fun h1 h2 => rfl) ?_
  refine fld (fun h1 h2 => rfl) ?_
  refine fld (fun h1 h2 => by rw [hb.files]) ?_
  refine fld (fun h1 h2 => rfl) ?_
  refine fld (fun h1 h2 => by rw [hb.arm9OverlayTable]) ?_
  refine fld (fun h1 h2 => rfl) ?_
  refine fld (fun h1 h2 => by rw [hb.arm7OverlayTable]) ?_
  exact fld_nil

theorem words2_local {i : Nat} {r r' : Rom} {o : Offsets} (hs : SameAt i r r') :
    L 0x60 i (structBytes .little (headerWords2 r o)) (structBytes .little (headerWords2 r' o)) := by
  unfold headerWords2
  refine fld (fun h1 h2 => hs.normal (by omega) (by omega)) ?_
  refine fld (fun h1 h2 => hs.secure (by omega) (by omega)) ?_
  refine fld (fun h1 h2 => rfl) ?_
  refine fld (fun h1 h2 => hs.secureAreaChecksum (by omega) (by omega)) ?_
  refine fld (fun h1 h2 => hs.secureTransferDelay (by omega) (by omega)) ?_
  refine fld (fun h1 h2 => hs.arm9Code (by omega) (by omega)) ?_
  refine fld (fun h1 h2 => hs.arm7Code (by omega) (by omega)) ?_
  exact fld_nil

theorem words3_local {i : Nat} {r r' : Rom} {o : Offsets} (hb : SameBody r r') (hs : SameAt i r r') :
    L 0x160 i (structBytes .little (headerWords3 r o)) (structBytes .little (headerWords3 r' o)) := by
  unfold headerWords3
  refine fld (fun h1 h2 => rfl) ?_
  refine fld (fun h1 h2 => by rw [hb.debugRom]) ?_
  refine fld (fun h1 h2 => hs.debugRomAddress (by omega) (by omega)) ?_
  exact fld_nil

/-- The same place of two headers, where both have a part that agrees there. -/
theorem at_local {h h' x x' : Bytes} {p i n : Nat} (ha : At h p x) (ha' : At h' p x') (hn : x.length = n)
    (hn' : x'.length = n) (h1 : p ≤ i) (h2 : i < p + n) (hl : L p i x x') : h[i]? = h'[i]? := by
  have e := hl (i - p) (by omega)
  have e1 := ha.getElem? (i := i - p) (by omega)
  have e2 := ha'.getElem? (i := i - p) (by omega)
  rw [show p + (i - p) = i by omega] at e1 e2
  rw [e1, e2, e]

theorem header_local {r r' : Rom} {c c' : Int} {o : Offsets} {h h' : Bytes} (hb : SameBody r r')
    (hh : Header r c o h) (hh' : Header r' c' o h') {i : Nat} (hi : i < 0x200) (h1 : i ≠ 0x15E) (h2 : i ≠ 0x15F)
    (hc : i = 0x14 → c' = c) (hs : SameAt i r r') : h[i]? = h'[i]? := by
  by_cases g1 : i < 0xC
  · exact at_local hh.at000 hh'.at000 (fixed_length _ _) (fixed_length _ _) (by omega) (by omega)
      (one (fixed_length _ _) (fixed_length _ _) fun _ _ => by rw [hs.name g1])
  by_cases g2 : i < 0x10
  · exact at_local hh.at00C hh'.at00C hh.idCode hh'.idCode (by omega) (by omega)
      (one hh.idCode hh'.idCode fun _ _ => by rw [hs.idCode (by omega) g2])
  by_cases g3 : i < 0x12
  · exact at_local hh.at010 hh'.at010 hh.developerCode hh'.developerCode (by omega) (by omega)
      (one hh.developerCode hh'.developerCode fun _ _ => by rw [hs.developerCode (by omega) g3])
  by_cases g4 : i < 0x20
  · exact at_local hh.at012 hh'.at012 (smallFields_length _ _) (smallFields_length _ _) (by omega) (by omega)
      (small_local hs hc)
  by_cases g5 : i < 0x60
  · exact at_local hh.at020 hh'.at020 (words1_length _ _) (words1_length _ _) (by omega) (by omega) (words1_local hb hs)
  by_cases g6 : i < 0x78
  · exact at_local hh.at060 hh'.at060 (words2_length _ _) (words2_length _ _) (by omega) (by omega) (words2_local hs)
  by_cases g7 : i < 0x80
  · exact at_local hh.at078 hh'.at078 (fixed_length _ _) (fixed_length _ _) (by omega) (by omega)
      (one (fixed_length _ _) (fixed_length _ _) fun _ _ => by rw [hs.secureAreaDisable (by omega) g7])
  by_cases g8 : i < 0x88
  · exact at_local (n := 8) hh.at080 hh'.at080 (by rw [structBytes_length]; rfl) (by rw [structBytes_length]; rfl) (by omega)
      (by omega) (fun _ _ => rfl)
  by_cases g9 : i < 0xC0
  · exact at_local hh.at088 hh'.at088 hh.pad088 hh'.pad088 (by omega) (by omega)
      (one hh.pad088 hh'.pad088 fun _ _ => by rw [hs.pad088 (by omega) g9])
  by_cases g10 : i < 0x15C
  · exact at_local hh.at0C0 hh'.at0C0 hh.logo hh'.logo (by omega) (by omega)
      (one hh.logo hh'.logo fun _ _ => by rw [hs.nintendoLogo (by omega) (by omega)])
  by_cases g11 : i < 0x15E
  · exact at_local hh.at15C hh'.at15C (leBytes_length _ _) (leBytes_length _ _) (by omega) (by omega)
      (one (leBytes_length _ _) (leBytes_length _ _) fun _ _ => by rw [hs.nintendoLogo (by omega) (by omega)])
  by_cases g12 : i < 0x16C
  · exact at_local hh.at160 hh'.at160 (words3_length _ _) (words3_length _ _) (by omega) (by omega) (words3_local hb hs)
  · exact at_local hh.at16C hh'.at16C hh.pad16C hh'.pad16C (by omega) (by omega)
      (one hh.pad16C hh'.pad16C fun _ _ => by rw [hs.pad16C (by omega) (by omega)])

/-! ## The image -/

theorem body_eq {r r' : Rom} (hb : SameBody r r') : ∃ q : Rom, SameBody q q ∧ r' = { q with
    pad200 := r.pad200, rsaSignature := r.rsaSignature, arm9 := r.arm9, arm9PostData := r.arm9PostData, arm7 := r.arm7,
    arm9OverlayTable := r.arm9OverlayTable, arm7OverlayTable := r.arm7OverlayTable, iconBanner := r.iconBanner,
    debugRom := r.debugRom, filenames := r.filenames, files := r.files, sortedFileIds := r.sortedFileIds } := by
  refine ⟨r', ⟨rfl, rfl, rfl, rfl, rfl, rfl, rfl, rfl, rfl, rfl, rfl, rfl⟩, ?_⟩
  obtain ⟨h1, h2, h3, h4, h5, h6, h7, h8, h9, h10, h11, h12⟩ := hb
  rw [← h1, ← h2, ← h3, ← h4, ← h5, ← h6, ← h7, ← h8, ← h9, ← h10, ← h11, ← h12]

theorem build_eq {r r' : Rom} (hb : SameBody r r') : buildImage r' = buildImage r := by
  obtain ⟨q, -, rfl⟩ := body_eq hb
  rfl

/-- The device capacity that is saved. -/
def cap (r : Rom) (u : Bool) (img : Bytes) : Int := if u = true then capacity img.length else r.deviceCapacity

theorem save_parts {r r1 : Rom} {u : Bool} {b : Bytes} (h : save r u = .ok (b, r1)) :
    ∃ img o hdr, buildImage r = .ok (img, o) ∧ header r (cap r u img) o = .ok hdr ∧ b = hdr ++ img.drop 0x200 ∧
      0x4000 ≤ img.length ∧ hdr.length = 0x200 ∧ r1 = { r with deviceCapacity := cap r u img } := by
  unfold save at h
  simp only [bind_eq_ok, pure_eq_ok] at h
  obtain ⟨⟨img, o⟩, hi, hdr, hh, h⟩ := h
  dsimp only at hh h
  obtain ⟨rfl, rfl⟩ := Prod.mk.inj h
  have hl := (header_inv hh).len
  refine ⟨img, o, hdr, hi, hh, ?_, ?_, hl, rfl⟩
  · unfold patch
    rw [hl]; rfl
  · obtain ⟨fnt, ids9, ids7, es9, es7, es, starts, hb, h1, h2, h3⟩ := buildImage_inv hi
    have g1 := whole_length (full r es9 es7 es fnt (fatBytes (entriesOf starts r.files))) r.rsaSignature
    have g2 := full_ge (r := r) (es9 := es9) (es7 := es7) (es := es) (fnt := fnt) (fat := fatBytes (entriesOf starts r.files))
    rw [h3, patch_length]
    · omega
    · rw [leBytes_length]; omega

/-- C159: two ROMs with the same parts outside the header have images of the same length, which are the same behind the
header.  In the header, an offset has the same byte if the attribute that has its place there is the same, apart from the
checksum of the header at 0x15E. -/
theorem header_image (r r' r1 r1' : Rom) (u : Bool) (b b' : Bytes) (hb : SameBody r r')
    (h : save r u = .ok (b, r1)) (h' : save r' u = .ok (b', r1')) :
    b'.length = b.length ∧ (∀ i, 0x200 ≤ i → b'[i]? = b[i]?) ∧
      ∀ i, i ≠ 0x15E → i ≠ 0x15F → SameAt i r r' → b'[i]? = b[i]? := by
  obtain ⟨img, o, hdr, hi, hh, rfl, hl, hn, -⟩ := save_parts h
  obtain ⟨img', o', hdr', hi', hh', rfl, -, hn', -⟩ := save_parts h'
  rw [build_eq hb, hi] at hi'
  cases hi'
  have e : ∀ i, 0x200 ≤ i → (hdr' ++ img.drop 0x200)[i]? = (hdr ++ img.drop 0x200)[i]? := by
    intro i hi
    rw [List.getElem?_append_right (by omega), List.getElem?_append_right (by omega), hn, hn']
  refine ⟨by simp [hn, hn'], e, fun i h1 h2 hs => ?_⟩
  by_cases hi : 0x200 ≤ i
  · exact e i hi
  · rw [List.getElem?_append_left (by omega), List.getElem?_append_left (by omega)]
    refine (header_local hb (header_inv hh) (header_inv hh') (by omega) h1 h2 ?_ hs).symm
    intro h14
    unfold cap
    rw [hs.deviceCapacity h14]

/-- C159: if a ROM can be saved, then one with the same parts outside the header can be saved exactly when the attributes in
its header have their lengths and fit their fields. -/
theorem header_saves (r r' r1 : Rom) (b : Bytes) (hb : SameBody r r') (h : save r false = .ok (b, r1)) :
    (∃ b' r1', save r' false = .ok (b', r1')) ↔ HeaderOk r' r'.deviceCapacity := by
  obtain ⟨img, o, hdr, hi, hh, rfl, hl, hn, -⟩ := save_parts h
  constructor
  · rintro ⟨b', r1', h'⟩
    obtain ⟨img', o', hdr', hi', hh', -⟩ := save_parts h'
    exact headerOk_of_saved (header_inv hh')
  · intro hk
    rw [← build_eq hb] at hi
    obtain ⟨hdr', hh'⟩ := header_of_build hi hk
    unfold save
    rw [hi, bind_ok]
    dsimp only
    rw [if_neg (by decide), hh', bind_ok]
    exact ⟨_, _, rfl⟩

/-! ## Loading the image -/

theorem slice_local {b b' : Bytes} {i j : Nat} (h : ∀ k, 0x200 ≤ k → b'[k]? = b[k]?) (hi : 0x200 ≤ i) :
    slice b' i j = slice b i j := by
  have e : b'.drop i = b.drop i := by
    apply List.ext_getElem?
    intro k
    rw [List.getElem?_drop, List.getElem?_drop, h _ (by omega)]
  unfold slice
  first
    | rw [e]
    | rw [List.drop_take, List.drop_take, e]

theorem post_local {b b' : Bytes} (h : ∀ k, 0x200 ≤ k → b'[k]? = b[k]?) : ∀ (n i : Nat), 0x200 ≤ i →
    readPostData b' n i = readPostData b n i
  | 0, _, _ => rfl
  | n + 1, i, hi => by
    unfold readPostData
    rw [slice_local h hi, slice_local h hi, post_local h n (i + 12) (by omega)]

theorem kept_fixed (t : Bytes) : Kept 12 t (Model.InfoBlock.rstripZero (fixed 12 t)) := by
  have e : fixed 12 t = t.take 12 ++ zeros (12 - t.length) := by
    unfold fixed
    rw [List.take_append]
    congr 1
    rw [List.take_of_length_le (by rw [zeros_length]; omega)]
  rw [e, Proofs.InfoBlock.rstripZero_zeros_append]
  obtain ⟨k, h1, h2⟩ := Proofs.InfoBlock.rstripZero_eq (t.take 12)
  exact ⟨h2, k, h1⟩

/-- C159: what is kept of a text is determined by it. -/
theorem kept_unique (n : Nat) (text t t' : Bytes) (h : Kept n text t) (h' : Kept n text t') : t = t' := by
  obtain ⟨h1, k, h2⟩ := h
  obtain ⟨h1', k', h2'⟩ := h'
  rw [h2] at h2'
  exact Proofs.InfoBlock.append_zeros_unique h2' h1 h1'

/-- C159: a text is kept as it is exactly when it fits and has no zero at its end. -/
theorem kept_self (n : Nat) (t : Bytes) : Kept n t t ↔ t.length ≤ n ∧ t.getLast? ≠ some 0 := by
  constructor
  · rintro ⟨h1, k, h2⟩
    have := congrArg List.length h2
    simp only [List.length_take, List.length_append, List.length_replicate] at this
    exact ⟨by omega, h1⟩
  · rintro ⟨h1, h2⟩
    exact ⟨h2, 0, by simp [List.take_of_length_le h1]⟩

theorem saved_other {r r' : Rom} {c c' : Int} {b b' fnt hdr hdr' : Bytes} {ids9 ids7 : List Nat}
    {es9 es7 es : List (Int × Bytes)} {starts : List Nat} (hb : SameBody r r')
    (h : Saved r c b fnt ids9 ids7 es9 es7 es starts hdr)
    (h1 : Header r' c' (offsetsOf r es9 es7 fnt (fatOf r starts)
      (sigPos (full r es9 es7 es fnt (fatOf r starts)).length)) hdr')
    (h2 : b' = patch (patch (whole (full r es9 es7 es fnt (fatOf r starts)) r.rsaSignature) 0x1000
      (leBytes 4 (sigPos (full r es9 es7 es fnt (fatOf r starts)).length))) 0 hdr') :
    Saved r' c' b' fnt ids9 ids7 es9 es7 es starts hdr' := by
  obtain ⟨q, -, rfl⟩ := body_eq hb
  exact { h with hdr_ok := h1, img := h2 }

theorem both_loaded {r r' r1 r1' : Rom} {u : Bool} {b b' : Bytes} (hb : SameBody r r') (h : save r u = .ok (b, r1))
    (h' : save r' u = .ok (b', r1')) (limit : Nat) (hne : Spec.Fnt.NoEmptyFileName r.filenames)
    (hd : Spec.Fnt.depth r.filenames ≤ limit) :
    ∃ p starts, 0x200 ≤ p ∧ load limit b = .ok (loaded r r1.deviceCapacity b p starts) ∧
      load limit b' = .ok (loaded r' r1'.deviceCapacity b' p starts) := by
  have hb' := save_parts h'
  unfold save at h h'
  simp only [bind_eq_ok, pure_eq_ok] at h h'
  obtain ⟨⟨img, o⟩, hi, hdr, hh, h⟩ := h
  obtain ⟨⟨img', o'⟩, hi', hdr', hh', h'⟩ := h'
  rw [build_eq hb, hi] at hi'
  cases hi'
  obtain ⟨fnt, ids9, ids7, es9, es7, es, starts, hbu, h1, h2, h3⟩ := buildImage_inv hi
  dsimp only at hh h hh' h' h2 h3
  obtain ⟨rfl, rfl⟩ := Prod.mk.inj h
  obtain ⟨rfl, rfl⟩ := Prod.mk.inj h'
  have hs : Saved r _ (patch img 0 hdr) fnt ids9 ids7 es9 es7 es starts hdr :=
    { hbu with sigLt := h1, hdr_ok := by rw [← show o = _ from h2]; exact header_inv hh, img := by rw [h3] }
  have hs' : Saved r' _ (patch img 0 hdr') fnt ids9 ids7 es9 es7 es starts hdr' :=
    saved_other hb hs (by rw [← show o = _ from h2]; exact header_inv hh') (by rw [h3])
  refine ⟨sigPos (full r es9 es7 es fnt (fatOf r starts)).length, starts, ?_, load_save hs hne hd, ?_⟩
  · have := full_ge (r := r) (es9 := es9) (es7 := es7) (es := es) (fnt := fnt) (fat := fatOf r starts)
    unfold sigPos
    omega
  · have := load_save hs' (by rw [hb.filenames]; exact hne) (by rw [hb.filenames]; exact hd)
    obtain ⟨q, -, rfl⟩ := body_eq hb
    exact this

theorem loaded_body {r r' : Rom} {c c' : Int} {b b' : Bytes} {p : Nat} {starts : List Nat} (hb : SameBody r r')
    (hp : 0x200 ≤ p) (hl : b'.length = b.length) (h : ∀ k, 0x200 ≤ k → b'[k]? = b[k]?) :
    SameBody (loaded r c b p starts) (loaded r' c' b' p starts) := by
  have h0 := sec0_ge r
  have e0 : sec0 r' = sec0 r := by
    obtain ⟨q, -, rfl⟩ := body_eq hb
    rfl
  refine ⟨?_, ?_, hb.arm9, ?_, hb.arm7, hb.arm9OverlayTable, hb.arm7OverlayTable, hb.iconBanner, hb.debugRom,
    hb.filenames, hb.files, rfl⟩
  · unfold loaded
    dsimp only
    rw [e0, slice_local h (Nat.le_refl _)]
  · unfold loaded
    dsimp only
    rw [slice_local h hp, hl]
  · change readPostData b' b'.length ((sec0 r').length + r'.arm9.length) =
      readPostData b b.length ((sec0 r).length + r.arm9.length)
    rw [e0, hb.arm9, post_local h _ _ (by omega), hl]

/-- C159: when the images of two ROMs with the same parts outside the header are loaded, the parts outside the header are the
same as well, and the attributes in the header are those of the ROM that was saved: of the name the first 12 bytes without
zeros at the end, of the value of the "secure area disable" the first 8 bytes, with zeros if there are fewer. -/
theorem header_loaded (r r' r1 r1' : Rom) (u : Bool) (b b' : Bytes) (hb : SameBody r r')
    (h : save r u = .ok (b, r1)) (h' : save r' u = .ok (b', r1')) (limit : Nat)
    (hne : Spec.Fnt.NoEmptyFileName r.filenames) (hd : Spec.Fnt.depth r.filenames ≤ limit) :
    ∃ q q', load limit b = .ok q ∧ load limit b' = .ok q' ∧ SameBody q q' ∧ SameHead r' q' ∧
      q'.deviceCapacity = r1'.deviceCapacity ∧ Kept 12 r'.name q'.name ∧
      q'.secureAreaDisable = (r'.secureAreaDisable ++ List.replicate 8 0).take 8 := by
  obtain ⟨p, starts, hp, hq, hq'⟩ := both_loaded hb h h' limit hne hd
  obtain ⟨hl, he, -⟩ := header_image r r' r1 r1' u b b' hb h h'
  refine ⟨_, _, hq, hq', loaded_body hb hp hl he, ⟨rfl, rfl, rfl, rfl, rfl, rfl, rfl, rfl⟩, rfl, kept_fixed _, ?_⟩
  change fixed 8 r'.secureAreaDisable = _
  apply List.ext_getElem?
  intro i
  unfold fixed zeros
  rw [List.getElem?_take, List.getElem?_take]
  split
  · rw [List.getElem?_append, List.getElem?_append]
    split
    · rfl
    · rw [List.getElem?_replicate, List.getElem?_replicate, if_pos (by omega), if_pos (by omega)]
  · rfl

/-- C159: the name of a ROM can be set to any bytes, however long.  Of the image, only the first 12 bytes and the checksum of
the header change.  When it is loaded, all attributes apart from the name are as without the change, and the name is what is
kept of the new name in 12 bytes. -/
theorem renamed (r r1 : Rom) (u : Bool) (b n : Bytes) (h : save r u = .ok (b, r1)) :
    ∃ b', save { r with name := n } u = .ok (b', { r1 with name := n }) ∧ b'.length = b.length ∧
      (∀ i, 12 ≤ i → i ≠ 0x15E → i ≠ 0x15F → b'[i]? = b[i]?) ∧
      ∀ limit, Spec.Fnt.NoEmptyFileName r.filenames → Spec.Fnt.depth r.filenames ≤ limit →
        ∃ q q', load limit b = .ok q ∧ load limit b' = .ok q' ∧ q' = { q with name := q'.name } ∧ Kept 12 n q'.name := by
  have hb : SameBody r { r with name := n } := ⟨rfl, rfl, rfl, rfl, rfl, rfl, rfl, rfl, rfl, rfl, rfl, rfl⟩
  obtain ⟨img, o, hdr, hi, hh, hbb, hl, hn, hr⟩ := save_parts h
  have hok := headerOk_of_saved (header_inv hh)
  obtain ⟨hdr', hh'⟩ := header_of_build (r := { r with name := n }) (c := cap r u img) (by rw [build_eq hb]; exact hi) hok
  have h' : save { r with name := n } u = .ok (patch img 0 hdr', { r1 with name := n }) := by
    unfold save
    rw [build_eq hb, hi, bind_ok]
    dsimp only
    rw [show (if u = true then capacity img.length else r.deviceCapacity) = cap r u img from rfl, hh', bind_ok, hr]
    rfl
  obtain ⟨g1, g2, g3⟩ := header_image _ _ _ _ _ _ _ hb h h'
  refine ⟨_, h', g1, ?_, ?_⟩
  · intro i h12 ha hc
    refine g3 i ha hc ?_
    constructor <;> intros <;> first | rfl | omega
  · intro limit hne hd
    obtain ⟨p, starts, hp, hq, hq'⟩ := both_loaded hb h h' limit hne hd
    have hs := loaded_body (c := r1.deviceCapacity) (c' := r1.deviceCapacity) (starts := starts) hb hp g1 g2
    refine ⟨_, _, hq, hq', ?_, kept_fixed n⟩
    have e1 := hs.pad200
    have e2 := hs.rsaSignature
    have e3 := hs.arm9PostData
    simp only [loaded] at e1 e2 e3 ⊢
    rw [e1, e2, e3]

example : (∃ b r1, save sample false = .ok (b, r1)) ∧ Spec.Fnt.NoEmptyFileName sample.filenames ∧
    Spec.Fnt.depth sample.filenames ≤ 1 := ⟨sample_ok.2.2, sample_names.1, by rw [sample_names.2]; decide⟩

example : Kept 12 [65, 66, 0, 67, 0, 0] [65, 66, 0, 67] ∧
    Kept 12 [1, 2, 3, 4, 5, 6, 7, 8, 9, 10, 0, 0, 13, 14] [1, 2, 3, 4, 5, 6, 7, 8, 9, 10] :=
  ⟨⟨by decide, 2, rfl⟩, ⟨by decide, 2, rfl⟩⟩

/-- A ROM with another header. -/
def other : Rom := { sample with name := List.replicate 20 65, region := 2, arm9RamAddress := 0x2000000, secureAreaDisable := [1] }

example : SameBody sample other ∧ HeaderOk other other.deviceCapacity ∧ SameAt 0x24 sample other := by
  refine ⟨⟨rfl, rfl, rfl, rfl, rfl, rfl, rfl, rfl, rfl, rfl, rfl, rfl⟩, by unfold HeaderOk; decide +kernel, ?_⟩
  constructor <;> intros <;> first | rfl | omega

end Verif.Props.RomHeader
