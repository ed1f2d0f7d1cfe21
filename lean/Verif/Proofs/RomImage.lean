import Verif.Proofs.RomLayout

namespace Verif.Proofs.Rom

open Verif Verif.Model.Rom Verif.Model.Util Verif.Spec.Rom

theorem padTo_zero (d : Bytes) (n : Nat) : padTo d n 0 = d ++ zeroFill n d.length := rfl

/-- Everything but the header and the pointer to the signature. -/
def full (r : Rom) (es9 es7 es : List (Int × Bytes)) (fnt fat : Bytes) : Bytes :=
  sec8 r es9 es7 fnt fat ++ blocks (es.map Prod.snd)

/-- Where the signature begins. -/
def sigPos (n : Nat) : Nat := n + (zeroFill 0x20 n).length

/-- The whole image without the header and the pointer to the signature. -/
def whole (d rsa : Bytes) : Bytes :=
  d ++ zeroFill 0x20 d.length ++ rsa ++ zeroFill 0x400 (sigPos d.length + rsa.length)

/-- All the assignments to the dictionary of the offsets. -/
def places (r : Rom) (es9 es7 es : List (Int × Bytes)) (fnt fat : Bytes) : List (Int × Nat) :=
  ovPlaces r es9 es7 ++ place (sec8 r es9 es7 fnt fat).length es

theorem sec8_length {r : Rom} {es9 es7 : List (Int × Bytes)} {fnt fat fat' : Bytes} (h : fat.length = fat'.length) :
    (sec8 r es9 es7 fnt fat).length = (sec8 r es9 es7 fnt fat').length := by
  unfold sec8 sec7 sec6 block
  simp [h]

theorem offsetsOf_congr {r : Rom} {es9 es7 : List (Int × Bytes)} {fnt fat fat' : Bytes} {n : Nat}
    (h : fat.length = fat'.length) : offsetsOf r es9 es7 fnt fat n = offsetsOf r es9 es7 fnt fat' n := by
  unfold offsetsOf sec7 sec6 block
  simp [h]

theorem patch_append {d e bs : Bytes} {p : Nat} (h : p + bs.length ≤ d.length) :
    patch (d ++ e) p bs = patch d p bs ++ e := by
  unfold patch
  rw [List.take_append_of_le_length (by omega), List.drop_append_of_le_length h]
  simp

theorem patch_mid {a x b y : Bytes} (h : x.length = y.length) : patch (a ++ x ++ b) a.length y = a ++ y ++ b := by
  unfold patch
  simp [h]

/-- The pairs of start and end of the files. -/
def entriesOf (starts : List Nat) (files : List Bytes) : List (Nat × Nat) :=
  (starts.zip files).map fun x => (x.1, x.1 + x.2.length)

theorem fatEntry_eq_ok {d : List (Int × Nat)} {i : Nat} {f b : Bytes} :
    fatEntry d (i, f) = .ok b ↔
      ∃ start, d.lookup (i : Int) = some start ∧ start < 256 ^ 4 ∧ start + f.length < 256 ^ 4 ∧
        b = leBytes 4 start ++ leBytes 4 (start + f.length) := by
  unfold fatEntry
  dsimp only
  cases h : d.lookup (i : Int) with
  | none => simp
  | some s =>
    simp only [packUs_eq_ok, Fits, structBytes, enBytes, List.append_nil, and_true]
    constructor
    · rintro ⟨⟨h1, h2⟩, rfl⟩; exact ⟨s, rfl, h1, h2, rfl⟩
    · rintro ⟨s', hs, h1, h2, rfl⟩; cases hs; exact ⟨⟨h1, h2⟩, rfl⟩

theorem fat_loop {d : List (Int × Nat)} : ∀ {files : List Bytes} {k : Nat} {bs : List Bytes},
    mapE (fatEntry d) ((List.range' k files.length).zip files) = .ok bs →
    ∃ starts : List Nat, starts.length = files.length ∧ bs.flatten = fatBytes (entriesOf starts files) ∧
      ∀ (i s : Nat) (f : Bytes), starts[i]? = some s → files[i]? = some f →
        d.lookup ((k + i : Nat) : Int) = some s ∧ s + f.length < 2 ^ 32
  | [], k, bs, h => by
    cases h
    exact ⟨[], rfl, rfl, by intro i s f hs; simp at hs⟩
  | f :: fs, k, bs, h => by
    rw [List.length_cons, List.range'_succ, List.zip_cons_cons] at h
    obtain ⟨b, bs, h1, h2, rfl⟩ := mapE_cons_ok.1 h
    obtain ⟨s, g1, g2, g3, rfl⟩ := fatEntry_eq_ok.1 h1
    obtain ⟨starts, a1, a2, a3⟩ := fat_loop h2
    refine ⟨s :: starts, by simp [a1], ?_, ?_⟩
    · rw [List.flatten_cons, a2]
      simp [fatBytes, entriesOf]
    · intro i s' f' hs hf
      cases i with
      | zero =>
        simp only [List.getElem?_cons_zero, Option.some.injEq] at hs hf
        subst hs hf
        exact ⟨g1, g3⟩
      | succ i =>
        rw [List.getElem?_cons_succ] at hs hf
        obtain ⟨b1, b2⟩ := a3 i s' f' hs hf
        exact ⟨by rw [← b1]; congr 1; omega, b2⟩

theorem fatBytes_length (es : List (Nat × Nat)) : (fatBytes es).length = 8 * es.length := by
  unfold fatBytes
  rw [flatten_length_const (n := 8)]
  · simp [Nat.mul_comm]
  · intro p hp
    obtain ⟨e, -, rfl⟩ := List.mem_map.1 hp
    simp

theorem entriesOf_length {starts : List Nat} {files : List Bytes} (h : starts.length = files.length) :
    (entriesOf starts files).length = files.length := by
  unfold entriesOf; simp [h]

/-- What is known when all the files are placed. -/
structure Placed (r : Rom) (fnt : Bytes) (ids9 ids7 : List Nat) (es9 es7 es : List (Int × Bytes)) :
    Prop extends Front r fnt ids9 ids7 es9 es7 where
  icon : checkIconBanner r.iconBanner = .ok ()
  es_ids : es.map Prod.fst = remaining r.files.length ((ids9 ++ ids7).map Int.ofNat)
    (r.sortedFileIds ++ (List.range r.files.length).map Int.ofNat)
  es_files : ∀ e ∈ es, FileNo r.files e.1 e.2

/-- What is known about an image before the header is written. -/
structure Built (r : Rom) (fnt : Bytes) (ids9 ids7 : List Nat) (es9 es7 es : List (Int × Bytes)) (starts : List Nat) :
    Prop extends Placed r fnt ids9 ids7 es9 es7 es where
  starts_len : starts.length = r.files.length
  starts_ok : ∀ (i s : Nat) (f : Bytes), starts[i]? = some s → r.files[i]? = some f →
    (setAll [] (places r es9 es7 es fnt (fatBytes (entriesOf starts r.files)))).lookup (i : Int) = some s ∧
      s + f.length < 2 ^ 32

theorem mem_setAll_keys : ∀ {l d : List (Int × Nat)} {k : Int},
    k ∈ (setAll d l).map Prod.fst ↔ k ∈ l.map Prod.fst ∨ k ∈ d.map Prod.fst
  | [], d, k => by simp [setAll]
  | x :: l, d, k => by
    change k ∈ (setAll (dictSet d x.1 x.2) l).map Prod.fst ↔ _
    rw [mem_setAll_keys, mem_dictSet_keys, List.map_cons, List.mem_cons]
    constructor
    · rintro (h | h | h)
      · exact .inl (.inr h)
      · exact .inl (.inl h)
      · exact .inr h
    · rintro ((h | h) | h)
      · exact .inr (.inl h)
      · exact .inl h
      · exact .inr (.inr h)

theorem buildImage_inv {r : Rom} {img : Bytes} {o : Offsets} (h : buildImage r = .ok (img, o)) :
    ∃ fnt ids9 ids7 es9 es7 es starts, Built r fnt ids9 ids7 es9 es7 es starts ∧
      let fat := fatBytes (entriesOf starts r.files)
      let p := sigPos (full r es9 es7 es fnt fat).length
      p < 2 ^ 32 ∧ o = offsetsOf r es9 es7 fnt fat p ∧
      img = patch (whole (full r es9 es7 es fnt fat) r.rsaSignature) 0x1000 (leBytes 4 p) := by
  unfold buildImage at h
  simp only [bind_eq_ok, pure_eq_ok] at h
  obtain ⟨⟨s, o'⟩, hf, s', hp, fat, hfat, d1, h1, sig, hsig, d3, h3, h⟩ := h
  obtain ⟨fnt, ids9, ids7, es9, es7, hfr, hi, a1, a2, a3⟩ := buildFront_inv hf
  dsimp only at hp h1 h
  have hm : s.data.length % 0x200 = 0 := by rw [a1]; exact sec8_mod ..
  obtain ⟨es, b1, b2, b3, b4⟩ := placeFiles_loop hm (es0 := []) (show s.data = s.data ++ blocks _ by simp [blocks]) hp
  simp only [List.nil_append, padded, List.map_nil, List.flatten_nil, List.length_nil, Nat.add_zero] at b3 b4
  rw [List.range_eq_range'] at hfat
  obtain ⟨starts, c1, c2, c3⟩ := fat_loop hfat
  have hfl : (fatBytes (entriesOf starts r.files)).length = (zeros (8 * r.files.length)).length := by
    rw [fatBytes_length, entriesOf_length c1, zeros_length]
  rw [c2] at h1
  have hb : Built r fnt ids9 ids7 es9 es7 es starts := by
    refine { hfr with icon := hi, es_ids := ?_, es_files := b2, starts_len := c1, starts_ok := ?_ }
    · rw [b1, a2]
      apply remaining_congr
      intro k
      rw [mem_setAll_keys, ovPlaces, List.map_append, place_map_fst, place_map_fst, hfr.es9_ids, hfr.es7_ids,
        List.map_append]
      simp
    · intro i s1 f hs hf
      have := c3 i s1 f hs hf
      rw [Nat.zero_add, b4, a2, ← setAll_append] at this
      rw [places, sec8_length hfl, ← a1]
      exact this
  refine ⟨fnt, ids9, ids7, es9, es7, es, starts, hb, ?_⟩
  dsimp only
  generalize hfa : fatBytes (entriesOf starts r.files) = fatb at *
  -- the table is patched in
  have e1 : d1 = full r es9 es7 es fnt fatb := by
    rw [packInto_eq_ok] at h1
    rw [h1.2, b3, a1, a3]
    have e : sec8 r es9 es7 fnt (zeros (8 * r.files.length)) ++ blocks (es.map Prod.snd) =
        sec5 r es9 es7 fnt ++ zeros (8 * r.files.length) ++
          (List.replicate ((0x200 - (zeros (8 * r.files.length)).length % 0x200) % 0x200) 0xFF ++
            (block r.iconBanner ++ (block r.debugRom ++ blocks (es.map Prod.snd)))) := by
      simp only [sec8, sec7, sec6]
      rw [block]
      simp only [List.append_assoc]
    rw [e]
    change patch _ (sec5 r es9 es7 fnt).length fatb = _
    rw [patch_mid hfl.symm]
    simp only [full, sec8, sec7, sec6]
    rw [block.eq_def fatb, hfl]
    simp only [List.append_assoc]
  rw [packU_eq_ok] at hsig
  obtain ⟨hlt, rfl⟩ := hsig
  have e2 : (padTo d1 0x20 0).length = sigPos (full r es9 es7 es fnt fatb).length := by
    rw [e1, padTo_zero, List.length_append, sigPos]
  rw [e2] at hlt h3 h
  refine ⟨by omega, ?_, ?_⟩
  · rw [← (Prod.mk.inj h).2, a3, offsetsOf_congr hfl.symm]
    rfl
  · rw [← (Prod.mk.inj h).1]
    rw [packInto_eq_ok] at h3
    obtain ⟨hle, rfl⟩ := h3
    rw [padTo_zero, patch_length hle, List.length_append, e2]
    rw [e1, padTo_zero] at hle ⊢
    exact (patch_append hle).symm

/-! ## The header -/

theorem write8_eq_ok {v : Int} {b : Bytes} : write8 v = .ok b ↔ 0 ≤ v ∧ v < 256 ∧ b = [UInt8.ofNat v.toNat] := by
  unfold write8
  split
  · next h =>
    simp only [Except.ok.injEq]
    constructor
    · rintro rfl; exact ⟨h.1, h.2, rfl⟩
    · rintro ⟨_, _, rfl⟩; rfl
  · next h =>
    constructor
    · intro e; cases e
    · rintro ⟨h1, h2, _⟩; exact absurd ⟨h1, h2⟩ h

theorem write8s : ∀ {vs : List Int} {bs : List Bytes}, mapE write8 vs = .ok bs →
    (∀ v ∈ vs, 0 ≤ v ∧ v < 256) ∧ bs.flatten = structBytes .little (vs.map fun v => (1, v.toNat))
  | [], bs, h => by cases h; exact ⟨(fun _ h => nomatch h), rfl⟩
  | v :: vs, bs, h => by
    obtain ⟨b, bs, h1, h2, rfl⟩ := mapE_cons_ok.1 h
    obtain ⟨g1, g2, rfl⟩ := write8_eq_ok.1 h1
    obtain ⟨a1, a2⟩ := write8s h2
    constructor
    · intro x hx
      rcases List.mem_cons.1 hx with rfl | hx
      · exact ⟨g1, g2⟩
      · exact a1 x hx
    · rw [List.flatten_cons, a2, List.map_cons, structBytes]
      simp [enBytes, leBytes]

theorem fixed_length (n : Nat) (b : Bytes) : (fixed n b).length = n := by
  unfold fixed
  rw [List.length_take, List.length_append, zeros_length]
  omega

/-- The numbers of the bytes from 0x12. -/
def smallFields (r : Rom) (c : Int) : List (Nat × Nat) := (headerSmall r c).map fun v => (1, v.toNat)

theorem smallFields_length (r : Rom) (c : Int) : (structBytes .little (smallFields r c)).length = 14 := by
  rw [structBytes_length]; rfl

theorem words1_length (r : Rom) (o : Offsets) : (structBytes .little (headerWords1 r o)).length = 64 := by
  rw [structBytes_length]; rfl

theorem words2_length (r : Rom) (o : Offsets) : (structBytes .little (headerWords2 r o)).length = 24 := by
  rw [structBytes_length]; rfl

theorem words3_length (r : Rom) (o : Offsets) : (structBytes .little (headerWords3 r o)).length = 12 := by
  rw [structBytes_length]; rfl

/-- What the header looks like. -/
structure Header (r : Rom) (c : Int) (o : Offsets) (h : Bytes) : Prop where
  len : h.length = 0x200
  small : ∀ v ∈ headerSmall r c, 0 ≤ v ∧ v < 256
  fits1 : Fits (headerWords1 r o)
  fits2 : Fits (headerWords2 r o)
  fits3 : Fits (headerWords3 r o)
  fitsSig : o.rsaSignature < 256 ^ 4
  idCode : r.idCode.length = 4
  developerCode : r.developerCode.length = 2
  pad088 : r.pad088.length = 0x38
  logo : r.nintendoLogo.length = 0x9C
  pad16C : r.pad16C.length = 0x94
  at000 : At h 0 (fixed 12 r.name)
  at00C : At h 12 r.idCode
  at010 : At h 16 r.developerCode
  at012 : At h 0x12 (structBytes .little (smallFields r c))
  at020 : At h 0x20 (structBytes .little (headerWords1 r o))
  at060 : At h 0x60 (structBytes .little (headerWords2 r o))
  at078 : At h 0x78 (fixed 8 r.secureAreaDisable)
  at080 : At h 0x80 (structBytes .little [(4, o.rsaSignature), (4, 0x4000)])
  at088 : At h 0x88 r.pad088
  at0C0 : At h 0xC0 r.nintendoLogo
  at15C : At h 0x15C (leBytes 2 (crc16 r.nintendoLogo))
  at15E : At h 0x15E (leBytes 2 (crc16 (h.take 0x15E)))
  at160 : At h 0x160 (structBytes .little (headerWords3 r o))
  at16C : At h 0x16C r.pad16C

theorem headerFront_inv {r : Rom} {c : Int} {o : Offsets} {h : Bytes} (hh : headerFront r c o = .ok h) :
    ((∀ v ∈ headerSmall r c, 0 ≤ v ∧ v < 256) ∧ Fits (headerWords1 r o) ∧ Fits (headerWords2 r o) ∧
      o.rsaSignature < 256 ^ 4) ∧ r.idCode.length = 4 ∧ r.developerCode.length = 2 ∧ r.pad088.length = 0x38 ∧
    r.nintendoLogo.length = 0x9C ∧
    h = fixed 12 r.name ++ r.idCode ++ r.developerCode ++ structBytes .little (smallFields r c) ++
      structBytes .little (headerWords1 r o) ++ structBytes .little (headerWords2 r o) ++ fixed 8 r.secureAreaDisable ++
      structBytes .little [(4, o.rsaSignature), (4, 0x4000)] ++ r.pad088 ++ r.nintendoLogo ++
      leBytes 2 (crc16 r.nintendoLogo) := by
  unfold headerFront at hh
  simp only [bind_eq_ok, pure_eq_ok, pyAssert_eq_ok, packUs_eq_ok, packU_eq_ok] at hh
  obtain ⟨_, h1, _, h2, sm, h3, _, ⟨h4, rfl⟩, _, ⟨h5, rfl⟩, _, ⟨h6, rfl⟩, _, h7, _, h8, _, ⟨h9, rfl⟩, rfl⟩ := hh
  obtain ⟨a1, a2⟩ := write8s h3
  refine ⟨⟨a1, h4, h5, h6.1⟩, h1, h2, h7, h8, ?_⟩
  rw [a2]
  rfl

theorem header_inv {r : Rom} {c : Int} {o : Offsets} {h : Bytes} (hh : header r c o = .ok h) : Header r c o h := by
  unfold header at hh
  simp only [bind_eq_ok, pure_eq_ok, pyAssert_eq_ok, packUs_eq_ok, packU_eq_ok] at hh
  obtain ⟨front, hf, _, ⟨h1, rfl⟩, _, ⟨h2, rfl⟩, _, h3, rfl⟩ := hh
  obtain ⟨⟨a1, a2, a3, a4⟩, a5, a6, a7, a8, hfront⟩ := headerFront_inv hf
  have hsl : (structBytes .little [(4, o.rsaSignature), (4, 0x4000)]).length = 8 := by rw [structBytes_length]; rfl
  have hfl : front.length = 0x15E := by
    rw [hfront]
    simp only [List.length_append, fixed_length, a5, a6, a7, a8, smallFields_length, words1_length, words2_length, hsl,
      leBytes_length]
  have hat : ∀ {p : Nat} {x : Bytes}, At front p x → At (front ++ enBytes .little 2 (crc16 front) ++
      structBytes .little (headerWords3 r o) ++ r.pad16C) p x := fun hx =>
    ((hx.append_right _).append_right _).append_right _
  have hf' := At.refl front
  rw [hfront] at hf'
  simp only [At.split, List.length_append, fixed_length, a5, a6, a7, a8, smallFields_length, words1_length,
    words2_length, hsl, Nat.zero_add, Nat.reduceAdd] at hf'
  obtain ⟨⟨⟨⟨⟨⟨⟨⟨⟨⟨b1, b2⟩, b3⟩, b4⟩, b5⟩, b6⟩, b7⟩, b8⟩, b9⟩, b10⟩, b11⟩ := hf'
  rw [show fixed 12 r.name ++ r.idCode ++ r.developerCode ++ structBytes .little (smallFields r c) ++
      structBytes .little (headerWords1 r o) ++ structBytes .little (headerWords2 r o) ++ fixed 8 r.secureAreaDisable ++
      structBytes .little [(4, o.rsaSignature), (4, 0x4000)] ++ r.pad088 ++ r.nintendoLogo ++
      leBytes 2 (crc16 r.nintendoLogo) = front from hfront.symm] at b1 b2 b3 b4 b5 b6 b7 b8 b9 b10 b11
  refine ⟨?_, a1, a2, a3, h2, a4, a5, a6, a7, a8, h3, hat b1, hat b2, hat b3, hat b4, hat b5, hat b6, hat b7, hat b8,
    hat b9, hat b10, hat b11, ?_, ?_, ?_⟩
  · simp only [List.length_append, hfl, enBytes_length, words3_length, h3]
  · rw [List.append_assoc, List.append_assoc, List.take_append_of_le_length (by omega),
      List.take_of_length_le (by omega), ← List.append_assoc]
    exact At.mk' hfl
  · exact At.mk' (by simp [hfl])
  · exact At.last' (by simp only [List.length_append, hfl, enBytes_length, words3_length])

end Verif.Proofs.Rom
