import Verif.Proofs.RomLoad
import Verif.Props.Util

namespace Verif.Proofs.Rom

open Verif Verif.Model.Rom Verif.Model.Util Verif.Spec.Rom

theorem forEach_ok {σ α : Type} {body : σ → α → Py σ} : ∀ {as : List α} (_ : ∀ a ∈ as, ∀ s, ∃ s', body s a = .ok s') (s : σ),
    ∃ s', forEach body as s = .ok s'
  | [], _, s => ⟨s, rfl⟩
  | a :: as, h, s => by
    obtain ⟨s1, h1⟩ := h a (by simp) s
    obtain ⟨s2, h2⟩ := forEach_ok (as := as) (fun b hb => h b (by simp [hb])) s1
    exact ⟨s2, by rw [forEach_cons, h1, bind_ok, h2]⟩

theorem packOverlays_ok {files : List Bytes} {table : Bytes} {ids : List Nat} (h : OverlayIds table ids)
    (hn : ∀ id ∈ ids, id < files.length) (s : St) : ∃ s', packOverlays files table s = .ok s' := by
  refine forEach_ok ?_ s
  intro a ha s
  obtain ⟨i, hi, rfl⟩ := List.mem_map.1 ha
  rw [List.mem_range, ← h.1] at hi
  obtain ⟨h1, h2⟩ := h.2 i ids[i] (List.getElem?_eq_getElem hi)
  have hlt := hn ids[i] (List.getElem_mem hi)
  unfold packOverlay
  rw [At.unpackU (n := ids[i]) h2 (by omega), bind_ok, pyIdx_eq_ok.2 (List.getElem?_eq_getElem hlt), bind_ok]
  exact ⟨_, rfl⟩

theorem buildFront_ok {r : Rom} {ids9 ids7 : List Nat} {fnt : Bytes} (h9 : OverlayIds r.arm9OverlayTable ids9)
    (h7 : OverlayIds r.arm7OverlayTable ids7) (hn : ∀ id ∈ ids9 ++ ids7, id < r.files.length)
    (hf : Model.Fnt.save r.filenames = .ok fnt) (hi : checkIconBanner r.iconBanner = .ok ()) :
    ∃ x, buildFront r = .ok x := by
  unfold buildFront
  dsimp only
  obtain ⟨s2, e2⟩ := packOverlays_ok h9 (fun id h => hn id (by simp [h]))
    (St.mk (optionalPart r.arm9OverlayTable (padTo (padTo (zeros 0x200 ++ r.pad200) 0x4000 0 ++ r.arm9 ++ r.arm9PostData) 0x200 0xFF)).2 [])
  rw [e2, bind_ok]
  obtain ⟨s4, e4⟩ := packOverlays_ok h7 (fun id h => hn id (by simp [h]))
    (St.mk (optionalPart r.arm7OverlayTable (padTo (s2.data ++ r.arm7) 0x200 0xFF)).2 s2.offsets)
  rw [e4, bind_ok, hf, bind_ok, hi, bind_ok]
  exact ⟨_, rfl⟩

theorem placeFiles_ok {files : List Bytes} {ids : List Int} (h : ∀ k ∈ ids, -(files.length : Int) ≤ k) (s : St) :
    ∃ s', placeFiles files ids s = .ok s' := by
  refine forEach_ok ?_ s
  intro k hk s
  have hk' : -(files.length : Int) ≤ k := by
    rcases List.mem_append.1 hk with hk | hk
    · exact h k hk
    · obtain ⟨i, -, rfl⟩ := List.mem_map.1 hk
      simp only [Int.ofNat_eq_natCast]; omega
  unfold placeFile
  split
  · exact ⟨_, rfl⟩
  · next hc =>
    have hlt : k < files.length := by
      have := not_or.1 hc
      omega
    unfold pyIdxI
    by_cases h0 : 0 ≤ k
    · rw [if_pos h0, pyIdx_eq_ok.2 (List.getElem?_eq_getElem (show k.toNat < files.length by omega)), bind_ok]
      exact ⟨_, rfl⟩
    · rw [if_neg h0, if_pos (by omega), pyIdx_eq_ok.2 (List.getElem?_eq_getElem (show (k + files.length).toNat < files.length by omega)),
        bind_ok]
      exact ⟨_, rfl⟩

theorem mem_remaining (n : Nat) : ∀ {ks seen : List Int} {k : Int},
    k ∈ remaining n seen ks ↔ k ∈ ks ∧ k ∉ seen ∧ k < n
  | [], seen, k => by simp [remaining]
  | a :: ks, seen, k => by
    rw [remaining]
    split
    · next h =>
      rw [mem_remaining n, List.mem_cons]
      constructor
      · rintro ⟨h1, h2, h3⟩; exact ⟨.inr h1, h2, h3⟩
      · rintro ⟨rfl | h1, h2, h3⟩
        · rcases h with h | h
          · exact absurd h h2
          · omega
        · exact ⟨h1, h2, h3⟩
    · next h =>
      obtain ⟨g1, g2⟩ := not_or.1 h
      rw [List.mem_cons, mem_remaining n, List.mem_cons, List.mem_cons]
      constructor
      · rintro (rfl | ⟨h1, h2, h3⟩)
        · exact ⟨.inl rfl, g1, by omega⟩
        · exact ⟨.inr h1, (not_or.1 h2).2, h3⟩
      · rintro ⟨h1, h2, h3⟩
        by_cases e : k = a
        · exact .inl e
        · rcases h1 with h1 | h1
          · exact absurd h1 e
          · exact .inr ⟨h1, not_or.2 ⟨e, h2⟩, h3⟩

theorem remaining_nodup (n : Nat) : ∀ {ks seen : List Int}, (remaining n seen ks).Nodup
  | [], seen => by simp [remaining]
  | a :: ks, seen => by
    rw [remaining]
    split
    · exact remaining_nodup n
    · rw [List.nodup_cons]
      refine ⟨?_, remaining_nodup n⟩
      rw [mem_remaining]
      rintro ⟨-, h, -⟩
      simp at h

theorem lookup_of_mem_keys {d : List (Int × Nat)} {k : Int} (h : k ∈ d.map Prod.fst) : ∃ s, d.lookup k = some s := by
  rw [← lookup_isSome_iff] at h
  exact Option.isSome_iff_exists.1 h

theorem fat_ok {d : List (Int × Nat)} {N : Nat} (hN : N < 2 ^ 32) : ∀ {files : List Bytes} {k : Nat},
    (∀ (i : Nat) (f : Bytes), files[i]? = some f → ∃ s, d.lookup ((k + i : Nat) : Int) = some s ∧ s + f.length ≤ N) →
    ∃ bs, mapE (fatEntry d) ((List.range' k files.length).zip files) = .ok bs
  | [], k, _ => ⟨[], rfl⟩
  | f :: fs, k, h => by
    obtain ⟨s, h1, h2⟩ := h 0 f rfl
    obtain ⟨bs, hbs⟩ := fat_ok hN (files := fs) (k := k + 1) (by
      intro i g hg
      have := h (i + 1) g (by simpa using hg)
      rwa [show k + (i + 1) = k + 1 + i by omega] at this)
    rw [List.length_cons, List.range'_succ, List.zip_cons_cons]
    refine ⟨(leBytes 4 s ++ leBytes 4 (s + f.length)) :: bs, mapE_cons_ok.2 ⟨_, _, ?_, hbs, rfl⟩⟩
    exact fatEntry_eq_ok.2 ⟨s, by simpa using h1, by omega, by omega, rfl⟩

/-- The image is built whenever the tables, names, numbers and the size allow it. -/
theorem buildImage_ok {r : Rom} {ids9 ids7 : List Nat} {fnt : Bytes} (h9 : OverlayIds r.arm9OverlayTable ids9)
    (h7 : OverlayIds r.arm7OverlayTable ids7) (hn : ∀ id ∈ ids9 ++ ids7, id < r.files.length)
    (hf : Model.Fnt.save r.filenames = .ok fnt) (hi : checkIconBanner r.iconBanner = .ok ())
    (hsort : ∀ k ∈ r.sortedFileIds, -(r.files.length : Int) ≤ k)
    (hsize : ∀ (ids9 ids7 : List Nat) (es9 es7 es : List (Int × Bytes)) (fnt fat : Bytes),
      Placed r fnt ids9 ids7 es9 es7 es → fat.length = 8 * r.files.length → sigPos (full r es9 es7 es fnt fat).length < 2 ^ 32) :
    ∃ x, buildImage r = .ok x := by
  obtain ⟨⟨s, o⟩, hfr⟩ := buildFront_ok h9 h7 hn hf hi
  obtain ⟨s', hp⟩ := placeFiles_ok hsort s
  unfold buildImage
  rw [hfr, bind_ok]
  dsimp only
  rw [hp, bind_ok]
  obtain ⟨fnt', ids9', ids7', es9, es7, hfront, hicon, a1, a2, a3⟩ := buildFront_inv hfr
  have hm : s.data.length % 0x200 = 0 := by rw [a1]; exact sec8_mod ..
  obtain ⟨es, b1, b2, b3, b4⟩ := placeFiles_loop hm (es0 := []) (show s.data = s.data ++ blocks _ by simp [blocks]) hp
  simp only [List.nil_append, padded, List.map_nil, List.flatten_nil, List.length_nil, Nat.add_zero] at b3 b4
  have hb1 : es.map Prod.fst = remaining r.files.length ((ids9' ++ ids7').map Int.ofNat)
      (r.sortedFileIds ++ (List.range r.files.length).map Int.ofNat) := by
    rw [b1, a2]
    apply remaining_congr
    intro k
    rw [mem_setAll_keys, ovPlaces, List.map_append, place_map_fst, place_map_fst, hfront.es9_ids, hfront.es7_ids,
      List.map_append]
    simp
  have hpl : Placed r fnt' ids9' ids7' es9 es7 es := { hfront with icon := hicon, es_ids := hb1, es_files := b2 }
  have hsz := hsize _ _ _ _ _ _ (zeros (8 * r.files.length)) hpl (by rw [zeros_length])
  have hdata : s'.data = full r es9 es7 es fnt' (zeros (8 * r.files.length)) := by rw [b3, a1, full]
  have hoff : s'.offsets = setAll [] (places r es9 es7 es fnt' (zeros (8 * r.files.length))) := by
    rw [b4, a2, ← setAll_append, a1, places]
  have hfull : (full r es9 es7 es fnt' (zeros (8 * r.files.length))).length < 2 ^ 32 := by
    unfold sigPos at hsz; omega
  obtain ⟨fat, hfat⟩ := fat_ok (d := s'.offsets) (files := r.files) (k := 0) hfull (by
    intro i f hfi
    rw [Nat.zero_add]
    have hlt : i < r.files.length := (List.getElem?_eq_some_iff.1 hfi).1
    have hkey : (i : Int) ∈ s'.offsets.map Prod.fst := by
      rw [hoff, mem_setAll_keys, places, ovPlaces, List.map_append, List.map_append, place_map_fst, place_map_fst,
        place_map_fst, hfront.es9_ids, hfront.es7_ids, hb1]
      left
      by_cases hs : (i : Int) ∈ (ids9' ++ ids7').map Int.ofNat
      · rw [List.map_append] at hs
        exact List.mem_append.2 (.inl hs)
      · refine List.mem_append.2 (.inr ?_)
        rw [mem_remaining]
        refine ⟨List.mem_append.2 (.inr (List.mem_map.2 ⟨i, List.mem_range.2 hlt, rfl⟩)), hs, by omega⟩
    obtain ⟨p, hp⟩ := lookup_of_mem_keys hkey
    refine ⟨p, hp, ?_⟩
    rw [hoff] at hp
    rcases lookup_setAll hp with h | h
    · obtain ⟨g, g1, g2, -, -⟩ := places_at hpl _ h
      have : FileNo r.files (i : Int) f := .inl ⟨by omega, by simpa using hfi⟩
      rw [fileNo_unique this g1]
      exact g2.bound
    · exact nomatch h)
  rw [← List.range_eq_range'] at hfat
  have hfl : fat.flatten.length = 8 * r.files.length := by
    rw [List.range_eq_range'] at hfat
    obtain ⟨starts, c1, c2, -⟩ := fat_loop hfat
    rw [c2, fatBytes_length, entriesOf_length c1]
  have hbd : o.fat + fat.flatten.length ≤ s'.data.length := by
    rw [hfl, hdata, a3]
    have h1 := (pre6 (r := r) (es9 := es9) (es7 := es7) (es := es) (fnt := fnt') (fat := zeros (8 * r.files.length))).length_le
    have h2 := le_block_length (zeros (8 * r.files.length))
    rw [zeros_length] at h2
    rw [sec6, List.length_append] at h1
    change (sec5 r es9 es7 fnt').length + _ ≤ _
    omega
  rw [hfat, bind_ok, packInto_of_le hbd, bind_ok]
  have hlen : (padTo (patch s'.data o.fat fat.flatten) 0x20 0).length = sigPos s'.data.length := by
    rw [padTo_zero, List.length_append, patch_length hbd, sigPos]
  have hge := full_ge (r := r) (es9 := es9) (es7 := es7) (es := es) (fnt := fnt') (fat := zeros (8 * r.files.length))
  rw [← hdata] at hsz hge
  rw [hlen, packU_of_lt (by omega), bind_ok, packInto_of_le (by
    rw [enBytes_length, List.length_append, hlen]; unfold sigPos; omega), bind_ok]
  exact ⟨_, rfl⟩

theorem write8s_ok : ∀ {vs : List Int}, (∀ v ∈ vs, 0 ≤ v ∧ v < 256) → ∃ bs, mapE write8 vs = .ok bs
  | [], _ => ⟨[], rfl⟩
  | v :: vs, h => by
    obtain ⟨bs, hbs⟩ := write8s_ok (vs := vs) (fun x hx => h x (by simp [hx]))
    obtain ⟨h1, h2⟩ := h v (by simp)
    exact ⟨_, mapE_cons_ok.2 ⟨_, _, write8_eq_ok.2 ⟨h1, h2, rfl⟩, hbs, rfl⟩⟩

theorem crc_lt (d : Bytes) : crc16 d < 256 ^ 2 := by
  have := Props.Util.crc16_lt d
  omega

theorem header_ok {r : Rom} {c : Int} {o : Offsets} (h1 : ∀ v ∈ headerSmall r c, 0 ≤ v ∧ v < 256)
    (h2 : Fits (headerWords1 r o)) (h3 : Fits (headerWords2 r o)) (h4 : Fits (headerWords3 r o))
    (h5 : o.rsaSignature < 256 ^ 4) (h6 : r.idCode.length = 4) (h7 : r.developerCode.length = 2)
    (h8 : r.pad088.length = 0x38) (h9 : r.nintendoLogo.length = 0x9C) (h10 : r.pad16C.length = 0x94) :
    ∃ h, header r c o = .ok h := by
  obtain ⟨sm, hsm⟩ := write8s_ok h1
  have hf : ∃ f, headerFront r c o = .ok f := by
    unfold headerFront
    rw [pyAssert_true h6, bind_ok, pyAssert_true h7, bind_ok, hsm, bind_ok, packUs_eq_ok.2 ⟨h2, rfl⟩, bind_ok,
      packUs_eq_ok.2 ⟨h3, rfl⟩, bind_ok, packUs_eq_ok.2 ⟨show Fits [(4, o.rsaSignature), (4, 0x4000)] from ⟨h5, by decide, trivial⟩, rfl⟩, bind_ok, pyAssert_true h8, bind_ok,
      pyAssert_true h9, bind_ok, packU_of_lt (crc_lt _), bind_ok]
    exact ⟨_, rfl⟩
  obtain ⟨f, hf⟩ := hf
  unfold header
  rw [hf, bind_ok, packU_of_lt (crc_lt _), bind_ok, packUs_eq_ok.2 ⟨h4, rfl⟩, bind_ok, pyAssert_true h10, bind_ok]
  exact ⟨_, rfl⟩

/-! ## Sizes -/

theorem block_length_le (b : Bytes) : (block b).length ≤ b.length + 0x200 := by
  unfold block
  rw [List.length_append, List.length_replicate]
  omega

theorem padded_length_le : ∀ (es : List (Int × Bytes)), (padded es).length ≤ (es.map fun e => e.2.length + 0x200).sum
  | [] => by simp [padded]
  | e :: es => by
    rw [padded_cons, List.length_append, List.map_cons, List.sum_cons]
    have := block_length_le e.2
    have := padded_length_le es
    omega

theorem sum_fileLen {files : List Bytes} : ∀ {es : List (Int × Bytes)}, (∀ e ∈ es, FileNo files e.1 e.2) →
    (es.map fun e => e.2.length + 0x200).sum = ((es.map Prod.fst).map fun k => fileLen files k + 0x200).sum
  | [], _ => rfl
  | e :: es, h => by
    rw [List.map_cons, List.sum_cons, sum_fileLen (fun x hx => h x (by simp [hx])), List.map_cons, List.map_cons,
      List.sum_cons, fileLen_eq (h e (by simp))]

theorem full_length_le {r : Rom} {fnt fat : Bytes} {ids9 ids7 : List Nat} {es9 es7 es : List (Int × Bytes)}
    (hp : Placed r fnt ids9 ids7 es9 es7 es) (hf : fat.length = 8 * r.files.length) :
    sigPos (full r es9 es7 es fnt fat).length ≤ 0x8000 + r.pad200.length + r.arm9.length + r.arm9PostData.length +
      r.arm7.length + r.arm9OverlayTable.length + r.arm7OverlayTable.length + fnt.length + 8 * r.files.length +
      r.iconBanner.length + r.debugRom.length +
      (((ids9 ++ ids7).map Int.ofNat ++ remaining r.files.length ((ids9 ++ ids7).map Int.ofNat)
        (r.sortedFileIds ++ (List.range r.files.length).map Int.ofNat)).map fun k => fileLen r.files k + 0x200).sum := by
  have e : (ids9 ++ ids7).map Int.ofNat = es9.map Prod.fst ++ es7.map Prod.fst := by
    rw [List.map_append, hp.es9_ids, hp.es7_ids]
  rw [← hp.es_ids, e, List.map_append, List.map_append, List.sum_append, List.sum_append, ← sum_fileLen hp.es9_files,
    ← sum_fileLen hp.es7_files, ← sum_fileLen hp.es_files]
  have h1 := padded_length_le es9
  have h2 := padded_length_le es7
  have h3 := padded_length_le es
  have h4 : (blocks (es.map Prod.snd)).length ≤ (padded es).length := by
    obtain ⟨t, ht⟩ := padded_eq es
    rw [ht, List.length_append]; omega
  have h5 : (sec0 r).length ≤ 0x200 + r.pad200.length + 0x4000 := by
    unfold sec0
    rw [padTo_length, List.length_append, zeros_length]
    have := padLen_lt (len := 0x200 + r.pad200.length) (align := 0x4000) (by decide)
    omega
  have b1 := block_length_le (r.arm9 ++ r.arm9PostData)
  have b2 := block_length_le r.arm9OverlayTable
  have b3 := block_length_le r.arm7
  have b4 := block_length_le r.arm7OverlayTable
  have b5 := block_length_le fnt
  have b6 := block_length_le fat
  have b7 := block_length_le r.iconBanner
  have b8 := block_length_le r.debugRom
  have hz : ∀ n, (zeroFill 0x20 n).length < 0x20 := by
    intro n; unfold zeroFill; rw [List.length_replicate]; omega
  have := hz (full r es9 es7 es fnt fat).length
  unfold sigPos
  rw [List.length_append] at b1
  simp only [full, sec8, sec7, sec6, sec5, sec4, sec3, sec2, sec1, List.length_append] at this ⊢
  omega

/-- The numbers in the header fit when the image is not too large. -/
theorem fits_of_size {r : Rom} {fnt fat : Bytes} {es9 es7 es : List (Int × Bytes)}
    (hf : fat.length = 8 * r.files.length) {p : Nat} (hp : p = sigPos (full r es9 es7 es fnt fat).length) (hlt : p < 2 ^ 32)
    (hw : ∀ n ∈ [r.arm9EntryAddress, r.arm9RamAddress, r.arm7EntryAddress, r.arm7RamAddress,
      r.normalCardControlRegisterSettings, r.secureCardControlRegisterSettings, r.arm9CodeSettingsPointerAddress,
      r.arm7CodeSettingsPointerAddress, r.debugRomAddress], n < 2 ^ 32)
    (hh : ∀ n ∈ [r.secureAreaChecksum, r.secureTransferDelay], n < 2 ^ 16) :
    Fits (headerWords1 r (offsetsOf r es9 es7 fnt fat p)) ∧ Fits (headerWords2 r (offsetsOf r es9 es7 fnt fat p)) ∧
      Fits (headerWords3 r (offsetsOf r es9 es7 fnt fat p)) := by
  have b1 := le_block_length (r.arm9 ++ r.arm9PostData)
  have b2 := le_block_length r.arm9OverlayTable
  have b3 := le_block_length r.arm7
  have b4 := le_block_length r.arm7OverlayTable
  have b5 := le_block_length fnt
  have b6 := le_block_length fat
  have b7 := le_block_length r.iconBanner
  have b8 := le_block_length r.debugRom
  have hfl : (full r es9 es7 es fnt fat).length ≤ p := by rw [hp]; unfold sigPos; omega
  rw [List.length_append] at b1
  have hany : ∀ (a : Bytes) (n : Nat), ifAny a n ≤ n := by
    intro a n; unfold ifAny; split <;> omega
  have c1 := hany r.arm9OverlayTable (sec1 r).length
  have c2 := hany r.arm7OverlayTable (sec3 r es9).length
  have c3 := hany r.iconBanner (sec6 r es9 es7 fnt fat).length
  have c4 := hany r.debugRom (sec7 r es9 es7 fnt fat).length
  simp only [List.mem_cons, List.not_mem_nil, or_false, forall_eq_or_imp, forall_eq] at hw hh
  simp only [full, sec8, List.length_append] at hfl
  have e7 : (sec7 r es9 es7 fnt fat).length = (sec6 r es9 es7 fnt fat).length + (block r.iconBanner).length := by
    rw [sec7, List.length_append]
  have e6 : (sec6 r es9 es7 fnt fat).length = (sec5 r es9 es7 fnt).length + (block fat).length := by
    rw [sec6, List.length_append]
  have e5 : (sec5 r es9 es7 fnt).length = (sec4 r es9 es7).length + (block fnt).length := by
    rw [sec5, List.length_append]
  have e4 : (sec4 r es9 es7).length = (sec3 r es9).length + (block r.arm7OverlayTable).length + (padded es7).length := by
    rw [sec4, List.length_append, List.length_append]
  have e3 : (sec3 r es9).length = (sec2 r es9).length + (block r.arm7).length := by
    rw [sec3, List.length_append]
  have e2 : (sec2 r es9).length = (sec1 r).length + (block r.arm9OverlayTable).length + (padded es9).length := by
    rw [sec2, List.length_append, List.length_append]
  have e1 : (sec1 r).length = (sec0 r).length + (block (r.arm9 ++ r.arm9PostData)).length := by
    rw [sec1, List.length_append]
  simp only [headerWords1, headerWords2, headerWords3, offsetsOf, Fits, and_true]
  refine ⟨?_, ?_, ?_⟩
  · refine ⟨?_, ?_, ?_, ?_, ?_, ?_, ?_, ?_, ?_, ?_, ?_, ?_, ?_, ?_, ?_, ?_⟩ <;> omega
  · refine ⟨?_, ?_, ?_, ?_, ?_, ?_, ?_⟩ <;> omega
  · refine ⟨?_, ?_, ?_⟩ <;> omega

end Verif.Proofs.Rom
