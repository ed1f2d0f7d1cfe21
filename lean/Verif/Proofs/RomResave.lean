import Verif.Proofs.RomSort
import Verif.Proofs.InfoBlock

namespace Verif.Proofs.Rom

open Verif Verif.Model.Rom Verif.Model.Util Verif.Spec.Rom

/-! ## The order of the files -/

theorem remaining_congr' (n : Nat) : ∀ (ks : List Int) {a b : List Int}, (∀ k : Int, k < n → (k ∈ a ↔ k ∈ b)) →
    remaining n a ks = remaining n b ks
  | [], _, _, _ => rfl
  | k :: ks, a, b, h => by
    rw [remaining, remaining]
    have hc : (k ∈ a ∨ (n : Int) ≤ k) ↔ (k ∈ b ∨ (n : Int) ≤ k) := by
      by_cases hk : k < n
      · rw [h k hk]
      · constructor <;> intro _ <;> exact .inr (by omega)
    by_cases hk : k ∈ a ∨ (n : Int) ≤ k
    · rw [if_pos hk, if_pos (hc.1 hk)]
      exact remaining_congr' n ks h
    · rw [if_neg hk, if_neg (fun h' => hk (hc.2 h'))]
      rw [remaining_congr' n ks (a := k :: a) (b := k :: b) (by intro x hx; simp [h x hx])]

theorem remaining_append (n : Nat) : ∀ (as bs seen : List Int),
    remaining n seen (as ++ bs) = remaining n seen as ++ remaining n (as ++ seen) bs
  | [], bs, seen => by simp [remaining]
  | a :: as, bs, seen => by
    rw [List.cons_append, remaining, remaining]
    split
    · next h =>
      rw [remaining_append n as bs seen]
      congr 1
      apply remaining_congr'
      intro k hk
      rcases h with h | h
      · simp only [List.mem_append, List.cons_append, List.mem_cons]
        constructor
        · rintro (h' | h')
          · exact .inr (.inl h')
          · exact .inr (.inr h')
        · rintro (rfl | h' | h')
          · exact .inr h
          · exact .inl h'
          · exact .inr h'
      · simp only [List.mem_append, List.cons_append, List.mem_cons]
        constructor
        · rintro (h' | h')
          · exact .inr (.inl h')
          · exact .inr (.inr h')
        · rintro (rfl | h' | h')
          · omega
          · exact .inl h'
          · exact .inr h'
    · rw [remaining_append n as bs (a :: seen), List.cons_append]
      congr 2
      apply remaining_congr'
      intro k _
      simp only [List.mem_append, List.cons_append, List.mem_cons]
      constructor
      · rintro (h | h | h)
        · exact .inr (.inl h)
        · exact .inl h
        · exact .inr (.inr h)
      · rintro (h | h | h)
        · exact .inr (.inl h)
        · exact .inl h
        · exact .inr (.inr h)

theorem remaining_nil (n : Nat) : ∀ (ks seen : List Int), (∀ k ∈ ks, k ∈ seen) → remaining n seen ks = []
  | [], _, _ => rfl
  | k :: ks, seen, h => by
    rw [remaining, if_pos (.inl (h k (by simp)))]
    exact remaining_nil n ks seen (fun x hx => h x (by simp [hx]))

theorem remaining_sublist (n : Nat) : ∀ (ks seen : List Int), (remaining n seen ks).Sublist ks
  | [], _ => by simp [remaining]
  | k :: ks, seen => by
    rw [remaining]
    split
    · exact (remaining_sublist n ks seen).cons k
    · exact (remaining_sublist n ks (k :: seen)).cons_cons k

section

variable {r : Rom} {fnt : Bytes} {ids9 ids7 : List Nat} {es9 es7 es : List (Int × Bytes)} {starts : List Nat}

theorem es_nodup (hp : Placed r fnt ids9 ids7 es9 es7 es) : (es.map Prod.fst).Nodup := by
  rw [hp.es_ids]; exact remaining_nodup _

/-- The IDs of the files behind the other parts ascend in their offsets. -/
theorem es_pairwise (hb : Built r fnt ids9 ids7 es9 es7 es starts) (hne : ∀ f ∈ r.files, f ≠ []) :
    (es.map Prod.fst).Pairwise fun a b => ∀ s t, starts[a.toNat]? = some s → starts[b.toNat]? = some t →
      0 ≤ a → 0 ≤ b → s < t := by
  have hpp := place_pairwise hb.es_files (sec8 r es9 es7 fnt (fatBytes (entriesOf starts r.files))).length
  have hnd := es_nodup hb.toPlaced
  rw [← place_map_fst (sec8 r es9 es7 fnt (fatBytes (entriesOf starts r.files))).length es] at hnd ⊢
  -- the offset in the table is the one where the file was placed
  have key : ∀ x ∈ place (sec8 r es9 es7 fnt (fatBytes (entriesOf starts r.files))).length es, 0 ≤ x.1 → ∀ s,
      starts[x.1.toNat]? = some s → s = x.2 ∧ ∃ f, FileNo r.files x.1 f ∧ f ∈ r.files := by
    intro x hx h0 s hs
    have hlt : x.1.toNat < r.files.length := by rw [← hb.starts_len]; exact (List.getElem?_eq_some_iff.1 hs).1
    obtain ⟨h1, -⟩ := hb.starts_ok x.1.toNat s _ hs (List.getElem?_eq_getElem hlt)
    rw [show ((x.1.toNat : Nat) : Int) = x.1 by omega] at h1
    refine ⟨?_, r.files[x.1.toNat], .inl ⟨h0, List.getElem?_eq_getElem hlt⟩, List.getElem_mem hlt⟩
    rcases lookup_setAll h1 with h | h
    · have hseen : x.1 ∉ (ids9 ++ ids7).map Int.ofNat := by
        have : x.1 ∈ es.map Prod.fst := by
          rw [← place_map_fst (sec8 r es9 es7 fnt (fatBytes (entriesOf starts r.files))).length es]
          exact List.mem_map.2 ⟨x, hx, rfl⟩
        rw [hb.es_ids, mem_remaining] at this
        exact this.2.1
      rw [places, List.mem_append] at h
      rcases h with h | h
      · exfalso
        apply hseen
        have : x.1 ∈ (ovPlaces r es9 es7).map Prod.fst := List.mem_map.2 ⟨_, h, rfl⟩
        rw [ovPlaces, List.map_append, place_map_fst, place_map_fst, hb.es9_ids, hb.es7_ids, ← List.map_append] at this
        exact this
      · obtain ⟨i, hi, ei⟩ := List.getElem_of_mem h
        obtain ⟨j, hj, ej⟩ := List.getElem_of_mem hx
        have hij : i = j := by
          rw [List.Nodup, List.pairwise_iff_getElem] at hnd
          rcases Nat.lt_trichotomy i j with hlt' | h' | hlt'
          · exact (hnd i j (by simpa using hi) (by simpa using hj) hlt' (by rw [List.getElem_map, List.getElem_map, ei, ej])).elim
          · exact h'
          · exact (hnd j i (by simpa using hj) (by simpa using hi) hlt' (by rw [List.getElem_map, List.getElem_map, ei, ej])).elim
        subst hij
        rw [ei] at ej
        exact congrArg Prod.snd ej
    · exact nomatch h
  rw [List.pairwise_map]
  refine List.Pairwise.imp_of_mem ?_ hpp
  intro x y hx hy h s t hs ht h0 h0'
  obtain ⟨e1, f, hf, hfm⟩ := key x hx h0 s hs
  obtain ⟨e2, -⟩ := key y hy h0' t ht
  have := h f hf
  have h1 := le_block_length f
  have h2 : 0 < f.length := List.length_pos_iff.2 (hne f hfm)
  omega

/-- The order of a loaded ROM puts the files where they were. -/
theorem remaining_sortIds (hb : Built r fnt ids9 ids7 es9 es7 es starts) (hne : ∀ f ∈ r.files, f ≠ [])
    (hpos : ∀ k ∈ r.sortedFileIds, 0 ≤ k) :
    remaining r.files.length ((ids9 ++ ids7).map Int.ofNat) (sortIds starts ++ (List.range r.files.length).map Int.ofNat) =
      es.map Prod.fst := by
  obtain ⟨m1, m2⟩ := sortIds_spec starts
  have hdist : ∀ i j s : Nat, i < j → starts[i]? = some s → starts[j]? ≠ some s := by
    intro i j s hij hi hj
    have l1 : i < r.files.length := by rw [← hb.starts_len]; exact (List.getElem?_eq_some_iff.1 hi).1
    have l2 : j < r.files.length := by rw [← hb.starts_len]; exact (List.getElem?_eq_some_iff.1 hj).1
    have := starts_disjoint hb (by omega) hi (List.getElem?_eq_getElem l1) hj (List.getElem?_eq_getElem l2)
    have b1 := le_block_length r.files[i]
    have b2 := le_block_length r.files[j]
    have n1 := List.length_pos_iff.2 (hne _ (List.getElem_mem l1))
    have n2 := List.length_pos_iff.2 (hne _ (List.getElem_mem l2))
    omega
  have hall : ∀ k, k ∈ sortIds starts ↔ k ∈ (List.range r.files.length).map Int.ofNat := by
    intro k
    rw [m1, List.mem_map]
    constructor
    · rintro ⟨i, s, rfl, h, -⟩
      exact ⟨i, List.mem_range.2 (by rw [← hb.starts_len]; exact (List.getElem?_eq_some_iff.1 h).1), rfl⟩
    · rintro ⟨i, hi, rfl⟩
      rw [List.mem_range, ← hb.starts_len] at hi
      exact ⟨i, starts[i], rfl, List.getElem?_eq_getElem hi, fun j hj => hdist i j _ hj (List.getElem?_eq_getElem hi)⟩
  rw [remaining_append, remaining_nil _ _ (sortIds starts ++ (ids9 ++ ids7).map Int.ofNat) (by
    intro k hk
    exact List.mem_append.2 (.inl ((hall k).2 hk))), List.append_nil]
  refine List.Perm.eq_of_pairwise (le := fun a b => ∀ s t, starts[a.toNat]? = some s → starts[b.toNat]? = some t → s < t)
    ?_ ?_ ?_ ?_
  · intro a b ha hb' h1 h2
    exfalso
    rw [mem_remaining, m1] at ha
    obtain ⟨⟨i, s, rfl, hs, -⟩, -⟩ := ha
    have hb'' := hb'
    rw [hb.es_ids, mem_remaining, List.mem_append] at hb'
    have h0 : 0 ≤ b := by
      rcases hb'.1 with h | h
      · exact hpos b h
      · obtain ⟨j, -, rfl⟩ := List.mem_map.1 h; simp only [Int.ofNat_eq_natCast]; omega
    have hlt : b.toNat < starts.length := by rw [hb.starts_len]; omega
    have e1 := h1 s _ (by simpa using hs) (List.getElem?_eq_getElem hlt)
    have e2 := h2 _ s (List.getElem?_eq_getElem hlt) (by simpa using hs)
    omega
  · exact m2.sublist (remaining_sublist _ _ _)
  · refine List.Pairwise.imp_of_mem ?_ (es_pairwise hb hne)
    intro a b ha hb' h s t hs ht
    have h0 : ∀ k ∈ es.map Prod.fst, 0 ≤ k := by
      intro k hk
      rw [hb.es_ids, mem_remaining, List.mem_append] at hk
      rcases hk.1 with h | h
      · exact hpos k h
      · obtain ⟨j, -, rfl⟩ := List.mem_map.1 h; simp only [Int.ofNat_eq_natCast]; omega
    exact h s t hs ht (h0 a ha) (h0 b hb')
  · rw [List.perm_ext_iff_of_nodup (remaining_nodup _) (es_nodup hb.toPlaced)]
    intro k
    rw [hb.es_ids, mem_remaining, mem_remaining, hall, List.mem_append]
    constructor
    · rintro ⟨h1, h2, h3⟩; exact ⟨.inr h1, h2, h3⟩
    · rintro ⟨h1, h2, h3⟩
      refine ⟨?_, h2, h3⟩
      rcases h1 with h1 | h1
      · have := hpos k h1
        exact List.mem_map.2 ⟨k.toNat, List.mem_range.2 (by omega), by simp only [Int.ofNat_eq_natCast]; omega⟩
      · exact h1

end

/-! ## Saving again -/

theorem save_inv' {r r' : Rom} {u : Bool} {b : Bytes} (h : save r u = .ok (b, r')) :
    ∃ fnt ids9 ids7 es9 es7 es starts hdr, Saved r r'.deviceCapacity b fnt ids9 ids7 es9 es7 es starts hdr ∧
      header r r'.deviceCapacity (offsetsOf r es9 es7 fnt (fatOf r starts)
        (sigPos (full r es9 es7 es fnt (fatOf r starts)).length)) = .ok hdr ∧
      r' = { r with deviceCapacity := if u = true then capacity b.length else r.deviceCapacity } := by
  have h' := h
  unfold save at h
  simp only [bind_eq_ok, pure_eq_ok] at h
  obtain ⟨⟨img, o⟩, hi, hdr, hh, h⟩ := h
  obtain ⟨fnt, ids9, ids7, es9, es7, es, starts, hb, h1, h2, h3⟩ := buildImage_inv hi
  dsimp only at hh h
  obtain ⟨rfl, rfl⟩ := Prod.mk.inj h
  have hd := header_inv hh
  have hsv : Saved r (if u = true then capacity img.length else r.deviceCapacity) (patch img 0 hdr) fnt ids9 ids7 es9 es7 es starts hdr :=
    { hb with sigLt := h1, hdr_ok := by rw [← h2]; exact hd, img := by rw [← h3] }
  have hl : (patch img 0 hdr).length = img.length := by
    rw [hsv.len, h3, patch_length]
    have := whole_length (full r es9 es7 es fnt (fatBytes (entriesOf starts r.files))) r.rsaSignature
    have := full_ge (r := r) (es9 := es9) (es7 := es7) (es := es) (fnt := fnt) (fat := fatBytes (entriesOf starts r.files))
    rw [leBytes_length]
    omega
  refine ⟨fnt, ids9, ids7, es9, es7, es, starts, hdr, hsv, ?_, ?_⟩
  · rw [← h2]; exact hh
  · rw [hl]

/-- The image from ARM9 to the last file. -/
def tailOf (r : Rom) (es9 es7 es : List (Int × Bytes)) (fnt fat : Bytes) : Bytes :=
  block (r.arm9 ++ r.arm9PostData) ++ (block r.arm9OverlayTable ++ (padded es9 ++ (block r.arm7 ++
    (block r.arm7OverlayTable ++ (padded es7 ++ (block fnt ++ (block fat ++ (block r.iconBanner ++ (block r.debugRom ++
      blocks (es.map Prod.snd))))))))))

theorem full_eq (r : Rom) (es9 es7 es : List (Int × Bytes)) (fnt fat : Bytes) :
    full r es9 es7 es fnt fat = sec0 r ++ tailOf r es9 es7 es fnt fat := by
  simp only [full, sec8, sec7, sec6, sec5, sec4, sec3, sec2, sec1, tailOf, List.append_assoc]

theorem es_unique {files : List Bytes} : ∀ {es es' : List (Int × Bytes)}, es.map Prod.fst = es'.map Prod.fst →
    (∀ e ∈ es, FileNo files e.1 e.2) → (∀ e ∈ es', FileNo files e.1 e.2) → es = es'
  | [], [], _, _, _ => rfl
  | [], _ :: _, h, _, _ => by simp at h
  | _ :: _, [], h, _, _ => by simp at h
  | (k, f) :: es, (k', f') :: es', h, h1, h2 => by
    rw [List.map_cons, List.map_cons] at h
    obtain ⟨a, b⟩ := List.cons.inj h
    dsimp only at a
    subst a
    have hf : f = f' := fileNo_unique (h1 (k, f) (by simp)) (h2 (k, f') (by simp))
    rw [hf, es_unique b (fun e he => h1 e (by simp [he])) (fun e he => h2 e (by simp [he]))]

theorem overlayIds_unique {table : Bytes} {a b : List Nat} (ha : OverlayIds table a) (hb : OverlayIds table b) : a = b := by
  apply List.ext_getElem (by rw [ha.1, hb.1])
  intro i h1 h2
  obtain ⟨a1, a2⟩ := ha.2 i _ (List.getElem?_eq_getElem h1)
  obtain ⟨b1, b2⟩ := hb.2 i _ (List.getElem?_eq_getElem h2)
  have := At.unique a2 b2 (by simp)
  have := congrArg leVal this
  rwa [leVal_leBytes_of_lt (by omega), leVal_leBytes_of_lt (by omega)] at this

/-- Bytes in front can be replaced. -/
theorem at_swap {x y d s : Bytes} {p : Nat} (h : At (x ++ d) p s) (hl : x.length = y.length) (hp : x.length ≤ p) :
    At (y ++ d) p s := by
  obtain ⟨a, t, h1, rfl⟩ := h
  have h2 : x = a.take x.length := by
    have := congrArg (List.take x.length) h1
    rw [List.take_left, List.append_assoc, List.take_append_of_le_length hp] at this
    exact this
  have h3 : d = a.drop x.length ++ s ++ t := by
    have := congrArg (List.drop x.length) h1
    rw [List.drop_left, List.append_assoc, List.drop_append_of_le_length hp, ← List.append_assoc] at this
    exact this
  refine ⟨y ++ a.drop x.length, t, ?_, ?_⟩
  · rw [h3]; simp
  · rw [List.length_append, List.length_drop, ← hl]; omega

theorem patch_noop {d s : Bytes} {p : Nat} (h : At d p s) : patch d p s = d := by
  have h1 := h.slice_eq rfl
  have h2 := h.bound
  unfold patch
  conv => lhs; arg 1; arg 2; rw [← h1]
  unfold slice
  rw [Nat.add_sub_cancel_left]
  rw [List.append_assoc]
  have : (d.drop p).take s.length ++ d.drop (p + s.length) = d.drop p := by
    rw [← List.drop_drop, List.take_append_drop]
  rw [this, List.take_append_drop]

theorem fixed_fixed (n : Nat) (b : Bytes) : fixed n (fixed n b) = fixed n b := by
  generalize hb : fixed n b = x
  have h : x.length = n := by rw [← hb]; exact fixed_length n b
  unfold fixed
  rw [h, Nat.sub_self, ← h]
  simp [zeros]

theorem fixed_rstrip (n : Nat) (b : Bytes) : fixed n (Model.InfoBlock.rstripZero (fixed n b)) = fixed n b := by
  generalize hb : fixed n b = x
  have h : x.length = n := by rw [← hb]; exact fixed_length n b
  obtain ⟨k, h1, -⟩ := InfoBlock.rstripZero_eq x
  have h2 : (Model.InfoBlock.rstripZero x).length + k = n := by
    have := congrArg List.length h1
    rw [List.length_append, zeros_length, h] at this
    exact this.symm
  unfold fixed
  rw [show n - (Model.InfoBlock.rstripZero x).length = k by omega, ← h1, ← h]
  exact List.take_length

/-- The ROM that is loaded, with the data behind ARM9 as it was. -/
def again (r : Rom) (c : Int) (b : Bytes) (p : Nat) (starts : List Nat) : Rom :=
  { loaded r c b p starts with arm9PostData := r.arm9PostData }

theorem header_again (r : Rom) (c d : Int) (b : Bytes) (p : Nat) (starts : List Nat) (o : Offsets) :
    header (again r c b p starts) d o = header r d o := by
  have e1 : fixed 12 (again r c b p starts).name = fixed 12 r.name := fixed_rstrip 12 r.name
  have e2 : fixed 8 (again r c b p starts).secureAreaDisable = fixed 8 r.secureAreaDisable := fixed_fixed 8 _
  unfold header headerFront
  rw [e1, e2]
  rfl

section

variable {r : Rom} {c : Int} {b fnt : Bytes} {ids9 ids7 : List Nat} {es9 es7 es : List (Int × Bytes)} {starts : List Nat}
  {hdr : Bytes}

/-- The image behind the header area. -/
theorem Saved.drop_eq (hs : Saved r c b fnt ids9 ids7 es9 es7 es starts hdr) :
    b.drop (sec0 r).length = tailOf r es9 es7 es fnt (fatOf r starts) ++
      zeroFill 0x20 (full r es9 es7 es fnt (fatOf r starts)).length ++ r.rsaSignature ++
      zeroFill 0x400 (sigPos (full r es9 es7 es fnt (fatOf r starts)).length + r.rsaSignature.length) := by
  have g0 := sec0_ge r
  have g1 := hs.hdr_ok.len
  have e : whole (full r es9 es7 es fnt (fatOf r starts)) r.rsaSignature = sec0 r ++
      (tailOf r es9 es7 es fnt (fatOf r starts) ++
      zeroFill 0x20 (full r es9 es7 es fnt (fatOf r starts)).length ++ r.rsaSignature ++
      zeroFill 0x400 (sigPos (full r es9 es7 es fnt (fatOf r starts)).length + r.rsaSignature.length)) := by
    unfold whole
    conv => lhs; arg 1; arg 1; arg 1; rw [full_eq]
    simp only [List.append_assoc]
  have hd1 : (patch (sec0 r) 0x1000 (leBytes 4 (sigPos (full r es9 es7 es fnt (fatOf r starts)).length))).length =
      (sec0 r).length := patch_length (by rw [leBytes_length]; omega)
  have hd2 : (patch (patch (sec0 r) 0x1000 (leBytes 4 (sigPos (full r es9 es7 es fnt (fatOf r starts)).length))) 0 hdr).length =
      (sec0 r).length := by rw [patch_length (by omega), hd1]
  rw [hs.img, e, patch_append (by rw [leBytes_length]; omega), patch_append (by omega), List.drop_append, hd2]
  rw [List.drop_eq_nil_of_le (by omega), Nat.sub_self]
  simp

/-- The header at the front. -/
theorem Saved.take_eq (hs : Saved r c b fnt ids9 ids7 es9 es7 es starts hdr) : b.take 0x200 = hdr := by
  have h := (hs.at_hdr (At.refl hdr)).slice_eq (b := 0x200) (by rw [hs.hdr_ok.len])
  simpa using h

theorem Saved.eq_parts (hs : Saved r c b fnt ids9 ids7 es9 es7 es starts hdr) :
    b = hdr ++ slice b 0x200 (sec0 r).length ++ b.drop (sec0 r).length := by
  have g0 := sec0_ge r
  rw [← hs.take_eq]
  unfold slice
  rw [List.append_assoc]
  have : (b.drop 0x200).take ((sec0 r).length - 0x200) ++ b.drop (sec0 r).length = b.drop 0x200 := by
    rw [show (sec0 r).length = 0x200 + ((sec0 r).length - 0x200) by omega, ← List.drop_drop]
    rw [show 0x200 + ((sec0 r).length - 0x200) - 0x200 = (sec0 r).length - 0x200 by omega, List.take_append_drop]
  rw [this, List.take_append_drop]

/-- The padding behind the header is complete when it was loaded. -/
theorem sec0_again (hs : Saved r c b fnt ids9 ids7 es9 es7 es starts hdr) (p : Nat) :
    sec0 (again r c b p starts) = zeros 0x200 ++ slice b 0x200 (sec0 r).length ∧
      (sec0 (again r c b p starts)).length = (sec0 r).length := by
  have g0 := sec0_ge r
  have g1 := sec0_mod' r
  have g2 := hs.at_arm9.bound
  have hl : (slice b 0x200 (sec0 r).length).length = (sec0 r).length - 0x200 := slice_length_of_le (by omega)
  have he : sec0 (again r c b p starts) = zeros 0x200 ++ slice b 0x200 (sec0 r).length := by
    have hp : (again r c b p starts).pad200 = slice b 0x200 (sec0 r).length := by
      unfold again loaded; dsimp only
    generalize again r c b p starts = q at hp ⊢
    unfold sec0 at hp ⊢
    rw [hp, ← sec0]
    unfold padTo padLen
    rw [List.length_append, zeros_length, hl, show 0x200 + ((sec0 r).length - 0x200) = (sec0 r).length by omega, g1]
    simp
  refine ⟨he, ?_⟩
  rw [he, List.length_append, zeros_length, hl]
  omega

/-- The signature and what follows it are the same again. -/
theorem rsa_again (rsa : Bytes) (p : Nat) (h : rsa.length ≤ 0x88) :
    (rsa ++ zeroFill 0x400 (p + rsa.length)).take 0x88 ++
      zeroFill 0x400 (p + ((rsa ++ zeroFill 0x400 (p + rsa.length)).take 0x88).length) =
    rsa ++ zeroFill 0x400 (p + rsa.length) := by
  have hz : ∀ n, zeroFill 0x400 n = zeros ((0x400 - n % 0x400) % 0x400) := fun _ => rfl
  rw [hz, hz, List.take_append, List.take_of_length_le h]
  have : (zeros ((0x400 - (p + rsa.length) % 0x400) % 0x400)).take (0x88 - rsa.length) =
      zeros (min (0x88 - rsa.length) ((0x400 - (p + rsa.length) % 0x400) % 0x400)) := by
    unfold zeros; rw [List.take_replicate]
  rw [this, List.length_append, zeros_length, List.append_assoc]
  congr 1
  unfold zeros
  rw [List.replicate_append_replicate]
  congr 1
  omega

/-- ROMs that agree in all that is written behind the header area. -/
structure Same (q r : Rom) : Prop where
  sec0 : (sec0 q).length = (sec0 r).length
  arm9 : q.arm9 = r.arm9
  post : q.arm9PostData = r.arm9PostData
  t9 : q.arm9OverlayTable = r.arm9OverlayTable
  arm7 : q.arm7 = r.arm7
  t7 : q.arm7OverlayTable = r.arm7OverlayTable
  icon : q.iconBanner = r.iconBanner
  debug : q.debugRom = r.debugRom
  names : q.filenames = r.filenames
  files : q.files = r.files

theorem same_again (hs : Saved r c b fnt ids9 ids7 es9 es7 es starts hdr) (p : Nat) : Same (again r c b p starts) r :=
  ⟨(sec0_again hs p).2, rfl, rfl, rfl, rfl, rfl, rfl, rfl, rfl, rfl⟩

variable {q : Rom}

theorem Same.tail (h : Same q r) (es9 es7 es : List (Int × Bytes)) (fnt fat : Bytes) :
    tailOf q es9 es7 es fnt fat = tailOf r es9 es7 es fnt fat := by
  unfold tailOf
  rw [h.arm9, h.post, h.t9, h.arm7, h.t7, h.icon, h.debug]

theorem Same.len1 (h : Same q r) : (sec1 q).length = (sec1 r).length := by
  simp only [sec1, List.length_append, h.sec0, h.arm9, h.post]

theorem Same.len2 (h : Same q r) : (sec2 q es9).length = (sec2 r es9).length := by
  simp only [sec2, List.length_append, h.len1, h.t9]

theorem Same.len3 (h : Same q r) : (sec3 q es9).length = (sec3 r es9).length := by
  simp only [sec3, List.length_append, h.len2, h.arm7]

theorem Same.len4 (h : Same q r) : (sec4 q es9 es7).length = (sec4 r es9 es7).length := by
  simp only [sec4, List.length_append, h.len3, h.t7]

theorem Same.len5 (h : Same q r) : (sec5 q es9 es7 fnt).length = (sec5 r es9 es7 fnt).length := by
  simp only [sec5, List.length_append, h.len4]

theorem Same.len6 (h : Same q r) {fat : Bytes} : (sec6 q es9 es7 fnt fat).length = (sec6 r es9 es7 fnt fat).length := by
  simp only [sec6, List.length_append, h.len5]

theorem Same.len7 (h : Same q r) {fat : Bytes} : (sec7 q es9 es7 fnt fat).length = (sec7 r es9 es7 fnt fat).length := by
  simp only [sec7, List.length_append, h.len6, h.icon]

theorem Same.len8 (h : Same q r) {fat : Bytes} : (sec8 q es9 es7 fnt fat).length = (sec8 r es9 es7 fnt fat).length := by
  simp only [sec8, List.length_append, h.len7, h.debug]

theorem Same.full (h : Same q r) {fat : Bytes} : (full q es9 es7 es fnt fat).length = (full r es9 es7 es fnt fat).length := by
  simp only [Rom.full, List.length_append, h.len8]

theorem Same.places (h : Same q r) {fat : Bytes} : places q es9 es7 es fnt fat = places r es9 es7 es fnt fat := by
  unfold Rom.places ovPlaces
  rw [List.length_append, List.length_append, h.len1, h.len3, h.len8, h.t9, h.t7, ← List.length_append, ← List.length_append]

theorem Same.offsets (h : Same q r) {fat : Bytes} {p : Nat} : offsetsOf q es9 es7 fnt fat p = offsetsOf r es9 es7 fnt fat p := by
  unfold offsetsOf
  rw [h.sec0, h.len1, h.len2, h.len3, h.len4, h.len5, h.len6, h.len7, h.t9, h.t7, h.icon, h.debug]

theorem full_length_congr {fat fat' : Bytes} (h : fat.length = fat'.length) :
    (full r es9 es7 es fnt fat).length = (full r es9 es7 es fnt fat').length := by
  simp only [Rom.full, List.length_append, sec8_length h]

theorem places_congr {fat fat' : Bytes} (h : fat.length = fat'.length) :
    places r es9 es7 es fnt fat = places r es9 es7 es fnt fat' := by
  unfold Rom.places
  rw [sec8_length h]

/-- What is loaded as the signature. -/
theorem Saved.rsa_loaded (hs : Saved r c b fnt ids9 ids7 es9 es7 es starts hdr) {p : Nat}
    (hp : p = sigPos (Rom.full r es9 es7 es fnt (fatOf r starts)).length) :
    slice b p (min b.length (p + 0x88)) = (r.rsaSignature ++ zeroFill 0x400 (p + r.rsaSignature.length)).take 0x88 := by
  have h1 : b.drop p = r.rsaSignature ++ zeroFill 0x400 (p + r.rsaSignature.length) := by
    have h2 := hs.drop_eq
    have h3 : p = (Rom.sec0 r).length +
        (tailOf r es9 es7 es fnt (fatOf r starts) ++ zeroFill 0x20 (Rom.full r es9 es7 es fnt (fatOf r starts)).length).length := by
      have h4 := congrArg List.length (full_eq r es9 es7 es fnt (fatOf r starts))
      rw [List.length_append] at h4
      rw [hp, sigPos, List.length_append]
      omega
    rw [← hp] at h2
    conv => lhs; rw [h3, ← List.drop_drop, h2]
    rw [List.append_assoc _ r.rsaSignature, List.drop_left]
  have h5 := hs.at_rsa.bound
  have h6 := congrArg List.length h1
  rw [List.length_drop] at h6
  unfold slice
  rw [h1, List.take_eq_take_iff, ← h6]
  omega

/-- Saving what was loaded gives the same image. -/
theorem save_again (hs : Saved r c b fnt ids9 ids7 es9 es7 es starts hdr) {p : Nat}
    (hp : p = sigPos (Rom.full r es9 es7 es fnt (fatOf r starts)).length)
    (hh : header r c (offsetsOf r es9 es7 fnt (fatOf r starts) p) = .ok hdr)
    (hne : ∀ f ∈ r.files, f ≠ []) (hpos : ∀ k ∈ r.sortedFileIds, 0 ≤ k) (hrsa : r.rsaSignature.length ≤ 0x88) (u : Bool)
    (hu : u = true → capacity b.length = c) :
    save (again r c b p starts) u = .ok (b, again r c b p starts) := by
  have hsame := same_again hs p
  have hq1 : (again r c b p starts).sortedFileIds = sortIds starts := rfl
  have hq2 : (again r c b p starts).deviceCapacity = c := rfl
  have hq3 : ∀ d o, header (again r c b p starts) d o = header r d o := fun d o => header_again r c d b _ starts o
  have hq4 := (sec0_again hs p).1
  have hq5 : (again r c b p starts).rsaSignature =
      (r.rsaSignature ++ zeroFill 0x400 (p + r.rsaSignature.length)).take 0x88 := hs.rsa_loaded hp
  generalize again r c b p starts = q at *
  -- the parts are the same
  have huniq : ∀ {fnt' : Bytes} {ids9' ids7' : List Nat} {es9' es7' es' : List (Int × Bytes)},
      Placed q fnt' ids9' ids7' es9' es7' es' →
      fnt' = fnt ∧ es9' = es9 ∧ es7' = es7 ∧ es' = es := by
    intro fnt' ids9' ids7' es9' es7' es' hpl
    have e1 : ids9' = ids9 := overlayIds_unique hpl.ids9_ok (hsame.t9 ▸ hs.ids9_ok)
    have e2 : ids7' = ids7 := overlayIds_unique hpl.ids7_ok (hsame.t7 ▸ hs.ids7_ok)
    subst e1 e2
    have e3 : es9' = es9 := es_unique (files := r.files) (hpl.es9_ids.trans hs.es9_ids.symm)
      (hsame.files ▸ hpl.es9_files) hs.es9_files
    have e4 : es7' = es7 := es_unique (files := r.files) (hpl.es7_ids.trans hs.es7_ids.symm)
      (hsame.files ▸ hpl.es7_files) hs.es7_files
    have e5 : es' = es := by
      refine es_unique (files := r.files) ?_ (hsame.files ▸ hpl.es_files) hs.es_files
      rw [hpl.es_ids, hq1, hsame.files]
      exact remaining_sortIds hs.toBuilt hne hpos
    have e6 : fnt' = fnt := by
      have h1 := hpl.fnt_ok
      rw [hsame.names, hs.fnt_ok] at h1
      exact (Except.ok.inj h1).symm
    exact ⟨e6, e3, e4, e5⟩
  have hfl : (fatOf r starts).length = 8 * r.files.length := by
    rw [fatBytes_length, entriesOf_length hs.starts_len]
  have hsort : ∀ k ∈ q.sortedFileIds, -(q.files.length : Int) ≤ k := by
    intro k hk
    rw [hq1, (sortIds_spec starts).1] at hk
    obtain ⟨i, s, rfl, -⟩ := hk
    omega
  have hlt9 : ∀ id ∈ ids9 ++ ids7, id < q.files.length := by
    have key : ∀ {ids : List Nat} {es : List (Int × Bytes)}, es.map Prod.fst = ids.map Int.ofNat →
        (∀ e ∈ es, FileNo r.files e.1 e.2) → ∀ id ∈ ids, id < r.files.length := by
      intro ids es h1 h2 id hid
      have : Int.ofNat id ∈ es.map Prod.fst := by rw [h1]; exact List.mem_map.2 ⟨id, hid, rfl⟩
      obtain ⟨e, he, he'⟩ := List.mem_map.1 this
      have h3 := h2 e he
      rw [he'] at h3
      rcases h3 with ⟨-, h4⟩ | ⟨h4, -, -⟩
      · have := (List.getElem?_eq_some_iff.1 h4).1
        simpa using this
      · simp only [Int.ofNat_eq_natCast] at h4; omega
    intro id hid
    rw [hsame.files]
    rcases List.mem_append.1 hid with h' | h'
    · exact key hs.es9_ids hs.es9_files id h'
    · exact key hs.es7_ids hs.es7_files id h'
  obtain ⟨⟨img, o⟩, hb⟩ := buildImage_ok (r := q) (hsame.t9 ▸ hs.ids9_ok) (hsame.t7 ▸ hs.ids7_ok) hlt9
    (hsame.names ▸ hs.fnt_ok) (hsame.icon ▸ hs.icon) hsort (by
      intro ids9' ids7' es9' es7' es' fnt' fat hpl hfat
      obtain ⟨rfl, rfl, rfl, rfl⟩ := huniq hpl
      rw [hsame.full, full_length_congr (fat' := fatOf r starts) (by rw [hfat, hfl, hsame.files])]
      exact hs.sigLt)
  obtain ⟨fnt', ids9', ids7', es9', es7', es', starts', hbt, i1, i2, i3⟩ := buildImage_inv hb
  obtain ⟨rfl, rfl, rfl, rfl⟩ := huniq hbt.toPlaced
  have hfl' : (fatBytes (entriesOf starts' q.files)).length = (fatOf r starts).length := by
    rw [fatBytes_length, entriesOf_length hbt.starts_len, hfl, hsame.files]
  have est : starts' = starts := by
    apply List.ext_getElem (by rw [hbt.starts_len, hs.starts_len, hsame.files])
    intro i h1 h2
    have hi : i < r.files.length := by rw [← hs.starts_len]; exact h2
    have g1 := (hbt.starts_ok i _ r.files[i] (List.getElem?_eq_getElem h1) (by rw [hsame.files]; exact List.getElem?_eq_getElem hi)).1
    have g2 := (hs.starts_ok i _ r.files[i] (List.getElem?_eq_getElem h2) (List.getElem?_eq_getElem hi)).1
    rw [hsame.places, places_congr hfl', g2] at g1
    exact (Option.some.inj g1).symm
  subst est
  have hfat : fatBytes (entriesOf starts' q.files) = fatOf r starts' := by rw [hsame.files]
  rw [hfat, hsame.full, ← hp] at i1 i2 i3
  rw [hsame.offsets] at i2
  -- the image
  have himg : patch img 0 hdr = b := by
    have hd := hs.drop_eq
    rw [← hp] at hd
    have g0 := sec0_ge r
    have hw : whole (Rom.full q es9' es7' es' fnt' (fatOf r starts')) q.rsaSignature =
        zeros 0x200 ++ (slice b 0x200 (Rom.sec0 r).length ++ b.drop (Rom.sec0 r).length) := by
      unfold whole
      rw [hsame.full, ← hp]
      conv => lhs; arg 1; arg 1; arg 1; rw [full_eq, hq4, hsame.tail]
      rw [hd, List.append_assoc _ q.rsaSignature, hq5, rsa_again _ _ hrsa]
      simp only [List.append_assoc]
    have hn : patch (zeros 0x200 ++ (slice b 0x200 (Rom.sec0 r).length ++ b.drop (Rom.sec0 r).length)) 0x1000
        (leBytes 4 p) = zeros 0x200 ++ (slice b 0x200 (Rom.sec0 r).length ++ b.drop (Rom.sec0 r).length) := by
      apply patch_noop
      have h1 := hs.at_sig
      rw [← hp, hs.eq_parts, List.append_assoc] at h1
      have h2 := hs.hdr_ok.len
      exact at_swap h1 (by rw [zeros_length, h2]) (by omega)
    rw [i3, hw, hn]
    conv => rhs; rw [hs.eq_parts]
    have h2 := hs.hdr_ok.len
    unfold patch
    rw [h2, List.take_zero, List.nil_append, Nat.zero_add, List.drop_left' (by rw [zeros_length]), List.append_assoc]
  have hil : img.length = b.length := by
    rw [← himg, patch_length]
    have g0 := hs.len_ge
    have g1 := hs.hdr_ok.len
    have g2 : (patch img 0 hdr).length = b.length := by rw [himg]
    unfold patch at g2
    rw [List.take_zero, List.nil_append, List.length_append, List.length_drop] at g2
    omega
  unfold save
  rw [hb, bind_ok]
  dsimp only
  have hc : (if u = true then capacity img.length else q.deviceCapacity) = c := by
    rw [hil, hq2]
    split
    · next h => exact hu h
    · rfl
  rw [hc, hq3, i2, hh, bind_ok, himg]
  have : { q with deviceCapacity := c } = q := by rw [← hq2]
  rw [this]
  rfl

end

end Verif.Proofs.Rom
