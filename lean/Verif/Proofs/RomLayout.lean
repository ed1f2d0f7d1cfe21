import Verif.Model.Rom
import Verif.Spec.Rom
import Verif.Proofs.Bmg

namespace Verif.Proofs.Rom

open Verif Verif.Model.Rom Verif.Spec.Rom

theorem block_length_mod (b : Bytes) : (block b).length % 0x200 = 0 := by
  unfold block
  rw [List.length_append, List.length_replicate]
  omega

theorem le_block_length (b : Bytes) : b.length ≤ (block b).length := by unfold block; simp

@[simp] theorem block_nil : block [] = [] := by unfold block; simp

theorem padTo_block {d : Bytes} (b : Bytes) (h : d.length % 0x200 = 0) : padTo (d ++ b) 0x200 0xFF = d ++ block b := by
  unfold padTo padLen block
  rw [List.length_append, Nat.add_mod, h, Nat.zero_add, Nat.mod_mod, List.append_assoc]

theorem blocks_append (f : Bytes) : ∀ (L : List Bytes), blocks (L ++ [f]) = (L.map block).flatten ++ f
  | [] => by simp [blocks]
  | [b] => by simp [blocks]
  | b :: c :: bs => by
    rw [List.cons_append, List.cons_append, blocks, ← List.cons_append, blocks_append f (c :: bs)]
    simp

theorem flatten_block_mod : ∀ (L : List Bytes), (L.map block).flatten.length % 0x200 = 0
  | [] => rfl
  | b :: bs => by
    rw [List.map_cons, List.flatten_cons, List.length_append, Nat.add_mod, block_length_mod, flatten_block_mod bs]

theorem padTo_blocks {d : Bytes} (h : d.length % 0x200 = 0) (L : List Bytes) :
    padTo (d ++ blocks L) 0x200 0xFF = d ++ (L.map block).flatten := by
  rcases List.eq_nil_or_concat L with rfl | ⟨L, f, rfl⟩
  · have := padTo_block [] h
    simpa [blocks] using this
  · rw [List.concat_eq_append, blocks_append, ← List.append_assoc, padTo_block f]
    · simp
    · rw [List.length_append, Nat.add_mod, h, flatten_block_mod]

theorem optionalPart_data {part d : Bytes} (h : d.length % 0x200 = 0) :
    (optionalPart part d).2 = d ++ block part := by
  unfold optionalPart
  split
  · next hp => rw [hp]; simp
  · exact padTo_block part h

theorem fileNo_iff {files : List Bytes} {k : Int} {f : Bytes} : pyIdxI files k = .ok f ↔ FileNo files k f := by
  unfold pyIdxI FileNo
  by_cases h : 0 ≤ k
  · rw [if_pos h, pyIdx_eq_ok]
    constructor
    · exact fun e => .inl ⟨h, e⟩
    · rintro (⟨_, e⟩ | ⟨h', _⟩)
      · exact e
      · omega
  · rw [if_neg h]
    by_cases h2 : 0 ≤ k + files.length
    · rw [if_pos h2, pyIdx_eq_ok, Int.add_comm k]
      constructor
      · exact fun e => .inr ⟨by omega, by omega, e⟩
      · rintro (⟨h', _⟩ | ⟨_, _, e⟩)
        · omega
        · exact e
    · rw [if_neg h2]
      constructor
      · intro e; cases e
      · rintro (⟨h', _⟩ | ⟨_, h', _⟩) <;> omega

theorem fileNo_unique {files : List Bytes} {k : Int} {f g : Bytes} (h : FileNo files k f) (h' : FileNo files k g) :
    f = g := by
  have := (fileNo_iff.2 h).symm.trans (fileNo_iff.2 h')
  exact Except.ok.inj this

/-- The numbers and offsets of files that are placed one after another from `p`. -/
def place : Nat → List (Int × Bytes) → List (Int × Nat)
  | _, [] => []
  | p, e :: es => (e.1, p) :: place (p + (block e.2).length) es

/-- Several assignments to a dictionary. -/
def setAll (d : List (Int × Nat)) (l : List (Int × Nat)) : List (Int × Nat) := l.foldl (fun d x => dictSet d x.1 x.2) d

/-- The files placed, each with its padding. -/
def padded (es : List (Int × Bytes)) : Bytes := (es.map fun e => block e.2).flatten

theorem padded_mod : ∀ (es : List (Int × Bytes)), (padded es).length % 0x200 = 0
  | [] => rfl
  | e :: es => by
    rw [padded, List.map_cons, List.flatten_cons, List.length_append, Nat.add_mod, block_length_mod]
    have := padded_mod es
    unfold padded at this
    rw [this]

theorem padded_cons (e : Int × Bytes) (es : List (Int × Bytes)) : padded (e :: es) = block e.2 ++ padded es := by
  simp [padded]

theorem place_append : ∀ (p : Nat) (es es' : List (Int × Bytes)),
    place p (es ++ es') = place p es ++ place (p + (padded es).length) es'
  | _, [], _ => by simp [place, padded]
  | p, e :: es, es' => by
    rw [List.cons_append, place, place_append, place, List.cons_append, padded_cons, List.length_append, Nat.add_assoc]

theorem place_map_fst : ∀ (p : Nat) (es : List (Int × Bytes)), (place p es).map Prod.fst = es.map Prod.fst
  | _, [] => rfl
  | p, e :: es => by rw [place, List.map_cons, place_map_fst, List.map_cons]

theorem forEach_cons {σ α : Type} (body : σ → α → Py σ) (a : α) (as : List α) (s : σ) :
    forEach body (a :: as) s = body s a >>= forEach body as := rfl

theorem packOverlays_loop {files : List Bytes} {table : Bytes} : ∀ {is : List Nat} {s s' : St},
    s.data.length % 0x200 = 0 → forEach (packOverlay files table) is s = .ok s' →
    ∃ ids es, mapE (fun i => unpackU .little 4 table (i + 0x18)) is = .ok ids ∧
      es.map Prod.fst = ids.map Int.ofNat ∧ (∀ e ∈ es, FileNo files e.1 e.2) ∧
      s'.data = s.data ++ padded es ∧ s'.offsets = setAll s.offsets (place s.data.length es)
  | [], s, s', _, h => by
    cases h
    exact ⟨[], [], rfl, rfl, (fun _ h => nomatch h), by simp [padded], rfl⟩
  | i :: is, s, s', hm, h => by
    rw [forEach_cons] at h
    unfold packOverlay at h
    simp only [bind_eq_ok, pure_eq_ok] at h
    obtain ⟨_, ⟨id, h1, f, h2, rfl⟩, h⟩ := h
    rw [padTo_block f hm] at h
    have hm' : (s.data ++ block f).length % 0x200 = 0 := by
      have := block_length_mod f
      rw [List.length_append]; omega
    obtain ⟨ids, es, g1, g2, g3, g4, g5⟩ := packOverlays_loop hm' h
    refine ⟨id :: ids, ((id : Int), f) :: es, ?_, ?_, ?_, ?_, ?_⟩
    · rw [mapE_cons, h1, bind_ok, g1, bind_ok]
    · simp [g2]
    · intro e he
      rcases List.mem_cons.1 he with rfl | he
      · refine .inl ⟨by omega, ?_⟩
        rw [pyIdx_eq_ok] at h2
        simpa using h2
      · exact g3 e he
    · rw [g4, padded_cons, List.append_assoc]
    · rw [g5, place, List.length_append]; rfl

theorem remaining_congr (n : Nat) : ∀ (ks : List Int) {a b : List Int}, (∀ k, k ∈ a ↔ k ∈ b) →
    remaining n a ks = remaining n b ks
  | [], _, _, _ => rfl
  | k :: ks, a, b, h => by
    rw [remaining, remaining]
    simp only [h k]
    split
    · exact remaining_congr n ks h
    · rw [remaining_congr n ks (a := k :: a) (b := k :: b) (by intro x; simp [h x])]

theorem lookup_isSome_iff {d : List (Int × Nat)} {k : Int} : (d.lookup k).isSome = true ↔ k ∈ d.map Prod.fst := by
  induction d with
  | nil => simp
  | cons p d ih =>
    rw [List.lookup_cons, List.map_cons, List.mem_cons]
    by_cases h : k = p.1
    · simp [h]
    · rw [beq_false_of_ne h]
      simp [h, ih]

theorem mem_dictSet_keys {d : List (Int × Nat)} {k x : Int} {v : Nat} :
    x ∈ (dictSet d k v).map Prod.fst ↔ x = k ∨ x ∈ d.map Prod.fst := by
  rw [← lookup_isSome_iff, ← lookup_isSome_iff, dictSet_lookup]
  by_cases h : x = k <;> simp [h]

theorem placeFiles_loop {files : List Bytes} {d : Bytes} (hd : d.length % 0x200 = 0) : ∀ {ks : List Int} {s s' : St}
    {es0 : List (Int × Bytes)}, s.data = d ++ blocks (es0.map Prod.snd) → forEach (placeFile files) ks s = .ok s' →
    ∃ es, es.map Prod.fst = remaining files.length (s.offsets.map Prod.fst) ks ∧ (∀ e ∈ es, FileNo files e.1 e.2) ∧
      s'.data = d ++ blocks ((es0 ++ es).map Prod.snd) ∧
      s'.offsets = setAll s.offsets (place (d.length + (padded es0).length) es)
  | [], s, s', es0, hs, h => by
    cases h
    exact ⟨[], rfl, (fun _ h => nomatch h), by simpa using hs, rfl⟩
  | k :: ks, s, s', es0, hs, h => by
    rw [forEach_cons] at h
    rw [remaining]
    by_cases hc : k ∈ s.offsets.map Prod.fst ∨ (files.length : Int) ≤ k
    · have he : placeFile files s k = .ok s := by
        unfold placeFile; rw [if_pos (by rw [lookup_isSome_iff]; exact hc)]
      rw [he, bind_ok] at h
      rw [if_pos hc]
      exact placeFiles_loop hd hs h
    · rw [if_neg hc]
      have he : placeFile files s k = ((do
          let file ← pyIdxI files k
          return ⟨padTo s.data 0x200 0xFF ++ file, dictSet s.offsets k (padTo s.data 0x200 0xFF).length⟩) : Py St) := by
        unfold placeFile; rw [if_neg (by rw [lookup_isSome_iff]; exact hc)]
      rw [he] at h
      simp only [bind_eq_ok, pure_eq_ok] at h
      obtain ⟨_, ⟨f, h2, rfl⟩, h⟩ := h
      have hp : padTo s.data 0x200 0xFF = d ++ padded es0 := by
        rw [hs, padTo_blocks hd]
        simp [padded, Function.comp_def]
      rw [hp] at h
      have hs' : d ++ padded es0 ++ f = d ++ blocks ((es0 ++ [(k, f)]).map Prod.snd) := by
        rw [List.map_append, List.map_cons, List.map_nil, blocks_append]
        simp [padded, Function.comp_def]
      obtain ⟨es, g1, g2, g3, g4⟩ := placeFiles_loop hd (es0 := es0 ++ [(k, f)]) hs' h
      refine ⟨(k, f) :: es, ?_, ?_, ?_, ?_⟩
      · rw [List.map_cons, g1]
        refine congrArg _ (remaining_congr _ _ ?_)
        intro x
        rw [mem_dictSet_keys, List.mem_cons]
      · intro e he
        rcases List.mem_cons.1 he with rfl | he
        · exact fileNo_iff.1 h2
        · exact g2 e he
      · rw [g3]; simp
      · rw [g4, place, List.length_append]
        have : padded (es0 ++ [(k, f)]) = padded es0 ++ block f := by simp [padded]
        rw [this, List.length_append, Nat.add_assoc]
        rfl

theorem packOverlays_ids {table : Bytes} {ids : List Nat}
    (h : mapE (fun i => unpackU .little 4 table (i + 0x18)) ((List.range ((table.length + 31) / 32)).map (32 * ·)) = .ok ids) :
    OverlayIds table ids := by
  have hl := mapE_length h
  simp only [List.length_map, List.length_range] at hl
  refine ⟨hl, ?_⟩
  intro i id hi
  have hlt : i < ids.length := (List.getElem?_eq_some_iff.1 hi).1
  have := mapE_getElem h i (by simpa [hl] using hlt) hlt
  simp only [List.getElem_map, List.getElem_range] at this
  rw [(List.getElem?_eq_some_iff.1 hi).2] at this
  have h2 := unpackU_lt this
  exact ⟨by omega, At.of_unpackU this⟩

/-- What is known after the sections up to the debug ROM. -/
structure Front (r : Rom) (fnt : Bytes) (ids9 ids7 : List Nat) (es9 es7 : List (Int × Bytes)) : Prop where
  ids9_ok : OverlayIds r.arm9OverlayTable ids9
  ids7_ok : OverlayIds r.arm7OverlayTable ids7
  es9_ids : es9.map Prod.fst = ids9.map Int.ofNat
  es7_ids : es7.map Prod.fst = ids7.map Int.ofNat
  es9_files : ∀ e ∈ es9, FileNo r.files e.1 e.2
  es7_files : ∀ e ∈ es7, FileNo r.files e.1 e.2
  fnt_ok : Model.Fnt.save r.filenames = .ok fnt

/-- The header's place and the bytes behind it. -/
def sec0 (r : Rom) : Bytes := padTo (zeros 0x200 ++ r.pad200) 0x4000 0
def sec1 (r : Rom) : Bytes := sec0 r ++ block (r.arm9 ++ r.arm9PostData)
def sec2 (r : Rom) (es9 : List (Int × Bytes)) : Bytes := sec1 r ++ block r.arm9OverlayTable ++ padded es9
def sec3 (r : Rom) (es9 : List (Int × Bytes)) : Bytes := sec2 r es9 ++ block r.arm7
def sec4 (r : Rom) (es9 es7 : List (Int × Bytes)) : Bytes := sec3 r es9 ++ block r.arm7OverlayTable ++ padded es7
def sec5 (r : Rom) (es9 es7 : List (Int × Bytes)) (fnt : Bytes) : Bytes := sec4 r es9 es7 ++ block fnt
def sec6 (r : Rom) (es9 es7 : List (Int × Bytes)) (fnt fat : Bytes) : Bytes := sec5 r es9 es7 fnt ++ block fat
def sec7 (r : Rom) (es9 es7 : List (Int × Bytes)) (fnt fat : Bytes) : Bytes :=
  sec6 r es9 es7 fnt fat ++ block r.iconBanner
def sec8 (r : Rom) (es9 es7 : List (Int × Bytes)) (fnt fat : Bytes) : Bytes :=
  sec7 r es9 es7 fnt fat ++ block r.debugRom

def ifAny (part : Bytes) (off : Nat) : Nat := if part = [] then 0 else off

/-- The offsets that go into the header. -/
def offsetsOf (r : Rom) (es9 es7 : List (Int × Bytes)) (fnt fat : Bytes) (rsa : Nat) : Offsets :=
  ⟨(sec0 r).length, ifAny r.arm9OverlayTable (sec1 r).length, (sec2 r es9).length,
    ifAny r.arm7OverlayTable (sec3 r es9).length, (sec4 r es9 es7).length, fnt.length, (sec5 r es9 es7 fnt).length,
    ifAny r.iconBanner (sec6 r es9 es7 fnt fat).length, ifAny r.debugRom (sec7 r es9 es7 fnt fat).length, rsa⟩

theorem optionalPart_eq {part d : Bytes} (h : d.length % 0x200 = 0) :
    optionalPart part d = (ifAny part d.length, d ++ block part) := by
  unfold optionalPart ifAny
  split
  · next hp => rw [hp]; simp
  · rw [padTo_block part h]

theorem mod_append {a b : Bytes} (ha : a.length % 0x200 = 0) (hb : b.length % 0x200 = 0) :
    (a ++ b).length % 0x200 = 0 := by rw [List.length_append]; omega

theorem sec0_mod' (r : Rom) : (sec0 r).length % 0x4000 = 0 := padTo_mod _ _ (by decide)

theorem sec0_mod (r : Rom) : (sec0 r).length % 0x200 = 0 := by have := sec0_mod' r; omega

theorem sec0_ge (r : Rom) : 0x4000 ≤ (sec0 r).length := by
  have h1 := sec0_mod' r
  have h2 : 0x200 ≤ (sec0 r).length := by
    unfold sec0; rw [padTo_length, List.length_append, zeros_length]; omega
  omega

theorem sec1_mod (r : Rom) : (sec1 r).length % 0x200 = 0 := mod_append (sec0_mod r) (block_length_mod _)
theorem sec2_mod (r : Rom) (es9 : List (Int × Bytes)) : (sec2 r es9).length % 0x200 = 0 :=
  mod_append (mod_append (sec1_mod r) (block_length_mod _)) (padded_mod _)
theorem sec3_mod (r : Rom) (es9 : List (Int × Bytes)) : (sec3 r es9).length % 0x200 = 0 :=
  mod_append (sec2_mod r es9) (block_length_mod _)
theorem sec4_mod (r : Rom) (es9 es7 : List (Int × Bytes)) : (sec4 r es9 es7).length % 0x200 = 0 :=
  mod_append (mod_append (sec3_mod r es9) (block_length_mod _)) (padded_mod _)
theorem sec5_mod (r : Rom) (es9 es7 : List (Int × Bytes)) (fnt : Bytes) : (sec5 r es9 es7 fnt).length % 0x200 = 0 :=
  mod_append (sec4_mod r es9 es7) (block_length_mod _)
theorem sec6_mod (r : Rom) (es9 es7 : List (Int × Bytes)) (fnt fat : Bytes) :
    (sec6 r es9 es7 fnt fat).length % 0x200 = 0 := mod_append (sec5_mod r es9 es7 fnt) (block_length_mod _)
theorem sec7_mod (r : Rom) (es9 es7 : List (Int × Bytes)) (fnt fat : Bytes) :
    (sec7 r es9 es7 fnt fat).length % 0x200 = 0 := mod_append (sec6_mod r es9 es7 fnt fat) (block_length_mod _)
theorem sec8_mod (r : Rom) (es9 es7 : List (Int × Bytes)) (fnt fat : Bytes) :
    (sec8 r es9 es7 fnt fat).length % 0x200 = 0 := mod_append (sec7_mod r es9 es7 fnt fat) (block_length_mod _)

/-- The assignments to the dictionary of the offsets of the overlays. -/
def ovPlaces (r : Rom) (es9 es7 : List (Int × Bytes)) : List (Int × Nat) :=
  place (sec1 r ++ block r.arm9OverlayTable).length es9 ++ place (sec3 r es9 ++ block r.arm7OverlayTable).length es7

theorem setAll_append (d a b : List (Int × Nat)) : setAll d (a ++ b) = setAll (setAll d a) b := by simp [setAll]

theorem buildFront_inv {r : Rom} {s : St} {o : Offsets} (h : buildFront r = .ok (s, o)) :
    ∃ fnt ids9 ids7 es9 es7, Front r fnt ids9 ids7 es9 es7 ∧ checkIconBanner r.iconBanner = .ok () ∧
      s.data = sec8 r es9 es7 fnt (zeros (8 * r.files.length)) ∧
      s.offsets = setAll [] (ovPlaces r es9 es7) ∧
      o = offsetsOf r es9 es7 fnt (zeros (8 * r.files.length)) 0 := by
  unfold buildFront at h
  dsimp only at h
  simp only [bind_eq_ok, pure_eq_ok] at h
  obtain ⟨s2, h2, s4, h4, fnt, hf, u, hi, h⟩ := h
  rw [← sec0, List.append_assoc, padTo_block _ (sec0_mod r), ← sec1, optionalPart_eq (sec1_mod r)] at h2
  dsimp only at h2
  obtain ⟨ids9, es9, a1, a2, a3, a4, a5⟩ := packOverlays_loop
    (show (St.mk _ _).data.length % 0x200 = 0 from mod_append (sec1_mod r) (block_length_mod r.arm9OverlayTable)) h2
  dsimp only at a4 a5
  rw [← sec2] at a4
  rw [a4, padTo_block _ (sec2_mod r es9), ← sec3, optionalPart_eq (sec3_mod r es9), a5] at h4
  dsimp only at h4
  obtain ⟨ids7, es7, b1, b2, b3, b4, b5⟩ := packOverlays_loop
    (show (St.mk _ _).data.length % 0x200 = 0 from mod_append (sec3_mod r es9) (block_length_mod r.arm7OverlayTable)) h4
  dsimp only at b4 b5
  rw [← sec4] at b4
  rw [a4, b4, padTo_block _ (sec2_mod r es9), padTo_block _ (sec4_mod r es9 es7), ← sec3, ← sec5,
    padTo_block _ (sec5_mod r es9 es7 fnt), ← sec6, ← sec0, List.append_assoc, padTo_block _ (sec0_mod r), ← sec1,
    optionalPart_eq (sec1_mod r), optionalPart_eq (sec3_mod r es9), optionalPart_eq (sec6_mod r es9 es7 fnt _),
    ] at h
  dsimp only at h
  rw [← sec7, optionalPart_eq (sec7_mod r es9 es7 fnt _)] at h
  dsimp only at h
  rw [← sec8] at h
  obtain ⟨rfl, rfl⟩ := Prod.mk.inj h
  refine ⟨fnt, ids9, ids7, es9, es7, ⟨packOverlays_ids a1, packOverlays_ids b1, a2, b2, a3, b3, hf⟩, hi, rfl, ?_, rfl⟩
  dsimp only
  rw [b5, ovPlaces, setAll_append]

end Verif.Proofs.Rom
