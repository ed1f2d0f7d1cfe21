import Verif.Proofs.RomImage

namespace Verif.Proofs.Rom

open Verif Verif.Model.Rom Verif.Model.Util Verif.Spec.Rom

theorem at_prefix {d d' s : Bytes} {o : Nat} (h : At d o s) (hp : d <+: d') : At d' o s := by
  obtain ⟨t, rfl⟩ := hp
  exact h.append_right t

theorem at_block (d x : Bytes) : At (d ++ block x) d.length x := by
  have h : At (block x) 0 x := At.first _ _
  simpa using (At.last d (block x)).sub h

theorem blocks_cons (e : Int × Bytes) (es : List (Int × Bytes)) (he : es ≠ []) :
    blocks ((e :: es).map Prod.snd) = block e.2 ++ blocks (es.map Prod.snd) := by
  cases es with
  | nil => exact absurd rfl he
  | cons f fs => rfl

/-- Files that are placed are where their offsets say. -/
theorem place_at : ∀ {es : List (Int × Bytes)} {d : Bytes} {p : Nat}, At d p (blocks (es.map Prod.snd)) → p % 0x200 = 0 →
    ∀ x ∈ place p es, ∃ f, (x.1, f) ∈ es ∧ At d x.2 f ∧ p ≤ x.2 ∧ x.2 % 0x200 = 0 ∧
      x.2 + f.length ≤ p + (blocks (es.map Prod.snd)).length
  | [], _, _, _, _, x, hx => nomatch hx
  | e :: es, d, p, h, hp, x, hx => by
    rw [place] at hx
    rcases List.mem_cons.1 hx with rfl | hx
    · refine ⟨e.2, by simp, ?_, Nat.le_refl _, hp, ?_⟩
      · by_cases he : es = []
        · subst he; exact h
        · rw [blocks_cons e es he, At.split] at h
          simpa using h.1.sub (At.first e.2 _)
      · by_cases he : es = []
        · subst he; exact Nat.le_refl _
        · rw [blocks_cons e es he, List.length_append]
          have := le_block_length e.2
          dsimp only
          omega
    · have he : es ≠ [] := by rintro rfl; exact nomatch hx
      rw [blocks_cons e es he, At.split] at h
      have hm := block_length_mod e.2
      obtain ⟨f, h1, h2, h3, h4, h5⟩ := place_at h.2 (by omega) x hx
      refine ⟨f, by simp [h1], h2, by omega, h4, ?_⟩
      rw [blocks_cons e es he, List.length_append]
      omega

/-- Files that are placed do not overlap. -/
theorem place_pairwise {files : List Bytes} : ∀ {es : List (Int × Bytes)} (_ : ∀ e ∈ es, FileNo files e.1 e.2) (p : Nat),
    (place p es).Pairwise fun x y => ∀ f, FileNo files x.1 f → x.2 + (block f).length ≤ y.2
  | [], _, _ => List.Pairwise.nil
  | e :: es, he, p => by
    rw [place, List.pairwise_cons]
    refine ⟨?_, place_pairwise (fun x hx => he x (by simp [hx])) _⟩
    intro y hy f hf
    rw [fileNo_unique hf (he e (by simp))]
    have : ∀ {es : List (Int × Bytes)} {p : Nat} (y), y ∈ place p es → p ≤ y.2 := by
      intro es
      induction es with
      | nil => intro p y hy; exact nomatch hy
      | cons a as ih =>
        intro p y hy
        rw [place] at hy
        rcases List.mem_cons.1 hy with rfl | hy
        · exact Nat.le_refl _
        · exact Nat.le_trans (by omega) (ih y hy)
    exact this y hy

theorem lookup_setAll : ∀ {l d : List (Int × Nat)} {k : Int} {s : Nat}, (setAll d l).lookup k = some s →
    (k, s) ∈ l ∨ d.lookup k = some s
  | [], d, k, s, h => .inr h
  | x :: l, d, k, s, h => by
    change (setAll (dictSet d x.1 x.2) l).lookup k = some s at h
    rcases lookup_setAll h with h | h
    · exact .inl (by simp [h])
    · rw [dictSet_lookup] at h
      split at h
      · next e =>
        cases h
        left; rw [e]; simp
      · exact .inr h

theorem padded_eq (es : List (Int × Bytes)) : ∃ t, padded es = blocks (es.map Prod.snd) ++ t := by
  induction es with
  | nil => exact ⟨[], rfl⟩
  | cons e es ih =>
    obtain ⟨t, ht⟩ := ih
    by_cases he : es = []
    · subst he
      exact ⟨List.replicate ((0x200 - e.2.length % 0x200) % 0x200) 0xFF, by simp [padded, blocks, block]⟩
    · exact ⟨t, by rw [padded_cons, ht, blocks_cons e es he, List.append_assoc]⟩

theorem at_padded (d : Bytes) (es : List (Int × Bytes)) : At (d ++ padded es) d.length (blocks (es.map Prod.snd)) := by
  obtain ⟨t, ht⟩ := padded_eq es
  rw [ht, ← List.append_assoc]
  exact At.mid _ _ _

section

variable {r : Rom} {fnt : Bytes} {ids9 ids7 : List Nat} {es9 es7 es : List (Int × Bytes)} {starts : List Nat} {fat : Bytes}

theorem pre01 : sec0 r <+: sec1 r := ⟨_, rfl⟩
theorem pre12 : sec1 r <+: sec2 r es9 := ⟨block r.arm9OverlayTable ++ padded es9, by simp [sec2]⟩
theorem pre23 : sec2 r es9 <+: sec3 r es9 := ⟨_, rfl⟩
theorem pre34 : sec3 r es9 <+: sec4 r es9 es7 := ⟨block r.arm7OverlayTable ++ padded es7, by simp [sec4]⟩
theorem pre45 : sec4 r es9 es7 <+: sec5 r es9 es7 fnt := ⟨_, rfl⟩
theorem pre56 : sec5 r es9 es7 fnt <+: sec6 r es9 es7 fnt fat := ⟨_, rfl⟩
theorem pre67 : sec6 r es9 es7 fnt fat <+: sec7 r es9 es7 fnt fat := ⟨_, rfl⟩
theorem pre78 : sec7 r es9 es7 fnt fat <+: sec8 r es9 es7 fnt fat := ⟨_, rfl⟩
theorem pre8 : sec8 r es9 es7 fnt fat <+: full r es9 es7 es fnt fat := ⟨_, rfl⟩
theorem pre7 : sec7 r es9 es7 fnt fat <+: full r es9 es7 es fnt fat := pre78.trans pre8
theorem pre6 : sec6 r es9 es7 fnt fat <+: full r es9 es7 es fnt fat := pre67.trans pre7
theorem pre5 : sec5 r es9 es7 fnt <+: full r es9 es7 es fnt fat := pre56.trans pre6
theorem pre4 : sec4 r es9 es7 <+: full r es9 es7 es fnt fat := pre45.trans pre5
theorem pre3 : sec3 r es9 <+: full r es9 es7 es fnt fat := pre34.trans pre4
theorem pre2 : sec2 r es9 <+: full r es9 es7 es fnt fat := pre23.trans pre3
theorem pre1 : sec1 r <+: full r es9 es7 es fnt fat := pre12.trans pre2

theorem places_at (hb : Placed r fnt ids9 ids7 es9 es7 es) : ∀ x ∈ places r es9 es7 es fnt fat,
    ∃ f, FileNo r.files x.1 f ∧ At (full r es9 es7 es fnt fat) x.2 f ∧ (sec1 r).length ≤ x.2 ∧ x.2 % 0x200 = 0 := by
  intro x hx
  unfold places ovPlaces at hx
  rw [List.mem_append, List.mem_append] at hx
  rcases hx with (hx | hx) | hx
  · obtain ⟨f, h1, h2, h3, h4, h5⟩ := place_at (at_padded _ es9) (mod_append (sec1_mod r) (block_length_mod _)) x hx
    rw [List.length_append] at h3
    exact ⟨f, hb.es9_files _ h1, at_prefix h2 pre2, by omega, h4⟩
  · obtain ⟨f, h1, h2, h3, h4, h5⟩ := place_at (at_padded _ es7) (mod_append (sec3_mod r es9) (block_length_mod _)) x hx
    rw [List.length_append] at h3
    have := (pre12 (r := r) (es9 := es9)).length_le
    have := (pre23 (r := r) (es9 := es9)).length_le
    exact ⟨f, hb.es7_files _ h1, at_prefix h2 pre4, by omega, h4⟩
  · obtain ⟨f, h1, h2, h3, h4, h5⟩ := place_at (At.last (sec8 r es9 es7 fnt fat) (blocks (es.map Prod.snd)))
      (sec8_mod r es9 es7 fnt fat) x hx
    have h6 := ((((pre12 (r := r) (es9 := es9)).trans (pre23.trans (pre34 (es7 := es7)))).trans
      (pre45.trans (pre56 (fnt := fnt) (fat := fat)))).trans (pre67.trans pre78)).length_le
    exact ⟨f, hb.es_files _ h1, h2, by omega, h4⟩

theorem padded_le_of_place {es : List (Int × Bytes)} : ∀ {p : Nat} {x : Int × Nat}, x ∈ place p es →
    ∃ f, (x.1, f) ∈ es ∧ x.2 + (block f).length ≤ p + (padded es).length := by
  induction es with
  | nil => intro p x hx; exact nomatch hx
  | cons e es ih =>
    intro p x hx
    rw [place] at hx
    rw [padded_cons, List.length_append]
    rcases List.mem_cons.1 hx with rfl | hx
    · exact ⟨e.2, by simp, by dsimp only; omega⟩
    · obtain ⟨f, h1, h2⟩ := ih hx
      exact ⟨f, by simp [h1], by omega⟩

theorem place_ge {es : List (Int × Bytes)} : ∀ {p : Nat} {x : Int × Nat}, x ∈ place p es → p ≤ x.2 := by
  induction es with
  | nil => intro p x hx; exact nomatch hx
  | cons a as ih =>
    intro p y hy
    rw [place] at hy
    rcases List.mem_cons.1 hy with rfl | hy
    · exact Nat.le_refl _
    · exact Nat.le_trans (by omega) (ih hy)

theorem places_pairwise (hb : Placed r fnt ids9 ids7 es9 es7 es) :
    (places r es9 es7 es fnt fat).Pairwise fun x y => ∀ f, FileNo r.files x.1 f → x.2 + (block f).length ≤ y.2 := by
  unfold places ovPlaces
  rw [List.pairwise_append, List.pairwise_append]
  have l2 := (pre23 (r := r) (es9 := es9)).length_le
  have l4 := (pre45.trans ((pre56 (r := r) (es9 := es9) (es7 := es7) (fnt := fnt) (fat := fat)).trans
    (pre67.trans pre78))).length_le
  have l34 := (pre34 (r := r) (es9 := es9) (es7 := es7)).length_le
  refine ⟨⟨place_pairwise hb.es9_files _, place_pairwise hb.es7_files _, ?_⟩, place_pairwise hb.es_files _, ?_⟩
  · intro x hx y hy f hf
    obtain ⟨g, h1, h2⟩ := padded_le_of_place hx
    rw [fileNo_unique hf (hb.es9_files _ h1)]
    have h3 := place_ge hy
    rw [← List.length_append, ← sec2] at h2
    rw [List.length_append] at h3
    dsimp only at h2 h3 ⊢
    omega
  · intro x hx y hy f hf
    have h3 := place_ge hy
    rcases List.mem_append.1 hx with hx | hx
    · obtain ⟨g, h1, h2⟩ := padded_le_of_place hx
      rw [fileNo_unique hf (hb.es9_files _ h1)]
      rw [← List.length_append, ← sec2] at h2
      dsimp only at h2 h3 ⊢
      omega
    · obtain ⟨g, h1, h2⟩ := padded_le_of_place hx
      rw [fileNo_unique hf (hb.es7_files _ h1)]
      rw [← List.length_append, ← sec4] at h2
      dsimp only at h2 h3 ⊢
      omega

/-- The files are where the table says. -/
theorem starts_at (hb : Built r fnt ids9 ids7 es9 es7 es starts) {i s : Nat} {f : Bytes} (hs : starts[i]? = some s)
    (hf : r.files[i]? = some f) : At (full r es9 es7 es fnt (fatBytes (entriesOf starts r.files))) s f ∧
      (sec1 r).length ≤ s ∧ s % 0x200 = 0 := by
  obtain ⟨h1, -⟩ := hb.starts_ok i s f hs hf
  rcases lookup_setAll h1 with h | h
  · obtain ⟨g, g1, g2, g3, g4⟩ := places_at hb.toPlaced _ h
    have : FileNo r.files (i : Int) f := .inl ⟨by omega, by simpa using hf⟩
    rw [fileNo_unique this g1]
    exact ⟨g2, g3, g4⟩
  · exact nomatch h

/-- Different files do not overlap. -/
theorem starts_disjoint (hb : Built r fnt ids9 ids7 es9 es7 es starts) {i j s t : Nat} {f g : Bytes} (hij : i ≠ j)
    (hs : starts[i]? = some s) (hf : r.files[i]? = some f) (ht : starts[j]? = some t) (hg : r.files[j]? = some g) :
    s + (block f).length ≤ t ∨ t + (block g).length ≤ s := by
  obtain ⟨h1, -⟩ := hb.starts_ok i s f hs hf
  obtain ⟨h2, -⟩ := hb.starts_ok j t g ht hg
  have hf' : FileNo r.files (i : Int) f := .inl ⟨by omega, by simpa using hf⟩
  have hg' : FileNo r.files (j : Int) g := .inl ⟨by omega, by simpa using hg⟩
  rcases lookup_setAll h1 with h1 | h1
  · rcases lookup_setAll h2 with h2 | h2
    · have hp := places_pairwise (fat := fatBytes (entriesOf starts r.files)) hb.toPlaced
      rw [List.pairwise_iff_getElem] at hp
      obtain ⟨a, ha, ea⟩ := List.getElem_of_mem h1
      obtain ⟨b, hb', eb⟩ := List.getElem_of_mem h2
      rcases Nat.lt_trichotomy a b with h | h | h
      · have := hp a b ha hb' h
        rw [ea, eb] at this
        exact .inl (this f hf')
      · subst h
        rw [ea] at eb
        have := congrArg Prod.fst eb
        dsimp only at this
        omega
      · have := hp b a hb' ha h
        rw [ea, eb] at this
        exact .inr (this g hg')
    · exact nomatch h2
  · exact nomatch h1

end

end Verif.Proofs.Rom
