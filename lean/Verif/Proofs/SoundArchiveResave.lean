import Verif.Proofs.SoundArchiveUses

/-!
# Saving a loaded sound archive again
-/

namespace Verif.Proofs.SoundArchive

open Verif Verif.Model.Common Verif.Model.SoundArchive Verif.Model.SoundStream Verif.Spec.SoundArchive

attribute [local irreducible] saved loadedFiles loadedFile fileID firstUses allUses

/-! ## The symbols -/

section
variable {s : SDAT} {k : Nat}

theorem symbolsOf_map {α : Type} (f : α → α) (l : List (Symbol × Option α)) :
    symbolsOf (l.map fun p => (p.1, p.2.map f)) = symbolsOf l := by
  unfold symbolsOf
  rw [List.map_map]
  rfl

theorem ssarNames_back : ssarNames (readBack s k) =
    (ssarNames s).map fun e => (e.1, e.2.map fun n => if hasSyms s = true then n else []) := by
  unfold ssarNames readBack
  rw [List.map_map, List.map_map]
  refine List.map_congr_left fun p _ => ?_
  simp only [Function.comp_apply, Option.map_map]
  rfl

theorem ssarNames_back_pos (h : hasSyms s = true) : ssarNames (readBack s k) = ssarNames s := by
  rw [ssarNames_back]
  conv => rhs; rw [← List.map_id (ssarNames s)]
  refine List.map_congr_left fun p _ => ?_
  simp only [h, if_true, id]
  cases p with
  | mk a b => cases b <;> rfl

theorem flatSyms_back_none (h : ∀ x ∈ flatSyms (ssarNames s), x = none) :
    ∀ x ∈ flatSyms (ssarNames (readBack s k)), x = none := by
  intro x hx
  rw [ssarNames_back] at hx
  unfold flatSyms at h hx
  obtain ⟨e', he', hx⟩ := List.mem_flatMap.1 hx
  obtain ⟨e, he, rfl⟩ := List.mem_map.1 he'
  refine h x (List.mem_flatMap.2 ⟨e, he, ?_⟩)
  rcases List.mem_cons.1 hx with rfl | hx
  · simp
  · refine List.mem_cons_of_mem _ ?_
    cases h2 : e.2 with
    | none => rw [h2] at hx; simp at hx
    | some n =>
      rw [h2] at hx
      simp only [Option.map_some, Option.getD_some] at hx ⊢
      split at hx
      · exact hx
      · simp at hx

theorem allSyms_back_eq : allSyms (readBack s k) = symbolsOf s.sequences ++ flatSyms (ssarNames (readBack s k)) ++
    symbolsOf s.banks ++ symbolsOf s.waveArchives ++ symbolsOf s.sequencePlayers ++ symbolsOf s.groups ++
    symbolsOf s.streamPlayers ++ symbolsOf s.streams := by
  have e0 : symbolsOf (readBack s k).sequences = symbolsOf s.sequences := symbolsOf_map _ _
  have e2 : symbolsOf (readBack s k).banks = symbolsOf s.banks := symbolsOf_map _ _
  have e3 : symbolsOf (readBack s k).waveArchives = symbolsOf s.waveArchives := symbolsOf_map _ _
  have e4 : symbolsOf (readBack s k).sequencePlayers = symbolsOf s.sequencePlayers := symbolsOf_map _ _
  have e7 : symbolsOf (readBack s k).streams = symbolsOf s.streams := symbolsOf_map _ _
  unfold allSyms
  rw [e0, e2, e3, e4, e7]
  rfl

theorem hasSyms_false_iff : hasSyms s = false ↔ ∀ x ∈ allSyms s, x = none := by
  unfold hasSyms
  rw [List.any_eq_false]
  constructor
  · intro h x hx
    have := h x hx
    cases x with
    | none => rfl
    | some v => simp at this
  · intro h x hx
    rw [h x hx]; decide

theorem allSyms_back_pos (h : hasSyms s = true) : allSyms (readBack s k) = allSyms s := by
  rw [allSyms_back_eq, ssarNames_back_pos h]; rfl

theorem hasSyms_back : hasSyms (readBack s k) = hasSyms s := by
  cases h : hasSyms s with
  | true =>
    unfold hasSyms at h ⊢
    rw [allSyms_back_pos h]; exact h
  | false =>
    have hn := hasSyms_false_iff.1 h
    rw [hasSyms_false_iff, allSyms_back_eq]
    simp only [allSyms, List.mem_append] at hn
    intro x hx
    simp only [List.mem_append] at hx
    have hf := flatSyms_back_none (k := k) (s := s) fun x hx => hn x (by simp only [hx, true_or, or_true])
    rcases hx with ((((((hx | hx) | hx) | hx) | hx) | hx) | hx) | hx
    · exact hn x (by simp only [hx, true_or])
    · exact hf x hx
    all_goals exact hn x (by simp only [hx, true_or, or_true])

theorem symb8_back (h : hasSyms s = true) : symb8 (readBack s k) = symb8 s ∧ symbHeads (readBack s k) = symbHeads s := by
  have e0 : symbolsOf (readBack s k).sequences = symbolsOf s.sequences := symbolsOf_map _ _
  have e2 : symbolsOf (readBack s k).banks = symbolsOf s.banks := symbolsOf_map _ _
  have e3 : symbolsOf (readBack s k).waveArchives = symbolsOf s.waveArchives := symbolsOf_map _ _
  have e4 : symbolsOf (readBack s k).sequencePlayers = symbolsOf s.sequencePlayers := symbolsOf_map _ _
  have e7 : symbolsOf (readBack s k).streams = symbolsOf s.streams := symbolsOf_map _ _
  have s1 : symb1 (readBack s k) = symb1 s := by unfold symb1; rw [e0]
  have s2 : symb2 (readBack s k) = symb2 s := by unfold symb2; rw [s1, ssarNames_back_pos h]
  have s3 : symb3 (readBack s k) = symb3 s := by unfold symb3; rw [s2, e2]
  have s4 : symb4 (readBack s k) = symb4 s := by unfold symb4; rw [s3, e3]
  have s5 : symb5 (readBack s k) = symb5 s := by unfold symb5; rw [s4, e4]
  have s6 : symb6 (readBack s k) = symb6 s := by unfold symb6; rw [s5]; rfl
  have s7 : symb7 (readBack s k) = symb7 s := by unfold symb7; rw [s6]; rfl
  have s8 : symb8 (readBack s k) = symb8 s := by unfold symb8; rw [s7, e7]
  refine ⟨s8, ?_⟩
  unfold symbHeads
  rw [s1, s2, s3, s4, s5, s6, s7]

theorem symbData_back : symbData (readBack s k) = symbData s := by
  unfold symbData
  rw [hasSyms_back]
  by_cases h : hasSyms s = true
  · rw [if_pos h, if_pos h]
    obtain ⟨h1, h2⟩ := symb8_back (k := k) h
    unfold symbBytes symbSize symbT
    rw [h1, h2]
  · rw [if_neg h, if_neg h]

theorem symbSize_back (h : hasSyms s = true) : symbSize (readBack s k) = symbSize s := by
  unfold symbSize symbT
  rw [(symb8_back h).1]

theorem symbHeadSize_back : symbHeadSize (readBack s (if hasSyms s = true then symbSize s else 0)) = symbHeadSize s := by
  by_cases h : hasSyms s = true
  · have e1 : (readBack s (if hasSyms s = true then symbSize s else 0)).padSymbSizeTo4InSDATHeader =
        decide (symbHeadSize s % 4 = 0 ∧ symbSize s % 4 ≠ 0) := by rw [if_pos h]; rfl
    have e2 : symbHeadSize s = if s.padSymbSizeTo4InSDATHeader = true then ceilTo 4 (symbSize s) else symbSize s := by
      unfold symbHeadSize; rw [if_pos h]
    have e3 : symbHeadSize (readBack s (if hasSyms s = true then symbSize s else 0)) =
        if (readBack s (if hasSyms s = true then symbSize s else 0)).padSymbSizeTo4InSDATHeader = true
          then ceilTo 4 (symbSize s) else symbSize s := by
      conv => lhs; unfold symbHeadSize
      rw [hasSyms_back, if_pos h, symbSize_back h]
    rw [e3, e1]
    simp only [decide_eq_true_eq]
    have h4 : ceilTo 4 (symbSize s) % 4 = 0 := Nat.mod_eq_zero_of_dvd (ceilTo_dvd 4 _)
    by_cases hs : s.padSymbSizeTo4InSDATHeader = true
    · rw [if_pos hs] at e2
      rw [e2]
      by_cases h5 : symbSize s % 4 = 0
      · rw [if_neg (fun h => h.2 h5)]
        exact (ceilTo_eq (by omega) (Nat.dvd_of_mod_eq_zero h5) (Nat.le_refl _) (by omega)).symm
      · rw [if_pos ⟨h4, h5⟩]
    · rw [if_neg hs] at e2
      rw [e2, if_neg (fun h => h.2 h.1)]
  · unfold symbHeadSize
    rw [hasSyms_back, if_neg h, if_neg h]

theorem anyNested_back : ∀ {es : Nested} {b b' c : Bool} {f : List Symbol → List Symbol}, anyNested es b = .ok c →
    ∃ c', anyNested (es.map fun e => (e.1, e.2.map f)) b' = .ok c'
  | [], _, b', _, _, _ => ⟨b', rfl⟩
  | (some _, _) :: _, _, _, _, _, _ => ⟨true, rfl⟩
  | (none, none) :: _, _, _, _, _, h => by cases h
  | (none, some _) :: es, _, _, _, _, h => anyNested_back (es := es) h

/-! ## The files -/

/-- Files at given places. -/
def fill : (pos : Nat) → List (Nat × Bytes) → (T : Nat) → Bytes
  | pos, [], T => zeros (T - pos)
  | pos, (o, f) :: r, T => zeros (o - pos) ++ f ++ fill (o + f.length) r T

theorem zeros_add (a b : Nat) : zeros a ++ zeros b = zeros (a + b) := by
  unfold zeros; exact List.replicate_append_replicate

theorem body_fill {a T : Nat} : ∀ {fs : List Bytes} {pos : Nat},
    body a pos fs ++ zeros (T - bodyEnd a pos fs) = fill pos ((places a pos fs).zip fs) T
  | [], _ => rfl
  | f :: fs, pos => by
    rw [body, bodyEnd, places, List.zip_cons_cons, fill, List.append_assoc, body_fill]

theorem fill_start {pos q : Nat} (h : pos ≤ q) : ∀ {l : List (Nat × Bytes)} {T : Nat},
    (∀ e ∈ l.head?, q ≤ e.1) → (l = [] → q ≤ T) → zeros (q - pos) ++ fill q l T = fill pos l T
  | [], T, _, hT => by
    have := hT rfl
    rw [fill, fill, zeros_add]
    congr 1; omega
  | (o, f) :: r, T, hl, _ => by
    have : q ≤ o := hl (o, f) (by simp)
    rw [fill, fill, ← List.append_assoc, ← List.append_assoc, zeros_add]
    congr 3; omega

theorem padFile_length {a : Nat} (ha : 0 < a) (q : Bool) (f : Bytes) :
    (padFile a q f).length = if q = true then ceilTo a f.length else f.length := by
  have := le_ceilTo (n := f.length) ha
  cases q with
  | false => rw [padFile_false]; rfl
  | true =>
    unfold padFile
    rw [if_pos rfl, if_pos rfl, List.length_append, zeros_length]
    omega

theorem padFile_le {a : Nat} (ha : 0 < a) (q : Bool) (f : Bytes) :
    f.length ≤ (padFile a q f).length ∧ (padFile a q f).length ≤ ceilTo a f.length := by
  have := le_ceilTo (n := f.length) ha
  rw [padFile_length ha]
  split <;> omega

theorem padFile_append (a : Nat) (q : Bool) (f : Bytes) : padFile a q f = f ++ zeros ((padFile a q f).length - f.length) := by
  unfold padFile
  split
  · rw [List.length_append, zeros_length, Nat.add_sub_cancel_left]
  · rw [Nat.sub_self]; simp [zeros]

theorem places_dvd {a : Nat} : ∀ {fs : List Bytes} {p : Nat}, ∀ o ∈ places a p fs, a ∣ o
  | [], _, o, h => by simp [places] at h
  | f :: fs, p, o, h => by
    rw [places] at h
    rcases List.mem_cons.1 h with rfl | h
    · exact ceilTo_dvd a p
    · exact places_dvd o h

theorem places_again {a a' : Nat} (ha : 0 < a) (ha' : 0 < a') (hd : a ∣ a') (incl q : Bool) : ∀ {fs : List Bytes} {p p' : Nat},
    (∀ o ∈ places a p fs, a' ∣ o) → (fs ≠ [] → ceilTo a' p' = ceilTo a p) →
    places a' p' (padFiles a incl q fs) = places a p fs
  | [], _, _, _, _ => rfl
  | [f], p, p', _, h => by rw [padFiles, places, places, places, places, h (by simp)]
  | f :: g :: fs, p, p', hm, h => by
    have h := h (by simp)
    have hle := Nat.le_of_dvd ha' hd
    rw [padFiles, places, places, h]
    congr 1
    refine places_again ha ha' hd incl q (fun o ho => hm o (by rw [places]; exact List.mem_cons_of_mem _ ho)) fun _ => ?_
    have h1 := padFile_le ha incl f
    have h2 : ceilTo a (ceilTo a p + f.length) = ceilTo a p + ceilTo a f.length := ceilTo_add ha (ceilTo_dvd a p)
    have h3 := ceilTo_lt (n := ceilTo a p + f.length) ha
    exact ceilTo_eq ha' (hm _ (by simp [places])) (by omega) (by omega)

/-- The length of a file in the table. -/
def flen (incl : Bool) (a : Nat) (f : Bytes) : Nat := if incl = true then ceilTo a f.length else f.length

/-- The entries of the table. -/
def entries (incl : Bool) (a p : Nat) (fs : List Bytes) : List (Nat × Nat) :=
  ((places a p fs).zip fs).map fun x => (x.1, flen incl a x.2)

theorem fatEntries_eq (s : SDAT) : fatEntries s = entries s.fatLengthsIncludePadding s.fileAlignment (firstPos s) (filesOf s) := rfl

theorem entries_cons (incl : Bool) (a p : Nat) (f : Bytes) (fs : List Bytes) :
    entries incl a p (f :: fs) = (ceilTo a p, flen incl a f) :: entries incl a (ceilTo a p + f.length) fs := rfl

theorem contiguous_incl {a : Nat} (ha : 0 < a) : ∀ {fs : List Bytes} {p : Nat}, contiguous (entries true a p fs) = true
  | [], _ => rfl
  | [f], p => rfl
  | f :: g :: fs, p => by
    rw [entries_cons, contiguous, contiguous_incl ha, Bool.and_true, entries_cons, nextOk, decide_eq_true_eq]
    exact ceilTo_add ha (ceilTo_dvd a p)

theorem entries_again {a a' : Nat} (ha : 0 < a) (ha' : 0 < a') (incl incl' q : Bool) (hi : incl = true → incl' = true) :
    ∀ {fs : List Bytes} {p : Nat}, (∀ o ∈ places a p fs, a' ∣ o) →
    (incl' = true → contiguous (entries incl a p fs) = true) →
    (∀ f ∈ fs.getLast?, flen incl' a' (padFile a q f) = flen incl a f) →
    ((places a p fs).zip (padFiles a incl q fs)).map (fun x => (x.1, flen incl' a' x.2)) = entries incl a p fs
  | [], _, _, _, _ => rfl
  | [f], p, _, _, h => by
    have h := h f (by simp)
    rw [padFiles, places, List.zip_cons_cons, List.map_cons, entries_cons, h]
    rfl
  | f :: g :: fs, p, hm, hc, h => by
    have hm' : ∀ o ∈ places a (ceilTo a p + f.length) (g :: fs), a' ∣ o := fun o ho =>
      hm o (by rw [places]; exact List.mem_cons_of_mem _ ho)
    have hc' : incl' = true → contiguous (entries incl a (ceilTo a p + f.length) (g :: fs)) = true := by
      intro hi'
      have := hc hi'
      rw [entries_cons, contiguous, Bool.and_eq_true] at this
      exact this.2
    have ih := entries_again ha ha' incl incl' q hi hm' hc' (fun f hf => h f (by rwa [List.getLast?_cons_cons]))
    rw [padFiles, places, List.zip_cons_cons, List.map_cons, ih, entries_cons]
    congr 2
    have d0 : a' ∣ ceilTo a p := hm _ (by simp [places])
    have d1 : a' ∣ ceilTo a (ceilTo a p + f.length) := hm' _ (by simp [places])
    rw [ceilTo_add ha (ceilTo_dvd a p)] at d1
    have d2 : a' ∣ ceilTo a f.length := (Nat.dvd_add_right d0).1 d1
    unfold flen
    rw [padFile_length ha]
    cases incl with
    | true =>
      rw [hi rfl, if_pos rfl, if_pos rfl]
      exact ceilTo_eq ha' d2 (Nat.le_refl _) (by omega)
    | false =>
      rw [if_neg (c := false = true) (by decide)]
      cases incl' with
      | false => rfl
      | true =>
        have := hc rfl
        rw [entries_cons, contiguous, Bool.and_eq_true, entries_cons, nextOk, decide_eq_true_eq] at this
        have := this.1
        rw [ceilTo_add ha (ceilTo_dvd a p)] at this
        have hf : ceilTo a p + ceilTo a f.length = ceilTo a p + f.length := this
        have hf : ceilTo a f.length = f.length := by omega
        rw [if_pos rfl]
        rw [hf] at d2
        exact ceilTo_eq ha' d2 (Nat.le_refl _) (by omega)

theorem fill_pad {a T : Nat} (ha : 0 < a) (incl q : Bool) : ∀ {fs : List Bytes} {p pos : Nat},
    (q = true → ceilTo a (bodyEnd a p fs) ≤ T) →
    fill pos ((places a p fs).zip (padFiles a incl q fs)) T = fill pos ((places a p fs).zip fs) T
  | [], _, _, _ => rfl
  | [f], p, pos, h => by
    simp only [bodyEnd] at h
    rw [ceilTo_add ha (ceilTo_dvd a p)] at h
    rw [padFiles, places, List.zip_cons_cons, List.zip_cons_cons, fill, fill]
    have hl := padFile_length ha q f
    rw [padFile_append, List.append_assoc, List.append_assoc, List.append_assoc]
    congr 2
    rw [← padFile_append]
    have hle := (padFile_le ha q f).1
    have := fill_start (pos := ceilTo a p + f.length) (q := ceilTo a p + (padFile a q f).length) (by omega) (l := [])
      (T := T) (by simp)
    rw [show ceilTo a p + (padFile a q f).length - (ceilTo a p + f.length) = (padFile a q f).length - f.length by omega] at this
    cases q with
    | false => rw [padFile_false, Nat.sub_self]; simp [zeros, places]
    | true =>
      rw [if_pos rfl] at hl
      refine this fun _ => ?_
      have := h rfl
      omega
  | f :: g :: fs, p, pos, h => by
    have ih := fill_pad ha incl q (fs := g :: fs) (p := ceilTo a p + f.length) (pos := ceilTo a p + (padFile a incl f).length) h
    rw [padFiles, places, List.zip_cons_cons, List.zip_cons_cons, fill, fill, ih, List.append_assoc, List.append_assoc]
    congr 1
    obtain ⟨h1, h2⟩ := padFile_le ha incl f
    have h3 : ceilTo a (ceilTo a p + f.length) = ceilTo a p + ceilTo a f.length := ceilTo_add ha (ceilTo_dvd a p)
    have := fill_start (pos := ceilTo a p + f.length) (q := ceilTo a p + (padFile a incl f).length) (by omega)
      (l := (places a (ceilTo a p + f.length) (g :: fs)).zip (g :: fs)) (T := T) (by
        intro e he
        rw [places, List.zip_cons_cons, List.head?_cons] at he
        cases he
        show _ ≤ ceilTo a (ceilTo a p + f.length)
        omega) (by intro h; simp [places] at h)
    rw [← this]
    have hpa : ∀ r : Bytes, padFile a incl f ++ r = f ++ (zeros ((padFile a incl f).length - f.length) ++ r) := by
      intro r
      rw [← List.append_assoc, ← padFile_append]
    rw [hpa, show ceilTo a p + (padFile a incl f).length - (ceilTo a p + f.length) =
      (padFile a incl f).length - f.length by omega]

theorem bodyEnd_last {a : Nat} : ∀ {fs : List Bytes} {p : Nat}, fs ≠ [] → ∃ o f, (places a p fs).getLast? = some o ∧
    fs.getLast? = some f ∧ bodyEnd a p fs = o + f.length
  | [], _, h => absurd rfl h
  | [f], p, _ => ⟨_, f, rfl, rfl, rfl⟩
  | f :: g :: fs, p, _ => by
    obtain ⟨o, l, h1, h2, h3⟩ := bodyEnd_last (a := a) (fs := g :: fs) (p := ceilTo a p + f.length) (by simp)
    refine ⟨o, l, ?_, by rw [List.getLast?_cons_cons]; exact h2, h3⟩
    rw [places, places, List.getLast?_cons_cons, ← places]
    exact h1

theorem padFiles_last {a : Nat} {p q : Bool} : ∀ {fs : List Bytes},
    (padFiles a p q fs).getLast? = fs.getLast?.map (padFile a q)
  | [] => rfl
  | [f] => rfl
  | [f, g] => rfl
  | f :: g :: h :: fs => by
    rw [padFiles, padFiles, List.getLast?_cons_cons, ← padFiles, padFiles_last (fs := g :: h :: fs),
      List.getLast?_cons_cons (a := f)]

theorem entries_last {a : Nat} {incl : Bool} : ∀ {fs : List Bytes} {p o : Nat} {f : Bytes}, (places a p fs).getLast? = some o →
    fs.getLast? = some f → (entries incl a p fs).getLast? = some (o, flen incl a f)
  | [], _, _, _, _, h => by cases h
  | [f], p, o, _, h, h' => by cases h; cases h'; rfl
  | f :: g :: fs, p, o, l, h, h' => by
    rw [entries_cons, entries_cons, List.getLast?_cons_cons, ← entries_cons]
    refine entries_last ?_ (by rwa [List.getLast?_cons_cons] at h')
    rw [places, places, List.getLast?_cons_cons, ← places] at h
    exact h

end

end Verif.Proofs.SoundArchive
