import Verif.Proofs.SoundArchiveRenew

/-!
# Saving the objects of a loaded sound archive again: the whole file
-/

namespace Verif.Proofs.SoundArchive

open Verif Verif.Model.Common Verif.Model.SoundArchive Verif.Model.SoundStream Verif.Spec.SoundArchive

attribute [local irreducible] saved loadedFiles loadedFile fileID firstUses allUses

section
variable {s : SDAT} {k : Nat}

theorem align_renew : (renew s k).fileAlignment = alignAll (fatEntries s) 0x200 := rfl

theorem incl_renew : (renew s k).fatLengthsIncludePadding = contiguous (fatEntries s) := by
  show (true && contiguous (fatEntries s)) = _
  rw [Bool.true_and]

theorem align_renew_greatest : GreatestAlignment (renew s k).fileAlignment (offs s) := by
  rw [align_renew, ← fatEntries_fst]
  exact alignAll_greatest _

theorem align_dvd_renew (h : Pow2Align s) : s.fileAlignment ∣ (renew s k).fileAlignment :=
  align_renew_greatest.2.2 _ h.1 fun _ ho => places_dvd _ ho

theorem fileCount_renew : fileCount (renew s k) = fileCount s := by
  unfold fileCount
  rw [filesOf_renew]

theorem fileOff_renew (hI : ItemsFit s) : infoOff (renew s k) = infoOff s ∧ fatOff (renew s k) = fatOff s ∧
    fileOff (renew s k) = fileOff s := by
  unfold fileOff fatOff infoOff
  rw [symbData_renew, infoBytes_renew hI, fileCount_renew]
  exact ⟨rfl, rfl, rfl⟩

theorem firstOff_renew {e : Nat × Nat} (he : (fatEntries s).head? = some e) :
    (renew s k).firstFileAlignment =
      if Nat.gcd e.1 0x200 = (renew s k).fileAlignment then none else some (Nat.gcd e.1 0x200) := by
  have h1 : (fatState s).firstFileAlignment = some (Nat.gcd e.1 0x200) := by
    unfold fatState
    cases hE : fatEntries s with
    | nil => rw [hE] at he; cases he
    | cons x xs =>
      rw [hE] at he; cases he
      show some (alignmentOf e.1 0x200) = _
      rw [alignmentOf_eq (Nat.le_refl _), Nat.min_eq_right (Nat.le_of_dvd (by decide) (Nat.gcd_dvd_right _ _))]
  show (if (fatState s).firstFileAlignment = some (fatState s).fileAlignment then none else (fatState s).firstFileAlignment) = _
  rw [h1]
  by_cases h : Nat.gcd e.1 0x200 = (fatState s).fileAlignment
  · rw [if_pos (by rw [h])]
    exact (if_pos h).symm
  · rw [if_neg (by intro h'; exact h (Option.some.inj h'))]
    exact (if_neg h).symm

theorem first_renew (hI : ItemsFit s) (hp : Pow2Align s) (hne : filesOf s ≠ []) :
    ceilTo (renew s k).fileAlignment (firstPos (renew s k)) = ceilTo s.fileAlignment (firstPos s) ∧
    fileOff s + 0xC ≤ firstPos (renew s k) := by
  obtain ⟨e, he, hv, hm⟩ := first_head hne
  obtain ⟨b, hb, hc⟩ := first_ceil hp
  have hG := align_renew_greatest (s := s) (k := k)
  have ha0 := pos_of_dvd hG.1
  have hg : Nat.gcd e.1 0x200 ∣ 0x200 := Nat.gcd_dvd_right _ _
  have hg0 := pos_of_dvd hg
  have hbg : b ∣ Nat.gcd e.1 0x200 := Nat.dvd_gcd (by rw [hv, hc]; exact ceilTo_dvd _ _) hb
  have hle := Nat.le_of_dvd hg0 hbg
  have h1 := le_ceilTo (n := fileOff s + 0xC) (pos_of_dvd hb)
  have h2 := ceilTo_lt (n := fileOff s + 0xC) (pos_of_dvd hb)
  have hX : ceilTo (Nat.gcd e.1 0x200) (fileOff s + 0xC) = e.1 :=
    ceilTo_eq hg0 (Nat.gcd_dvd_left _ _) (by omega) (by omega)
  rw [← hv]
  unfold firstPos
  rw [firstOff_renew he, (fileOff_renew hI).2.2]
  by_cases h : Nat.gcd e.1 0x200 = (renew s k).fileAlignment
  · rw [if_pos h]
    refine ⟨?_, Nat.le_refl _⟩
    rw [← h]; exact hX
  · rw [if_neg h]
    dsimp only
    rw [hX]
    exact ⟨ceilTo_of_dvd ha0 (hG.2.1 _ hm), by omega⟩

theorem pow2_renew : Pow2Align (renew s k) := by
  refine ⟨align_renew_greatest.1, fun f hf => ?_⟩
  cases hE : fatEntries s with
  | nil =>
    have : (renew s k).firstFileAlignment = none := by
      show (if (fatState s).firstFileAlignment = some (fatState s).fileAlignment then none else (fatState s).firstFileAlignment) = _
      have : (fatState s).firstFileAlignment = none := by unfold fatState fatResult; rw [hE]
      rw [this, if_neg (by simp)]
    rw [this] at hf; cases hf
  | cons e es =>
    rw [firstOff_renew (e := e) (by rw [hE]; rfl)] at hf
    split at hf
    · cases hf
    · cases hf; exact Nat.gcd_dvd_right _ _

theorem offs_renew (hI : ItemsFit s) (hp : Pow2Align s) : offs (renew s k) = offs s := by
  have hG := align_renew_greatest (s := s) (k := k)
  by_cases hne : filesOf s = []
  · unfold offs
    rw [filesOf_renew, hne]; rfl
  · conv => lhs; unfold offs
    rw [filesOf_renew]
    have := places_again (pos_of_dvd hp.1) (pos_of_dvd hG.1) (align_dvd_renew hp) false false hG.2.1
      fun _ => (first_renew hI hp hne).1
    rwa [padFiles_false] at this

/-- Once loaded, the alignment stays. -/
theorem align_stays_renew {k' : Nat} (hI : ItemsFit s) (hp : Pow2Align s) :
    (renew (renew s k) k').fileAlignment = (renew s k).fileAlignment := by
  rw [align_renew, align_renew]
  refine alignAll_fst ?_
  rw [fatEntries_fst, fatEntries_fst, offs_renew hI hp]

theorem pad_renew {o L : Nat} (hA : AlignOk s) (h : (fatEntries s).getLast? = some (o, L)) :
    (renew s k).padAtEnd = ! decide (o + L = total s ∧ (o + L) % (renew s k).fileAlignment ≠ 0) := by
  have h1 : (fatState s).finalFileEnd = o + L := by
    unfold fatState fatResult
    rw [h]
  show (! decide ((fatState s).finalFileEnd = (saved s).length ∧ (fatState s).finalFileEnd % (renew s k).fileAlignment ≠ 0)) = _
  rw [h1, saved_length hA]

/-- A file whose length the table gives is followed by the next one, unless it is padded. -/
theorem flen_again {a a' : Nat} (ha : 0 < a) (ha' : 0 < a') (hd : a ∣ a') {incl incl' : Bool} (hi : incl = true → incl' = true) :
    ∀ {fs : List Bytes} {p : Nat}, (∀ o ∈ places a p fs, a' ∣ o) →
    (incl' = true → contiguous (entries incl a p fs) = true) →
    (∀ f ∈ fs.getLast?, flen incl' a' f = flen incl a f) →
    ((places a p fs).zip fs).map (fun x => (x.1, flen incl' a' x.2)) = entries incl a p fs
  | [], _, _, _, _ => rfl
  | [f], p, _, _, h => by
    have h := h f (by simp)
    rw [places, List.zip_cons_cons, List.map_cons, entries_cons, h]
    rfl
  | f :: g :: fs, p, hm, hc, h => by
    have hm' : ∀ o ∈ places a (ceilTo a p + f.length) (g :: fs), a' ∣ o := fun o ho =>
      hm o (by rw [places]; exact List.mem_cons_of_mem _ ho)
    have hc' : incl' = true → contiguous (entries incl a (ceilTo a p + f.length) (g :: fs)) = true := by
      intro hi'
      have := hc hi'
      rw [entries_cons, contiguous, Bool.and_eq_true] at this
      exact this.2
    have ih := flen_again ha ha' hd hi hm' hc' (fun f hf => h f (by rwa [List.getLast?_cons_cons]))
    rw [places, List.zip_cons_cons, List.map_cons, ih, entries_cons]
    congr 2
    have d0 : a' ∣ ceilTo a p := hm _ (by simp [places])
    have d1 : a' ∣ ceilTo a (ceilTo a p + f.length) := hm' _ (by simp [places])
    rw [ceilTo_add ha (ceilTo_dvd a p)] at d1
    have d2 : a' ∣ ceilTo a f.length := (Nat.dvd_add_right d0).1 d1
    unfold flen
    cases incl with
    | true =>
      rw [hi rfl, if_pos rfl, if_pos rfl]
      have h1 := le_ceilTo (n := f.length) ha
      have h2 := ceilTo_lt (n := f.length) ha
      have h3 := Nat.le_of_dvd ha' hd
      exact ceilTo_eq ha' d2 h1 (by show ceilTo a f.length < f.length + a'; omega)
    | false =>
      rw [if_neg (c := false = true) (by decide)]
      cases incl' with
      | false => rfl
      | true =>
        have := hc rfl
        rw [entries_cons, contiguous, Bool.and_eq_true, entries_cons, nextOk, decide_eq_true_eq] at this
        have := this.1
        rw [ceilTo_add ha (ceilTo_dvd a p)] at this
        have hf : ceilTo a p + ceilTo a f.length = ceilTo a p + f.length := this
        have hf : ceilTo a f.length = f.length := by omega
        rw [if_pos rfl]
        rw [hf] at d2
        exact ceilTo_eq ha' d2 (Nat.le_refl _) (by omega)

theorem fatEntries_renew (hI : ItemsFit s) (hp : Pow2Align s)
    (hl : ∀ f ∈ (filesOf s).getLast?, flen (renew s k).fatLengthsIncludePadding (renew s k).fileAlignment f =
        flen s.fatLengthsIncludePadding s.fileAlignment f) :
    fatEntries (renew s k) = fatEntries s := by
  have hG := align_renew_greatest (s := s) (k := k)
  have h1 : fatEntries (renew s k) = ((offs s).zip (filesOf s)).map
        fun x => (x.1, flen (renew s k).fatLengthsIncludePadding (renew s k).fileAlignment x.2) := by
    conv => lhs; unfold fatEntries
    rw [offs_renew hI hp, filesOf_renew]
    rfl
  rw [h1, fatEntries_eq]
  refine flen_again (pos_of_dvd hp.1) (pos_of_dvd hG.1) (align_dvd_renew hp) ?_ hG.2.1 ?_ hl
  · intro hi
    rw [incl_renew, fatEntries_eq, hi]
    exact contiguous_incl (pos_of_dvd hp.1)
  · intro hi
    rw [incl_renew, fatEntries_eq] at hi
    exact hi

theorem fileBytes_renew (hI : ItemsFit s) (hp : Pow2Align s) (hne : filesOf s ≠ []) (hT : total (renew s k) = total s) :
    fileBytes (renew s k) = fileBytes s := by
  have hA := alignOk_of_pow2 hp
  have hA' := alignOk_of_pow2 (pow2_renew (s := s) (k := k))
  have ha0 := pos_of_dvd hp.1
  have hfill : ∀ (u : SDAT), 0 < u.fileAlignment → filesOf u ≠ [] → fileOff u + 0xC ≤ firstPos u →
      zeros (firstPos u - (fileOff u + 0xC)) ++
      (body u.fileAlignment (firstPos u) (filesOf u) ++ zeros (total u - endPos u)) =
      fill (fileOff u + 0xC) ((offs u).zip (filesOf u)) (total u) := by
    intro u hu hne hX
    unfold endPos
    rw [body_fill]
    refine fill_start hX ?_ ?_
    · intro e he
      cases hf : filesOf u with
      | nil => exact absurd hf hne
      | cons f fs =>
        rw [hf, places, List.zip_cons_cons, List.head?_cons] at he
        cases he
        exact le_ceilTo hu
    · intro h
      cases hf : filesOf u with
      | nil => exact absurd hf hne
      | cons f fs => rw [hf, places] at h; cases h
  have hX : fileOff s + 0xC ≤ firstPos s := firstPos_ge hA.1
  have hX' : fileOff (renew s k) + 0xC ≤ firstPos (renew s k) := firstPos_ge hA'.1
  have e1 := hfill s ha0 hne hX
  have e2 := hfill (renew s k) (pos_of_dvd pow2_renew.1) (by rw [filesOf_renew]; exact hne) hX'
  have hassoc : ∀ u : SDAT, fileBytes u = magicFILE ++ structBytes .little [(4, total u - fileOff u), (4, fileCount u)] ++
      (zeros (firstPos u - (fileOff u + 0xC)) ++
        (body u.fileAlignment (firstPos u) (filesOf u) ++ zeros (total u - endPos u))) := by
    intro u
    unfold fileBytes
    rw [List.append_assoc, List.append_assoc]
  rw [hassoc, hassoc, e1, e2, (fileOff_renew hI).2.2, hT, fileCount_renew, offs_renew hI hp, filesOf_renew]

/-- What `renew` is given. -/
def renewOf (s : SDAT) : SDAT := renew s (if hasSyms s = true then symbSize s else 0)

theorem saved_renew (hI : ItemsFit s) (hp : Pow2Align s) (hne : filesOf s ≠ []) (hT : total (renewOf s) = total s)
    (hl : ∀ f ∈ (filesOf s).getLast?, flen (renewOf s).fatLengthsIncludePadding (renewOf s).fileAlignment f =
        flen s.fatLengthsIncludePadding s.fileAlignment f) :
    saved (renewOf s) = saved s ∧ blockFields (renewOf s) = blockFields s ∧ fatEntries (renewOf s) = fatEntries s := by
  have e1 : hasSyms (renewOf s) = hasSyms s := hasSyms_renew
  have e2 : symbHeadSize (renewOf s) = symbHeadSize s := symbHeadSize_renew
  obtain ⟨e3, e4, e5⟩ := fileOff_renew (k := if hasSyms s = true then symbSize s else 0) hI
  have e6 : infoBytes (renewOf s) = infoBytes s := infoBytes_renew hI
  have e7 : fileCount (renewOf s) = fileCount s := fileCount_renew
  have e8 : fatEntries (renewOf s) = fatEntries s := fatEntries_renew hI hp hl
  have e9 : fileBytes (renewOf s) = fileBytes s := fileBytes_renew hI hp hne hT
  have e10 : symbData (renewOf s) = symbData s := symbData_renew
  have e11 : blockFields (renewOf s) = blockFields s := by
    unfold blockFields
    rw [e1, e2, e6, e7, hT]
    unfold renewOf
    rw [e3, e4, e5]
  have e12 : fatBytes (renewOf s) = fatBytes s := by
    unfold fatBytes
    rw [e7, e8]
  have e13 : stdHeader (renewOf s) = stdHeader s := by
    unfold stdHeader
    rw [e1, hT]
  refine ⟨?_, e11, e8⟩
  unfold saved
  rw [e13, e11, e10, e6, e12, e9]

theorem symbFits_renew (hf : SymbFits s) : SymbFits (renew s k) := by
  obtain ⟨h1, h2⟩ := symb8_renew (s := s) (k := k)
  have e0 : symbT (renew s k) = symbT s := by unfold symbT; rw [h1]
  have e1 : symbSize (renew s k) = symbSize s := symbSize_renew
  unfold SymbFits at hf ⊢
  rw [e0, e1, h1, h2]
  exact hf

theorem saveable_renew_of (hS : Saveable s) (hT : total (renewOf s) = total s) (e2 : blockFields (renewOf s) = blockFields s)
    (e3 : fatEntries (renewOf s) = fatEntries s) : Saveable (renewOf s) := by
  constructor
  · unfold renewOf
    rw [ssarNames_renew]
    exact hS.nested
  · intro x hx
    unfold renewOf at hx
    rw [allSyms_renew] at hx
    exact hS.latin x hx
  · intro h
    have h : hasSyms s = true := by rw [← hasSyms_renew]; exact h
    exact symbFits_renew (hS.symb h)
  · exact itemsFit_renew hS.items
  · exact partsFit_renew hS.items hS.parts
  · exact alignOk_of_pow2 pow2_renew
  · rw [e3]; exact hS.entries
  · rw [e2]; exact hS.blocks
  · rw [hT]; exact hS.size

theorem saveable_renew (hS : Saveable s) (hp : Pow2Align s) (hne : filesOf s ≠ []) (hT : total (renewOf s) = total s)
    (hl : ∀ f ∈ (filesOf s).getLast?, flen (renewOf s).fatLengthsIncludePadding (renewOf s).fileAlignment f =
        flen s.fatLengthsIncludePadding s.fileAlignment f) :
    Saveable (renewOf s) ∧ saved (renewOf s) = saved s := by
  obtain ⟨e1, e2, e3⟩ := saved_renew hS.items hp hne hT hl
  exact ⟨saveable_renew_of hS hT e2 e3, e1⟩

theorem settings_empty_renew (hA : AlignOk s) (h : filesOf s = []) : (renew s k).fatLengthsIncludePadding = true ∧
    (renew s k).firstFileAlignment = none ∧ (renew s k).fileAlignment = 0x200 ∧ (renew s k).padAtEnd = true := by
  have hE : fatEntries s = [] := by unfold fatEntries offs; rw [h]; rfl
  have hF : fatState s = ⟨[], 0x200, none, true, fileOff s + 8⟩ := by
    unfold fatState fatResult
    rw [hE]
    rfl
  have h1 : (saved s).length = total s := saved_length hA
  have h2 : fileOff s + 0xC ≤ total s := fileOff_le_total hA
  refine ⟨?_, ?_, ?_, ?_⟩
  · show (fatState s).lengthsIncludePadding = true
    rw [hF]
  · show (if (fatState s).firstFileAlignment = some (fatState s).fileAlignment then none else (fatState s).firstFileAlignment) = none
    rw [hF]; rfl
  · show (fatState s).fileAlignment = 0x200
    rw [hF]
  · show (! decide ((fatState s).finalFileEnd = (saved s).length ∧ (fatState s).finalFileEnd % (fatState s).fileAlignment ≠ 0)) = true
    have : ¬((fatState s).finalFileEnd = (saved s).length ∧ (fatState s).finalFileEnd % (fatState s).fileAlignment ≠ 0) := by
      rw [hF, h1]
      rintro ⟨h3, _⟩
      have h3 : fileOff s + 8 = total s := h3
      omega
    rw [decide_eq_false this]
    rfl

theorem resave_empty_renew' (hS : Saveable s) (h : filesOf s = []) (a2 : s.firstFileAlignment = none) (a3 : s.fileAlignment = 0x200)
    (a4 : s.padAtEnd = true) : Saveable (renewOf s) ∧ saved (renewOf s) = saved s := by
  have hA := hS.align
  have hI := hS.items
  have h'' : filesOf (renewOf s) = [] := by unfold renewOf; rw [filesOf_renew, h]
  obtain ⟨b1, b2, b3, b4⟩ : (renewOf s).fatLengthsIncludePadding = true ∧ (renewOf s).firstFileAlignment = none ∧
    (renewOf s).fileAlignment = 0x200 ∧ (renewOf s).padAtEnd = true := settings_empty_renew hA h
  obtain ⟨e3, e4, e5⟩ : infoOff (renewOf s) = infoOff s ∧ fatOff (renewOf s) = fatOff s ∧
    fileOff (renewOf s) = fileOff s := fileOff_renew hI
  have hP : firstPos (renewOf s) = firstPos s := by unfold firstPos; rw [a2, b2, e5]
  have hE : endPos (renewOf s) = endPos s := by unfold endPos; rw [h, h'', hP, a3, b3]
  have hT : total (renewOf s) = total s := by unfold total; rw [hE, a3, a4, b3, b4]
  have e1 : hasSyms (renewOf s) = hasSyms s := hasSyms_renew
  have e2 : symbHeadSize (renewOf s) = symbHeadSize s := symbHeadSize_renew
  have e6 : infoBytes (renewOf s) = infoBytes s := infoBytes_renew hI
  have e7 : fileCount (renewOf s) = fileCount s := fileCount_renew
  have e8 : fatEntries (renewOf s) = fatEntries s := by rw [fatEntries_empty h, fatEntries_empty h'']
  have e9 : fileBytes (renewOf s) = fileBytes s := by
    unfold fileBytes
    rw [hT, e5, e7, hP, hE, h, h'', a3, b3]
  have e10 : symbData (renewOf s) = symbData s := symbData_renew
  have e11 : blockFields (renewOf s) = blockFields s := by
    unfold blockFields
    rw [e1, e2, e6, e7, hT, e3, e4, e5]
  have e12 : fatBytes (renewOf s) = fatBytes s := by
    unfold fatBytes
    rw [e7, e8]
  have e13 : stdHeader (renewOf s) = stdHeader s := by
    unfold stdHeader
    rw [e1, hT]
  refine ⟨saveable_renew_of hS hT e11 e8, ?_⟩
  unfold saved
  rw [e13, e11, e10, e6, e12, e9]

/-- Without files, saving changes nothing from the first loading on. -/
theorem resave_empty_renew (hS : Saveable (renewOf s)) (hA : AlignOk s) (h : filesOf s = []) :
    Saveable (renewOf (renewOf s)) ∧ saved (renewOf (renewOf s)) = saved (renewOf s) := by
  obtain ⟨a1, a2, a3, a4⟩ := settings_empty_renew (k := if hasSyms s = true then symbSize s else 0) hA h
  exact resave_empty_renew' hS (by unfold renewOf; rw [filesOf_renew, h]) a2 a3 a4

theorem end_renew (hI : ItemsFit s) (hp : Pow2Align s) {o : Nat} {f : Bytes} (ho : (offs s).getLast? = some o)
    (hf : (filesOf s).getLast? = some f) : endPos (renew s k) = o + f.length := by
  have hne : filesOf s ≠ [] := by intro h; rw [h] at hf; cases hf
  obtain ⟨o', f', h1, h2, h3, _⟩ := last_file (s := renew s k) (by rw [filesOf_renew]; exact hne)
  rw [offs_renew hI hp, ho] at h1
  rw [filesOf_renew, hf] at h2
  cases h1; cases h2
  exact h3

/-- The length of the last file is a multiple of the alignment that is found out. -/
theorem same_of_aligned_renew (hI : ItemsFit s) (hp : Pow2Align s) {f : Bytes} (hf : (filesOf s).getLast? = some f)
    (hd : (renew s k).fileAlignment ∣ f.length) : total (renew s k) = total s ∧
      flen (renew s k).fatLengthsIncludePadding (renew s k).fileAlignment f =
          flen s.fatLengthsIncludePadding s.fileAlignment f := by
  have hne : filesOf s ≠ [] := by intro h; rw [h] at hf; cases hf
  obtain ⟨o, f', h1, h2, h3, _⟩ := last_file hne
  rw [hf] at h2; cases h2
  have ha0 := pos_of_dvd hp.1
  have hG := align_renew_greatest (s := s) (k := k)
  have hb0 := pos_of_dvd hG.1
  have hda : s.fileAlignment ∣ f.length := Nat.dvd_trans (align_dvd_renew hp) hd
  have hc : ceilTo s.fileAlignment f.length = f.length := ceilTo_of_dvd ha0 hda
  have ho : o ∈ offs s := List.mem_of_getLast? h1
  have e1 := end_renew (k := k) hI hp h1 hf
  constructor
  · unfold total
    rw [e1, h3]
    rw [ceilTo_of_dvd hb0 (Nat.dvd_add (hG.2.1 _ ho) hd)]
    rw [ceilTo_of_dvd ha0 (Nat.dvd_add (places_dvd _ ho) hda)]
    split <;> split <;> rfl
  · unfold flen
    rw [hc, ceilTo_of_dvd hb0 hd]
    split <;> split <;> rfl

/-- The settings that are found out are those of the archive. -/
theorem same_of_settings_renew (hI : ItemsFit s) (hp : Pow2Align s) {f : Bytes} (hf : (filesOf s).getLast? = some f)
    (h1 : (renew s k).fileAlignment = s.fileAlignment)
    (h2 : (renew s k).fatLengthsIncludePadding = s.fatLengthsIncludePadding)
    (h3 : s.fatLengthsIncludePadding = true → s.padAtEnd = true) : total (renew s k) = total s ∧
      flen (renew s k).fatLengthsIncludePadding (renew s k).fileAlignment f =
          flen s.fatLengthsIncludePadding s.fileAlignment f := by
  have hne : filesOf s ≠ [] := by intro h; rw [h] at hf; cases hf
  obtain ⟨o, f', g1, g2, g3, g4⟩ := last_file hne
  rw [hf] at g2; cases g2
  have ha0 := pos_of_dvd hp.1
  have ho : s.fileAlignment ∣ o := places_dvd _ (List.mem_of_getLast? g1)
  have e1 := end_renew (k := k) hI hp g1 hf
  have e2 := pad_renew (k := k) (alignOk_of_pow2 hp) g4
  rw [h1] at e2
  have hadd : ceilTo s.fileAlignment (o + f.length) = o + ceilTo s.fileAlignment f.length := ceilTo_add ha0 ho
  refine ⟨?_, by rw [h1, h2]⟩
  cases hi : s.fatLengthsIncludePadding with
  | true =>
    have hpad := h3 hi
    rw [hi] at e2
    have hm : (o + flen true s.fileAlignment f) % s.fileAlignment = 0 :=
      Nat.mod_eq_zero_of_dvd (Nat.dvd_add ho (ceilTo_dvd _ _))
    have e2 : (renew s k).padAtEnd = true := by rw [e2]; simp [hm]
    unfold total
    rw [e1, h1, g3, if_pos hpad, if_pos e2]
  | false =>
    have ht : total s = if s.padAtEnd = true then ceilTo s.fileAlignment (o + f.length) else o + f.length := by
      unfold total; rw [g3]
    have ht' : total (renew s k) =
        if (renew s k).padAtEnd = true then ceilTo s.fileAlignment (o + f.length) else o + f.length := by
      unfold total; rw [e1, h1]
    have e2 : (renew s k).padAtEnd = ! decide (o + f.length = total s ∧ (o + f.length) % s.fileAlignment ≠ 0) := by
      rw [e2, hi]; rfl
    rw [ht', e2]
    by_cases hm : (o + f.length) % s.fileAlignment = 0
    · have := ceilTo_of_dvd ha0 (Nat.dvd_of_mod_eq_zero hm)
      rw [this] at ht ⊢
      rw [ht]
      simp
    · by_cases hs : s.padAtEnd = true
      · rw [if_pos hs] at ht
        have hne : ¬ o + f.length = total s := by
          rw [ht]
          intro h
          refine hm ?_
          rw [h]
          exact Nat.mod_eq_zero_of_dvd (ceilTo_dvd _ _)
        rw [decide_eq_false (fun h => hne h.1), ht]
        rfl
      · rw [if_neg hs] at ht
        simp [ht, hm]

/-- After the second loading the padding settings stay. -/
theorem incl_stays_renew {k' : Nat} (hI : ItemsFit s) (hp : Pow2Align s) :
    (renew (renew s k) k').fatLengthsIncludePadding = (renew s k).fatLengthsIncludePadding := by
  rw [incl_renew]
  cases hi : (renew s k).fatLengthsIncludePadding with
  | true =>
    rw [fatEntries_eq, hi]
    exact contiguous_incl (pos_of_dvd pow2_renew.1)
  | false =>
    have hs : s.fatLengthsIncludePadding = false := by
      cases h : s.fatLengthsIncludePadding with
      | false => rfl
      | true =>
        rw [incl_renew, fatEntries_eq, h, contiguous_incl (pos_of_dvd hp.1)] at hi
        cases hi
    rw [incl_renew] at hi
    rw [← hi]
    congr 1
    refine fatEntries_renew hI hp fun f hf => ?_
    unfold flen
    rw [incl_renew, hi, hs]
    rfl

theorem pad_stays_renew {k' : Nat} (hI : ItemsFit s) (hp : Pow2Align s) (hne : filesOf s ≠ [])
    (h : (renew s k).fatLengthsIncludePadding = true) : (renew (renew s k) k').padAtEnd = true := by
  have hp' := pow2_renew (s := s) (k := k)
  obtain ⟨o, f, g1, g2, g3, g4⟩ := last_file (s := renew s k) (by rw [filesOf_renew]; exact hne)
  rw [pad_renew (alignOk_of_pow2 hp') g4, align_stays_renew hI hp, h]
  have : (o + flen true (renew s k).fileAlignment f) % (renew s k).fileAlignment = 0 :=
    Nat.mod_eq_zero_of_dvd (Nat.dvd_add (places_dvd _ (List.mem_of_getLast? g1)) (ceilTo_dvd _ _))
  simp [this]

theorem resave_of_last_renew (hS : Saveable s) (hp : Pow2Align s) {f : Bytes} (hf : (filesOf s).getLast? = some f)
    (h : total (renewOf s) = total s ∧ flen (renewOf s).fatLengthsIncludePadding (renewOf s).fileAlignment f =
          flen s.fatLengthsIncludePadding s.fileAlignment f) : Saveable (renewOf s) ∧ saved (renewOf s) = saved s := by
  refine saveable_renew hS hp (by intro h; rw [h] at hf; cases hf) h.1 fun g hg => ?_
  rw [hf] at hg
  cases hg
  exact h.2

/-- From the second loading on, saving changes nothing. -/
theorem resave_settles_renew (hS : Saveable (renewOf (renewOf s))) (hI : ItemsFit s) (hp : Pow2Align s) (hne : filesOf s ≠ []) :
    Saveable (renewOf (renewOf (renewOf s))) ∧ saved (renewOf (renewOf (renewOf s))) = saved (renewOf (renewOf s)) := by
  have hI' : ItemsFit (renewOf s) := itemsFit_renew hI
  have hp' : Pow2Align (renewOf s) := pow2_renew
  have hp'' : Pow2Align (renewOf (renewOf s)) := pow2_renew
  have hne'' : filesOf (renewOf (renewOf s)) ≠ [] := by
    unfold renewOf; rw [filesOf_renew, filesOf_renew]; exact hne
  obtain ⟨f, hf⟩ := last_some hne''
  refine resave_of_last_renew hS hp'' hf
    (same_of_settings_renew (itemsFit_renew hI') hp'' hf (align_stays_renew hI' hp') (incl_stays_renew hI' hp') ?_)
  intro hi
  refine pad_stays_renew hI hp hne ?_
  rw [← incl_stays_renew hI hp]
  exact hi

end

end Verif.Proofs.SoundArchive
