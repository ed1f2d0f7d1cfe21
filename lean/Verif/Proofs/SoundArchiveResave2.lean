import Verif.Proofs.SoundArchiveResave

/-!
# Saving a loaded sound archive again: the whole file
-/

namespace Verif.Proofs.SoundArchive

open Verif Verif.Model.Common Verif.Model.SoundArchive Verif.Model.SoundStream Verif.Spec.SoundArchive

attribute [local irreducible] saved loadedFiles loadedFile fileID firstUses allUses

/-- The alignments are powers of two up to 0x200. -/
def Pow2Align (s : SDAT) : Prop := s.fileAlignment ∣ 0x200 ∧ ∀ f, s.firstFileAlignment = some f → f ∣ 0x200

theorem pos_of_dvd {a : Nat} (h : a ∣ 0x200) : 0 < a := Nat.pos_of_dvd_of_pos h (by decide)

theorem ceilTo_of_dvd {a n : Nat} (ha : 0 < a) (h : a ∣ n) : ceilTo a n = n := ceilTo_eq ha h (Nat.le_refl _) (by omega)

theorem ceilTo_two {a f X : Nat} (ha : a ∣ 0x200) (hf : f ∣ 0x200) :
    ∃ b, b ∣ 0x200 ∧ ceilTo a (ceilTo f X) = ceilTo b X := by
  have ha0 := pos_of_dvd ha
  have hf0 := pos_of_dvd hf
  by_cases hle : a ≤ f
  · exact ⟨f, hf, ceilTo_of_dvd ha0 (Nat.dvd_trans (dvd_total ha hf hle) (ceilTo_dvd f X))⟩
  · have hd : f ∣ a := dvd_total hf ha (by omega)
    refine ⟨a, ha, ?_⟩
    have h1 := le_ceilTo (n := X) hf0
    have h2 := ceilTo_lt (n := X) hf0
    have h3 := le_ceilTo (n := X) ha0
    have h4 := ceilTo_lt (n := X) ha0
    -- the next multiple of `f` is at most the next multiple of `a`
    have h5 : ceilTo f X ≤ ceilTo a X := by
      obtain ⟨x, hx⟩ := ceilTo_dvd f X
      obtain ⟨y, hy⟩ := Nat.dvd_trans hd (ceilTo_dvd a X)
      rw [hx] at h1 h2 ⊢
      rw [hy] at h3 ⊢
      refine Nat.mul_le_mul_left f ?_
      apply Nat.le_of_not_lt
      intro hlt
      have : f * (y + 1) ≤ f * x := Nat.mul_le_mul_left f hlt
      rw [Nat.mul_add] at this
      omega
    exact ceilTo_eq ha0 (ceilTo_dvd a X) h5 (by omega)

section
variable {s : SDAT} {k : Nat}

theorem offs_length : (offs s).length = (filesOf s).length := by
  have : ∀ (fs : List Bytes) (a p : Nat), (places a p fs).length = fs.length := by
    intro fs
    induction fs with
    | nil => intros; rfl
    | cons f fs ih => intro a p; rw [places, List.length_cons, List.length_cons, ih]
  exact this _ _ _

theorem fatEntries_fst : (fatEntries s).map Prod.fst = offs s := by
  unfold fatEntries
  rw [List.map_map]
  have : (Prod.fst ∘ fun p : Nat × Bytes => (p.1, fatLen s p.2)) = Prod.fst := rfl
  rw [this, List.map_fst_zip]
  rw [offs_length]; exact Nat.le_refl _

theorem align_back : (readBack s k).fileAlignment = alignAll (fatEntries s) 0x200 := rfl

theorem incl_back : (readBack s k).fatLengthsIncludePadding = contiguous (fatEntries s) := by
  show (true && contiguous (fatEntries s)) = _
  rw [Bool.true_and]

theorem align_back_greatest : GreatestAlignment (readBack s k).fileAlignment (offs s) := by
  rw [align_back, ← fatEntries_fst]
  exact alignAll_greatest _

theorem align_dvd_back (h : Pow2Align s) : s.fileAlignment ∣ (readBack s k).fileAlignment :=
  align_back_greatest.2.2 _ h.1 fun _ ho => places_dvd _ ho

theorem fileCount_back (h : AlignOk s) : fileCount (readBack s k) = fileCount s := by
  unfold fileCount
  rw [filesOf_back, loadedFiles_eq h, padFiles_length]

theorem fileOff_back (hA : AlignOk s) (hI : ItemsFit s) : infoOff (readBack s k) = infoOff s ∧ fatOff (readBack s k) = fatOff s ∧
    fileOff (readBack s k) = fileOff s := by
  unfold fileOff fatOff infoOff
  rw [symbData_back, infoBytes_back hI, fileCount_back hA]
  exact ⟨rfl, rfl, rfl⟩

theorem firstOff_back {e : Nat × Nat} (he : (fatEntries s).head? = some e) :
    (readBack s k).firstFileAlignment =
      if Nat.gcd e.1 0x200 = (readBack s k).fileAlignment then none else some (Nat.gcd e.1 0x200) := by
  have h1 : (fatState s).firstFileAlignment = some (Nat.gcd e.1 0x200) := by
    unfold fatState
    cases hE : fatEntries s with
    | nil => rw [hE] at he; cases he
    | cons x xs =>
      rw [hE] at he; cases he
      show some (alignmentOf e.1 0x200) = _
      rw [alignmentOf_eq (Nat.le_refl _), Nat.min_eq_right (Nat.le_of_dvd (by decide) (Nat.gcd_dvd_right _ _))]
  show (if (fatState s).firstFileAlignment = some (fatState s).fileAlignment then none else (fatState s).firstFileAlignment) = _
  rw [h1]
  by_cases h : Nat.gcd e.1 0x200 = (fatState s).fileAlignment
  · rw [if_pos (by rw [h])]
    exact (if_pos h).symm
  · rw [if_neg (by intro h'; exact h (Option.some.inj h'))]
    exact (if_neg h).symm

/-- The place of the first file. -/
theorem first_head (hne : filesOf s ≠ []) :
    ∃ e, (fatEntries s).head? = some e ∧ e.1 = ceilTo s.fileAlignment (firstPos s) ∧ e.1 ∈ offs s := by
  cases hf : filesOf s with
  | nil => exact absurd hf hne
  | cons f fs =>
    refine ⟨(ceilTo s.fileAlignment (firstPos s), fatLen s f), ?_, rfl, ?_⟩
    · unfold fatEntries offs
      rw [hf, places, List.zip_cons_cons, List.map_cons, List.head?_cons]
    · unfold offs
      rw [hf, places]
      exact List.mem_cons_self ..

theorem first_ceil (hp : Pow2Align s) : ∃ b, b ∣ 0x200 ∧ ceilTo s.fileAlignment (firstPos s) = ceilTo b (fileOff s + 0xC) := by
  unfold firstPos
  cases h : s.firstFileAlignment with
  | none => exact ⟨_, hp.1, rfl⟩
  | some f => exact ceilTo_two hp.1 (hp.2 f h)

theorem first_back (hA : AlignOk s) (hI : ItemsFit s) (hp : Pow2Align s) (hne : filesOf s ≠ []) :
    ceilTo (readBack s k).fileAlignment (firstPos (readBack s k)) = ceilTo s.fileAlignment (firstPos s) ∧
    fileOff s + 0xC ≤ firstPos (readBack s k) := by
  obtain ⟨e, he, hv, hm⟩ := first_head hne
  obtain ⟨b, hb, hc⟩ := first_ceil hp
  have hG := align_back_greatest (s := s) (k := k)
  have ha0 := pos_of_dvd hG.1
  have hg : Nat.gcd e.1 0x200 ∣ 0x200 := Nat.gcd_dvd_right _ _
  have hg0 := pos_of_dvd hg
  have hbg : b ∣ Nat.gcd e.1 0x200 := Nat.dvd_gcd (by rw [hv, hc]; exact ceilTo_dvd _ _) hb
  have hle := Nat.le_of_dvd hg0 hbg
  have h1 := le_ceilTo (n := fileOff s + 0xC) (pos_of_dvd hb)
  have h2 := ceilTo_lt (n := fileOff s + 0xC) (pos_of_dvd hb)
  have hX : ceilTo (Nat.gcd e.1 0x200) (fileOff s + 0xC) = e.1 :=
    ceilTo_eq hg0 (Nat.gcd_dvd_left _ _) (by omega) (by omega)
  rw [← hv]
  unfold firstPos
  rw [firstOff_back he, (fileOff_back hA hI).2.2]
  by_cases h : Nat.gcd e.1 0x200 = (readBack s k).fileAlignment
  · rw [if_pos h]
    refine ⟨?_, Nat.le_refl _⟩
    rw [← h]; exact hX
  · rw [if_neg h]
    dsimp only
    rw [hX]
    exact ⟨ceilTo_of_dvd ha0 (hG.2.1 _ hm), by omega⟩

theorem pow2_back : Pow2Align (readBack s k) := by
  refine ⟨align_back_greatest.1, fun f hf => ?_⟩
  cases hE : fatEntries s with
  | nil =>
    have : (readBack s k).firstFileAlignment = none := by
      show (if (fatState s).firstFileAlignment = some (fatState s).fileAlignment then none else (fatState s).firstFileAlignment) = _
      have : (fatState s).firstFileAlignment = none := by unfold fatState fatResult; rw [hE]
      rw [this, if_neg (by simp)]
    rw [this] at hf; cases hf
  | cons e es =>
    rw [firstOff_back (e := e) (by rw [hE]; rfl)] at hf
    split at hf
    · cases hf
    · cases hf; exact Nat.gcd_dvd_right _ _

theorem alignOk_of_pow2 (h : Pow2Align s) : AlignOk s := by
  refine ⟨fun h0 => ?_, fun _ => pos_of_dvd h.1, fun _ => pos_of_dvd h.1⟩
  have := h.2 _ h0
  revert this; decide

theorem files_back_ne (hA : AlignOk s) (hne : filesOf s ≠ []) : filesOf (readBack s k) ≠ [] := by
  intro h
  have h1 := fileCount_back (k := k) hA
  unfold fileCount at h1
  rw [h] at h1
  exact hne (List.eq_nil_of_length_eq_zero h1.symm)

theorem filesOf_back' (hA : AlignOk s) : filesOf (readBack s k) = padFiles s.fileAlignment s.fatLengthsIncludePadding
    (s.fatLengthsIncludePadding && s.padAtEnd) (filesOf s) := by rw [filesOf_back, loadedFiles_eq hA]

theorem offs_back (hI : ItemsFit s) (hp : Pow2Align s) : offs (readBack s k) = offs s := by
  have hA := alignOk_of_pow2 hp
  have hG := align_back_greatest (s := s) (k := k)
  by_cases hne : filesOf s = []
  · unfold offs
    rw [filesOf_back' hA, hne]; rfl
  · conv => lhs; unfold offs
    rw [filesOf_back' hA]
    exact places_again (pos_of_dvd hp.1) (pos_of_dvd hG.1) (align_dvd_back hp) _ _ hG.2.1
      fun _ => (first_back hA hI hp hne).1

theorem alignAll_fst : ∀ {es es' : List (Nat × Nat)} {a : Nat}, es.map Prod.fst = es'.map Prod.fst → alignAll es a = alignAll es' a
  | [], [], _, _ => rfl
  | [], _ :: _, _, h => by simp at h
  | _ :: _, [], _, h => by simp at h
  | e :: es, e' :: es', a, h => by
    simp only [List.map_cons, List.cons.injEq] at h
    show alignAll es (alignmentOf e.1 a) = alignAll es' (alignmentOf e'.1 a)
    rw [h.1, alignAll_fst h.2]

/-- Once loaded, the alignment stays. -/
theorem align_stays {k' : Nat} (hI : ItemsFit s) (hp : Pow2Align s) :
    (readBack (readBack s k) k').fileAlignment = (readBack s k).fileAlignment := by
  rw [align_back, align_back]
  refine alignAll_fst ?_
  rw [fatEntries_fst, fatEntries_fst, offs_back hI hp]

/-- The last file. -/
theorem last_file (hne : filesOf s ≠ []) : ∃ o f, (offs s).getLast? = some o ∧ (filesOf s).getLast? = some f ∧
    endPos s = o + f.length ∧ (fatEntries s).getLast? = some (o, flen s.fatLengthsIncludePadding s.fileAlignment f) := by
  obtain ⟨o, f, h1, h2, h3⟩ := bodyEnd_last (a := s.fileAlignment) (p := firstPos s) hne
  exact ⟨o, f, h1, h2, h3, by rw [fatEntries_eq]; exact entries_last h1 h2⟩

theorem pad_back {o L : Nat} (hA : AlignOk s) (h : (fatEntries s).getLast? = some (o, L)) :
    (readBack s k).padAtEnd = ! decide (o + L = total s ∧ (o + L) % (readBack s k).fileAlignment ≠ 0) := by
  have h1 : (fatState s).finalFileEnd = o + L := by
    unfold fatState fatResult
    rw [h]
  show (! decide ((fatState s).finalFileEnd = (saved s).length ∧ (fatState s).finalFileEnd % (readBack s k).fileAlignment ≠ 0)) = _
  rw [h1, saved_length hA]

theorem fatEntries_back (hI : ItemsFit s) (hp : Pow2Align s)
    (hl : ∀ f ∈ (filesOf s).getLast?, flen (readBack s k).fatLengthsIncludePadding (readBack s k).fileAlignment
      (padFile s.fileAlignment (s.fatLengthsIncludePadding && s.padAtEnd) f) =
        flen s.fatLengthsIncludePadding s.fileAlignment f) :
    fatEntries (readBack s k) = fatEntries s := by
  have hA := alignOk_of_pow2 hp
  have hG := align_back_greatest (s := s) (k := k)
  have h1 : fatEntries (readBack s k) = ((offs s).zip (padFiles s.fileAlignment s.fatLengthsIncludePadding
      (s.fatLengthsIncludePadding && s.padAtEnd) (filesOf s))).map
        fun x => (x.1, flen (readBack s k).fatLengthsIncludePadding (readBack s k).fileAlignment x.2) := by
    conv => lhs; unfold fatEntries
    rw [offs_back hI hp, filesOf_back' hA]
    rfl
  rw [h1, fatEntries_eq]
  refine entries_again (pos_of_dvd hp.1) (pos_of_dvd hG.1) _ _ _ ?_ hG.2.1 ?_ hl
  · intro hi
    rw [incl_back, fatEntries_eq, hi]
    exact contiguous_incl (pos_of_dvd hp.1)
  · intro hi
    rw [incl_back, fatEntries_eq] at hi
    exact hi

theorem fileBytes_back (hI : ItemsFit s) (hp : Pow2Align s) (hne : filesOf s ≠ []) (hT : total (readBack s k) = total s) :
    fileBytes (readBack s k) = fileBytes s := by
  have hA := alignOk_of_pow2 hp
  have hA' := alignOk_of_pow2 (pow2_back (s := s) (k := k))
  have ha0 := pos_of_dvd hp.1
  have hfill : ∀ (u : SDAT), 0 < u.fileAlignment → filesOf u ≠ [] → fileOff u + 0xC ≤ firstPos u →
      zeros (firstPos u - (fileOff u + 0xC)) ++
      (body u.fileAlignment (firstPos u) (filesOf u) ++ zeros (total u - endPos u)) =
      fill (fileOff u + 0xC) ((offs u).zip (filesOf u)) (total u) := by
    intro u hu hne hX
    unfold endPos
    rw [body_fill]
    refine fill_start hX ?_ ?_
    · intro e he
      cases hf : filesOf u with
      | nil => exact absurd hf hne
      | cons f fs =>
        rw [hf, places, List.zip_cons_cons, List.head?_cons] at he
        cases he
        exact le_ceilTo hu
    · intro h
      cases hf : filesOf u with
      | nil => exact absurd hf hne
      | cons f fs => rw [hf, places] at h; cases h
  have hX : fileOff s + 0xC ≤ firstPos s := firstPos_ge hA.1
  have hX' : fileOff (readBack s k) + 0xC ≤ firstPos (readBack s k) := firstPos_ge hA'.1
  have e1 := hfill s ha0 hne hX
  have e2 := hfill (readBack s k) (pos_of_dvd pow2_back.1) (files_back_ne hA hne) hX'
  have hassoc : ∀ u : SDAT, fileBytes u = magicFILE ++ structBytes .little [(4, total u - fileOff u), (4, fileCount u)] ++
      (zeros (firstPos u - (fileOff u + 0xC)) ++
        (body u.fileAlignment (firstPos u) (filesOf u) ++ zeros (total u - endPos u))) := by
    intro u
    unfold fileBytes
    rw [List.append_assoc, List.append_assoc]
  rw [hassoc, hassoc, e1, e2, (fileOff_back hA hI).2.2, hT, fileCount_back hA, offs_back hI hp, filesOf_back' hA]
  congr 1
  refine fill_pad ha0 _ _ fun hq => ?_
  rw [Bool.and_eq_true] at hq
  unfold total
  rw [if_pos hq.2]
  exact Nat.le_refl _

/-- What `readBack` is given. -/
def backOf (s : SDAT) : SDAT := readBack s (if hasSyms s = true then symbSize s else 0)

theorem saved_back (hI : ItemsFit s) (hp : Pow2Align s) (hne : filesOf s ≠ []) (hT : total (backOf s) = total s)
    (hl : ∀ f ∈ (filesOf s).getLast?, flen (backOf s).fatLengthsIncludePadding (backOf s).fileAlignment
      (padFile s.fileAlignment (s.fatLengthsIncludePadding && s.padAtEnd) f) =
        flen s.fatLengthsIncludePadding s.fileAlignment f) :
    saved (backOf s) = saved s ∧ blockFields (backOf s) = blockFields s ∧ fatEntries (backOf s) = fatEntries s := by
  have hA := alignOk_of_pow2 hp
  have e1 : hasSyms (backOf s) = hasSyms s := hasSyms_back
  have e2 : symbHeadSize (backOf s) = symbHeadSize s := symbHeadSize_back
  obtain ⟨e3, e4, e5⟩ := fileOff_back (k := if hasSyms s = true then symbSize s else 0) hA hI
  have e6 : infoBytes (backOf s) = infoBytes s := infoBytes_back hI
  have e7 : fileCount (backOf s) = fileCount s := fileCount_back hA
  have e8 : fatEntries (backOf s) = fatEntries s := fatEntries_back hI hp hl
  have e9 : fileBytes (backOf s) = fileBytes s := fileBytes_back hI hp hne hT
  have e10 : symbData (backOf s) = symbData s := symbData_back
  have e11 : blockFields (backOf s) = blockFields s := by
    unfold blockFields
    rw [e1, e2, e6, e7, hT]
    unfold backOf
    rw [e3, e4, e5]
  have e12 : fatBytes (backOf s) = fatBytes s := by
    unfold fatBytes
    rw [e7, e8]
  have e13 : stdHeader (backOf s) = stdHeader s := by
    unfold stdHeader
    rw [e1, hT]
  refine ⟨?_, e11, e8⟩
  unfold saved
  rw [e13, e11, e10, e6, e12, e9]

theorem symbFits_back (h : hasSyms s = true) (hf : SymbFits s) : SymbFits (readBack s k) := by
  obtain ⟨h1, h2⟩ := symb8_back (k := k) h
  have e0 : symbT (readBack s k) = symbT s := by unfold symbT; rw [h1]
  have e1 : symbSize (readBack s k) = symbSize s := symbSize_back h
  unfold SymbFits at hf ⊢
  rw [e0, e1, h1, h2]
  exact hf

theorem allSyms_back_mem {x : Symbol} (h : x ∈ allSyms (readBack s k)) : x = none ∨ x ∈ allSyms s := by
  by_cases hs : hasSyms s = true
  · rw [allSyms_back_pos hs] at h; exact Or.inr h
  · have : hasSyms (readBack s k) = false := by rw [hasSyms_back]; simpa using hs
    exact Or.inl (hasSyms_false_iff.1 this x h)

theorem saveable_back_of (hS : Saveable s) (hT : total (backOf s) = total s) (e2 : blockFields (backOf s) = blockFields s)
    (e3 : fatEntries (backOf s) = fatEntries s) : Saveable (backOf s) := by
  constructor
  · unfold backOf
    rw [ssarNames_back]
    obtain ⟨b, hb⟩ := hS.nested
    exact anyNested_back hb
  · intro x hx
    rcases allSyms_back_mem hx with rfl | hx
    · intro n hn; cases hn
    · exact hS.latin x hx
  · intro h
    have h : hasSyms s = true := by rw [← hasSyms_back]; exact h
    exact symbFits_back h (hS.symb h)
  · exact itemsFit_back hS.items
  · exact partsFit_back hS.items hS.parts
  · exact alignOk_of_pow2 pow2_back
  · rw [e3]; exact hS.entries
  · rw [e2]; exact hS.blocks
  · rw [hT]; exact hS.size

theorem saveable_back (hS : Saveable s) (hp : Pow2Align s) (hne : filesOf s ≠ []) (hT : total (backOf s) = total s)
    (hl : ∀ f ∈ (filesOf s).getLast?, flen (backOf s).fatLengthsIncludePadding (backOf s).fileAlignment
      (padFile s.fileAlignment (s.fatLengthsIncludePadding && s.padAtEnd) f) =
        flen s.fatLengthsIncludePadding s.fileAlignment f) :
    Saveable (backOf s) ∧ saved (backOf s) = saved s := by
  obtain ⟨e1, e2, e3⟩ := saved_back hS.items hp hne hT hl
  exact ⟨saveable_back_of hS hT e2 e3, e1⟩

/-! ## Archives without files -/

theorem settings_empty (hA : AlignOk s) (h : filesOf s = []) : (readBack s k).fatLengthsIncludePadding = true ∧
    (readBack s k).firstFileAlignment = none ∧ (readBack s k).fileAlignment = 0x200 ∧ (readBack s k).padAtEnd = true := by
  have hE : fatEntries s = [] := by unfold fatEntries offs; rw [h]; rfl
  have hF : fatState s = ⟨[], 0x200, none, true, fileOff s + 8⟩ := by
    unfold fatState fatResult
    rw [hE]
    rfl
  have h1 : (saved s).length = total s := saved_length hA
  have h2 : fileOff s + 0xC ≤ total s := fileOff_le_total hA
  refine ⟨?_, ?_, ?_, ?_⟩
  · show (fatState s).lengthsIncludePadding = true
    rw [hF]
  · show (if (fatState s).firstFileAlignment = some (fatState s).fileAlignment then none else (fatState s).firstFileAlignment) = none
    rw [hF]; rfl
  · show (fatState s).fileAlignment = 0x200
    rw [hF]
  · show (! decide ((fatState s).finalFileEnd = (saved s).length ∧ (fatState s).finalFileEnd % (fatState s).fileAlignment ≠ 0)) = true
    have : ¬((fatState s).finalFileEnd = (saved s).length ∧ (fatState s).finalFileEnd % (fatState s).fileAlignment ≠ 0) := by
      rw [hF, h1]
      rintro ⟨h3, _⟩
      have h3 : fileOff s + 8 = total s := h3
      omega
    rw [decide_eq_false this]
    rfl

theorem files_back_empty (hA : AlignOk s) (h : filesOf s = []) : filesOf (readBack s k) = [] := by
  rw [filesOf_back' hA, h]; rfl

theorem fatEntries_empty (h : filesOf s = []) : fatEntries s = [] := by
  unfold fatEntries
  rw [h, List.zip_nil_right]
  rfl

theorem resave_empty' (hS : Saveable s) (h : filesOf s = []) (a2 : s.firstFileAlignment = none) (a3 : s.fileAlignment = 0x200)
    (a4 : s.padAtEnd = true) : Saveable (backOf s) ∧ saved (backOf s) = saved s := by
  have hA := hS.align
  have hI := hS.items
  have h'' : filesOf (backOf s) = [] := files_back_empty hA h
  obtain ⟨b1, b2, b3, b4⟩ : (backOf s).fatLengthsIncludePadding = true ∧ (backOf s).firstFileAlignment = none ∧
    (backOf s).fileAlignment = 0x200 ∧ (backOf s).padAtEnd = true := settings_empty hA h
  obtain ⟨e3, e4, e5⟩ : infoOff (backOf s) = infoOff s ∧ fatOff (backOf s) = fatOff s ∧
    fileOff (backOf s) = fileOff s := fileOff_back hA hI
  have hP : firstPos (backOf s) = firstPos s := by unfold firstPos; rw [a2, b2, e5]
  have hE : endPos (backOf s) = endPos s := by unfold endPos; rw [h, h'', hP, a3, b3]
  have hT : total (backOf s) = total s := by unfold total; rw [hE, a3, a4, b3, b4]
  have e1 : hasSyms (backOf s) = hasSyms s := hasSyms_back
  have e2 : symbHeadSize (backOf s) = symbHeadSize s := symbHeadSize_back
  have e6 : infoBytes (backOf s) = infoBytes s := infoBytes_back hI
  have e7 : fileCount (backOf s) = fileCount s := fileCount_back hA
  have e8 : fatEntries (backOf s) = fatEntries s := by rw [fatEntries_empty h, fatEntries_empty h'']
  have e9 : fileBytes (backOf s) = fileBytes s := by
    unfold fileBytes
    rw [hT, e5, e7, hP, hE, h, h'', a3, b3]
  have e10 : symbData (backOf s) = symbData s := symbData_back
  have e11 : blockFields (backOf s) = blockFields s := by
    unfold blockFields
    rw [e1, e2, e6, e7, hT, e3, e4, e5]
  have e12 : fatBytes (backOf s) = fatBytes s := by
    unfold fatBytes
    rw [e7, e8]
  have e13 : stdHeader (backOf s) = stdHeader s := by
    unfold stdHeader
    rw [e1, hT]
  refine ⟨saveable_back_of hS hT e11 e8, ?_⟩
  unfold saved
  rw [e13, e11, e10, e6, e12, e9]

/-- Without files, saving changes nothing from the first loading on. -/
theorem resave_empty (hS : Saveable (backOf s)) (hA : AlignOk s) (h : filesOf s = []) :
    Saveable (backOf (backOf s)) ∧ saved (backOf (backOf s)) = saved (backOf s) := by
  obtain ⟨a1, a2, a3, a4⟩ := settings_empty (k := if hasSyms s = true then symbSize s else 0) hA h
  exact resave_empty' hS (files_back_empty hA h) a2 a3 a4

/-! ## When the bytes are the same -/

theorem end_back (hI : ItemsFit s) (hp : Pow2Align s) {o : Nat} {f : Bytes} (ho : (offs s).getLast? = some o)
    (hf : (filesOf s).getLast? = some f) : endPos (readBack s k) =
      o + (padFile s.fileAlignment (s.fatLengthsIncludePadding && s.padAtEnd) f).length := by
  have hA := alignOk_of_pow2 hp
  have hne : filesOf s ≠ [] := by intro h; rw [h] at hf; cases hf
  obtain ⟨o', f', h1, h2, h3, _⟩ := last_file (files_back_ne (k := k) hA hne)
  rw [offs_back hI hp, ho] at h1
  rw [filesOf_back' hA, padFiles_last, hf] at h2
  cases h1; cases h2
  exact h3

/-- The length of the last file is a multiple of the alignment that is found out. -/
theorem same_of_aligned (hI : ItemsFit s) (hp : Pow2Align s) {f : Bytes} (hf : (filesOf s).getLast? = some f)
    (hd : (readBack s k).fileAlignment ∣ f.length) : total (readBack s k) = total s ∧
      flen (readBack s k).fatLengthsIncludePadding (readBack s k).fileAlignment
        (padFile s.fileAlignment (s.fatLengthsIncludePadding && s.padAtEnd) f) =
          flen s.fatLengthsIncludePadding s.fileAlignment f := by
  have hne : filesOf s ≠ [] := by intro h; rw [h] at hf; cases hf
  obtain ⟨o, f', h1, h2, h3, _⟩ := last_file hne
  rw [hf] at h2; cases h2
  have ha0 := pos_of_dvd hp.1
  have hG := align_back_greatest (s := s) (k := k)
  have hb0 := pos_of_dvd hG.1
  have hda : s.fileAlignment ∣ f.length := Nat.dvd_trans (align_dvd_back hp) hd
  have hc : ceilTo s.fileAlignment f.length = f.length := ceilTo_of_dvd ha0 hda
  have hlen : (padFile s.fileAlignment (s.fatLengthsIncludePadding && s.padAtEnd) f).length = f.length := by
    rw [padFile_length ha0, hc]; split <;> rfl
  have ho : o ∈ offs s := List.mem_of_getLast? h1
  have e1 := end_back (k := k) hI hp h1 hf
  rw [hlen] at e1
  constructor
  · unfold total
    rw [e1, h3]
    rw [ceilTo_of_dvd hb0 (Nat.dvd_add (hG.2.1 _ ho) hd)]
    rw [ceilTo_of_dvd ha0 (Nat.dvd_add (places_dvd _ ho) hda)]
    split <;> split <;> rfl
  · unfold flen
    rw [hlen, hc, ceilTo_of_dvd hb0 hd]
    split <;> split <;> rfl

/-- The settings that are found out are those of the archive. -/
theorem same_of_settings (hI : ItemsFit s) (hp : Pow2Align s) {f : Bytes} (hf : (filesOf s).getLast? = some f)
    (h1 : (readBack s k).fileAlignment = s.fileAlignment)
    (h2 : (readBack s k).fatLengthsIncludePadding = s.fatLengthsIncludePadding)
    (h3 : s.fatLengthsIncludePadding = true → s.padAtEnd = true) : total (readBack s k) = total s ∧
      flen (readBack s k).fatLengthsIncludePadding (readBack s k).fileAlignment
        (padFile s.fileAlignment (s.fatLengthsIncludePadding && s.padAtEnd) f) =
          flen s.fatLengthsIncludePadding s.fileAlignment f := by
  have hne : filesOf s ≠ [] := by intro h; rw [h] at hf; cases hf
  obtain ⟨o, f', g1, g2, g3, g4⟩ := last_file hne
  rw [hf] at g2; cases g2
  have ha0 := pos_of_dvd hp.1
  have ho : s.fileAlignment ∣ o := places_dvd _ (List.mem_of_getLast? g1)
  have e1 := end_back (k := k) hI hp g1 hf
  have e2 := pad_back (k := k) (alignOk_of_pow2 hp) g4
  rw [h1] at e2
  have hadd : ceilTo s.fileAlignment (o + f.length) = o + ceilTo s.fileAlignment f.length := ceilTo_add ha0 ho
  have hadd2 : ceilTo s.fileAlignment (o + ceilTo s.fileAlignment f.length) = o + ceilTo s.fileAlignment f.length :=
    ceilTo_of_dvd ha0 (Nat.dvd_add ho (ceilTo_dvd _ _))
  cases hi : s.fatLengthsIncludePadding with
  | true =>
    have hpad := h3 hi
    rw [hi, hpad, padFile_length ha0, Bool.and_true, if_pos rfl] at e1
    constructor
    · unfold total
      rw [e1, h1, g3, if_pos hpad, hadd, hadd2]
      split <;> rfl
    · unfold flen
      rw [padFile_length ha0, h1, h2, hi, hpad, Bool.and_true, if_pos rfl, if_pos rfl]
      exact ceilTo_of_dvd ha0 (ceilTo_dvd _ _)
  | false =>
    rw [hi, Bool.false_and, padFile_false] at e1
    constructor
    · have ht : total s = if s.padAtEnd = true then ceilTo s.fileAlignment (o + f.length) else o + f.length := by
        unfold total; rw [g3]
      have ht' : total (readBack s k) =
          if (readBack s k).padAtEnd = true then ceilTo s.fileAlignment (o + f.length) else o + f.length := by
        unfold total; rw [e1, h1]
      have e2 : (readBack s k).padAtEnd = ! decide (o + f.length = total s ∧ (o + f.length) % s.fileAlignment ≠ 0) := by
        rw [e2, hi]; rfl
      rw [ht', e2]
      by_cases hm : (o + f.length) % s.fileAlignment = 0
      · have := ceilTo_of_dvd ha0 (Nat.dvd_of_mod_eq_zero hm)
        rw [this] at ht ⊢
        rw [ht]
        simp
      · by_cases hs : s.padAtEnd = true
        · rw [if_pos hs] at ht
          have hne : ¬ o + f.length = total s := by
            rw [ht]
            intro h
            refine hm ?_
            rw [h]
            exact Nat.mod_eq_zero_of_dvd (ceilTo_dvd _ _)
          rw [decide_eq_false (fun h => hne h.1), ht]
          rfl
        · rw [if_neg hs] at ht
          simp [ht, hm]
    · unfold flen
      rw [h2, hi, Bool.false_and, padFile_false]
      rfl

/-- After the second loading the padding settings stay. -/
theorem incl_stays {k' : Nat} (hI : ItemsFit s) (hp : Pow2Align s) :
    (readBack (readBack s k) k').fatLengthsIncludePadding = (readBack s k).fatLengthsIncludePadding := by
  have hA := alignOk_of_pow2 hp
  rw [incl_back]
  cases hi : (readBack s k).fatLengthsIncludePadding with
  | true =>
    rw [fatEntries_eq, hi]
    exact contiguous_incl (pos_of_dvd pow2_back.1)
  | false =>
    have hs : s.fatLengthsIncludePadding = false := by
      cases h : s.fatLengthsIncludePadding with
      | false => rfl
      | true =>
        rw [incl_back, fatEntries_eq, h, contiguous_incl (pos_of_dvd hp.1)] at hi
        cases hi
    rw [incl_back] at hi
    rw [← hi]
    congr 1
    refine fatEntries_back hI hp fun f hf => ?_
    unfold flen
    rw [incl_back, hi, hs, Bool.false_and, padFile_false]
    rfl

theorem pad_stays {k' : Nat} (hI : ItemsFit s) (hp : Pow2Align s) (hne : filesOf s ≠ [])
    (h : (readBack s k).fatLengthsIncludePadding = true) : (readBack (readBack s k) k').padAtEnd = true := by
  have hA := alignOk_of_pow2 hp
  have hp' := pow2_back (s := s) (k := k)
  obtain ⟨o, f, g1, g2, g3, g4⟩ := last_file (files_back_ne (k := k) hA hne)
  rw [pad_back (alignOk_of_pow2 hp') g4, align_stays hI hp, h]
  have : (o + flen true (readBack s k).fileAlignment f) % (readBack s k).fileAlignment = 0 :=
    Nat.mod_eq_zero_of_dvd (Nat.dvd_add (places_dvd _ (List.mem_of_getLast? g1)) (ceilTo_dvd _ _))
  simp [this]

theorem last_some {fs : List Bytes} (h : fs ≠ []) : ∃ f, fs.getLast? = some f :=
  ⟨_, List.getLast?_eq_some_getLast h⟩

theorem resave_of_last (hS : Saveable s) (hp : Pow2Align s) {f : Bytes} (hf : (filesOf s).getLast? = some f)
    (h : total (backOf s) = total s ∧ flen (backOf s).fatLengthsIncludePadding (backOf s).fileAlignment
        (padFile s.fileAlignment (s.fatLengthsIncludePadding && s.padAtEnd) f) =
          flen s.fatLengthsIncludePadding s.fileAlignment f) : Saveable (backOf s) ∧ saved (backOf s) = saved s := by
  refine saveable_back hS hp (by intro h; rw [h] at hf; cases hf) h.1 fun g hg => ?_
  rw [hf] at hg
  cases hg
  exact h.2

theorem names_back {u : SDAT} (hn : ∀ x ∈ allSyms u, NameOk x) : ∀ x ∈ allSyms (readBack u k), NameOk x := by
  intro x hx
  rcases allSyms_back_mem hx with rfl | hx
  · intro n hn; cases hn
  · exact hn x hx

theorem groups_back (hg : GroupsOk s) : GroupsOk (readBack s k) := hg

/-- From the second loading on, saving changes nothing. -/
theorem resave_settles (hS : Saveable (backOf (backOf s))) (hI : ItemsFit s) (hp : Pow2Align s) (hne : filesOf s ≠ []) :
    Saveable (backOf (backOf (backOf s))) ∧ saved (backOf (backOf (backOf s))) = saved (backOf (backOf s)) := by
  have hI' : ItemsFit (backOf s) := itemsFit_back hI
  have hp' : Pow2Align (backOf s) := pow2_back
  have hp'' : Pow2Align (backOf (backOf s)) := pow2_back
  have hne' : filesOf (backOf s) ≠ [] := files_back_ne (alignOk_of_pow2 hp) hne
  have hne'' : filesOf (backOf (backOf s)) ≠ [] := files_back_ne (alignOk_of_pow2 hp') hne'
  obtain ⟨f, hf⟩ := last_some hne''
  refine resave_of_last hS hp'' hf (same_of_settings (itemsFit_back hI') hp'' hf (align_stays hI' hp') (incl_stays hI' hp') ?_)
  intro hi
  refine pad_stays hI hp hne ?_
  rw [← incl_stays hI hp]
  exact hi

end

end Verif.Proofs.SoundArchive
