import Verif.Proofs.Bmg

/-!
# The saved file as a whole
-/

namespace Verif.Proofs.Bmg

open Verif Verif.Model.Text Verif.Spec.Text Verif.Model.Bmg Verif.Spec.Bmg

theorem fliBody_ok {b : BMG} {r : Bytes} : fliBody b = .ok r ↔
    (∀ s ∈ b.scripts, s.1 < 256 ^ 4 ∧ s.2 < 256 ^ 4) ∧
      r = (b.scripts.map fun s => structBytes b.endianness [(4, s.1), (4, s.2)]).flatten := by
  unfold fliBody
  have e1 := mapE_eq_map (f := fun (s : Nat × Nat) => packUs b.endianness [(4, s.1), (4, s.2)])
    (g := fun s => structBytes b.endianness [(4, s.1), (4, s.2)]) (P := fun s => s.1 < 256 ^ 4 ∧ s.2 < 256 ^ 4) (by
      intro s r
      rw [packUs_eq_ok]
      simp only [Fits, and_true]) b.scripts
  simp only [bind_eq_ok, pure_eq_ok, e1]
  constructor
  · rintro ⟨_, ⟨h, rfl⟩, rfl⟩; exact ⟨h, rfl⟩
  · rintro ⟨h, rfl⟩; exact ⟨_, ⟨h, rfl⟩, rfl⟩

/-- The bytes of DAT1. -/
def datBytes (e : Endian) (dat : Bytes) : Bytes :=
  magicDAT1 ++ (enBytes e 4 (up32 (8 + dat.length)) ++ (dat ++ zeros (padLen (8 + dat.length) 32)))

theorem datSection_ok {e : Endian} {dat sec : Bytes} :
    datSection e dat = .ok sec ↔ up32 (8 + dat.length) < 256 ^ 4 ∧ sec = datBytes e dat := by
  unfold datSection datBytes
  simp only [bind_eq_ok, packU_eq_ok, pure_eq_ok]
  constructor
  · rintro ⟨_, ⟨h, rfl⟩, rfl⟩; exact ⟨h, by simp⟩
  · rintro ⟨h, rfl⟩; exact ⟨_, ⟨h, rfl⟩, by simp⟩

/-- The fields of the file header. -/
def headFields (b : BMG) (total sections : Nat) : List (Nat × Nat) :=
  [(4, total), (4, sections), (1, b.encoding.index), (4, b.unk14), (4, b.unk18), (4, b.unk1C)]

theorem fileHeader_ok {b : BMG} {total sections : Nat} {r : Bytes} : fileHeader b total sections = .ok r ↔
    Fits (headFields b total sections) ∧
      r = magicMESG ++ (structBytes b.endianness (headFields b total sections) ++ zeros 3) := by
  unfold fileHeader
  simp only [bind_eq_ok, packUs_eq_ok, pure_eq_ok]
  constructor
  · rintro ⟨_, ⟨h, rfl⟩, rfl⟩; exact ⟨h, by simp [headFields]⟩
  · rintro ⟨h, rfl⟩; exact ⟨_, ⟨h, rfl⟩, by simp [headFields]⟩

/-- The sections of a saved file. -/
structure Saved (c : Codec) (b : BMG) (data : Bytes) where
  inf : Bytes
  dat : Bytes
  messages : saveMessages c b.endianness (infoLength b.messages) b.messages c.null = .ok (inf, dat)
  insts : ∀ i ∈ b.instructions, i.length = 8
  labels : LabelsFit b.labels
  scripts : ∀ s ∈ b.scripts, s.1 < 256 ^ 4 ∧ s.2 < 256 ^ 4
  infLen : up32 (16 + inf.length) < 256 ^ 4
  messageCount : b.messages.length < 256 ^ 2
  entryLen : 4 + infoLength b.messages < 256 ^ 2
  id : b.id < 256 ^ 4
  datLen : up32 (8 + dat.length) < 256 ^ 4
  flwLen : up32 (16 + (flwBytes b.endianness b.instructions b.labels).length) < 256 ^ 4
  instCount : evenCount b.instructions.length < 256 ^ 2
  labelCount : labelsCount b.labels.length < 256 ^ 2
  fliLen : up32 (16 + ((b.scripts.map fun s => structBytes b.endianness [(4, s.1), (4, s.2)]).flatten).length) < 256 ^ 4
  scriptCount : b.scripts.length < 256 ^ 2
  head : Fits (headFields b (up32 data.length) (2 + (if b.instructions ≠ [] ∨ b.labels ≠ [] then 1 else 0)
    + (if b.scripts ≠ [] then 1 else 0)))
  bytes : data = magicMESG ++ (structBytes b.endianness (headFields b (up32 data.length)
      (2 + (if b.instructions ≠ [] ∨ b.labels ≠ [] then 1 else 0) + (if b.scripts ≠ [] then 1 else 0))) ++ zeros 3)
    ++ (sectionBytes b.endianness magicINF1 (up32 (16 + inf.length)) b.messages.length (4 + infoLength b.messages) b.id
        inf (padLen (16 + inf.length) 32)
      ++ datBytes b.endianness dat
      ++ (if b.instructions ≠ [] ∨ b.labels ≠ [] then
        sectionBytes b.endianness magicFLW1 (up32 (16 + (flwBytes b.endianness b.instructions b.labels).length))
          (evenCount b.instructions.length) (labelsCount b.labels.length) 0
          (flwBytes b.endianness b.instructions b.labels)
          (padLen (16 + (flwBytes b.endianness b.instructions b.labels).length) 32) else [])
      ++ (if b.scripts ≠ [] then
        sectionBytes b.endianness magicFLI1
          (up32 (16 + ((b.scripts.map fun s => structBytes b.endianness [(4, s.1), (4, s.2)]).flatten).length))
          b.scripts.length 8 0 ((b.scripts.map fun s => structBytes b.endianness [(4, s.1), (4, s.2)]).flatten) 0
        else []))

theorem insertSections_eq (b : BMG) (inf dat flw fli : Bytes) : insertSections b inf dat flw fli =
    (2 + (if b.instructions ≠ [] ∨ b.labels ≠ [] then 1 else 0) + (if b.scripts ≠ [] then 1 else 0),
      inf ++ dat ++ (if b.instructions ≠ [] ∨ b.labels ≠ [] then flw else [])
        ++ (if b.scripts ≠ [] then fli else [])) := by
  unfold insertSections
  by_cases h1 : b.instructions ≠ [] ∨ b.labels ≠ [] <;> by_cases h2 : b.scripts ≠ []
  · simp only [if_pos h1, if_pos h2]
  · simp only [if_pos h1, if_neg h2, List.append_nil, Nat.add_zero]
  · simp only [if_neg h1, if_pos h2, List.append_nil, Nat.add_zero]
  · simp only [if_neg h1, if_neg h2, List.append_nil, Nat.add_zero]

theorem head_length (b : BMG) (x y : Nat) :
    (magicMESG ++ (structBytes b.endianness (headFields b x y) ++ zeros 3)).length = 0x20 := by
  simp [structBytes_length, headFields, magicMESG]

theorem saved_of {sjis : Codec} {b : BMG} {data : Bytes} (h : b.save sjis = .ok data) :
    Nonempty (Saved (codecOf sjis b.encoding b.endianness) b data) := by
  unfold BMG.save at h
  simp only [bind_eq_ok, flwBody_ok, fliBody_ok, sectionOf_ok, datSection_ok, fileHeader_ok, pure_eq_ok] at h
  obtain ⟨⟨inf, dat⟩, hm, flw, ⟨⟨hi, hl⟩, rfl⟩, fli, ⟨hs, rfl⟩, INF, ⟨⟨h1, h2, h3, h4⟩, rfl⟩, DAT, ⟨h5, rfl⟩, FLW,
    ⟨⟨h6, h7, h8, _⟩, rfl⟩, FLI, ⟨⟨h9, h10, _, _⟩, rfl⟩, hd, ⟨hf, rfl⟩, hdata⟩ := h
  rw [insertSections_eq] at hf hdata
  dsimp only at hf hdata
  have hdl := congrArg List.length hdata
  rw [List.length_append, head_length] at hdl
  rw [hdl] at hf hdata
  exact ⟨⟨inf, dat, hm, hi, hl, hs, h1, h2, h3, h4, h5, h6, h7, h8, h9, h10, hf, hdata.symm⟩⟩

theorem at_of_append {d a b : Bytes} (h : d = a ++ b) : At d 0 a ∧ At d a.length b := by
  subst h
  exact ⟨At.first _ _, At.last _ _⟩

theorem up32_eq (n : Nat) : up32 n = statedLength n := by
  unfold up32 statedLength padLen
  omega

theorem sectionBytes_length (e : Endian) (magic : Bytes) (len c1 c2 word : Nat) (body : Bytes) (pad : Nat)
    (hm : magic.length = 4) : (sectionBytes e magic len c1 c2 word body pad).length = 16 + body.length + pad := by
  unfold sectionBytes
  simp [structBytes_length, hm]
  omega

theorem guess_eq (e : Endian) (n : Nat) (hn : n < 256 ^ 4) {data : Bytes} (h : At data 8 (enBytes e 4 n)) :
    ∃ le be, unpackU .little 4 data 8 = .ok le ∧ unpackU .big 4 data 8 = .ok be ∧
      (guessEndian le be = e ↔ Tellable e n) := by
  have hb := h.bound
  rw [enBytes_length] at hb
  have hs : slice data 8 (8 + 4) = enBytes e 4 n := h.slice_eq (by simp)
  refine ⟨enVal .little (enBytes e 4 n), enVal .big (enBytes e 4 n), ?_, ?_, ?_⟩
  · exact unpackU_eq_ok.2 ⟨hb, by rw [hs]⟩
  · exact unpackU_eq_ok.2 ⟨hb, by rw [hs]⟩
  · cases e with
    | little =>
      have h1 : enVal .little (enBytes .little 4 n) = n := enVal_enBytes hn
      have h2 : enVal .big (enBytes .little 4 n) = swap32 n := rfl
      rw [h1, h2]
      unfold guessEndian Tellable
      dsimp only
      split <;> simp_all
    | big =>
      have h1 : enVal .big (enBytes .big 4 n) = n := enVal_enBytes hn
      have h2 : enVal .little (enBytes .big 4 n) = swap32 n := rfl
      rw [h1, h2]
      unfold guessEndian Tellable
      dsimp only
      split
      · simp; omega
      · simp; omega

/-- One section and the rest. -/
theorem parseSections_step {e : Endian} {data magic : Bytes} {n off len : Nat} {r r' : Raw}
    (h1 : unpackStr 4 data off = .ok magic) (h2 : unpackU e 4 data (off + 4) = .ok len)
    (h3 : parseSection e data off magic len r = .ok r') :
    parseSections e data (n + 1) off r = parseSections e data n (off + len) r' := by
  rw [parseSections, h1, bind_ok, h2, bind_ok, h3, bind_ok]

theorem parse_dat {e : Endian} {data dat : Bytes} {off : Nat} (n : Nat) (r : Raw) (hl : up32 (8 + dat.length) < 256 ^ 4)
    (h : At data off (datBytes e dat)) : parseSections e data (n + 1) off r =
      parseSections e data n (off + up32 (8 + dat.length))
        { r with dat1 := dat ++ zeros (padLen (8 + dat.length) 32) } := by
  unfold datBytes at h
  rw [At.split, At.split] at h
  obtain ⟨a1, a2, a3⟩ := h
  rw [enBytes_length] at a3
  refine parseSections_step (a1.unpackStr rfl) (a2.unpackU hl) ?_
  unfold parseSection
  rw [if_neg (by decide), if_pos rfl]
  have : slice data (off + 8) (off + up32 (8 + dat.length)) = dat ++ zeros (padLen (8 + dat.length) 32) := by
    refine At.slice_eq (a3.cast (by simp [magicDAT1])) ?_
    unfold up32
    simp
    omega
  rw [this]

/-- Loading the saved file. -/
theorem load_save {sjis : Codec} {P : Nat → Prop} {b : BMG} {data : Bytes}
    (L : Lawful (codecOf sjis b.encoding b.endianness) P) (h : b.save sjis = .ok data)
    (hP : ∀ m ∈ b.messages, MessageIn P m) :
    (∃ le be, unpackU .little 4 data 8 = .ok le ∧ unpackU .big 4 data 8 = .ok be ∧
      (guessEndian le be = b.endianness ↔ Tellable b.endianness (statedLength data.length))) ∧
    (Tellable b.endianness (statedLength data.length) → ∀ fuel id0, data.length ≤ fuel →
      BMG.load sjis fuel data id0 = .ok (normal b)) := by
  obtain ⟨S⟩ := saved_of h
  obtain ⟨⟨t, ht⟩, ents, hinf, hel, hents, hread, _⟩ := saveMessages_ok L b.messages _ S.inf S.dat S.messages hP
    (At.refl _)
  obtain ⟨inf, dat, hms, hi, hl, hs, h1, h2, h3, h4, h5, h6, h7, h8, h9, h10, hf, hb⟩ := S
  dsimp only at *
  -- the pieces of the file
  obtain ⟨aH, aS⟩ := at_of_append hb
  rw [head_length] at aS
  rw [At.split, At.split, At.split] at aS
  obtain ⟨⟨⟨aI, aD⟩, aW⟩, aL⟩ := aS
  rw [At.split, At.split] at aH
  obtain ⟨b1, b2, _⟩ := aH
  have b3 : At data 8 (enBytes b.endianness 4 (up32 data.length)) := by
    have := b2
    unfold headFields structBytes at this
    exact (At.split.1 this).1
  have hT : up32 data.length < 256 ^ 4 := hf.1
  obtain ⟨le, be, hle, hbe, hg⟩ := guess_eq b.endianness (up32 data.length) hT b3
  rw [up32_eq] at hg
  refine ⟨⟨le, be, hle, hbe, hg⟩, ?_⟩
  intro hTell fuel id0 hfuel
  have hg' := hg.2 hTell
  unfold BMG.load
  have htake : data.take 8 = magicMESG := by
    have := b1.slice_eq (b := 8) rfl
    simpa using this
  have hfields := unpackUs_at (b2.cast (by rfl : 0 + magicMESG.length = 8)) hf
  have hw : (headFields b (up32 data.length)
      (2 + (if b.instructions ≠ [] ∨ b.labels ≠ [] then 1 else 0) + (if b.scripts ≠ [] then 1 else 0))).map Prod.fst
      = [4, 4, 1, 4, 4, 4] := rfl
  rw [hw] at hfields
  rw [raiseIf_false (by simp [htake]), bind_ok, hle, bind_ok, hbe, bind_ok, hg', BMG.loadAs, hfields, bind_ok]
  simp only [headFields, List.map_cons, List.map_nil]
  have henc : encodingOf b.encoding.index = .ok b.encoding := by cases b.encoding <;> rfl
  rw [henc, bind_ok]
  -- the lengths
  have lI : (sectionBytes b.endianness magicINF1 (up32 (16 + inf.length)) b.messages.length (4 + infoLength b.messages)
      b.id inf (padLen (16 + inf.length) 32)).length = up32 (16 + inf.length) := by
    rw [sectionBytes_length _ _ _ _ _ _ _ _ rfl, up32]
  have lD : (datBytes b.endianness dat).length = up32 (8 + dat.length) := by
    unfold datBytes up32
    simp [magicDAT1]
    omega
  rw [lI] at aD
  rw [List.length_append, lI, lD] at aW
  rw [List.length_append, List.length_append, lI, lD] at aL
  -- INF1
  subst hinf
  have pI := parseINF1_at (e := b.endianness) (k := infoLength b.messages) (id := b.id)
    (⟨[], [], [], [], [], id0⟩ : Raw) hents h1 (by rw [hel]; exact h2) h3 h4 (by rw [hel]; exact aI)
  obtain ⟨i1, i2, _, _⟩ := section_fields rfl h1 h2 h3 h4 aI
  have pI' : parseSection b.endianness data 0x20 magicINF1 (up32 (16 + (ents.map (entryBytes b.endianness)).flatten.length))
      ⟨[], [], [], [], [], id0⟩ = .ok ⟨ents, [], [], [], [], b.id⟩ := by
    unfold parseSection
    rw [if_pos rfl, pI]
    rfl
  -- FLI1
  have pL : ∀ (n off : Nat) (r : Raw), n = (if b.scripts ≠ [] then 1 else 0) →
      At data off (if b.scripts ≠ [] then
        sectionBytes b.endianness magicFLI1
          (up32 (16 + ((b.scripts.map fun s => structBytes b.endianness [(4, s.1), (4, s.2)]).flatten).length))
          b.scripts.length 8 0 ((b.scripts.map fun s => structBytes b.endianness [(4, s.1), (4, s.2)]).flatten) 0
        else []) → parseSections b.endianness data n off r =
        .ok { r with scripts := r.scripts ++ b.scripts.map fun s => (s.1, firstHalf b.endianness s.2) } := by
    intro n off r hn ha
    by_cases hne : b.scripts ≠ []
    · rw [if_pos hne] at hn ha
      subst hn
      obtain ⟨f1, f2, _, _⟩ := section_fields rfl h9 h10 (by omega) (by omega) ha
      rw [parseSections_step f1 f2 (by
        unfold parseSection
        rw [if_neg (by decide), if_neg (by decide), if_neg (by decide), if_pos rfl,
          parseFLI1_at r hs h9 h10 ha])]
      rfl
    · have : b.scripts = [] := Decidable.not_not.1 hne
      rw [if_neg hne] at hn
      subst hn
      rw [parseSections, this]
      simp
  -- FLW1
  have pW : ∀ (m off : Nat) (r : Raw), m = (if b.instructions ≠ [] ∨ b.labels ≠ [] then 1 else 0) →
      At data off (if b.instructions ≠ [] ∨ b.labels ≠ [] then
        sectionBytes b.endianness magicFLW1 (up32 (16 + (flwBytes b.endianness b.instructions b.labels).length))
          (evenCount b.instructions.length) (labelsCount b.labels.length) 0
          (flwBytes b.endianness b.instructions b.labels)
          (padLen (16 + (flwBytes b.endianness b.instructions b.labels).length) 32) else []) → ∀ n,
      parseSections b.endianness data (n + m) off r = parseSections b.endianness data n
        (off + (if b.instructions ≠ [] ∨ b.labels ≠ [] then
        sectionBytes b.endianness magicFLW1 (up32 (16 + (flwBytes b.endianness b.instructions b.labels).length))
          (evenCount b.instructions.length) (labelsCount b.labels.length) 0
          (flwBytes b.endianness b.instructions b.labels)
          (padLen (16 + (flwBytes b.endianness b.instructions b.labels).length) 32) else []).length)
        { r with
          instructions := r.instructions ++ b.instructions.filter (fun i => i ≠ zeros 8)
          labels := r.labels ++ b.labels.filter (fun l => l ≠ (0, 0)) } := by
    intro m off r hm ha n
    by_cases hne : b.instructions ≠ [] ∨ b.labels ≠ []
    · rw [if_pos hne] at hm ha ⊢
      subst hm
      obtain ⟨f1, f2, _, _⟩ := section_fields rfl h6 h7 h8 (by omega) ha
      rw [parseSections_step f1 f2 (by
        unfold parseSection
        rw [if_neg (by decide), if_neg (by decide), if_pos rfl, parseFLW1_at r hi hl h6 h7 h8 rfl ha])]
      congr 1
      rw [sectionBytes_length _ _ _ _ _ _ _ _ rfl, up32]
    · rw [if_neg hne] at hm ⊢
      subst hm
      have e1 : b.instructions = [] := Decidable.not_not.1 fun h => hne (.inl h)
      have e2 : b.labels = [] := Decidable.not_not.1 fun h => hne (.inr h)
      rw [e1, e2]
      simp
  have hcount : 2 + (if b.instructions ≠ [] ∨ b.labels ≠ [] then 1 else 0) + (if b.scripts ≠ [] then 1 else 0)
      = ((if b.scripts ≠ [] then 1 else 0) + (if b.instructions ≠ [] ∨ b.labels ≠ [] then 1 else 0)) + 1 + 1 := by
    omega
  rw [hcount, parseSections_step i1 i2 pI', parse_dat _ _ h5 aD, pW _ _ _ rfl (aW.cast (by omega)) _,
    pL _ _ _ rfl (aL.cast (by omega)), bind_ok]
  dsimp only
  have hdl : dat.length ≤ data.length := by
    have := aD.bound
    rw [lD] at this
    unfold up32 at this
    omega
  rw [hread _ fuel (by omega), bind_ok]
  simp [normal, pure_def]

end Verif.Proofs.Bmg
