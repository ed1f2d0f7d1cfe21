import Verif.Spec.FormatRom
import Verif.Proofs.Reader
import Verif.Proofs.RomResave

namespace Verif.Proofs.FormatRom

open Verif Verif.Model.Rom Verif.Spec.Reader Verif.Spec.FormatRom Verif.Proofs.Reader

/-! ## Parts of loading -/

theorem readFile_eq {d f : Bytes} {i : Nat} (h : 8 * i + 8 ≤ f.length) :
    readFile d f i = .ok (u32 f (8 * i), span d (u32 f (8 * i)) (u32 f (8 * i + 4))) := by
  unfold readFile
  rw [(unpackUs_iff (ks := [4, 4]) (by decide) (by decide)).2 ⟨by simp; omega, rfl⟩, bind_ok]
  simp only [readAll, uN, slice_span]
  rfl

theorem readFiles_eq (d f : Bytes) : mapE (readFile d f) (List.range (f.length / 8)) =
    .ok ((List.range (f.length / 8)).map fun i => (u32 f (8 * i), span d (u32 f (8 * i)) (u32 f (8 * i + 4)))) := by
  have : ∀ l : List Nat, (∀ i ∈ l, 8 * i + 8 ≤ f.length) → mapE (readFile d f) l =
      .ok (l.map fun i => (u32 f (8 * i), span d (u32 f (8 * i)) (u32 f (8 * i + 4)))) := by
    intro l
    induction l with
    | nil => intro _; rfl
    | cons a l ih =>
      intro h
      rw [mapE, readFile_eq (h a (by simp)), bind_ok, ih (fun i hi => h i (by simp [hi]))]; rfl
  apply this
  intro i hi
  have := List.mem_range.1 hi
  omega

theorem bannerLength_eq (v : Nat) : iconBannerLength v = bannerSize v := by
  unfold iconBannerLength bannerSize
  simp only [List.lookup_cons, List.lookup_nil]
  by_cases h1 : v = 1
  · subst h1; rfl
  · by_cases h2 : v = 2
    · subst h2; rfl
    · by_cases h3 : v = 3
      · subst h3; rfl
      · by_cases h4 : v = 0x103
        · subst h4; rfl
        · rw [beq_false_of_ne h1, beq_false_of_ne h2, beq_false_of_ne h3, beq_false_of_ne h4, if_neg h2, if_neg h3,
            if_neg h4]

theorem banner_iff {d p : Bytes} {o : Nat} : readIconBanner d o = .ok p ↔
    (o = 0 ∨ o + 2 ≤ d.length) ∧ p = if o = 0 then [] else bytesAt d o (bannerSize (u16 d o)) := by
  unfold readIconBanner
  by_cases h : o = 0
  · simp [h, eq_comm]
  · rw [if_neg h, if_neg h]
    simp only [h, false_or, bind_eq_ok, pure_eq_ok, unpack2, slice_bytesAt, bannerLength_eq]
    constructor
    · rintro ⟨v, ⟨h1, rfl⟩, rfl⟩; exact ⟨h1, rfl⟩
    · rintro ⟨h1, rfl⟩; exact ⟨_, ⟨h1, rfl⟩, rfl⟩

theorem bytesAt_behind {d : Bytes} {o n : Nat} (h : d.length ≤ o) : bytesAt d o n = [] := by
  unfold bytesAt; rw [List.drop_of_length_le h, List.take_nil]

theorem signature_eq {d : Bytes} : ∃ o, sigOffset d (u32 d 0x80) = .ok o ∧
    (if o = 0 then [] else bytesAt d o 0x88) =
      if signaturePlace d = 0 then [] else bytesAt d (signaturePlace d) 0x88 := by
  have key : ∀ x : Nat, ∃ o, (if x = 0 ∧ u32 d 0x80 < d.length then (pure (u32 d 0x80) : Py Nat) else pure x) = .ok o ∧
      (if o = 0 then [] else bytesAt d o 0x88) = if (if x = 0 then u32 d 0x80 else x) = 0 then []
        else bytesAt d (if x = 0 then u32 d 0x80 else x) 0x88 := by
    intro x
    by_cases h2 : x = 0
    · by_cases h3 : u32 d 0x80 < d.length
      · exact ⟨_, if_pos ⟨h2, h3⟩, by rw [if_pos h2]⟩
      · refine ⟨_, if_neg (fun h => h3 h.2), ?_⟩
        rw [if_pos h2, if_pos h2, bytesAt_behind (by omega), ite_self]
    · exact ⟨_, if_neg (fun h => h2 h.1), by simp only [if_neg h2]⟩
  unfold sigOffset signaturePlace
  by_cases h1 : 0x1004 ≤ d.length
  · rw [if_pos h1, unpack4.2 ⟨h1, rfl⟩, bind_ok]
    obtain ⟨o, h2, h3⟩ := key (u32 d 0x1000)
    refine ⟨o, h2, h3.trans ?_⟩
    simp only [show ¬ d.length < 0x1004 by omega, false_or]
  · rw [if_neg h1, bind_ok]
    obtain ⟨o, h2, h3⟩ := key 0
    refine ⟨o, h2, h3.trans ?_⟩
    simp only [show d.length < 0x1004 by omega, true_or, if_true]

theorem bytesAt_add (d : Bytes) (o m n : Nat) : bytesAt d o (m + n) = bytesAt d o m ++ bytesAt d (o + m) n := by
  unfold bytesAt
  rw [List.take_add, List.drop_drop]

theorem postData_at (d : Bytes) : ∀ (fuel o : Nat), d.length ≤ o + 12 * fuel → PostDataAt d o (readPostData d fuel o)
  | 0, o, h => ⟨0, by rw [readPostData]; rfl, by omega, by rw [bytesAt_behind (by omega)]; simp⟩
  | fuel + 1, o, h => by
    rw [readPostData, slice_bytesAt, slice_bytesAt]
    split
    · rename_i hm
      obtain ⟨n, h1, h2, h3⟩ := postData_at d fuel (o + 12) (by omega)
      refine ⟨n + 1, ?_, ?_, ?_⟩
      · rw [h1, Nat.mul_add, Nat.add_comm (12 * n), bytesAt_add]
      · intro i hi
        cases i with
        | zero => exact hm
        | succ i =>
          have := h2 i (by omega)
          rw [show o + 12 * (i + 1) = o + 12 + 12 * i by omega]; exact this
      · rw [show o + 12 * (n + 1) = o + 12 + 12 * n by omega]; exact h3
    · rename_i hm
      exact ⟨0, rfl, by omega, hm⟩

theorem postData_unique {d p p' : Bytes} {o : Nat} (h : PostDataAt d o p) (h' : PostDataAt d o p') : p = p' := by
  obtain ⟨n, rfl, h1, h2⟩ := h
  obtain ⟨m, rfl, h3, h4⟩ := h'
  have : n = m := by
    rcases Nat.lt_trichotomy n m with hlt | he | hlt
    · exact absurd (h3 n hlt) h2
    · exact he
    · exact absurd (h1 m hlt) h4
  rw [this]

/-- Lists in strictly ascending order that have the same members are equal. -/
theorem sorted_unique {α : Type} {key : α → Nat} : ∀ {l l' : List α}, l.Pairwise (fun a b => key a < key b) →
    l'.Pairwise (fun a b => key a < key b) → (∀ k, k ∈ l ↔ k ∈ l') → l = l'
  | [], [], _, _, _ => rfl
  | [], b :: l', _, _, h => absurd ((h b).2 (by simp)) (by simp)
  | a :: l, [], _, _, h => absurd ((h a).1 (by simp)) (by simp)
  | a :: l, b :: l', h1, h2, h => by
    rw [List.pairwise_cons] at h1 h2
    have e : a = b := by
      rcases List.mem_cons.1 ((h a).1 (by simp)) with e | ha
      · exact e
      · rcases List.mem_cons.1 ((h b).2 (by simp)) with e | hb
        · exact e.symm
        · have := h1.1 b hb; have := h2.1 a ha; omega
    subst e
    rw [sorted_unique h1.2 h2.2]
    intro k
    have := h k
    simp only [List.mem_cons] at this
    constructor
    · intro hk
      rcases this.1 (.inr hk) with rfl | hk'
      · have := h1.1 k hk; omega
      · exact hk'
    · intro hk
      rcases this.2 (.inr hk) with rfl | hk'
      · have := h2.1 k hk; omega
      · exact hk'

theorem sortIds_at (d : Bytes) : Sorted d (sortIds ((List.range ((fat d).length / 8)).map (start d))) := by
  have hget : ∀ i s, ((List.range ((fat d).length / 8)).map (start d))[i]? = some s ↔
      i < (fat d).length / 8 ∧ s = start d i := by
    intro i s
    rw [List.getElem?_map, Option.map_eq_some_iff]
    constructor
    · rintro ⟨j, hj, rfl⟩
      obtain ⟨hl, rfl⟩ := List.getElem?_eq_some_iff.1 hj
      rw [List.getElem_range]
      exact ⟨by simpa using hl, rfl⟩
    · rintro ⟨hi, rfl⟩
      exact ⟨i, by simp [hi], rfl⟩
  obtain ⟨h1, h2⟩ := Rom.sortIds_spec ((List.range ((fat d).length / 8)).map (start d))
  constructor
  · intro k
    rw [h1]
    constructor
    · rintro ⟨i, s, rfl, hi, hj⟩
      obtain ⟨hil, rfl⟩ := (hget i s).1 hi
      exact ⟨i, rfl, hil, fun j hij hjl e => hj j hij ((hget j _).2 ⟨hjl, e.symm⟩)⟩
    · rintro ⟨i, rfl, hi, hj⟩
      refine ⟨i, _, rfl, (hget i _).2 ⟨hi, rfl⟩, ?_⟩
      intro j hij e
      obtain ⟨hjl, e⟩ := (hget j _).1 e
      exact hj j hij hjl e.symm
  · refine List.Pairwise.imp_of_mem ?_ h2
    intro a b ha hb hab
    obtain ⟨i, s, rfl, hi, -⟩ := (h1 a).1 ha
    obtain ⟨j, t, rfl, hj, -⟩ := (h1 b).1 hb
    have := hab s t hi hj
    rw [((hget i s).1 hi).2, ((hget j t).1 hj).2] at this
    exact this

theorem sorted_at {d : Bytes} {ids : List Int} :
    Sorted d ids ↔ ids = sortIds ((List.range ((fat d).length / 8)).map (start d)) := by
  constructor
  · intro h
    have h' := sortIds_at d
    exact sorted_unique h.2 h'.2 (fun k => (h.1 k).trans (h'.1 k).symm)
  · rintro rfl; exact sortIds_at d

/-! ## The name -/

theorem name_iff {x a : Bytes} (hx : x.length = 12) :
    (a.length ≤ 12 ∧ a.getLast? ≠ some 0 ∧ x = (a ++ List.replicate 12 0).take 12) ↔
      a = Model.InfoBlock.rstripZero x := by
  have key : a.length ≤ 12 → (a ++ List.replicate 12 (0 : UInt8)).take 12 = a ++ zeros (12 - a.length) := by
    intro h
    rw [List.take_append, List.take_of_length_le h, List.take_replicate]
    unfold zeros
    rw [Nat.min_eq_left (by omega)]
  constructor
  · rintro ⟨h1, h2, h3⟩
    rw [h3, key h1, InfoBlock.rstripZero_append _ h2]
  · intro h
    obtain ⟨k, h1, h2⟩ := InfoBlock.rstripZero_eq x
    rw [← h] at h1 h2
    have hl := congrArg List.length h1
    rw [List.length_append, zeros_length, hx] at hl
    have h3 : a.length ≤ 12 := by omega
    refine ⟨h3, h2, ?_⟩
    rw [key h3, h1, show 12 - a.length = k by omega]

theorem fixed_take (n : Nat) (b : Bytes) : fixed n b = (b ++ List.replicate n 0).take n := by
  unfold fixed zeros
  rw [List.take_append, List.take_append, List.take_replicate, List.take_replicate,
    Nat.min_self, Nat.min_eq_left (by omega)]

theorem span_min (d : Bytes) (a b : Nat) : span d a (min b d.length) = span d a b := by
  unfold span
  congr 1
  rw [List.take_eq_take_iff]; omega

theorem slice_clip (d : Bytes) (p n : Nat) : slice d p (min d.length (p + n)) = bytesAt d p n := by
  rw [← slice_bytesAt, slice_span, slice_span, Nat.min_comm, span_min]

/-! ## What is loaded, as one expression -/

/-- The ROM that is loaded. -/
def build (d : Bytes) (f : Model.Fnt.Folder) : Rom :=
  { name := Model.InfoBlock.rstripZero (bytesAt d 0 12)
    idCode := bytesAt d 12 4
    developerCode := bytesAt d 16 2
    unitCode := u8 d 0x12
    encryptionSeedSelect := u8 d 0x13
    deviceCapacity := u8 d 0x14
    pad015 := u8 d 0x15
    pad016 := u8 d 0x16
    pad017 := u8 d 0x17
    pad018 := u8 d 0x18
    pad019 := u8 d 0x19
    pad01A := u8 d 0x1A
    pad01B := u8 d 0x1B
    pad01C := u8 d 0x1C
    region := u8 d 0x1D
    version := u8 d 0x1E
    autostart := u8 d 0x1F
    arm9EntryAddress := u32 d 0x24
    arm9RamAddress := u32 d 0x28
    arm7EntryAddress := u32 d 0x34
    arm7RamAddress := u32 d 0x38
    normalCardControlRegisterSettings := u32 d 0x60
    secureCardControlRegisterSettings := u32 d 0x64
    secureAreaChecksum := u16 d 0x6C
    secureTransferDelay := u16 d 0x6E
    arm9CodeSettingsPointerAddress := u32 d 0x70
    arm7CodeSettingsPointerAddress := u32 d 0x74
    secureAreaDisable := bytesAt d 0x78 8
    pad088 := bytesAt d 0x88 0x38
    nintendoLogo := bytesAt d 0xC0 0x9C
    debugRomAddress := u32 d 0x168
    pad16C := bytesAt d 0x16C 0x94
    pad200 := span d 0x200 (u32 d 0x20)
    rsaSignature := if signaturePlace d = 0 then [] else bytesAt d (signaturePlace d) 0x88
    arm9 := bytesAt d (u32 d 0x20) (u32 d 0x2C)
    arm9PostData := readPostData d d.length (u32 d 0x20 + u32 d 0x2C)
    arm7 := bytesAt d (u32 d 0x30) (u32 d 0x3C)
    arm9OverlayTable := bytesAt d (u32 d 0x50) (u32 d 0x54)
    arm7OverlayTable := bytesAt d (u32 d 0x58) (u32 d 0x5C)
    iconBanner := if u32 d 0x68 = 0 then [] else bytesAt d (u32 d 0x68) (bannerSize (u16 d (u32 d 0x68)))
    debugRom := if u32 d 0x160 = 0 then [] else bytesAt d (u32 d 0x160) (u32 d 0x164)
    filenames := f
    files := (List.range ((fat d).length / 8)).map fun i => span d (start d i) (u32 (fat d) (8 * i + 4))
    sortedFileIds := sortIds ((List.range ((fat d).length / 8)).map (start d)) }

/-- The tree of names in an image. -/
def Names (limit : Nat) (d : Bytes) (f : Model.Fnt.Folder) : Prop :=
  (if nameTable d = [] then .ok Model.Fnt.emptyFolder else Model.Fnt.load limit (nameTable d)) = Except.ok (ε := PyErr) f

theorem names_bind {p : Prop} [Decidable p] {x : Py Model.Fnt.Folder} {q : Rom} {g : Model.Fnt.Folder → Rom}
    {f0 : Model.Fnt.Folder} : (if p then .ok (g f0) else x >>= fun f => .ok (g f)) = Except.ok (ε := PyErr) q ↔
    ∃ f, (if p then .ok f0 else x) = .ok f ∧ q = g f := by
  split
  · simp [eq_comm]
  · rw [bind_eq_ok]
    simp [eq_comm]

theorem load_iff {limit : Nat} {raw : Bytes} {q : Rom} : load limit raw = .ok q ↔
    (u32 (image raw) 0x68 = 0 ∨ u32 (image raw) 0x68 + 2 ≤ (image raw).length) ∧
    ∃ f, Names limit (image raw) f ∧ q = build (image raw) f := by
  have hl : 0x200 ≤ (image raw).length := by unfold image; rw [List.length_append, List.length_replicate]; omega
  unfold load
  rw [show raw ++ zeros (0x200 - raw.length) = image raw from rfl]
  generalize image raw = d at hl ⊢
  dsimp only
  rw [(unpackUs_iff (o := 0x12) (by decide) (by decide)).2 ⟨by simp only [List.sum_cons, List.sum_nil]; omega, rfl⟩, bind_ok,
    (unpackUs_iff (o := 0x20) (by decide) (by decide)).2 ⟨by simp only [List.sum_cons, List.sum_nil]; omega, rfl⟩, bind_ok,
    (unpackUs_iff (o := 0x60) (by decide) (by decide)).2 ⟨by simp only [List.sum_cons, List.sum_nil]; omega, rfl⟩, bind_ok,
    (unpackUs_iff (o := 0x80) (by decide) (by decide)).2 ⟨by simp only [List.sum_cons, List.sum_nil]; omega, rfl⟩, bind_ok,
    (unpackUs_iff (o := 0x160) (by decide) (by decide)).2 ⟨by simp only [List.sum_cons, List.sum_nil]; omega, rfl⟩, bind_ok]
  obtain ⟨so, hso, hsig⟩ := signature_eq (d := d)
  simp only [readAll, uN, Nat.reduceAdd, readFiles_eq, hso, bind_ok, bind_eq_ok, banner_iff, slice_clip, hsig]
  simp only [slice_bytesAt]
  have s1 : slice d 0 12 = bytesAt d 0 12 := slice_bytesAt d 0 12
  have s2 : slice d 12 16 = bytesAt d 12 4 := slice_bytesAt d 12 4
  have s3 : slice d 16 18 = bytesAt d 16 2 := slice_bytesAt d 16 2
  have s4 : slice d 0x78 0x80 = bytesAt d 0x78 8 := slice_bytesAt d 0x78 8
  have s5 : slice d 0x88 0xC0 = bytesAt d 0x88 0x38 := slice_bytesAt d 0x88 0x38
  have s6 : slice d 0xC0 0x15C = bytesAt d 0xC0 0x9C := slice_bytesAt d 0xC0 0x9C
  have s7 : slice d 0x16C 0x200 = bytesAt d 0x16C 0x94 := slice_bytesAt d 0x16C 0x94
  have s8 : slice d 0x200 (min (u32 d 0x20) d.length) = span d 0x200 (u32 d 0x20) := by rw [slice_span, span_min]
  simp only [s1, s2, s3, s4, s5, s6, s7, s8, List.map_map]
  constructor
  · rintro ⟨ic, ⟨h1, rfl⟩, h2⟩
    obtain ⟨f, hf, rfl⟩ := names_bind.1 h2
    exact ⟨h1, f, hf, rfl⟩
  · rintro ⟨h1, f, hf, rfl⟩
    exact ⟨_, ⟨h1, rfl⟩, names_bind.2 ⟨f, hf, rfl⟩⟩

end Verif.Proofs.FormatRom
