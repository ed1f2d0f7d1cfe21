import Verif.Spec.FormatMainCode
import Verif.Model.Code
import Verif.Proofs.Reader

/-!
# Main code files, byte by byte (C111)
-/

namespace Verif.Props.FormatMainCode

open Verif Verif.Model Verif.Model.Code Verif.Spec.Reader Verif.Spec.FormatMainCode Verif.Proofs.Reader

theorem place_le {len size p : Nat} {off : Int} (h : place len off size = some p) : p + size ≤ len := by
  unfold place at h
  split at h
  · cases h; omega
  · split at h
    · cases h; omega
    · cases h

/-- Reading fields at a place that may be negative. -/
theorem structOffset_iff {α : Type} {len size : Nat} {off : Int} {f : Nat → Py α} {a : α}
    (hf : ∀ o, len < o + size → f o ≠ .ok a) :
    (structOffset len size off >>= f) = .ok a ↔ ∃ p, place len off size = some p ∧ f p = .ok a := by
  unfold structOffset place
  by_cases h1 : 0 ≤ off
  · rw [if_pos h1, bind_ok]
    by_cases h2 : off + size ≤ len
    · rw [if_pos ⟨h1, h2⟩]; simp
    · rw [if_neg (by omega), if_neg (by omega)]
      constructor
      · intro h; exact absurd h (hf _ (by omega))
      · rintro ⟨_, h, _⟩; cases h
  · rw [if_neg h1, if_neg (show ¬ (0 ≤ off ∧ off + size ≤ len) by omega)]
    by_cases h2 : off + size > 0
    · rw [if_pos h2, bind_error, if_neg (by omega)]
      constructor
      · intro h; cases h
      · rintro ⟨_, h, _⟩; cases h
    · rw [if_neg h2]
      by_cases h3 : off + len < 0
      · rw [if_pos h3, bind_error, if_neg (by omega)]
        constructor
        · intro h; cases h
        · rintro ⟨_, h, _⟩; cases h
      · rw [if_neg h3, bind_ok, if_pos (by omega)]; simp

theorem unpackI_iff {d : Bytes} {off : Int} {w : Nat} : unpackI d off = .ok w ↔ wordAt d off = some w := by
  unfold unpackI wordAt
  rw [structOffset_iff (by intro o ho h; have := (unpack4.1 h).1; omega)]
  constructor
  · rintro ⟨p, h1, h2⟩; rw [h1, (unpack4.1 h2).2]; rfl
  · intro h
    cases hp : place d.length off 4 with
    | none => rw [hp] at h; cases h
    | some p =>
      rw [hp] at h
      simp only [Option.map_some, Option.some.injEq] at h
      exact ⟨p, rfl, unpack4.2 ⟨place_le hp, h.symm⟩⟩

theorem unpack3I_iff {d : Bytes} {off : Int} {w : Nat × Nat × Nat} : unpack3I d off = .ok w ↔
    ∃ p, place d.length off 12 = some p ∧ w = (u32 d p, u32 d (p + 4), u32 d (p + 8)) := by
  have key (o : Nat) : (do
      let a ← unpackU .little 4 d o
      let b ← unpackU .little 4 d (o + 4)
      let c ← unpackU .little 4 d (o + 8)
      return (a, b, c)) = Except.ok (ε := PyErr) w ↔ o + 12 ≤ d.length ∧ w = (u32 d o, u32 d (o + 4), u32 d (o + 8)) := by
    simp only [bind_eq_ok, unpack4, pure_eq_ok]
    constructor
    · rintro ⟨a, ⟨_, rfl⟩, b, ⟨_, rfl⟩, c, ⟨h, rfl⟩, h'⟩
      exact ⟨by omega, h'.symm⟩
    · rintro ⟨h, rfl⟩
      exact ⟨_, ⟨by omega, rfl⟩, _, ⟨by omega, rfl⟩, _, ⟨by omega, rfl⟩, rfl⟩
  unfold unpack3I
  rw [structOffset_iff (by intro o ho h; have := ((key o).1 h).1; omega)]
  constructor
  · rintro ⟨p, h1, h2⟩; exact ⟨p, h1, ((key p).1 h2).2⟩
  · rintro ⟨p, h1, rfl⟩; exact ⟨p, h1, (key p).2 ⟨place_le h1, rfl⟩⟩

theorem cut_eq (d : Bytes) (a b : Int) : pySliceI d a b = cut d a b := by
  unfold pySliceI cut
  have h (i : Int) : sliceBound d.length i = bound d.length i := by
    unfold sliceBound bound
    by_cases hi : i < 0
    · rw [if_pos hi, if_neg (by omega)]
    · rw [if_neg hi, if_pos (by omega)]
  rw [h, h, slice_span]

/-! ## Where the settings are -/

theorem pointer_iff (d : Bytes) (ram : Nat) (ptr : Option Nat) (o : Int) :
    settingsByPointer d ram ptr = some o ↔ PointerAt d ram ptr o := by
  unfold PointerAt
  cases ptr with
  | none => simp [settingsByPointer]
  | some p =>
    unfold settingsByPointer
    dsimp only
    by_cases hp : p = 0
    · rw [if_pos hp]; simp [hp]
    · rw [if_neg hp]
      cases hu : unpackI d ((p : Int) - ram - 4) with
      | error e =>
        dsimp only
        constructor
        · intro h; cases h
        · rintro ⟨p', w, hpp, _, h, _⟩
          cases hpp
          rw [unpackI_iff.2 h] at hu; cases hu
      | ok w =>
        dsimp only
        have hw := unpackI_iff.1 hu
        constructor
        · intro h
          split at h
          · cases h
            exact ⟨p, w, rfl, hp, hw, by omega, by omega, by omega⟩
          · cases h
        · rintro ⟨p', w', hpp, _, h, h1, h2, rfl⟩
          cases hpp
          rw [hw] at h
          cases h
          rw [if_pos (by omega)]
          congr 1; omega

theorem magic_iff (d : Bytes) (i : Nat) : slice d i (i + 8) = settingsMagic ↔ MagicAt d i := by
  unfold MagicAt settingsMagic
  rw [slice_bytesAt]

theorem end_iff (d : Bytes) (ram m : Nat) (h : ram + d.length < 2 ^ 32) :
    slice d m (m + 4) = enBytes .little 4 (ram + d.length) ↔ EndAt d ram m := by
  unfold EndAt
  constructor
  · intro hs
    have hl := congrArg List.length hs
    rw [enBytes_length] at hl
    have hm : m + 4 ≤ d.length := by simp [slice] at hl; omega
    refine ⟨hm, ?_⟩
    have := leVal_4 hm
    rw [← this, hs]
    show enVal .little (enBytes .little 4 (ram + d.length)) = _
    exact enVal_enBytes (by omega)
  · rintro ⟨hm, hv⟩
    rw [← leVal_4 hm] at hv
    rw [← hv]
    have hl : (slice d m (m + 4)).length = 4 := by rw [slice_length_of_le hm]; omega
    have := enBytes_enVal .little (slice d m (m + 4))
    rw [hl] at this
    exact this.symm

theorem search_iff (d : Bytes) (ram : Nat) (h : ram + d.length < 2 ^ 32) : ∀ (n k : Nat) (o : Option Int),
    searchTableEnd d (ram + d.length) (enBytes .little 4 (ram + d.length)) (List.range' k n) = .ok o ↔
      (∃ m : Nat, k ≤ m ∧ m < k + n ∧ o = some ((m : Int) - 4) ∧ TableAt d ram m ∧
        ∀ m', k ≤ m' → m' < m → ¬ TableAt d ram m' ∧ ¬ (EndAt d ram m' ∧ wordAt d ((m' : Int) - 4) = none)) ∨
      (o = none ∧ ∀ m : Nat, k ≤ m → m < k + n → ¬ TableAt d ram m ∧ ¬ (EndAt d ram m ∧ wordAt d ((m : Int) - 4) = none))
  | 0, k, o => by
    simp only [List.range'_zero, searchTableEnd]
    constructor
    · intro h; cases h; exact Or.inr ⟨rfl, fun m h1 h2 => by omega⟩
    · rintro (⟨m, h1, h2, _⟩ | ⟨rfl, _⟩)
      · omega
      · rfl
  | n + 1, k, o => by
    have ih := search_iff d ram h n (k + 1) o
    rw [List.range'_succ]
    simp only [searchTableEnd]
    -- what does not hold at `k` can be skipped
    have skip (hk : ¬ TableAt d ram k ∧ ¬ (EndAt d ram k ∧ wordAt d ((k : Int) - 4) = none)) :
        searchTableEnd d (ram + d.length) (enBytes .little 4 (ram + d.length)) (List.range' (k + 1) n) = .ok o ↔
      (∃ m : Nat, k ≤ m ∧ m < k + (n + 1) ∧ o = some ((m : Int) - 4) ∧ TableAt d ram m ∧
        ∀ m', k ≤ m' → m' < m → ¬ TableAt d ram m' ∧ ¬ (EndAt d ram m' ∧ wordAt d ((m' : Int) - 4) = none)) ∨
      (o = none ∧ ∀ m : Nat, k ≤ m → m < k + (n + 1) → ¬ TableAt d ram m ∧
        ¬ (EndAt d ram m ∧ wordAt d ((m : Int) - 4) = none)) := by
      rw [ih]
      constructor
      · rintro (⟨m, h1, h2, h3, h4, h5⟩ | ⟨h1, h2⟩)
        · refine Or.inl ⟨m, by omega, by omega, h3, h4, fun m' a b => ?_⟩
          rcases Nat.lt_or_eq_of_le a with a | rfl
          · exact h5 m' (by omega) b
          · exact hk
        · refine Or.inr ⟨h1, fun m' a b => ?_⟩
          rcases Nat.lt_or_eq_of_le a with a | rfl
          · exact h2 m' (by omega) (by omega)
          · exact hk
      · rintro (⟨m, h1, h2, h3, h4, h5⟩ | ⟨h1, h2⟩)
        · refine Or.inl ⟨m, ?_, by omega, h3, h4, fun m' a b => h5 m' (by omega) b⟩
          rcases Nat.lt_or_eq_of_le h1 with a | rfl
          · omega
          · exact absurd h4 hk.1
        · exact Or.inr ⟨h1, fun m' a b => h2 m' (by omega) (by omega)⟩
    by_cases he : EndAt d ram k
    · rw [if_pos ((end_iff d ram k h).2 he)]
      cases hu : unpackI d ((k : Int) - 4) with
      | error e =>
        have hnone : wordAt d ((k : Int) - 4) = none := by
          cases hw : wordAt d ((k : Int) - 4) with
          | none => rfl
          | some w => rw [unpackI_iff.2 hw] at hu; cases hu
        rw [bind_error]
        constructor
        · intro h; cases h
        · rintro (⟨m, h1, h2, h3, h4, h5⟩ | ⟨h1, h2⟩)
          · rcases Nat.lt_or_eq_of_le h1 with a | rfl
            · exact absurd ⟨he, hnone⟩ (h5 k (by omega) a).2
            · obtain ⟨_, s, hs, _⟩ := h4
              rw [hnone] at hs; cases hs
          · exact absurd ⟨he, hnone⟩ (h2 k (by omega) (by omega)).2
      | ok s =>
        have hw := unpackI_iff.1 hu
        rw [bind_ok]
        by_cases hc : s % 4 = 0 ∧ (((ram + d.length : Nat) : Int) - s) % 12 = 0 ∧ ((ram + d.length : Nat) : Int) - s < 0x100
        · rw [if_pos hc, pure_eq_ok]
          have ht : TableAt d ram k := ⟨he, s, hw, hc⟩
          constructor
          · intro h
            exact Or.inl ⟨k, by omega, by omega, h.symm, ht, fun m' a b => by omega⟩
          · rintro (⟨m, h1, h2, h3, h4, h5⟩ | ⟨h1, h2⟩)
            · rcases Nat.lt_or_eq_of_le h1 with a | rfl
              · exact absurd ht (h5 k (by omega) a).1
              · exact h3.symm
            · exact absurd ht (h2 k (by omega) (by omega)).1
        · rw [if_neg hc]
          apply skip
          constructor
          · rintro ⟨_, s', hs', hc'⟩
            rw [hw] at hs'
            cases hs'
            exact hc hc'
          · rintro ⟨_, hn⟩; rw [hw] at hn; cases hn
    · rw [if_neg (fun hh => he ((end_iff d ram k h).1 hh))]
      exact skip ⟨fun t => he t.1, fun t => he t.1⟩

/-- C111: where the constructor finds the code settings in any uncompressed data. -/
theorem settings_any (d : Bytes) (ram : Nat) (ptr : Option Nat) (o : Option Int) :
    findSettings d ram ptr = .ok o ↔ SettingsAt d ram ptr o := by
  unfold findSettings SettingsAt
  cases hp : settingsByPointer d ram ptr with
  | some x =>
    have hx := (pointer_iff d ram ptr x).1 hp
    dsimp only
    constructor
    · intro h; cases h; exact Or.inl ⟨x, rfl, hx⟩
    · rintro (⟨y, rfl, hy⟩ | ⟨hno, _⟩)
      · have := (pointer_iff d ram ptr y).2 hy
        rw [hp] at this; cases this; rfl
      · exact absurd hx (hno x)
  | none =>
    have hno : ∀ x, ¬ PointerAt d ram ptr x := by
      intro x hx
      have := (pointer_iff d ram ptr x).2 hx
      rw [hp] at this; cases this
    have hl (P : Prop) : ((∃ x, o = some x ∧ PointerAt d ram ptr x) ∨ (∀ x, ¬ PointerAt d ram ptr x) ∧ P) ↔ P := by
      constructor
      · rintro (⟨x, _, hx⟩ | ⟨_, h⟩)
        · exact absurd hx (hno x)
        · exact h
      · exact fun h => Or.inr ⟨hno, h⟩
    rw [hl]
    dsimp only
    unfold searchForCodeSettingsOffs
    cases hf : (List.range 0x2000).find? (fun i => slice d (4 * i) (4 * i + 8) = settingsMagic) with
    | some i =>
      rw [List.find?_range_eq_some] at hf
      obtain ⟨h1, h2, h3⟩ := hf
      have hi : MagicAt d (4 * i) := (magic_iff d _).1 (by simpa using h1)
      have hlt : i < 0x2000 := by simpa using h2
      have hbefore : ∀ j < i, ¬ MagicAt d (4 * j) := by
        intro j hj hm
        have := h3 j hj
        simp [(magic_iff d _).2 hm] at this
      dsimp only
      constructor
      · intro h
        cases h
        exact Or.inl ⟨i, hlt, rfl, hi, hbefore⟩
      · rintro (⟨j, hj, rfl, hm, hb⟩ | ⟨hnone, _⟩)
        · have : j = i := by
            rcases Nat.lt_trichotomy j i with h | h | h
            · exact absurd hm (hbefore j h)
            · exact h
            · exact absurd hi (hb i h)
          subst this; rfl
        · exact absurd hi (hnone i hlt)
    | none =>
      have hnone : ∀ i < 0x2000, ¬ MagicAt d (4 * i) := by
        intro i hi hm
        rw [List.find?_eq_none] at hf
        have := hf i (List.mem_range.2 hi)
        simp [(magic_iff d _).2 hm] at this
      have hl2 (P : Prop) : ((∃ i : Nat, i < 0x2000 ∧ o = some (4 * (i : Int) - 0x1C) ∧ MagicAt d (4 * i) ∧ ∀ j < i, ¬ MagicAt d (4 * j)) ∨
          (∀ i < 0x2000, ¬ MagicAt d (4 * i)) ∧ P) ↔ P := by
        constructor
        · rintro (⟨i, hi, _, hm, _⟩ | ⟨_, h⟩)
          · exact absurd hm (hnone i hi)
          · exact h
        · exact fun h => Or.inr ⟨hnone, h⟩
      rw [hl2]
      dsimp only
      by_cases hr : ram + d.length < 2 ^ 32
      · rw [packU_of_lt (by omega), bind_ok, List.range_eq_range', search_iff d ram hr]
        have hbig (m : Nat) (hm : d.length + 1 ≤ m) : ¬ EndAt d ram m := fun h => by have := h.1; omega
        constructor
        · rintro (⟨m, _, _, h3, h4, h5⟩ | ⟨h1, h2⟩)
          · exact ⟨hr, Or.inl ⟨m, h3, h4, fun m' hm' => h5 m' (by omega) hm'⟩⟩
          · refine ⟨hr, Or.inr ⟨h1, fun m => ?_⟩⟩
            by_cases hm : m < d.length + 1
            · exact h2 m (by omega) (by omega)
            · exact ⟨fun t => hbig m (by omega) t.1, fun t => hbig m (by omega) t.1⟩
        · rintro ⟨_, ⟨m, h3, h4, h5⟩ | ⟨h1, h2⟩⟩
          · refine Or.inl ⟨m, by omega, ?_, h3, h4, fun m' _ hm' => h5 m' hm'⟩
            have := h4.1.1; omega
          · exact Or.inr ⟨h1, fun m _ _ => h2 m⟩
      · rw [packU_error (by omega), bind_error]
        constructor
        · intro h; cases h
        · rintro ⟨h, _⟩; exact absurd h hr

/-! ## The sections -/

/-- The sections that the table at `table` describes, with their data from `dataBegin` on. -/
theorem sections_any (d : Bytes) : ∀ (n : Nat) (table dataBegin : Int) (ss : List Section),
    loadSections d n table dataBegin = .ok ss ↔
      ss.length = n ∧ ∀ i, i < n → ∃ p, place d.length (table + 12 * i) 12 = some p ∧
        ss[i]? = some ⟨cut d (dataBegin + sizes d table i) (dataBegin + sizes d table (i + 1)), u32 d p, u32 d (p + 8), false⟩
  | 0, table, db, ss => by
    simp only [loadSections]
    constructor
    · intro h; cases h; exact ⟨rfl, fun i hi => by omega⟩
    · rintro ⟨h, _⟩; rw [List.length_eq_zero_iff.1 h]
  | n + 1, table, db, ss => by
    simp only [loadSections, bind_eq_ok, pure_eq_ok, unpack3I_iff]
    have hsz (p : Nat) (hp : place d.length table 12 = some p) :
        ∀ i, sizes d table (i + 1) = u32 d (p + 4) + sizes d (table + 12) i := by
      intro i
      induction i with
      | zero => simp [sizes, hp]
      | succ i ih =>
        rw [sizes, ih, sizes]
        have : table + 12 * ((i + 1 : Nat) : Int) = table + 12 + 12 * (i : Int) := by omega
        rw [this]; omega
    constructor
    · rintro ⟨w, ⟨p, hp, rfl⟩, rest, hrest, rfl⟩
      obtain ⟨h1, h2⟩ := (sections_any d n _ _ _).1 hrest
      refine ⟨by simp [h1], fun i hi => ?_⟩
      cases i with
      | zero =>
        refine ⟨p, by simpa using hp, ?_⟩
        rw [cut_eq, hsz p hp 0]
        simp [sizes]
      | succ i =>
        obtain ⟨q, hq, he⟩ := h2 i (by omega)
        refine ⟨q, ?_, ?_⟩
        · rw [← hq]; congr 1; omega
        · rw [List.getElem?_cons_succ, he, hsz p hp i, hsz p hp (i + 1)]
          congr 3 <;> · dsimp only; omega
    · rintro ⟨h1, h2⟩
      obtain ⟨p, hp, he⟩ := h2 0 (by omega)
      have hp : place d.length table 12 = some p := by simpa using hp
      match ss, h1, he, h2 with
      | s :: rest, h1, he, h2 =>
        refine ⟨_, ⟨p, hp, rfl⟩, rest, (sections_any d n _ _ _).2 ⟨by simpa using h1, fun i hi => ?_⟩, ?_⟩
        · obtain ⟨q, hq, he⟩ := h2 (i + 1) (by omega)
          refine ⟨q, ?_, ?_⟩
          · rw [← hq]; congr 1; omega
          · rw [List.getElem?_cons_succ, hsz p hp i, hsz p hp (i + 1)] at he
            rw [he]
            congr 3 <;> · dsimp only; omega
        · rw [hsz p hp 0] at he
          simp only [List.getElem?_cons_zero, Option.some.injEq] at he
          rw [he, cut_eq]
          simp [sizes]

/-- C111: a main code file loads from any data if and only if the data decompresses, the search for the settings ends, and
there is room for the settings and for every entry of the table they describe.  The implicit section goes up to the beginning
of the data of the others; section `i` has its address and sizes from the `i`-th twelve bytes of the table, and its data lies
behind that of the sections before it. -/
theorem main_code_any (data : Bytes) (ram : Nat) (ptr : Option Nat) (f : MainCodeFile) :
    MainCodeFile.load data ram ptr = .ok f ↔
      ∃ d, CodeCompression.decompress data = .ok d ∧ SettingsAt d ram ptr f.codeSettingsOffs ∧ f.ramAddress = ram ∧
        match f.codeSettingsOffs with
        | none => f.sections = [⟨d, ram, 0, true⟩]
        | some o => ∃ p, place d.length o 12 = some p ∧
          ∃ begin_ end_ dataBegin : Int, begin_ = u32 d p - ram ∧ end_ = u32 d (p + 4) - ram ∧ dataBegin = u32 d (p + 8) - ram ∧
          f.sections[0]? = some ⟨cut d 0 dataBegin, ram, 0, true⟩ ∧
          f.sections.length = 1 + ((end_ - begin_ + 11) / 12).toNat ∧
          ∀ i, i < ((end_ - begin_ + 11) / 12).toNat → ∃ p, place d.length (begin_ + 12 * i) 12 = some p ∧
            f.sections[i + 1]? = some ⟨cut d (dataBegin + sizes d begin_ i) (dataBegin + sizes d begin_ (i + 1)),
              u32 d p, u32 d (p + 8), false⟩ := by
  unfold MainCodeFile.load
  simp only [bind_eq_ok, pure_eq_ok, settings_any]
  constructor
  · rintro ⟨d, hd, o, ho, w, hw, rest, hrest, rfl⟩
    refine ⟨d, hd, ho, rfl, ?_⟩
    dsimp only
    rw [sections_any] at hrest
    obtain ⟨r1, r2⟩ := hrest
    cases o with
    | none =>
      cases hw
      dsimp only at r1 ⊢
      have : rest = [] := List.length_eq_zero_iff.1 (by rw [r1]; rfl)
      subst this
      rw [cut_eq]
      congr 2
      simp [cut, bound, span]
    | some o =>
      simp only [tableBounds, bind_eq_ok, unpack3I_iff, pure_eq_ok] at hw
      obtain ⟨v, ⟨p, hp, rfl⟩, rfl⟩ := hw
      refine ⟨p, hp, _, _, _, rfl, rfl, rfl, ?_, ?_, ?_⟩
      · rw [cut_eq]; rfl
      · simp only [List.length_cons]; rw [r1]; exact Nat.add_comm _ _
      · intro i hi
        exact r2 i hi
  · rintro ⟨d, hd, ho, hr, hm⟩
    refine ⟨d, hd, _, ho, ?_⟩
    obtain ⟨fs, fr, fo⟩ := f
    dsimp only at hr hm ⊢
    subst hr
    cases fo with
    | none =>
      dsimp only at hm
      subst hm
      refine ⟨_, rfl, [], ?_, ?_⟩
      · dsimp only; rfl
      · dsimp only
        rw [cut_eq]
        congr 2
        simp [cut, bound, span]
    | some o =>
      obtain ⟨p, hp, b, e, db, rfl, rfl, rfl, h1, h2, h3⟩ := hm
      match fs, h1, h2, h3 with
      | s :: rest, h1, h2, h3 =>
        refine ⟨((u32 d p : Int) - fr, (u32 d (p + 4) : Int) - fr, (u32 d (p + 8) : Int) - fr), ?_, rest, ?_, ?_⟩
        · simp only [tableBounds, bind_eq_ok, unpack3I_iff, pure_eq_ok]
          exact ⟨_, ⟨p, hp, rfl⟩, rfl⟩
        · rw [sections_any]
          refine ⟨by simp only [List.length_cons] at h2; dsimp only; omega, fun i hi => h3 i hi⟩
        · simp only [List.getElem?_cons_zero, Option.some.injEq] at h1
          rw [h1, cut_eq]

/-- A file loaded at 0x100 with settings at 0, found through the table end: the table at 24 describes one section of four
bytes at 20. -/
def sample : Bytes :=
  leBytes 4 0x11C ++ leBytes 4 0x128 ++ leBytes 4 0x114 ++ zeros 8 ++ [1, 2, 3, 4] ++ zeros 4 ++
    leBytes 4 0x2000 ++ leBytes 4 4 ++ leBytes 4 16

/-- There is no pointer and no magic number; the settings are where the address of the end of the file is. -/
example : SettingsAt sample 0x100 none (some 0) := by
  rw [← settings_any]; decide +kernel

example : MainCodeFile.load sample 0x100 none =
    .ok ⟨[⟨sample.take 20, 0x100, 0, true⟩, ⟨[1, 2, 3, 4], 0x2000, 16, false⟩], 0x100, some 0⟩ := by
  decide +kernel

/-- A pointer: the word before the address 0x108 is 0x100. -/
example : SettingsAt (leBytes 4 0 ++ leBytes 4 0x102 ++ zeros 24) 0x100 (some 0x108) (some 2) := by
  rw [← settings_any]; decide +kernel

/-- The search may raise: the address of the end of the file, 0x108, is at place 1, and no word is before it. -/
theorem settings_search_raises :
    MainCodeFile.load [0, 0x08, 0x01, 0, 0, 0, 0, 0] 0x100 none = .error .structError := by decide +kernel

end Verif.Props.FormatMainCode
