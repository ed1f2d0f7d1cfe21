import Verif.Props.FormatSbnk

/-!
# Guessing the kind of an instrument (C104)
-/

namespace Verif.Props.GuessInst

open Verif Verif.Model.Common Verif.Model.SoundBank Verif.Spec.Reader Verif.Spec.FormatSbnk Verif.Proofs.Reader
open Verif.Proofs.SoundBank (ruleOutIf_sub ruleOutIf_nodup)

theorem mem_mergePsg {types : List Nat} {t : Nat} : t ∈ mergePsg types ↔ Candidate types t := by
  have step : ∀ (x : Nat) (l : List Nat), x ≠ 1 → ∀ t, t ∈ (if x ∈ l then (if 1 ∈ l.filter (· ≠ x) then l.filter (· ≠ x)
      else 1 :: l.filter (· ≠ x)) else l) ↔ t ≠ x ∧ t ∈ l ∨ t = 1 ∧ x ∈ l := by
    intro x l hx t
    by_cases h : x ∈ l
    · rw [if_pos h]
      split
      · rename_i h1
        simp only [List.mem_filter, decide_eq_true_eq, h, and_true] at h1 ⊢
        constructor
        · rintro ⟨a, b⟩; exact .inl ⟨b, a⟩
        · rintro (⟨a, b⟩ | rfl)
          · exact ⟨b, a⟩
          · exact h1
      · simp only [List.mem_cons, List.mem_filter, decide_eq_true_eq, h, and_true]
        constructor
        · rintro (rfl | ⟨a, b⟩)
          · exact .inr rfl
          · exact .inl ⟨b, a⟩
        · rintro (⟨a, b⟩ | rfl)
          · exact .inr ⟨b, a⟩
          · exact .inl rfl
    · rw [if_neg h]
      simp only [h, and_false, or_false]
      constructor
      · intro ht
        exact ⟨fun e => h (e ▸ ht), ht⟩
      · exact And.right
  unfold mergePsg Candidate
  dsimp only
  rw [step 3 _ (by decide), step 2 _ (by decide), step 2 _ (by decide)]
  constructor
  · rintro (⟨a, ⟨b, c⟩ | ⟨b, c⟩⟩ | ⟨a, ⟨b, c⟩ | ⟨b, c⟩⟩)
    · exact .inl ⟨b, a, c⟩
    · exact .inr ⟨b, .inl c⟩
    · exact .inr ⟨a, .inr c⟩
    · omega
  · rintro (⟨a, b, c⟩ | ⟨a, b | b⟩)
    · exact .inl ⟨b, .inl ⟨a, c⟩⟩
    · exact .inl ⟨by omega, .inr ⟨a, b⟩⟩
    · exact .inr ⟨a, .inl ⟨by decide, b⟩⟩

theorem mergePsg_nodup {types : List Nat} (h : types.Nodup) : (mergePsg types).Nodup := by
  have step : ∀ (x : Nat) (l : List Nat), l.Nodup → (if x ∈ l then (if 1 ∈ l.filter (· ≠ x) then l.filter (· ≠ x)
      else 1 :: l.filter (· ≠ x)) else l).Nodup := by
    intro x l hl
    split
    · split
      · exact hl.filter _
      · rename_i h1
        exact List.nodup_cons.2 ⟨h1, hl.filter _⟩
    · exact hl
  exact step 3 _ (step 2 _ h)

theorem u8_cons (x : UInt8) (es : Bytes) (i : Nat) : u8 (x :: es) (i + 1) = u8 es i := rfl
theorem u8_zero (x : UInt8) (es : Bytes) : u8 (x :: es) 0 = x.toNat := rfl

theorem u8_pos_iff (x : UInt8) : x ≠ 0 ↔ x.toNat ≠ 0 := by
  constructor
  · intro h e; exact h (UInt8.toNat.inj (by simpa using e))
  · rintro h rfl; simp at h

theorem endsOk_zero : ∀ (es : Bytes), endsOk es 0 = true ↔ ∀ i < es.length, u8 es i = 0
  | [] => by simp [endsOk]
  | e :: es => by
    unfold endsOk
    rw [if_neg (by simp)]
    by_cases he : e = 0
    · subst he
      rw [if_neg (by simp), if_neg (by simp), endsOk_zero es]
      constructor
      · intro h i hi
        cases i with
        | zero => rfl
        | succ i => exact h i (by simpa using hi)
      · intro h i hi
        exact h (i + 1) (by simpa using hi)
    · rw [if_pos ⟨rfl, he⟩]
      constructor
      · intro h; cases h
      · intro h
        exact absurd (h 0 (by simp)) ((u8_pos_iff e).1 he)

/-- The ends of the regions are ascending and above `prev`, then zero. -/
theorem endsOk_iff : ∀ (es : Bytes) (prev : Int), prev ≠ 0 → (endsOk es prev = true ↔ ∃ n ≤ es.length,
    (∀ i < n, u8 es i ≠ 0) ∧ (0 < n → prev < (u8 es 0 : Int)) ∧ (∀ i, i + 1 < n → u8 es i < u8 es (i + 1)) ∧
    (∀ i < es.length, n ≤ i → u8 es i = 0))
  | [], prev, hp => by
    unfold endsOk
    simp only [true_iff]
    exact ⟨0, by simp, by simp, by simp, by simp, by simp⟩
  | e :: es, prev, hp => by
    unfold endsOk
    by_cases he : e = 0
    · subst he
      rw [if_pos ⟨hp, rfl⟩, endsOk_zero]
      constructor
      · intro h
        refine ⟨0, by simp, by simp, by simp, by simp, fun i hi _ => ?_⟩
        cases i with
        | zero => rfl
        | succ i => exact h i (by simpa using hi)
      · rintro ⟨n, h1, h2, h3, h4, h5⟩ i hi
        have : n = 0 := by
          apply Nat.eq_zero_of_not_pos
          intro h
          exact h2 0 h rfl
        exact h5 (i + 1) (by simpa using hi) (by omega)
    · have he' := (u8_pos_iff e).1 he
      rw [if_neg (by simp [he]), if_neg (by simp [hp]), if_pos hp]
      split
      · rename_i hle
        constructor
        · intro h; cases h
        · rintro ⟨n, h1, h2, h3, h4, h5⟩
          cases n with
          | zero => exact absurd (h5 0 (by simp) (by omega)) he'
          | succ n =>
            have := h3 (by omega)
            rw [u8_zero] at this
            omega
      · rename_i hle
        rw [endsOk_iff es e.toNat (by omega)]
        constructor
        · rintro ⟨n, h1, h2, h3, h4, h5⟩
          refine ⟨n + 1, by simpa using h1, ?_, ?_, ?_, ?_⟩
          · intro i hi
            cases i with
            | zero => exact he'
            | succ i => exact h2 i (by omega)
          · intro _
            rw [u8_zero]
            omega
          · intro i hi
            cases i with
            | zero =>
              rw [u8_zero, u8_cons]
              have := h3 (by omega)
              omega
            | succ i => exact h4 i (by omega)
          · intro i hi hn
            cases i with
            | zero => omega
            | succ i => exact h5 i (by simpa using hi) (by omega)
        · rintro ⟨n, h1, h2, h3, h4, h5⟩
          cases n with
          | zero => exact absurd (h5 0 (by simp) (by omega)) he'
          | succ n =>
            refine ⟨n, by simpa using h1, ?_, ?_, ?_, ?_⟩
            · intro i hi
              exact h2 (i + 1) (by omega)
            · intro hn
              have := h4 0 (by omega)
              rw [u8_zero, u8_cons] at this
              omega
            · intro i hi
              exact h4 (i + 1) (by omega)
            · intro i hi hn
              exact h5 (i + 1) (by simpa using hi) (by omega)

theorem takeWhile_count : ∀ (es : Bytes) (n : Nat), n ≤ es.length → (∀ i < n, u8 es i ≠ 0) →
    (∀ i < es.length, n ≤ i → u8 es i = 0) → (es.takeWhile (· ≠ 0)).length = n
  | [], n, h1, h2, h3 => by simp at h1; simp [h1]
  | e :: es, n, h1, h2, h3 => by
    cases n with
    | zero =>
      have : e.toNat = 0 := h3 0 (by simp) (by omega)
      have : e = 0 := Classical.byContradiction fun h => (u8_pos_iff e).1 h this
      subst this
      simp
    | succ n =>
      have : e ≠ 0 := (u8_pos_iff e).2 (h2 0 (by omega))
      rw [List.takeWhile_cons, if_pos (by simpa using this), List.length_cons,
        takeWhile_count es n (by simpa using h1) (fun i hi => h2 (i + 1) (by omega))
          (fun i hi hn => h3 (i + 1) (by simpa using hi) (by omega))]

theorem regional_iff {d : Bytes} {o avail : Nat} (hl : o + 8 ≤ d.length) :
    (!(endsOk (slice d o (o + 8)) (-1)) || decide (avail < 8 + 0xC * ((slice d o (o + 8)).takeWhile (· ≠ 0)).length)) = false ↔
    ∃ n ≤ 8, (∀ i < n, u8 d (o + i) ≠ 0) ∧ (∀ i, i + 1 < n → u8 d (o + i) < u8 d (o + i + 1)) ∧
    (∀ i < 8, n ≤ i → u8 d (o + i) = 0) ∧ 8 + 12 * n ≤ avail := by
  rw [slice_bytesAt]
  have hlen : (bytesAt d o 8).length = 8 := by rw [bytesAt_length]; omega
  have hu : ∀ i < 8, u8 (bytesAt d o 8) i = u8 d (o + i) := fun i hi => u8_bytesAt _ _ hi
  simp only [Bool.or_eq_false_iff, Bool.not_eq_false', decide_eq_false_iff_not, Nat.not_lt]
  rw [endsOk_iff _ _ (by decide), hlen]
  constructor
  · rintro ⟨⟨n, h1, h2, h3, h4, h5⟩, h6⟩
    rw [takeWhile_count _ n (by omega) h2 (by rw [hlen]; exact h5)] at h6
    refine ⟨n, h1, ?_, ?_, ?_, h6⟩
    · intro i hi; rw [← hu i (by omega)]; exact h2 i hi
    · intro i hi; rw [← hu i (by omega), Nat.add_assoc, ← hu (i + 1) (by omega)]; exact h4 i hi
    · intro i hi hn; rw [← hu i hi]; exact h5 i hi hn
  · rintro ⟨n, h1, h2, h4, h5, h6⟩
    have a2 : ∀ i < n, u8 (bytesAt d o 8) i ≠ 0 := fun i hi => by rw [hu i (by omega)]; exact h2 i hi
    have a5 : ∀ i < 8, n ≤ i → u8 (bytesAt d o 8) i = 0 := fun i hi hn => by rw [hu i hi]; exact h5 i hi hn
    refine ⟨⟨n, h1, a2, ?_, ?_, a5⟩, ?_⟩
    · intro _; omega
    · intro i hi; rw [hu i (by omega), hu (i + 1) (by omega), ← Nat.add_assoc]; exact h4 i hi
    · rw [takeWhile_count _ n (by omega) a2 (by rw [hlen]; exact a5)]; exact h6

/-! ## The steps -/

/-- What is known of the types that are left: all that the data looks like are. -/
structure Kept (P Q : Nat → Prop) (l : List Nat) : Prop where
  nodup : l.Nodup
  sub : ∀ t ∈ l, Q t
  keeps : ∀ t, Q t → P t → t ∈ l

/-- The best answer. -/
def Best (P Q : Nat → Prop) (r : Option Nat) : Prop := (∀ t, r = some t → Q t) ∧ ((∃ t, Q t ∧ P t) → ∃ t, r = some t ∧ P t)

theorem Kept.early {P Q : Nat → Prop} {l : List Nat} (h : Kept P Q l) (hl : l.length < 2) : Best P Q l.head? := by
  match l, hl with
  | [], _ => exact ⟨by simp, fun ⟨t, h1, h2⟩ => absurd (h.keeps t h1 h2) (by simp)⟩
  | [x], _ =>
    refine ⟨fun t e => ?_, fun ⟨t, h1, h2⟩ => ⟨x, rfl, ?_⟩⟩
    · cases e; exact h.sub x (by simp)
    · have := h.keeps t h1 h2
      rw [List.mem_singleton] at this
      exact this ▸ h2

theorem Kept.ruleOut {P Q : Nat → Prop} {l : List Nat} (h : Kept P Q l) {c : Bool} {t : Nat} (hc : c = true → ¬ P t) :
    Kept P Q (ruleOutIf c t l) where
  nodup := ruleOutIf_nodup h.nodup
  sub := fun x hx => h.sub x (ruleOutIf_sub x hx)
  keeps := fun x hq hp => by
    unfold ruleOutIf
    split
    · rename_i hc'
      refine List.mem_filter.2 ⟨h.keeps x hq hp, ?_⟩
      have : x ≠ t := fun e => hc hc' (e ▸ hp)
      simpa using this
    · exact h.keeps x hq hp

theorem not_ruled {c : Bool} {t : Nat} {l : List Nat} (h : t ∈ ruleOutIf c t l) : c = false := by
  unfold ruleOutIf at h
  cases c
  · rfl
  · simp at h

theorem byte_at {d : Bytes} {i : Nat} {x : UInt8} (h : pyIdx d i = .ok x) : x.toNat = u8 d i := by
  have := pyIdx_eq_ok.1 h
  unfold u8
  rw [this]
  rfl

/-- C104: of the candidates the data looks like, if there is one, one is chosen; and only candidates are. -/
theorem guess_best (choose : List Nat → Nat) (hc : ∀ l, l ≠ [] → choose l ∈ l) (d : Bytes) (o avail : Nat) (types : List Nat)
    (hn : types.Nodup) (hl : o + 8 ≤ d.length) :
    ∃ r, guess choose d o types avail = .ok r ∧ (∀ t, r = some t → Candidate types t) ∧
      ((∃ t, Candidate types t ∧ LooksLike d o avail t) → ∃ t, r = some t ∧ LooksLike d o avail t) := by
  suffices h : ∃ r, guess choose d o types avail = .ok r ∧ Best (LooksLike d o avail) (Candidate types) r by
    obtain ⟨r, h1, h2, h3⟩ := h
    exact ⟨r, h1, h2, h3⟩
  have k0 : Kept (LooksLike d o avail) (Candidate types) (mergePsg types) :=
    ⟨mergePsg_nodup hn, fun t ht => mem_mergePsg.1 ht, fun t hq _ => mem_mergePsg.2 hq⟩
  unfold guess
  dsimp only
  split
  · rename_i h; exact ⟨_, rfl, k0.early h⟩
  have k1 : Kept (LooksLike d o avail) (Candidate types) (ruleOutIf (decide (avail < 8 + 12)) 17
      (ruleOutIf (decide (avail < 2 + 12)) 16 (ruleOutIf (decide (avail < 10)) 0 (mergePsg types)))) := by
    refine Kept.ruleOut (Kept.ruleOut (Kept.ruleOut k0 ?_) ?_) ?_
    · intro h hp; have := hp.1 rfl; simp at h; omega
    · intro h hp; have := hp.2.2.1 rfl; simp at h; omega
    · intro h hp; have := hp.2.2.2 rfl; simp at h; omega
  have f1 : ∀ t ∈ ruleOutIf (decide (avail < 8 + 12)) 17 (ruleOutIf (decide (avail < 2 + 12)) 16
      (ruleOutIf (decide (avail < 10)) 0 (mergePsg types))), (t = 0 → 10 ≤ avail) ∧ (t = 17 → 20 ≤ avail) := by
    intro t ht
    constructor
    · rintro rfl
      have := not_ruled (ruleOutIf_sub _ (ruleOutIf_sub _ ht))
      simpa using this
    · rintro rfl
      have := not_ruled ht
      simpa using this
  revert k1 f1
  generalize ruleOutIf (decide (avail < 8 + 12)) 17 (ruleOutIf (decide (avail < 2 + 12)) 16
      (ruleOutIf (decide (avail < 10)) 0 (mergePsg types))) = t1
  intro k1 f1
  split
  · rename_i h; exact ⟨_, rfl, k1.early h⟩
  have hsingle : considerSingle d o t1 = .ok (.inr 1) ∧ 1 ∈ t1 ∧ u8 d (o + 4) = 0x3C ∨ ∃ t2, considerSingle d o t1 = .ok (.inl t2) ∧
      Kept (LooksLike d o avail) (Candidate types) t2 ∧ (∀ t ∈ t2, t ∈ t1) ∧
      (1 ∈ t2 → u8 d (o + 1) < 10 ∧ u8 d (o + 3) < 10 ∧ u8 d (o + 4) ≠ 0) := by
    unfold considerSingle
    split
    · rename_i h1
      obtain ⟨a, ha⟩ := Proofs.SoundBank.pyIdx_ok (d := d) (i := o + 1) (by omega)
      obtain ⟨b, hb⟩ := Proofs.SoundBank.pyIdx_ok (d := d) (i := o + 3) (by omega)
      obtain ⟨c, hc⟩ := Proofs.SoundBank.pyIdx_ok (d := d) (i := o + 4) (by omega)
      rw [ha, hb, hc]
      simp only [bind_ok]
      rw [byte_at ha, byte_at hb, byte_at hc]
      split
      · rename_i h
        exact .inl ⟨rfl, h1, h⟩
      · rename_i h
        right
        refine ⟨_, rfl, ?_, ?_, ?_⟩
        · refine Kept.ruleOut (Kept.ruleOut (Kept.ruleOut k1 ?_) ?_) ?_
          · intro h' hp; have := hp.2.1 rfl; simp at h'; omega
          · intro h' hp; have := hp.2.1 rfl; simp at h'; omega
          · intro h' hp; have := hp.2.1 rfl; simp at h'; omega
        · intro t ht
          exact ruleOutIf_sub _ (ruleOutIf_sub _ (ruleOutIf_sub _ ht))
        · intro ht
          have e1 := not_ruled ht
          have e2 := not_ruled (ruleOutIf_sub _ ht)
          have e3 := not_ruled (ruleOutIf_sub _ (ruleOutIf_sub _ ht))
          simp at e1 e2 e3
          omega
    · rename_i h1
      exact .inr ⟨t1, rfl, k1, fun _ h => h, fun h => absurd h h1⟩
  rcases hsingle with ⟨e, h1, h4⟩ | ⟨t2, e, k2, s2, f2⟩
  · rw [e]
    refine ⟨_, rfl, fun t ht => ?_, fun _ => ⟨1, rfl, by simp [LooksLike, h4]⟩⟩
    cases ht
    exact k1.sub 1 h1
  rw [e, bind_ok]
  dsimp only
  split
  · rename_i h; exact ⟨_, rfl, k2.early h⟩
  have hrange : ∃ t3, considerRange d o avail t2 = .ok t3 ∧
      Kept (LooksLike d o avail) (Candidate types) t3 ∧ (∀ t ∈ t3, t ∈ t2) ∧
      (16 ∈ t3 → u8 d o ≤ u8 d (o + 1) ∧ 2 + 12 * (u8 d (o + 1) + 1 - u8 d o) ≤ avail) := by
    unfold considerRange
    split
    · have hlen : (bytesAt d o 2).length = 2 := by rw [bytesAt_length]; omega
      rw [slice_bytesAt]
      match hs : bytesAt d o 2, hlen with
      | [x, y], _ =>
        have ex : x.toNat = u8 d o := by
          have := u8_bytesAt d o (n := 2) (i := 0) (by omega)
          rw [hs] at this
          exact this
        have ey : y.toNat = u8 d (o + 1) := by
          have := u8_bytesAt d o (n := 2) (i := 1) (by omega)
          rw [hs] at this
          exact this
        simp only
        rw [ex, ey]
        refine ⟨_, rfl, k2.ruleOut ?_, fun t ht => ruleOutIf_sub _ ht, fun ht => ?_⟩
        · intro h hp; have := hp.2.2.1 rfl; simp at h; omega
        · have := not_ruled ht
          simp at this
          omega
    · rename_i h
      exact ⟨_, rfl, k2, fun _ h => h, fun h' => absurd h' h⟩
  obtain ⟨t3, e3, k3, s3, f3⟩ := hrange
  rw [e3, bind_ok]
  split
  · rename_i h; exact ⟨_, rfl, k3.early h⟩
  have k4 : Kept (LooksLike d o avail) (Candidate types) (considerRegional d o avail t3) ∧ (∀ t ∈ considerRegional d o avail t3, t ∈ t3) ∧
      (17 ∈ considerRegional d o avail t3 → ∃ n ≤ 8, (∀ i < n, u8 d (o + i) ≠ 0) ∧
        (∀ i, i + 1 < n → u8 d (o + i) < u8 d (o + i + 1)) ∧ (∀ i < 8, n ≤ i → u8 d (o + i) = 0) ∧ 8 + 12 * n ≤ avail) := by
    unfold considerRegional
    split
    · refine ⟨k3.ruleOut ?_, fun t ht => ruleOutIf_sub _ ht, fun ht => (regional_iff hl).1 (not_ruled ht)⟩
      intro h hp
      have := (regional_iff hl).2 (hp.2.2.2 rfl).2
      rw [this] at h
      cases h
    · rename_i h
      exact ⟨k3, fun _ h => h, fun h' => absurd h' h⟩
  obtain ⟨k4, s4, f4⟩ := k4
  split
  · rename_i h; exact ⟨_, rfl, k4.early h⟩
  · rename_i h
    have hm := hc (considerRegional d o avail t3) (by intro e; rw [e] at h; simp at h)
    refine ⟨_, rfl, fun t ht => ?_, fun _ => ⟨_, rfl, ?_⟩⟩
    · cases ht
      exact k4.sub _ hm
    · have m3 := s4 _ hm
      have m2 := s3 _ m3
      have m1 := s2 _ m2
      exact ⟨(f1 _ m1).1, fun e => .inr (f2 (e ▸ m2)), fun e => f3 (e ▸ m3), fun e => ⟨(f1 _ m1).2 e, f4 (e ▸ hm)⟩⟩

-- both a single note and a range are candidates; the bytes look like a range of two pitches
example : LooksLike [60, 61, 1, 0, 0, 0, 0, 0] 0 26 16 ∧ ¬ LooksLike [60, 61, 1, 0, 0, 0, 0, 0] 0 26 1 ∧
    guess (fun l => l.headD 0) [60, 61, 1, 0, 0, 0, 0, 0] 0 [2, 16] 26 = .ok (some 16) := by
  refine ⟨⟨by decide, by decide, by decide, fun h => by cases h⟩, fun h => ?_, by decide +kernel⟩
  have := h.2.1 rfl
  revert this
  decide

/-- C104: although the documentation says that types are ruled out that would overlap the following instrument, a single note is
returned even if there are not the ten bytes it takes: it is the type 0 that is ruled out. -/
theorem guess_too_long (choose : List Nat → Nat) (d : Bytes) (o avail : Nat) (h : avail < 10) :
    guess choose d o [1, 16, 17] avail = .ok (some 1) := by
  unfold guess
  have : mergePsg [1, 16, 17] = [1, 16, 17] := by decide
  rw [this]
  have h1 : decide (avail < 8 + 12) = true := by simp; omega
  have h2 : decide (avail < 2 + 12) = true := by simp; omega
  have h3 : decide (avail < 10) = true := by simp; omega
  simp [ruleOutIf, h1, h2, h3]

example : guess (fun l => l.headD 0) [0, 0, 0, 0, 0, 0, 0, 0] 0 [1, 16, 17] 2 = .ok (some 1) := by decide +kernel

/-- A file with four bytes between the table and its only instrument. -/
def exGap : Bytes :=
  [0x53, 0x42, 0x4E, 0x4B, 0xFF, 0xFE, 0, 1, 0x4E, 0, 0, 0, 0x10, 0, 1, 0] ++ [0x44, 0x41, 0x54, 0x41, 0x3E, 0, 0, 0] ++
  List.replicate 32 0 ++ [1, 0, 0, 0] ++ [1, 0x44, 0, 0] ++ [0, 0, 0, 0] ++ [5, 0, 1, 0, 60, 127, 100, 127, 80, 64]

/-- C104: so an instrument is found that overlaps one of the table, though the table mentions all instruments there are. -/
theorem found_overlap (choose : List Nat → Nat) : ∃ s x, SBNK.load choose exGap 0 [] = .ok s ∧ s.inaccessible = [(none, [x])] ∧
    ∃ y, Used exGap y ∧ x.orderKey ≤ y ∧ y < x.orderKey + size x.kind := by
  have h : (SBNK.load choose exGap 0 []).toOption.map (fun s => s.inaccessible) =
      some [(none, [⟨.single (noteAt exGap 0x40 1), 0x40, 0x40⟩])] := rfl
  cases hl : SBNK.load choose exGap 0 [] with
  | error e => rw [hl] at h; cases h
  | ok s =>
    rw [hl] at h
    refine ⟨s, _, rfl, Option.some.inj h, 0x44, ⟨0, by decide +kernel, by decide +kernel, by decide +kernel⟩, by decide, by decide⟩

end Verif.Props.GuessInst
