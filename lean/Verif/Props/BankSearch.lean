import Verif.Props.GuessInst

/-!
# Instruments that the table of a bank does not mention are found (C103)
-/

namespace Verif.Props.BankSearch

open Verif Verif.Model.Common Verif.Model.SoundBank Verif.Spec.Reader Verif.Spec.FormatSbnk Verif.Proofs.Reader
open Verif.Props.FormatSbnk

theorem runLength_spec : ∀ (l : List Nat) (a : Nat), (a :: l).Pairwise (· < ·) →
    0 < runLength (a :: l) ∧ (∀ i < runLength (a :: l), a + i ∈ a :: l) ∧ a + runLength (a :: l) ∉ a :: l
  | [], a, _ => by
    refine ⟨by simp [runLength], ?_, by simp [runLength]⟩
    intro i hi
    simp only [runLength] at hi
    have : i = 0 := by omega
    simp [this]
  | b :: l, a, h => by
    obtain ⟨h1, h2⟩ := List.pairwise_cons.1 h
    obtain ⟨g1, g2, g3⟩ := runLength_spec l b h2
    rw [runLength]
    split
    · rename_i e
      subst e
      refine ⟨by omega, ?_, ?_⟩
      · intro i hi
        cases i with
        | zero => simp
        | succ i =>
          have := g2 i (by omega)
          rw [show a + (i + 1) = a + 1 + i by omega]
          exact List.mem_cons_of_mem _ this
      · intro hm
        rw [show a + (1 + runLength ((a + 1) :: l)) = a + 1 + runLength ((a + 1) :: l) by omega] at hm
        rcases List.mem_cons.1 hm with hm | hm
        · omega
        · exact g3 hm
    · rename_i e
      refine ⟨by omega, ?_, ?_⟩
      · intro i hi
        have : i = 0 := by omega
        simp [this]
      · intro hm
        rcases List.mem_cons.1 hm with hm | hm
        · omega
        · rcases List.mem_cons.1 hm with hm | hm
          · exact e hm.symm
          · have := (List.pairwise_cons.1 h2).1 _ hm
            have := h1 b (by simp)
            omega

theorem takeWhile_le {α : Type _} {p : α → Bool} : ∀ {l : List α} {m : Nat} {a : α}, l[m]? = some a → p a = false →
    (l.takeWhile p).length ≤ m
  | [], m, a, h, _ => by simp at h
  | x :: l, 0, a, h, hp => by
    cases h
    simp [hp]
  | x :: l, m + 1, a, h, hp => by
    rw [List.takeWhile_cons]
    split
    · have := takeWhile_le (l := l) (m := m) (a := a) (by simpa using h) hp
      simp only [List.length_cons]
      omega
    · simp

/-- What the data looks like can be read. -/
theorem looks_ok {d : Bytes} {o n t : Nat} (hn : 10 ≤ n) (hl : o + n ≤ d.length) (ht : t = 1 ∨ t = 16 ∨ t = 17)
    (h : LooksLike d o n t) : InstOk d t o := by
  refine ⟨by omega, .inr ?_⟩
  unfold sizeAt
  rcases ht with rfl | rfl | rfl
  · simp; omega
  · have := (h.2.2.1 rfl).2
    simp [rangeCount]
    omega
  · obtain ⟨h20, m, hm, -, -, hz, hfit⟩ := h.2.2.2 rfl
    have hc : regionCount d o ≤ max 1 m := by
      unfold regionCount
      by_cases h8 : m = 8
      · have := (List.takeWhile_sublist (fun i => decide (u8 d (o + 1 + i) ≠ 0)) (l := List.range 7)).length_le
        simp only [List.length_range] at this
        omega
      · by_cases h0 : m = 0
        · subst h0
          have := takeWhile_le (p := fun i => decide (u8 d (o + 1 + i) ≠ 0)) (l := List.range 7) (m := 0) (a := 0) (by decide)
            (by have := hz 1 (by omega) (by omega); simpa using this)
          omega
        · have := takeWhile_le (p := fun i => decide (u8 d (o + 1 + i) ≠ 0)) (l := List.range 7) (m := m - 1) (a := m - 1)
            (by rw [List.getElem?_range (by omega)])
            (by have := hz m (by omega) (by omega); simp; rw [show o + 1 + (m - 1) = o + m by omega]; exact this)
          omega
    simp
    omega

theorem possible_of {p n : Option Nat} {t : Nat} (ht : t = 1 ∨ t = 16 ∨ t = 17) (hp : ∀ x, p = some x → rank x ≤ rank t)
    (hn : ∀ x, n = some x → rank t ≤ rank x) : t ∈ possibleTypes p n := by
  have h1 : t ∈ (match p with
    | none => [1, 16, 17]
    | some p =>
      let l := if 16 ≤ p then [16, 17] else [1, 16, 17]
      if p = 17 then l.filter (· ≠ 16) else l) := by
    cases p with
    | none => simp; omega
    | some x =>
      have := hp x rfl
      rw [rank_le] at this
      simp only
      split
      · rw [if_pos (by omega)]
        refine List.mem_filter.2 ⟨by simp; omega, by simp; omega⟩
      · split
        · simp; omega
        · simp; omega
  unfold possibleTypes
  simp only
  cases n with
  | none => exact h1
  | some x =>
    have := hn x rfl
    rw [rank_le] at this
    simp only
    split
    · refine List.mem_filter.2 ⟨?_, by simp; omega⟩
      split
      · exact List.mem_filter.2 ⟨h1, by simp; omega⟩
      · exact h1
    · split
      · exact List.mem_filter.2 ⟨h1, by simp; omega⟩
      · exact h1

/-- Where nothing is found, nothing is to be found. -/
theorem recoverAt_nothing {choose : List Nat → Nat} (hc : ∀ l, l ≠ [] → choose l ∈ l) {d : Bytes} (hf : FileOk d) {u : List Nat}
    {o : Nat} (h : recoverAt choose d ((List.range' 0 (slots d)).map (slot d)) (found d (List.range' 0 (slots d))) u o = .ok none)
    (hl : o + runLength u ≤ d.length) : runLength u < 10 ∨ ∀ t, Allowed d o t → ¬ LooksLike d o (runLength u) t := by
  obtain ⟨-, -, -, -, hi⟩ := hf
  by_cases h10 : runLength u < 10
  · exact .inl h10
  right
  intro t hallow hlooks
  unfold recoverAt at h
  rw [bind_eq_ok] at h
  obtain ⟨g, hg, h⟩ := h
  obtain ⟨r, hr, hr1, hr2⟩ := GuessInst.guess_best choose hc d o (runLength u) _ (Proofs.SoundBank.possibleTypes_nodup
    (typeOf ((List.range' 0 (slots d)).map (slot d)) (prevOf o (found d (List.range' 0 (slots d))) none))
    (typeOf ((List.range' 0 (slots d)).map (slot d)) (nextOf o (found d (List.range' 0 (slots d))) none))) (by omega)
  rw [hr] at hg
  cases hg
  have hcand : ∀ {p n t}, Candidate (possibleTypes p n) t → t = 1 ∨ t = 16 ∨ t = 17 := by
    rintro p n t (⟨-, -, h⟩ | ⟨h, -⟩)
    · exact Proofs.SoundBank.possibleTypes_mem _ _ t h
    · exact .inl h
  obtain ⟨t', rfl, ht'⟩ := hr2 ⟨t, by
    refine ⟨.inl ⟨by have := hallow.1; omega, by have := hallow.1; omega, possible_of hallow.1 ?_ ?_⟩, hlooks⟩
    · intro x hx
      rcases prevOf_none (o := o) (found_sorted d (slots d)) with ⟨e, hall⟩ | ⟨r', e, hr', hro, hall⟩
      · rw [e] at hx; cases hx
      · obtain ⟨a, b, c⟩ := mem_found.1 hr'
        rw [e, show (some r' : Option (Nat × Nat)) = some (r'.1, r'.2) from rfl, typeOf_slot a b (hi _ a).1] at hx
        cases hx
        refine hallow.2.1 r'.1 ⟨a, b, by rw [← c]; exact hro, fun i hi h0 hlt => ?_⟩
        have := hall (i, placeAt d i) (mem_found.2 ⟨hi, h0, rfl⟩) hlt
        rw [← c]
        exact this
    · intro x hx
      rcases nextOf_none (o := o) (found_sorted d (slots d)) with ⟨e, hall⟩ | ⟨r', e, hr', hro, hall⟩
      · rw [e] at hx; cases hx
      · obtain ⟨a, b, c⟩ := mem_found.1 hr'
        rw [e, show (some r' : Option (Nat × Nat)) = some (r'.1, r'.2) from rfl, typeOf_slot a b (hi _ a).1] at hx
        cases hx
        refine hallow.2.2 r'.1 ⟨a, b, by rw [← c]; exact hro, fun i hi h0 hlt => ?_⟩
        have := hall (i, placeAt d i) (mem_found.2 ⟨hi, h0, rfl⟩) hlt
        rw [← c]
        exact this⟩
  have ht17 := hcand (hr1 t' rfl)
  have hok := looks_ok (by omega) hl ht17 ht'
  have hk : kindAt d t' o = .ok (instAt d t' o, sizeAt d t' o) := (instrument_load_iff d t' o _).2 ⟨hok, rfl⟩
  have hsome : ∃ k, instAt d t' o = some k := by
    rcases ht17 with rfl | rfl | rfl <;> simp [instAt]
  obtain ⟨k, hks⟩ := hsome
  simp only [makeInstrumentAt, hk, hks, bind_ok, pure_def, Option.map_some] at h
  cases h

/-- The bytes that are not padding. -/
theorem mem_dropPadding {f x : Nat} {u : List Nat} (h : x ∈ u) (hx : x + 2 < f) : x ∈ dropPadding f u := by
  unfold dropPadding
  split
  · refine List.mem_filter.2 ⟨h, by simp; omega⟩
  · exact h

def Found (r : List (Option Nat × List Inst)) (x : Nat) : Prop :=
  ∃ p ∈ r, ∃ i ∈ p.2, i.orderKey ≤ x ∧ x < i.orderKey + size i.kind

theorem add_keep {d : List (Option Nat × List Inst)} {k : Option Nat} {x : Inst} :
    (∃ p ∈ addInaccessible d k x, x ∈ p.2) ∧ ∀ p ∈ d, ∀ y ∈ p.2, ∃ q ∈ addInaccessible d k x, y ∈ q.2 := by
  have h := (add_flat (d := d) (k := k) (x := x)).1
  have hm : ∀ y, y ∈ x :: d.flatMap (·.2) → ∃ q ∈ addInaccessible d k x, y ∈ q.2 := by
    intro y hy
    exact List.mem_flatMap.1 (h.mem_iff.2 hy)
  exact ⟨hm x (by simp), fun p hp y hy => hm y (List.mem_cons_of_mem _ (List.mem_flatMap.2 ⟨p, hp, hy⟩))⟩

theorem recover_complete {choose : List Nat → Nat} (hc : ∀ l, l ≠ [] → choose l ∈ l) {d : Bytes} (hf : FileOk d)
    (hlen : u32 d 8 ≤ d.length) : ∀ (fuel : Nat) {u : List Nat} {acc r : List (Option Nat × List Inst)},
    recover choose d (u32 d 8) ((List.range' 0 (slots d)).map (slot d)) (found d (List.range' 0 (slots d))) fuel u acc = .ok r →
    (∀ x ∈ u, 0x3C + 4 * slots d ≤ x ∧ x < u32 d 8 ∧ ¬ Used d x) → u.Pairwise (· < ·) →
    (∀ a ∈ u, ∀ x, a ≤ x → x + 2 < u32 d 8 → ¬ Used d x → x ∈ u) →
    (∀ p ∈ acc, ∀ y ∈ p.2, ∃ q ∈ r, y ∈ q.2) ∧
    ∀ x ∈ u, Found r x ∨ u32 d 8 ≤ x + 2 ∨ ∃ y, (y = x ∨ y + 1 = x) ∧ 0x3C + 4 * slots d ≤ y ∧ Nothing d y := by
  have hd : ∀ {u : List Nat}, u.Pairwise (· < ·) → (dropPadding (u32 d 8) u).Pairwise (· < ·) := by
    intro u h
    unfold dropPadding
    split
    · exact h.filter _
    · exact h
  have hnil : ∀ {u : List Nat}, dropPadding (u32 d 8) u = [] → ∀ x ∈ u, u32 d 8 ≤ x + 2 := by
    intro u h x hx
    apply Nat.le_of_not_lt
    intro hlt
    have := mem_dropPadding hx hlt
    rw [h] at this
    cases this
  intro fuel
  induction fuel with
  | zero =>
    intro u acc r h hu hs hall
    unfold recover at h
    split at h
    · rename_i hn
      cases h
      exact ⟨fun p hp y hy => ⟨p, hp, hy⟩, fun x hx => .inr (.inl (hnil hn x hx))⟩
    · cases h
  | succ fuel ih =>
    intro u acc r h hu hs hall
    unfold recover at h
    split at h
    · rename_i hn
      cases h
      exact ⟨fun p hp y hy => ⟨p, hp, hy⟩, fun x hx => .inr (.inl (hnil hn x hx))⟩
    · rename_i o rest hdp
      have hs' := hd hs
      have hsub := fun x hx => Proofs.SoundBank.dropPadding_sub (f := u32 d 8) (u := u) x hx
      have hpad : ∀ x ∈ u, x + 2 < u32 d 8 → x ∈ o :: rest := fun x hx hlt => hdp ▸ mem_dropPadding hx hlt
      rw [hdp] at hs' hsub
      rw [bind_eq_ok] at h
      obtain ⟨res, hr, h⟩ := h
      obtain ⟨ho1, ho2, ho3⟩ := hu o (hsub o (by simp))
      split at h
      · obtain ⟨q1, q2, q3⟩ := runLength_spec rest o hs'
        have hno : Nothing d o := by
          have hb : o + runLength (o :: rest) ≤ d.length := Proofs.SoundBank.runLength_bound fun i hi => by
            have := (hu i (hsub i hi)).2.1
            omega
          refine ⟨runLength (o :: rest), q1, fun i hi => (hu _ (hsub _ (q2 i hi))).2.2, ?_, recoverAt_nothing hc hf hr hb⟩
          intro hlt
          apply Classical.byContradiction
          intro hnu
          exact q3 (hpad _ (hall o (hsub o (by simp)) _ (by omega) (by omega) hnu) (by omega))
        have hrest : ∀ x ∈ rest.filter (· ≠ o + 1), x ∈ u := fun x hx => hsub x (List.mem_cons_of_mem _ (List.mem_filter.1 hx).1)
        obtain ⟨k1, k2⟩ := ih h (fun x hx => hu x (hrest x hx)) ((List.pairwise_cons.1 hs').2.filter _) (by
          intro a ha x hax hx hxu
          obtain ⟨ha1, ha2⟩ := List.mem_filter.1 ha
          have h1 := (List.pairwise_cons.1 hs').1 a ha1
          have h3 := hpad x (hall a (hrest a ha) x hax hx hxu) hx
          simp only [ne_eq, decide_not, Bool.not_eq_true', decide_eq_false_iff_not] at ha2
          rcases List.mem_cons.1 h3 with h3 | h3
          · omega
          · exact List.mem_filter.2 ⟨h3, by simp; omega⟩)
        refine ⟨k1, fun x hx => ?_⟩
        by_cases hlt : x + 2 < u32 d 8
        · have hx' := hpad x hx hlt
          by_cases hxo : o = x ∨ o + 1 = x
          · exact .inr (.inr ⟨o, hxo, ho1, hno⟩)
          · refine k2 x (List.mem_filter.2 ⟨?_, by simp; omega⟩)
            rcases List.mem_cons.1 hx' with hx' | hx'
            · omega
            · exact hx'
        · exact .inr (.inl (by omega))
      · rename_i i u'
        obtain ⟨e1, e2, e3, e4⟩ := recoverAt_found hc hf hr ho1 ho2 ho3
        subst e2
        have hkeep := add_keep (d := acc) (k := (prevOf o (found d (List.range' 0 (slots d))) none).map Prod.fst) (x := i)
        have hsubc : ∀ y ∈ consume (o :: rest) o (size i.kind), y ∈ o :: rest ∧ o + size i.kind ≤ y := by
          intro y hy
          obtain ⟨hy1, hy2⟩ := Proofs.SoundBank.consume_mem.1 hy
          refine ⟨hy1, ?_⟩
          rcases List.mem_cons.1 hy1 with rfl | hy1
          · omega
          · have := (List.pairwise_cons.1 hs').1 y hy1
            omega
        obtain ⟨k1, k2⟩ := ih h (fun y hy => hu y (hsub y (hsubc y hy).1)) (hs'.filter _) (by
          intro a ha x hax hx hxu
          obtain ⟨ha1, ha2⟩ := hsubc a ha
          exact Proofs.SoundBank.consume_mem.2 ⟨hpad x (hall a (hsub a ha1) x hax hx hxu) hx, by omega⟩)
        obtain ⟨⟨p, hp, hip⟩, hkeep⟩ := hkeep
        refine ⟨fun p hp y hy => ?_, fun x hx => ?_⟩
        · obtain ⟨q, hq, hyq⟩ := hkeep p hp y hy
          exact k1 q hq y hyq
        · by_cases hlt : x + 2 < u32 d 8
          · have hx' := hpad x hx hlt
            by_cases hin : o ≤ x ∧ x < o + size i.kind
            · obtain ⟨q, hq, hiq⟩ := k1 p hp i hip
              exact .inl ⟨q, hq, i, hiq, by rw [e1]; exact hin⟩
            · exact k2 x (Proofs.SoundBank.consume_mem.2 ⟨hx', hin⟩)
          · exact .inr (.inl (by omega))

/-- C103: every byte behind the table that belongs to no instrument of it either belongs to an instrument that was found, or is one of the
last two bytes, or is one of the two bytes from a place on where nothing is to be found. -/
theorem bank_search (choose : List Nat → Nat) (hc : ∀ l, l ≠ [] → choose l ∈ l) (d : Bytes) (unk02 : Nat) (wa : List (Option Int))
    (s : SBNK) (h : SBNK.load choose d unk02 wa = .ok s) (hl : u32 d 8 ≤ d.length) (x : Nat) (h1 : 0x3C + 4 * slots d ≤ x)
    (h2 : x < u32 d 8) (h3 : ¬ Used d x) :
    (∃ p ∈ s.inaccessible, ∃ i ∈ p.2, i.orderKey ≤ x ∧ x < i.orderKey + size i.kind) ∨ u32 d 8 ≤ x + 2 ∨
      ∃ y, (y = x ∨ y + 1 = x) ∧ 0x3C + 4 * slots d ≤ y ∧ Nothing d y := by
  obtain ⟨hf, hidden, hr, rfl⟩ := load_split.1 h
  refine (recover_complete hc hf hl _ hr (fun x hx => mem_unused.1 hx)
    (List.Pairwise.filter _ List.pairwise_lt_range') ?_).2 x (mem_unused.2 ⟨h1, h2, h3⟩)
  intro a ha y hay hy hyu
  exact mem_unused.2 ⟨by have := (mem_unused.1 ha).1; omega, by omega, hyu⟩

-- the instrument between the others in the example takes the bytes from 0x4E on
example : ¬ Used exHidden 0x50 ∧ u32 exHidden 8 ≤ exHidden.length := by
  refine ⟨?_, by decide +kernel⟩
  rintro ⟨i, hi, h1, h2⟩
  have : slots exHidden = 2 := by decide +kernel
  have : i = 0 ∨ i = 1 := by omega
  rcases this with rfl | rfl
  · revert h2; decide +kernel
  · revert h1; decide +kernel

end Verif.Props.BankSearch
