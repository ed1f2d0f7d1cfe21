import Verif.Proofs.MinifyTwice
import Verif.Proofs.SoundBankResave

/-! # Saving a minified bank (for C148) -/

namespace Verif.Proofs.MinifySave

open Verif Verif.Model.SoundSequence Verif.Model.SoundBank Verif.Model.Music Verif.Spec.Music Verif.Spec.SoundBank
open Verif.Proofs.MusicMinify Verif.Proofs.SoundBank

/-! ## Sums -/

theorem sum_erase {α : Type _} [DecidableEq α] (w : α → Nat) : ∀ {l : List α} {a : α}, a ∈ l →
    ((l.erase a).map w).sum + w a = (l.map w).sum
  | b :: l, a, h => by
    by_cases hb : b = a
    · subst hb
      rw [List.erase_cons_head, List.map_cons, List.sum_cons]
      omega
    · rw [List.erase_cons_tail (by simpa using hb), List.map_cons, List.sum_cons, List.map_cons, List.sum_cons]
      have := sum_erase w (l := l) (a := a) ((List.mem_cons.1 h).resolve_left (Ne.symm hb))
      omega

/-- If different elements of the first list belong to different elements of the second, and weigh no more, then the first
list weighs no more. -/
theorem sum_le {α β : Type _} [DecidableEq α] (R : α → β → Prop) (w : α → Nat) (w' : β → Nat)
    (hf : ∀ x a b, R x a → R x b → a = b) (hw : ∀ x a, R x a → w' a ≤ w x) : ∀ {D' : List β} {D : List α}, D'.Nodup →
    (∀ a ∈ D', ∃ x ∈ D, R x a) → (D'.map w').sum ≤ (D.map w).sum
  | [], _, _, _ => by simp
  | a :: D', D, hn, h => by
    obtain ⟨x, hx, hr⟩ := h a (by simp)
    rw [List.nodup_cons] at hn
    have ih := sum_le R w w' hf hw (D' := D') (D := D.erase x) hn.2 (fun b hb => by
      obtain ⟨y, hy, hs⟩ := h b (List.mem_cons_of_mem _ hb)
      refine ⟨y, (List.mem_erase_of_ne ?_).2 hy, hs⟩
      rintro rfl
      exact hn.1 (hf _ _ _ hr hs ▸ hb))
    rw [List.map_cons, List.sum_cons]
    have := sum_erase w hx
    have := hw x a hr
    omega

theorem length_eq_sum {α : Type _} : ∀ l : List α, l.length = (l.map fun _ => 1).sum
  | [] => rfl
  | _ :: l => by rw [List.length_cons, List.map_cons, List.sum_cons, length_eq_sum l]; omega

theorem length_le {α : Type _} [DecidableEq α] {l m : List α} (hn : l.Nodup) (h : ∀ a ∈ l, a ∈ m) :
    l.length ≤ m.length := by
  rw [length_eq_sum, length_eq_sum]
  exact sum_le (· = ·) (fun _ => 1) (fun _ => 1) (fun _ _ _ h1 h2 => h1 ▸ h2) (fun _ _ _ => Nat.le_refl 1) hn
    fun a ha => ⟨a, h a ha, rfl⟩

theorem length_flatten_sum : ∀ D : List Key, ((D.map Prod.fst).flatten).length = (D.map fun k => k.1.length).sum
  | [] => rfl
  | _ :: D => by
    rw [List.map_cons, List.flatten_cons, List.length_append, List.map_cons, List.sum_cons, length_flatten_sum D]

/-! ## What the bytes of an instrument tell -/

/-- The instrument with the type, which is not part of the bytes, set to 1. -/
def norm : Kind → Kind
  | .single n => .single { n with type := 1 }
  | k => k

theorem norm_bytes (k : Kind) : kindBytes (norm k) = kindBytes k := by cases k <;> rfl

theorem norm_waves (k : Kind) : (definitions (norm k)).map waveKey = (definitions k).map waveKey := by cases k <;> rfl

/-- The instrument that bytes stand for, told by their number. -/
def decode (b : Bytes) : Option Kind :=
  match kindAt b (if b.length % 12 = 10 then 1 else if b.length % 12 = 2 then 16 else 17) 0 with
  | .ok (k, _) => k
  | .error _ => none

theorem decode_bytes {k : Kind} (hf : KindFits k) (hl : Loadable k) : decode (kindBytes k) = some (norm k) := by
  have hat : At (kindBytes k) 0 (kindBytes k) := At.refl _
  have hlen := kindBytes_length k hf
  have e : (if (kindBytes k).length % 12 = 10 then 1 else if (kindBytes k).length % 12 = 2 then 16 else 17) = (norm k).type := by
    rw [hlen]
    cases k with
    | single n => rfl
    | range f ns => dsimp only; rw [if_neg (by omega), if_pos (by omega)]; rfl
    | regional rs => dsimp only; rw [if_neg (by omega), if_neg (by omega)]; rfl
  have hf' : KindFits (norm k) := by cases k <;> exact hf
  have hl' : Loadable (norm k) := by
    cases k with
    | single n => exact ⟨Nat.one_pos, (by decide : 1 < 16)⟩
    | range f ns => exact hl
    | regional rs => exact hl
  unfold decode
  rw [e, kindAt_at hf' hl' (by rw [norm_bytes]; exact hat)]

theorem norm_eq {k k' : Kind} (hf : KindFits k) (hl : Loadable k) (hf' : KindFits k') (hl' : Loadable k')
    (h : kindBytes k = kindBytes k') : norm k = norm k' := by
  have := decode_bytes hf hl
  rw [h, decode_bytes hf' hl', Option.some.injEq] at this
  exact this.symm

theorem minifyKind_norm {used : List (Nat × Nat)} {k k' : Kind} (h : minifyKind used k = .ok k') :
    minifyKind used (norm k) = .ok (norm k') := by
  cases k with
  | single n =>
    unfold minifyKind at h
    simp only [bind_eq_ok, pure_eq_ok] at h
    obtain ⟨m, h1, rfl⟩ := h
    unfold minifyKind norm
    simp only [bind_eq_ok, pure_eq_ok]
    exact ⟨m, h1, rfl⟩
  | range f ns =>
    cases ns with
    | nil => cases h
    | cons a l => cases h; rfl
  | regional rs => cases h; rfl

/-! ## What a minified instrument is like -/

theorem fields_remap {n : Note} {m : Nat} (hm : m < 65536) (h : Fits n.fields) :
    Fits ({ n with waveID := m } : Note).fields := by
  simp only [Note.fields, Fits] at h ⊢
  exact ⟨by simpa using hm, h.2⟩

theorem remap_fits {used : List (Nat × Nat)} (hu : used.length ≤ 65536) {n : Note} (h : NoteFits n) :
    NoteFits (remap used n) := by
  unfold remap
  split
  · rename_i hm
    have := List.idxOf_lt_length_iff.2 hm
    exact ⟨h.1, fields_remap (by omega) h.2⟩
  · exact h

theorem lastTo127_length : ∀ l : List (Nat × Note), (lastTo127 l).length = l.length
  | [] => rfl
  | [_] => rfl
  | a :: b :: l => by rw [lastTo127, List.length_cons, lastTo127_length (b :: l)]; rfl

theorem mem_lastTo127 : ∀ {l : List (Nat × Note)} {r : Nat × Note}, r ∈ lastTo127 l →
    ∃ r' ∈ l, r.2 = r'.2 ∧ (r.1 = r'.1 ∨ r.1 = 127)
  | [], _, h => nomatch h
  | [a], r, h => by
    rw [lastTo127, List.mem_singleton] at h
    subst h
    exact ⟨a, by simp, rfl, .inr rfl⟩
  | a :: b :: l, r, h => by
    rw [lastTo127, List.mem_cons] at h
    rcases h with rfl | h
    · exact ⟨r, by simp, rfl, .inl rfl⟩
    · obtain ⟨r', h1, h2⟩ := mem_lastTo127 h
      exact ⟨r', List.mem_cons_of_mem _ h1, h2⟩

theorem tail_lastTo127 : ∀ {l : List (Nat × Note)} {r : Nat × Note}, r ∈ (lastTo127 l).tail →
    ∃ r' ∈ l.tail, r.2 = r'.2 ∧ (r.1 = r'.1 ∨ r.1 = 127)
  | [], _, h => nomatch h
  | [a], r, h => nomatch h
  | a :: b :: l, r, h => mem_lastTo127 h

theorem filter_tail {α : Type _} {p : α → Bool} : ∀ {l : List α} {a : α}, a ∈ (l.filter p).tail → a ∈ l.tail
  | [], _, h => nomatch h
  | b :: l, a, h => by
    rw [List.filter_cons] at h
    by_cases hb : p b = true
    · rw [if_pos hb] at h
      exact (List.mem_filter.1 h).1
    · rw [if_neg hb] at h
      exact (List.mem_filter.1 (List.mem_of_mem_tail h)).1

theorem minifyKind_fits {used : List (Nat × Nat)} (hu : used.length ≤ 65536) {k k' : Kind}
    (h : minifyKind used k = .ok k') (hf : KindFits k) : KindFits k' := by
  cases k with
  | single n =>
    unfold minifyKind pyIndex at h
    simp only [bind_eq_ok, pure_eq_ok] at h
    obtain ⟨m, h1, rfl⟩ := h
    by_cases hm : waveKey n ∈ used
    · rw [if_pos hm] at h1
      cases h1
      have := List.idxOf_lt_length_iff.2 hm
      exact fields_remap (by omega) hf
    · rw [if_neg hm] at h1; cases h1
  | range f ns =>
    cases ns with
    | nil => cases h
    | cons a l =>
      cases h
      obtain ⟨h1, h2, h3, h4⟩ := hf
      refine ⟨h1, by rw [List.length_map]; exact h2, by rw [List.length_map]; exact h3, fun n hn => ?_⟩
      obtain ⟨d, hd, rfl⟩ := List.mem_map.1 hn
      split
      · exact remap_fits hu (h4 d hd)
      · exact remap_fits hu (h4 a (by simp))
  | regional rs =>
    cases h
    obtain ⟨h1, h2⟩ := hf
    refine ⟨?_, fun r hr => ?_⟩
    · rw [lastTo127_length, List.length_map]
      exact Nat.le_trans (List.length_filter_le _ _) h1
    · obtain ⟨r', hr', e1, e2⟩ := mem_lastTo127 hr
      obtain ⟨d, hd, rfl⟩ := List.mem_map.1 hr'
      obtain ⟨g1, g2⟩ := h2 d (List.mem_filter.1 hd).1
      rw [e1]
      exact ⟨by rcases e2 with e2 | e2 <;> omega, remap_fits hu g2⟩

theorem minifyKind_type {used : List (Nat × Nat)} {k k' : Kind} (h : minifyKind used k = .ok k') : k'.type = k.type := by
  cases k with
  | single n =>
    unfold minifyKind at h
    simp only [bind_eq_ok, pure_eq_ok] at h
    obtain ⟨m, h1, rfl⟩ := h
    rfl
  | range f ns =>
    cases ns with
    | nil => cases h
    | cons a l => cases h; rfl
  | regional rs => cases h; rfl

theorem minifyKind_length {used : List (Nat × Nat)} {k k' : Kind} (h : minifyKind used k = .ok k') (hf : KindFits k)
    (hf' : KindFits k') : (kindBytes k').length ≤ (kindBytes k).length := by
  rw [kindBytes_length k hf, kindBytes_length k' hf']
  cases k with
  | single n =>
    unfold minifyKind at h
    simp only [bind_eq_ok, pure_eq_ok] at h
    obtain ⟨m, h1, rfl⟩ := h
    exact Nat.le_refl _
  | range f ns =>
    cases ns with
    | nil => cases h
    | cons a l => cases h; simp
  | regional rs =>
    cases h
    have := List.length_filter_le (fun r : Nat × Note => decide (waveKey r.2 ∈ used)) rs
    dsimp only
    rw [lastTo127_length, List.length_map]
    omega

theorem definitions_length (k : Kind) (h : KindFits k) : (definitions k).length ≤ (kindBytes k).length := by
  rw [kindBytes_length k h]
  cases k <;> simp only [definitions, List.length_map, List.length_cons, List.length_nil] <;> omega

/-- A minified instrument can be told apart from others if it is not a regional one without regions. -/
theorem minifyKind_loadable {used : List (Nat × Nat)} {k k' : Kind} (h : minifyKind used k = .ok k') (hl : Loadable k) :
    Loadable k' ↔ ∀ rs, k = .regional rs → ∃ r ∈ rs, waveKey r.2 ∈ used := by
  cases k with
  | single n =>
    unfold minifyKind at h
    simp only [bind_eq_ok, pure_eq_ok] at h
    obtain ⟨m, h1, rfl⟩ := h
    exact ⟨fun _ _ h => (nomatch h), fun _ => hl⟩
  | range f ns =>
    cases ns with
    | nil => cases h
    | cons a l => cases h; exact ⟨fun _ _ h => (nomatch h), fun _ => trivial⟩
  | regional rs =>
    cases h
    constructor
    · rintro ⟨h1, _⟩ _ ⟨⟩
      cases hr : rs.filter fun r => decide (waveKey r.2 ∈ used) with
      | nil => rw [hr] at h1; exact absurd rfl h1
      | cons r l =>
        have : r ∈ rs.filter fun r => decide (waveKey r.2 ∈ used) := by rw [hr]; simp
        exact ⟨r, (List.mem_filter.1 this).1, by simpa using (List.mem_filter.1 this).2⟩
    · intro h
      obtain ⟨r, hr, hw⟩ := h rs rfl
      refine ⟨fun he => ?_, fun x hx => ?_⟩
      · have := congrArg List.length he
        rw [lastTo127_length, List.length_map, List.length_nil, List.length_eq_zero_iff] at this
        have hm : r ∈ rs.filter fun r => decide (waveKey r.2 ∈ used) := List.mem_filter.2 ⟨hr, by simpa using hw⟩
        rw [this] at hm
        cases hm
      · obtain ⟨r', hr', _, e2⟩ := tail_lastTo127 hx
        rw [← List.map_tail] at hr'
        obtain ⟨d, hd, rfl⟩ := List.mem_map.1 hr'
        have := hl.2 d (filter_tail hd)
        rcases e2 with e2 | e2 <;> omega

/-! ## The bank -/

/-- The instrument in a slot of a minified bank, with the one it comes from. -/
theorem minified_slot {W : Type} {events : List Obj} {insts : List (Option Inst)} {swars : List (List W)}
    {events' : List Obj} {insts' : List (Option Inst)} {swars' : List (List W)}
    (h : minify events insts (some swars) = .ok (events', insts', swars')) :
    ∃ waves : List (Nat × Nat), waves.Nodup ∧
      (∀ x, x ∈ waves ↔ Needed (events.map (·.2)) insts x) ∧ insts'.length ≤ insts.length ∧
      (∀ x ∈ waves, ∃ n ∈ (events.map (·.2)).filterMap switchedTo, ∃ inst, insts[n]? = some (some inst) ∧
        ∃ d ∈ definitions inst.kind, x = waveKey d) ∧
      (∀ (j : Nat) (i' : Inst), insts'[j]? = some (some i') → ∃ n ∈ (events.map (·.2)).filterMap switchedTo, ∃ i k',
        insts[n]? = some (some i) ∧ minifyKind waves i.kind = .ok k' ∧ i' = { i with kind := k' }) ∧
      ∀ n ∈ (events.map (·.2)).filterMap switchedTo, ∀ i, insts[n]? = some (some i) → ∃ (j : Nat) (k' : Kind),
        minifyKind waves i.kind = .ok k' ∧ insts'[j]? = some (some { i with kind := k' }) := by
  obtain ⟨newInsts, waves, h1, hw, _, _, hlen, hnone, hsome⟩ := minify_inv h
  obtain ⟨hnd, _, hused⟩ := usedInsts_spec events
  have hl1 := mapE_length h1
  have hget : ∀ j, (hj : j < (usedInsts events).length) → newInsts[j]? = insts[(usedInsts events)[j]]? := by
    intro j hj
    have := mapE_getElem h1 j hj (by omega)
    rw [pyIdx_eq_ok] at this
    rw [this, List.getElem?_eq_getElem (by omega)]
  refine ⟨waves, by rw [hw]; exact usedWaves_nodup _ _, fun x => by rw [hw]; exact needed_iff h1 x, ?_, ?_, ?_, ?_⟩
  · rw [hlen, hl1]
    have := length_le (l := usedInsts events) (m := List.range insts.length) hnd (fun n hn => by
      rw [List.mem_range]
      obtain ⟨j, hj, rfl⟩ := List.getElem_of_mem hn
      have := mapE_getElem h1 j hj (by omega)
      rw [pyIdx_eq_ok] at this
      exact (List.getElem?_eq_some_iff.1 this).1)
    simpa using this
  · intro x hx
    rw [hw] at hx
    obtain ⟨n, hn, r⟩ := usedWaves_sub h1 hx
    exact ⟨n, (hused n).1 hn, r⟩
  · intro j i' hi'
    have hj := (List.getElem?_eq_some_iff.1 hi').1
    have hju : j < (usedInsts events).length := by omega
    have hg := hget j hju
    cases hx : newInsts[j]? with
    | none => rw [List.getElem?_eq_none_iff] at hx; omega
    | some o =>
      cases o with
      | none => rw [hnone _ hx] at hi'; cases hi'
      | some i =>
        obtain ⟨k', g1, g2⟩ := hsome _ _ hx
        rw [g2] at hi'
        cases hi'
        exact ⟨(usedInsts events)[j], (hused _).1 (List.getElem_mem _), i, k', by rw [← hg, hx], g1, rfl⟩
  · intro n hn i hi
    have hg := newInsts_get h1 ((hused n).2 hn)
    obtain ⟨k', g1, g2⟩ := hsome _ i (hg.trans hi)
    exact ⟨_, k', g1, g2⟩

theorem off_le {D : List Key} {k : Key} (h : k ∈ D) : offOf D k + k.1.length ≤ ((D.map Prod.fst).flatten).length := by
  obtain ⟨a, b, h1, h2⟩ := off_at h
  rw [h1, List.length_append, List.length_append]
  omega

theorem pad_mono {a b : Nat} (h : a ≤ b) : a + padLen a 4 ≤ b + padLen b 4 := by
  unfold padLen
  omega

theorem minified_savable {W : Type} {events : List Obj} {s : SBNK} {swars : List (List W)}
    {events' : List Obj} {insts' : List (Option Inst)} {swars' : List (List W)}
    (h : minify events s.instruments (some swars) = .ok (events', insts', swars')) (hs : Savable s)
    (hsmall : totalOf s ≤ 65536)
    (hl : ∀ n ∈ (events.map (·.2)).filterMap switchedTo, ∀ i, s.instruments[n]? = some (some i) → Loadable i.kind) :
    Savable { s with instruments := insts', inaccessible := [] } ∧
      totalOf { s with instruments := insts', inaccessible := [] } ≤ totalOf s := by
  obtain ⟨waves, hnd, _, hlen, hwav, hslot, _⟩ := minified_slot h
  have hmem : ∀ n ∈ (events.map (·.2)).filterMap switchedTo, ∀ i, s.instruments[n]? = some (some i) →
      keyOf i ∈ dataOf s ∧ KindFits i.kind := by
    intro n hn i hi
    have ho : (some n, i) ∈ orderOf s := mem_order.2 ⟨hi, (loadable_type (hl n hn i hi)).2⟩
    exact ⟨mem_nubInto.2 (.inr (List.mem_map.2 ⟨_, ho, rfl⟩)), hs.1 _ ho⟩
  have hblob : (blobOf s).length ≤ 65536 := by
    have : (blobOf s).length ≤ totalOf s := by simp only [totalOf]; omega
    omega
  -- there are not more waves than bytes
  have hwaves : waves.length ≤ 65536 := by
    refine Nat.le_trans ?_ hblob
    let keys := (dataOf s).filter fun k => decide (k ∈ (((events.map (·.2)).filterMap switchedTo).filterMap fun n =>
      (s.instruments[n]?).join).map keyOf)
    have hk : ∀ k ∈ keys, ∃ n ∈ (events.map (·.2)).filterMap switchedTo, ∃ i, s.instruments[n]? = some (some i) ∧
        k = keyOf i := by
      intro k hk
      have := (List.mem_filter.1 hk).2
      rw [decide_eq_true_eq] at this
      obtain ⟨i, hi, rfl⟩ := List.mem_map.1 this
      obtain ⟨n, hn, he⟩ := List.mem_filterMap.1 hi
      exact ⟨n, hn, i, Option.join_eq_some_iff.1 he, rfl⟩
    let g : Key → List (Nat × Nat) := fun k => ((decode k.1).map fun x => (definitions x).map waveKey).getD []
    have h1 : waves.length ≤ (keys.flatMap g).length := length_le hnd (fun x hx => by
      obtain ⟨n, hn, i, hi, d, hd, rfl⟩ := hwav x hx
      obtain ⟨hm, hf⟩ := hmem n hn i hi
      refine List.mem_flatMap.2 ⟨keyOf i, List.mem_filter.2 ⟨hm, ?_⟩, ?_⟩
      · rw [decide_eq_true_eq]
        exact List.mem_map.2 ⟨i, List.mem_filterMap.2 ⟨n, hn, by rw [hi]; rfl⟩, rfl⟩
      · show waveKey d ∈ ((decode (kindBytes i.kind)).map fun x => (definitions x).map waveKey).getD []
        rw [decode_bytes hf (hl n hn i hi), Option.map_some, Option.getD_some, norm_waves]
        exact List.mem_map_of_mem hd)
    have h2 : ∀ ks : List Key, (∀ k ∈ ks, (g k).length ≤ k.1.length) →
        (ks.flatMap g).length ≤ (ks.map fun k => k.1.length).sum := by
      intro ks
      induction ks with
      | nil => intro _; simp
      | cons k ks ih =>
        intro hks
        have a1 := hks k (by simp)
        have a2 := ih fun k' hk' => hks k' (List.mem_cons_of_mem _ hk')
        rw [List.flatMap_cons, List.length_append, List.map_cons, List.sum_cons]
        omega
    have h3 := h2 keys (fun k hk' => by
      obtain ⟨n, hn, i, hi, rfl⟩ := hk k hk'
      obtain ⟨hm, hf⟩ := hmem n hn i hi
      show (((decode (kindBytes i.kind)).map fun x => (definitions x).map waveKey).getD []).length ≤ _
      rw [decode_bytes hf (hl n hn i hi), Option.map_some, Option.getD_some, norm_waves, List.length_map]
      exact definitions_length _ hf)
    have h4 : (keys.map fun k => k.1.length).sum ≤ (blobOf s).length := by
      rw [blobOf, length_flatten_sum]
      exact sum_le (· = ·) _ _ (fun _ _ _ e1 e2 => e1 ▸ e2) (fun x a e => by rw [e]; exact Nat.le_refl _)
        ((data_nodup s).sublist List.filter_sublist) fun a ha => ⟨a, (List.mem_filter.1 ha).1, rfl⟩
    omega
  generalize hs' : ({ s with instruments := insts', inaccessible := [] } : SBNK) = s'
  have hi' : s'.instruments = insts' := by rw [← hs']
  have hn' : s'.inaccessible = [] := by rw [← hs']
  have hfits : ∀ j ∈ orderOf s', KindFits j.2.kind := by
    rintro ⟨o, i'⟩ hj
    obtain ⟨k, rfl⟩ := order_plain hn' hj
    have := (mem_order.1 hj).1
    rw [hi'] at this
    obtain ⟨n, hn, i, k', hi, hm, rfl⟩ := hslot _ _ this
    exact minifyKind_fits hwaves hm (hmem n hn i hi).2
  have hbase : baseOf s' ≤ baseOf s := by
    simp only [baseOf, hi']
    omega
  have hb : (blobOf s').length ≤ (blobOf s).length := by
    rw [blobOf, blobOf, length_flatten_sum, length_flatten_sum]
    refine sum_le (fun x a => ∃ n ∈ (events.map (·.2)).filterMap switchedTo, ∃ i k', s.instruments[n]? = some (some i) ∧
        minifyKind waves i.kind = .ok k' ∧ x = keyOf i ∧ a = keyOf { i with kind := k' }) _ _ ?_ ?_ (data_nodup s') ?_
    · rintro x a b ⟨n, hn, i, k', hi, hm, rfl, rfl⟩ ⟨n2, hn2, i2, k2', hi2, hm2, he, rfl⟩
      simp only [keyOf, Prod.mk.injEq] at he
      have hne := norm_eq (hmem n hn i hi).2 (hl n hn i hi) (hmem n2 hn2 i2 hi2).2 (hl n2 hn2 i2 hi2) he.1
      have g1 := minifyKind_norm hm
      have g2 := minifyKind_norm hm2
      rw [hne, g2] at g1
      simp only [Except.ok.injEq] at g1
      simp only [keyOf, Prod.mk.injEq]
      exact ⟨by rw [← norm_bytes k', ← norm_bytes k2', g1], he.2⟩
    · rintro x a ⟨n, hn, i, k', hi, hm, rfl, rfl⟩
      exact minifyKind_length hm (hmem n hn i hi).2 (minifyKind_fits hwaves hm (hmem n hn i hi).2)
    · intro a ha
      rw [dataOf, mem_nubInto] at ha
      obtain ⟨⟨o, i'⟩, hj, rfl⟩ := List.mem_map.1 (ha.resolve_left (by simp))
      obtain ⟨k, rfl⟩ := order_plain hn' hj
      have := (mem_order.1 hj).1
      rw [hi'] at this
      obtain ⟨n, hn, i, k', hi, hm, rfl⟩ := hslot _ _ this
      exact ⟨keyOf i, (hmem n hn i hi).1, n, hn, i, k', hi, hm, rfl, rfl⟩
  have htot : totalOf s' ≤ totalOf s := by
    have := pad_mono (show baseOf s' + (blobOf s').length ≤ baseOf s + (blobOf s).length by omega)
    simpa only [totalOf, padOf] using this
  refine ⟨⟨hfits, ?_, by omega⟩, htot⟩
  rintro ⟨j, o⟩ hp
  have hj := mem_slots.1 hp
  rw [hi'] at hj
  have hb0 : baseOf s' + (blobOf s').length ≤ totalOf s' := by simp only [totalOf]; omega
  cases o with
  | none =>
    refine ⟨by simp [typeNum], ?_⟩
    rw [← hi'] at hj
    simp only [offNum, offs_lookup_none hj]
    omega
  | some i' =>
    obtain ⟨n, hn, i, k', hi, hm, rfl⟩ := hslot _ _ hj
    have ht : k'.type ≤ 17 := by rw [minifyKind_type hm]; exact (loadable_type (hl n hn i hi)).2
    refine ⟨Nat.lt_of_le_of_lt ht (by decide), ?_⟩
    rw [← hi'] at hj
    have ho := mem_order.2 ⟨hj, ht⟩
    have hk : keyOf { i with kind := k' } ∈ dataOf s' := mem_nubInto.2 (.inr (List.mem_map.2 ⟨_, ho, rfl⟩))
    have h1 := off_le hk
    have h2 := List.length_pos_iff.2 (kindBytes_ne _ (hfits _ ho))
    simp only [offNum, offs_lookup hj ht]
    have h3 : (keyOf { i with kind := k' }).1.length = (kindBytes k').length := rfl
    simp only [blobOf] at hb0
    dsimp only at h2
    omega

end Verif.Proofs.MinifySave
