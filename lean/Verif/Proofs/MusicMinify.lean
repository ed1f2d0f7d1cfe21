import Verif.Spec.Music

/-! # Lemmas about minification -/

namespace Verif.Proofs.MusicMinify

open Verif Verif.Model.SoundSequence Verif.Model.SoundBank Verif.Model.Music Verif.Spec.Music

/-! ## The notes played -/

/-- `plays` by recursion, with a current instrument. -/
def playsFrom : Option Nat → List Ev → List (Ev × Nat × Int)
  | _, [] => []
  | cur, e :: es =>
    ((pitchOf e).bind fun p => cur.map fun n => (e, n, p)).toList ++ playsFrom ((switchedTo e).or cur) es

theorem playsFrom_eq (cur : Option Nat) (events : List Ev) :
    (List.range events.length).filterMap (fun i =>
      (events[i]?).bind fun e => (pitchOf e).bind fun p =>
        ((((events.take i).filterMap switchedTo).getLast?).or cur).map fun n => (e, n, p)) = playsFrom cur events := by
  induction events generalizing cur with
  | nil => rfl
  | cons e es ih =>
    rw [List.length_cons, List.range_succ_eq_map, List.filterMap_cons, List.filterMap_map]
    have hrest : ((fun i => ((e :: es)[i]?).bind fun e' => (pitchOf e').bind fun p =>
          (((((e :: es).take i).filterMap switchedTo).getLast?).or cur).map fun n => (e', n, p)) ∘ Nat.succ) =
        (fun i => (es[i]?).bind fun e' => (pitchOf e').bind fun p =>
          ((((es.take i).filterMap switchedTo).getLast?).or ((switchedTo e).or cur)).map fun n => (e', n, p)) := by
      funext i
      simp only [Function.comp, List.getElem?_cons_succ, Nat.succ_eq_add_one, List.take_succ_cons]
      have : ((e :: es.take i).filterMap switchedTo).getLast?.or cur =
          ((es.take i).filterMap switchedTo).getLast?.or ((switchedTo e).or cur) := by
        rw [List.filterMap_cons]
        cases switchedTo e with
        | none => rfl
        | some n =>
          rw [List.getLast?_cons]
          cases ((es.take i).filterMap switchedTo).getLast? <;> rfl
      rw [this]
    rw [hrest, ih, playsFrom]
    simp only [List.getElem?_cons_zero, Option.bind_some, List.take_zero, List.filterMap_nil, List.getLast?_nil,
      Option.none_or]
    cases (pitchOf e).bind fun p => cur.map fun n => (e, n, p) <;> rfl

theorem plays_eq (events : List Ev) : plays events = playsFrom none events := by
  rw [← playsFrom_eq]
  unfold plays
  simp only [Option.or_none]

/-! ## Collecting -/

theorem dictSet_keys {κ ν : Type} [DecidableEq κ] (k : κ) (v : ν) : ∀ (d : List (κ × ν)), (d.map (·.1)).Nodup →
    ((dictSet d k v).map (·.1)).Nodup ∧ ∀ x, x ∈ (dictSet d k v).map (·.1) ↔ x = k ∨ x ∈ d.map (·.1)
  | [], _ => by simp [dictSet]
  | (a, b) :: d, h => by
    rw [List.map_cons, List.nodup_cons] at h
    obtain ⟨h1, h2⟩ := dictSet_keys k v d h.2
    unfold dictSet
    split
    · rename_i hk
      subst hk
      simp only [List.map_cons, List.nodup_cons, List.mem_cons]
      exact ⟨h, fun x => by simp⟩
    · rename_i hk
      simp only [List.map_cons, List.nodup_cons, List.mem_cons]
      refine ⟨⟨fun hm => ?_, h1⟩, fun x => ?_⟩
      · rcases (h2 a).1 hm with rfl | hm
        · exact hk rfl
        · exact h.1 hm
      · rw [h2]
        constructor
        · rintro (h | h | h) <;> simp [h]
        · rintro (h | h | h) <;> simp [h]

theorem mem_of_lookup {κ ν : Type} [DecidableEq κ] {k : κ} {v : ν} : ∀ {d : List (κ × ν)}, d.lookup k = some v → (k, v) ∈ d
  | [], h => nomatch h
  | (a, b) :: d, h => by
    rw [List.lookup_cons] at h
    split at h
    · rename_i hk
      rw [beq_iff_eq] at hk
      cases h
      subst hk
      exact List.mem_cons_self
    · exact List.mem_cons_of_mem _ (mem_of_lookup h)

theorem collect_other (id : Nat) (e : Ev) (es : List Obj) (cur : Option Nat) (acc : List (Nat × List Int))
    (h1 : switchedTo e = none) (h2 : pitchOf e = none) : collect ((id, e) :: es) cur acc = collect es cur acc := by
  cases e <;> first | (simp [switchedTo] at h1; done) | (simp [pitchOf] at h2; done) | (cases cur <;> rfl)

theorem collect_spec : ∀ (events : List Obj) (cur : Option Nat) (acc : List (Nat × List Int)),
    (acc.map (·.1)).Nodup → (∀ n, cur = some n → n ∈ acc.map (·.1)) →
    ((collect events cur acc).map (·.1)).Nodup ∧
    (∀ n, n ∈ (collect events cur acc).map (·.1) ↔
      n ∈ acc.map (·.1) ∨ n ∈ (events.map (·.2)).filterMap switchedTo) ∧
    (∀ n p, (p ∈ ((collect events cur acc).lookup n).getD []) ↔
      p ∈ (acc.lookup n).getD [] ∨ ∃ e, (e, n, p) ∈ playsFrom cur (events.map (·.2)))
  | [], cur, acc, h1, h2 => by
    refine ⟨h1, fun n => by simp [collect], fun n p => by simp [collect, playsFrom]⟩
  | (id, e) :: es, cur, acc, h1, h2 => by
    cases e with
    | instrumentSwitch b i =>
      rw [collect]
      have hkeys : ∀ (acc' : List (Nat × List Int)),
          acc' = (if (acc.lookup i).isSome = true then acc else dictSet acc i []) →
          (acc'.map (·.1)).Nodup ∧ (∀ n, n ∈ acc'.map (·.1) ↔ n = i ∨ n ∈ acc.map (·.1)) ∧
            ∀ n, (acc'.lookup n).getD [] = (acc.lookup n).getD [] := by
        rintro acc' rfl
        split
        · rename_i hs
          refine ⟨h1, fun n => ⟨.inr, ?_⟩, fun n => rfl⟩
          rintro (rfl | h)
          · obtain ⟨v, hv⟩ := Option.isSome_iff_exists.1 hs
            exact List.mem_map.2 ⟨(n, v), mem_of_lookup hv, rfl⟩
          · exact h
        · rename_i hs
          obtain ⟨k1, k2⟩ := dictSet_keys i ([] : List Int) acc h1
          refine ⟨k1, k2, fun n => ?_⟩
          rw [dictSet_lookup]
          split
          · rename_i hn
            subst hn
            rw [Option.not_isSome_iff_eq_none.1 hs]
            rfl
          · rfl
      generalize hacc : (if (acc.lookup i).isSome = true then acc else dictSet acc i []) = acc'
      obtain ⟨k1, k2, k3⟩ := hkeys acc' hacc.symm
      obtain ⟨i1, i2, i3⟩ := collect_spec es (some i) acc' k1 (fun n hn => by cases hn; exact (k2 i).2 (.inl rfl))
      refine ⟨i1, fun n => ?_, fun n p => ?_⟩
      · rw [i2, k2]
        simp only [List.map_cons, List.filterMap_cons, switchedTo, List.mem_cons]
        constructor
        · rintro ((h | h) | h)
          · exact .inr (.inl h)
          · exact .inl h
          · exact .inr (.inr h)
        · rintro (h | h | h)
          · exact .inl (.inr h)
          · exact .inl (.inl h)
          · exact .inr h
      · rw [i3, k3]
        simp only [List.map_cons, playsFrom, pitchOf, switchedTo, Option.bind_none, Option.toList_none,
          List.nil_append, Option.some_or]
    | note pitch v f d =>
      cases cur with
      | none =>
        have hc : collect ((id, .note pitch v f d) :: es) none acc = collect es none acc := rfl
        rw [hc]
        obtain ⟨i1, i2, i3⟩ := collect_spec es none acc h1 h2
        refine ⟨i1, fun n => ?_, fun n p => ?_⟩
        · rw [i2]
          simp only [List.map_cons, List.filterMap_cons, switchedTo]
        · rw [i3]
          simp only [List.map_cons, playsFrom, pitchOf, switchedTo, Option.bind_some, Option.map_none, Option.toList_none,
            List.nil_append, Option.none_or]
      | some i =>
        rw [collect]
        have hi := h2 i rfl
        obtain ⟨k1, k2⟩ := dictSet_keys i ((acc.lookup i).getD [] ++ [pitch]) acc h1
        obtain ⟨i1, i2, i3⟩ := collect_spec es (some i) (dictSet acc i ((acc.lookup i).getD [] ++ [pitch])) k1
          (fun n hn => by cases hn; exact (k2 i).2 (.inl rfl))
        refine ⟨i1, fun n => ?_, fun n p => ?_⟩
        · rw [i2, k2]
          simp only [List.map_cons, List.filterMap_cons, switchedTo]
          constructor
          · rintro ((h | h) | h)
            · subst h; exact .inl hi
            · exact .inl h
            · exact .inr h
          · rintro (h | h)
            · exact .inl (.inr h)
            · exact .inr h
        · rw [i3, dictSet_lookup]
          simp only [List.map_cons, playsFrom, pitchOf, switchedTo, Option.bind_some, Option.map_some,
            Option.toList_some, Option.none_or, List.singleton_append, List.mem_cons, Prod.mk.injEq]
          by_cases hn : n = i
          · subst hn
            rw [if_pos rfl]
            simp only [Option.getD_some, List.mem_append, List.mem_singleton]
            constructor
            · rintro ((h | h) | ⟨e, h⟩)
              · exact .inl h
              · exact .inr ⟨_, .inl ⟨rfl, trivial, h⟩⟩
              · exact .inr ⟨e, .inr h⟩
            · rintro (h | ⟨e, h | h⟩)
              · exact .inl (.inl h)
              · exact .inl (.inr h.2.2)
              · exact .inr ⟨e, h⟩
          · rw [if_neg hn]
            constructor
            · rintro (h | ⟨e, h⟩)
              · exact .inl h
              · exact .inr ⟨e, .inr h⟩
            · rintro (h | ⟨e, h | h⟩)
              · exact .inl h
              · exact absurd h.2.1 hn
              · exact .inr ⟨e, h⟩
    | _ =>
      rw [collect_other _ _ _ _ _ rfl rfl]
      obtain ⟨i1, i2, i3⟩ := collect_spec es cur acc h1 h2
      refine ⟨i1, fun n => ?_, fun n p => ?_⟩
      · rw [i2]
        simp only [List.map_cons, List.filterMap_cons, switchedTo]
      · rw [i3]
        simp only [List.map_cons, playsFrom, pitchOf, switchedTo, Option.bind_none, Option.toList_none,
          List.nil_append, Option.none_or]

theorem usedInsts_spec (events : List Obj) :
    (usedInsts events).Nodup ∧ (usedInsts events).Pairwise (· < ·) ∧
      ∀ n, n ∈ usedInsts events ↔ n ∈ (events.map (·.2)).filterMap switchedTo := by
  obtain ⟨h1, h2, _⟩ := collect_spec events none [] (by simp) (by simp)
  have hp := sortBy_perm (id : Nat → Nat) ((collect events none []).map (·.1))
  have hn : (usedInsts events).Nodup := hp.nodup_iff.2 h1
  refine ⟨hn, ?_, fun n => ?_⟩
  · have hs := sortBy_sorted (id : Nat → Nat) ((collect events none []).map (·.1))
    unfold usedInsts at hn ⊢
    exact (hs.and hn).imp (fun h => by
      have h1 : _ ≤ _ := h.1
      have h2 := h.2
      simp only [id] at h1
      omega)
  · unfold usedInsts
    rw [hp.mem_iff, h2]
    simp

theorem mapE_exists {α β : Type _} {f : α → Py β} : ∀ {as : List α}, (∀ a ∈ as, ∃ b, f a = .ok b) →
    ∃ bs, mapE f as = .ok bs
  | [], _ => ⟨[], rfl⟩
  | a :: as, h => by
    obtain ⟨b, hb⟩ := h a (by simp)
    obtain ⟨bs, h1⟩ := mapE_exists (as := as) fun a ha => h a (by simp [ha])
    exact ⟨b :: bs, by rw [mapE_cons_ok]; exact ⟨b, bs, hb, h1, rfl⟩⟩

/-! ## Renumbering the switches -/

/-- An event with the number of the instrument it switches to replaced. -/
def renumbered (used : List Nat) : Ev → Ev
  | .instrumentSwitch b i => .instrumentSwitch b (used.idxOf i)
  | e => e

theorem renumber_ok {used : List Nat} {o o' : Obj} (h : renumber used o = .ok o') :
    o' = (o.1, renumbered used o.2) ∧ ∀ n, switchedTo o.2 = some n → n ∈ used := by
  obtain ⟨id, e⟩ := o
  cases e with
  | instrumentSwitch b i =>
    simp only [renumber, pyIndex] at h
    split at h
    · rename_i hi
      rw [bind_ok, pure_eq_ok] at h
      exact ⟨h.symm, fun n hn => by cases hn; exact hi⟩
    · exact nomatch h
  | _ =>
    cases h
    exact ⟨rfl, fun n hn => nomatch hn⟩

theorem playsFrom_renumbered (used : List Nat) : ∀ (events : List Ev) (cur : Option Nat),
    playsFrom (cur.map used.idxOf) (events.map (renumbered used)) =
      (playsFrom cur events).map fun x => (x.1, used.idxOf x.2.1, x.2.2)
  | [], _ => rfl
  | e :: es, cur => by
    rw [List.map_cons, playsFrom, playsFrom, List.map_append]
    have h1 : (switchedTo (renumbered used e)).or (cur.map used.idxOf) = ((switchedTo e).or cur).map used.idxOf := by
      cases e <;> first | rfl | (simp only [renumbered, switchedTo, Option.none_or])
    rw [h1, playsFrom_renumbered used es]
    congr 1
    cases e <;> cases cur <;> rfl

/-! ## The waves -/

theorem mem_setOf {α : Type} [DecidableEq α] (l : List α) (a : α) : a ∈ setOf l ↔ a ∈ l := by
  unfold setOf
  suffices h : ∀ (l s : List α), a ∈ l.foldl (fun s a => if a ∈ s then s else s ++ [a]) s ↔ a ∈ s ∨ a ∈ l by
    rw [h]; simp
  intro l
  induction l with
  | nil => intro s; simp
  | cons b l ih =>
    intro s
    rw [List.foldl_cons, ih]
    split
    · rename_i hb
      simp only [List.mem_cons]
      constructor
      · rintro (h | h)
        · exact .inl h
        · exact .inr (.inr h)
      · rintro (h | rfl | h)
        · exact .inl h
        · exact .inl hb
        · exact .inr h
    · simp only [List.mem_append, List.mem_cons, List.not_mem_nil, or_false, or_assoc]

theorem setOf_nodup {α : Type} [DecidableEq α] (l : List α) : (setOf l).Nodup := by
  unfold setOf
  suffices h : ∀ (l s : List α), s.Nodup → (l.foldl (fun s a => if a ∈ s then s else s ++ [a]) s).Nodup from
    h l [] (by simp)
  intro l
  induction l with
  | nil => intro s h; exact h
  | cons b l ih =>
    intro s h
    rw [List.foldl_cons]
    apply ih
    split
    · exact h
    · rename_i hb
      rw [List.nodup_append]
      exact ⟨h, by simp, fun x hx y hy => by
        rw [List.mem_singleton] at hy
        subst hy
        exact fun e => hb (e ▸ hx)⟩

theorem mem_usedWaves (insts : List (Option Inst)) (notes : List (List Int)) (e : Nat × Nat) :
    e ∈ usedWaves insts notes ↔
      ∃ inst ns, (some inst, ns) ∈ insts.zip notes ∧ e ∈ kindWaves ns inst.kind := by
  unfold usedWaves
  rw [(sortBy_perm _ _).mem_iff, mem_setOf, List.mem_flatMap]
  constructor
  · rintro ⟨⟨i, ns⟩, h1, h2⟩
    cases i with
    | none => exact nomatch h2
    | some inst => exact ⟨inst, ns, h1, h2⟩
  · rintro ⟨inst, ns, h1, h2⟩
    exact ⟨(some inst, ns), h1, h2⟩

theorem usedWaves_nodup (insts : List (Option Inst)) (notes : List (List Int)) : (usedWaves insts notes).Nodup := by
  unfold usedWaves
  exact (sortBy_perm _ _).nodup_iff.2 (setOf_nodup _)

theorem rangeWaves_mem (notes : List Int) : ∀ (ds : List Note) (n : Int) (j : Nat) (d : Note), ds[j]? = some d →
    n + j ∈ notes → waveKey d ∈ rangeWaves notes n ds
  | [], _, _, _, h, _ => nomatch h
  | d' :: ds, n, 0, d, h, hn => by
    cases h
    rw [rangeWaves, if_pos (by simpa using hn)]
    exact List.mem_cons_self
  | d' :: ds, n, j + 1, d, h, hn => by
    have := rangeWaves_mem notes ds (n + 1) j d h (by
      have : n + 1 + (j : Int) = n + ((j + 1 : Nat) : Int) := by omega
      rw [this]; exact hn)
    rw [rangeWaves]
    split
    · exact List.mem_cons_of_mem _ this
    · exact this

theorem regionWaves_mem (notes : List Int) (p : Int) (hp : p ∈ notes) : ∀ (rs : List (Nat × Note)) (low : Nat)
    (r : Nat × Note), (low : Int) ≤ p → rs.find? (fun r => decide (p ≤ r.1)) = some r →
    waveKey r.2 ∈ regionWaves notes low rs
  | [], _, _, _, h => nomatch h
  | (last, d) :: rs, low, r, hl, h => by
    rw [List.find?_cons] at h
    rw [regionWaves]
    split at h
    · rename_i hd
      have hd := of_decide_eq_true hd
      dsimp only at hd
      cases h
      rw [if_pos]
      · exact List.mem_cons_self
      · rw [List.any_eq_true]
        refine ⟨p.toNat, List.mem_range'.2 ⟨p.toNat - low, by omega, by omega⟩, ?_⟩
        rw [Int.toNat_of_nonneg (by omega)]
        simpa using hp
    · rename_i hd
      have hd := of_decide_eq_false hd
      dsimp only at hd
      split
      · exact List.mem_cons_of_mem _ (regionWaves_mem notes p hp rs (last + 1) r (by omega) h)
      · exact regionWaves_mem notes p hp rs low r hl h

theorem kindWaves_mem {notes : List Int} {p : Int} (hp : p ∈ notes) (h0 : 0 ≤ p) {k : Kind} {d : Note}
    (h : definitionFor k p = some d) : waveKey d ∈ kindWaves notes k := by
  cases k with
  | single d' => cases h; exact List.mem_singleton.2 rfl
  | range first ds =>
    simp only [definitionFor] at h
    split at h
    · rename_i hf
      exact rangeWaves_mem notes ds first _ d h (by
        rw [Int.toNat_of_nonneg (by omega)]
        have : (first : Int) + (p - first) = p := by omega
        rw [this]; exact hp)
    · exact nomatch h
  | regional rs =>
    simp only [definitionFor, Option.map_eq_some_iff] at h
    obtain ⟨r, h, rfl⟩ := h
    exact regionWaves_mem notes p hp rs 0 r (by omega) h

theorem rangeWaves_sub (notes : List Int) : ∀ (ds : List Note) (n : Int) (e : Nat × Nat), e ∈ rangeWaves notes n ds →
    ∃ d ∈ ds, e = waveKey d
  | [], _, _, h => nomatch h
  | d :: ds, n, e, h => by
    rw [rangeWaves] at h
    split at h
    · rcases List.mem_cons.1 h with rfl | h
      · exact ⟨d, List.mem_cons_self, rfl⟩
      · obtain ⟨d', h1, h2⟩ := rangeWaves_sub notes ds _ e h
        exact ⟨d', List.mem_cons_of_mem _ h1, h2⟩
    · obtain ⟨d', h1, h2⟩ := rangeWaves_sub notes ds _ e h
      exact ⟨d', List.mem_cons_of_mem _ h1, h2⟩

theorem regionWaves_sub (notes : List Int) : ∀ (rs : List (Nat × Note)) (low : Nat) (e : Nat × Nat),
    e ∈ regionWaves notes low rs → ∃ r ∈ rs, e = waveKey r.2
  | [], _, _, h => nomatch h
  | (last, d) :: rs, low, e, h => by
    rw [regionWaves] at h
    split at h
    · rcases List.mem_cons.1 h with rfl | h
      · exact ⟨_, List.mem_cons_self, rfl⟩
      · obtain ⟨d', h1, h2⟩ := regionWaves_sub notes rs _ e h
        exact ⟨d', List.mem_cons_of_mem _ h1, h2⟩
    · obtain ⟨d', h1, h2⟩ := regionWaves_sub notes rs _ e h
      exact ⟨d', List.mem_cons_of_mem _ h1, h2⟩

theorem kindWaves_sub {notes : List Int} {k : Kind} {e : Nat × Nat} (h : e ∈ kindWaves notes k) :
    ∃ d ∈ definitions k, e = waveKey d := by
  cases k with
  | single d => exact ⟨d, List.mem_singleton.2 rfl, List.mem_singleton.1 h⟩
  | range first ds => exact rangeWaves_sub notes ds first e h
  | regional rs =>
    obtain ⟨r, h1, h2⟩ := regionWaves_sub notes rs 0 e h
    exact ⟨r.2, List.mem_map.2 ⟨r, h1, rfl⟩, h2⟩

/-! ## The rewritten instruments -/

theorem find_lastTo127 (p : Int) (hp : p ≤ 127) : ∀ (rs : List (Nat × Note)) (r : Nat × Note),
    rs.find? (fun r => decide (p ≤ r.1)) = some r →
    ((lastTo127 rs).find? fun r => decide (p ≤ r.1)).map (·.2) = some r.2
  | [], _, h => nomatch h
  | [a], r, h => by
    rw [List.find?_cons] at h
    split at h
    · cases h
      rw [lastTo127, List.find?_cons, show decide (p ≤ ((127 : Nat) : Int)) = true from decide_eq_true (by omega)]
      rfl
    · exact nomatch h
  | a :: b :: rs, r, h => by
    rw [List.find?_cons] at h
    rw [lastTo127, List.find?_cons]
    split at h
    · rename_i ha
      cases h
      rfl
    · exact find_lastTo127 p hp (b :: rs) r h

theorem find_filter_map (used : List (Nat × Nat)) (p : Int) : ∀ (rs : List (Nat × Note)) (r : Nat × Note),
    rs.find? (fun r => decide (p ≤ r.1)) = some r → waveKey r.2 ∈ used →
    ((rs.filter fun r => waveKey r.2 ∈ used).map fun r => (r.1, remap used r.2)).find? (fun r => decide (p ≤ r.1)) =
      some (r.1, remap used r.2)
  | [], _, h, _ => nomatch h
  | a :: rs, r, h, hr => by
    rw [List.find?_cons] at h
    split at h
    · rename_i ha
      cases h
      rw [List.filter_cons, if_pos (decide_eq_true hr), List.map_cons, List.find?_cons]
      dsimp only
      rw [ha]
    · rename_i ha
      rw [List.filter_cons]
      split
      · rw [List.map_cons, List.find?_cons]
        dsimp only
        rw [ha]
        exact find_filter_map used p rs r h hr
      · exact find_filter_map used p rs r h hr

theorem minifyKind_def {used : List (Nat × Nat)} {k k' : Kind} {p : Int} {d : Note} (hp : p ≤ 127)
    (hk : minifyKind used k = .ok k') (hd : definitionFor k p = some d) (hu : waveKey d ∈ used) :
    definitionFor k' p = some (remap used d) := by
  cases k with
  | single d' =>
    cases hd
    simp only [minifyKind, pyIndex, if_pos hu, bind_ok, pure_eq_ok] at hk
    subst hk
    simp only [definitionFor, remap, if_pos hu]
  | range first ds =>
    simp only [definitionFor] at hd
    split at hd
    · rename_i hf
      cases ds with
      | nil => exact nomatch hk
      | cons dummy ds =>
        simp only [minifyKind, Except.ok.injEq] at hk
        subst hk
        simp only [definitionFor, if_pos hf, List.getElem?_map, hd, Option.map_some, if_pos hu]
    · exact nomatch hd
  | regional rs =>
    simp only [definitionFor, Option.map_eq_some_iff] at hd
    obtain ⟨r, h, rfl⟩ := hd
    simp only [minifyKind, Except.ok.injEq] at hk
    subst hk
    have := find_lastTo127 p hp _ _ (find_filter_map used p rs r h hu)
    simpa only [definitionFor] using this

theorem getElem?_idxOf {α : Type} [DecidableEq α] [BEq α] [LawfulBEq α] {l : List α} {a : α} (h : a ∈ l) :
    l[l.idxOf a]? = some a := by
  rw [List.getElem?_eq_getElem (List.idxOf_lt_length_iff.2 h), List.getElem_idxOf]

theorem newWaves_get {W : Type} {used : List (Nat × Nat)} {k : Nat} (hk : ∀ e ∈ used, e.1 = k) {ws ws' : List W}
    (h : newWaves used k ws = .ok ws') {e : Nat × Nat} (he : e ∈ used) : ws'[used.idxOf e]? = ws[e.2]? := by
  unfold newWaves at h
  rw [List.filter_eq_self.2 (fun e he => decide_eq_true (hk e he))] at h
  have hl := mapE_length h
  have hi := List.idxOf_lt_length_iff.2 he
  have := mapE_getElem h (used.idxOf e) hi (by omega)
  rw [List.getElem_idxOf, pyIdx_eq_ok] at this
  rw [this, List.getElem?_eq_getElem (by omega)]

theorem soundOf_remap {W : Type} {used : List (Nat × Nat)} {k : Nat} (hk : ∀ e ∈ used, e.1 = k) {swars swars' : List (List W)}
    (h : mapE (fun p : List W × Nat => newWaves used p.2 p.1) swars.zipIdx = .ok swars') {d : Note} (ht : d.type = 1)
    (hd : waveKey d ∈ used) : soundOf (remap used d) swars' = soundOf d swars := by
  have hdk : d.waveArchiveIDID = k := hk _ hd
  unfold soundOf remap
  rw [if_pos hd]
  simp only [if_pos ht, hdk]
  have hl := mapE_length h
  rw [List.length_zipIdx] at hl
  by_cases hlt : k < swars.length
  · have := mapE_getElem h k (by simpa using hlt) (by omega)
    rw [List.getElem_zipIdx] at this
    simp only [Nat.zero_add] at this
    rw [List.getElem?_eq_getElem hlt, List.getElem?_eq_getElem (show k < swars'.length by omega)]
    simp only [Option.bind_some]
    rw [newWaves_get hk this hd]
    rfl
  · rw [List.getElem?_eq_none (by omega), List.getElem?_eq_none (by omega)]
    rfl

/-- The parts of a successful run. -/
theorem minify_inv {W : Type} {events : List Obj} {insts : List (Option Inst)} {swars : List (List W)}
    {events' : List Obj} {insts' : List (Option Inst)} {swars' : List (List W)}
    (h : minify events insts (some swars) = .ok (events', insts', swars')) :
    ∃ newInsts waves, mapE (fun n => pyIdx insts n) (usedInsts events) = .ok newInsts ∧
      waves = usedWaves newInsts ((usedInsts events).map fun n => ((collect events none []).lookup n).getD []) ∧
      events' = events.map (fun o => (o.1, renumbered (usedInsts events) o.2)) ∧
      mapE (fun p : List W × Nat => newWaves waves p.2 p.1) swars.zipIdx = .ok swars' ∧
      insts'.length = newInsts.length ∧
      (∀ (j : Nat), newInsts[j]? = some none → insts'[j]? = some none) ∧
      ∀ (j : Nat) inst, newInsts[j]? = some (some inst) → ∃ k', minifyKind waves inst.kind = .ok k' ∧
        insts'[j]? = some (some { inst with kind := k' }) := by
  unfold minify at h
  simp only [bind_eq_ok, pure_eq_ok, Prod.mk.injEq] at h
  obtain ⟨newInsts, h1, ev, h2, sw, h3, fi, h4, rfl, rfl, rfl⟩ := h
  refine ⟨newInsts, _, h1, rfl, ?_, h3, mapE_length h4, ?_, ?_⟩
  · apply List.ext_getElem
    · rw [mapE_length h2, List.length_map]
    · intro i hi hi'
      rw [List.length_map] at hi'
      rw [(renumber_ok (mapE_getElem h2 i hi' hi)).1, List.getElem_map]
  · intro j hj
    obtain ⟨hj, hj'⟩ := List.getElem?_eq_some_iff.1 hj
    have hl := mapE_length h4
    have := mapE_getElem h4 j hj (by omega)
    rw [hj'] at this
    simp only [minifyInst, Except.ok.injEq] at this
    rw [List.getElem?_eq_getElem (by omega), ← this]
  · intro j inst hj
    obtain ⟨hj, hj'⟩ := List.getElem?_eq_some_iff.1 hj
    have hl := mapE_length h4
    have := mapE_getElem h4 j hj (by omega)
    rw [hj'] at this
    simp only [minifyInst, bind_eq_ok, pure_eq_ok] at this
    obtain ⟨k', hk, this⟩ := this
    exact ⟨k', hk, by rw [List.getElem?_eq_getElem (by omega), ← this]⟩

theorem newInsts_get {insts newInsts : List (Option Inst)} {used : List Nat}
    (h : mapE (fun n => pyIdx insts n) used = .ok newInsts) {n : Nat} (hn : n ∈ used) :
    newInsts[used.idxOf n]? = insts[n]? := by
  have hl := mapE_length h
  have hi := List.idxOf_lt_length_iff.2 hn
  have := mapE_getElem h (used.idxOf n) hi (by omega)
  rw [List.getElem_idxOf, pyIdx_eq_ok] at this
  rw [this, List.getElem?_eq_getElem (by omega)]

theorem mem_zip_of_get {α β : Type} {l : List α} {m : List β} {i : Nat} {a : α} {b : β} (h1 : l[i]? = some a)
    (h2 : m[i]? = some b) : (a, b) ∈ l.zip m := by
  rw [List.mem_iff_getElem?]
  exact ⟨i, by rw [List.getElem?_zip_eq_some]; exact ⟨h1, h2⟩⟩

/-- Every used wave belongs to a definition of an instrument that is switched to. -/
theorem usedWaves_sub {insts newInsts : List (Option Inst)} {used : List Nat} {notes : List (List Int)}
    (h : mapE (fun n => pyIdx insts n) used = .ok newInsts) {e : Nat × Nat} (he : e ∈ usedWaves newInsts notes) :
    ∃ n ∈ used, ∃ inst, insts[n]? = some (some inst) ∧ ∃ d ∈ definitions inst.kind, e = waveKey d := by
  obtain ⟨inst, ns, h1, h2⟩ := (mem_usedWaves _ _ _).1 he
  obtain ⟨i, h1⟩ := List.mem_iff_getElem?.1 h1
  rw [List.getElem?_zip_eq_some] at h1
  obtain ⟨hi, hi'⟩ := List.getElem?_eq_some_iff.1 h1.1
  have hl := mapE_length h
  have := mapE_getElem h i (by omega) hi
  rw [hi', pyIdx_eq_ok] at this
  exact ⟨_, List.getElem_mem (show i < used.length by omega), inst, this, kindWaves_sub h2⟩

theorem mem_playsFrom {e : Ev} {n : Nat} {p : Int} : ∀ {events : List Ev} {cur : Option Nat},
    (e, n, p) ∈ playsFrom cur events →
    (n ∈ events.filterMap switchedTo ∨ cur = some n) ∧ e ∈ events ∧ pitchOf e = some p
  | [], _, h => nomatch h
  | e' :: es, cur, h => by
    rw [playsFrom] at h
    rcases List.mem_append.1 h with h | h
    · rw [Option.mem_toList, Option.bind_eq_some_iff] at h
      obtain ⟨p', hp, h⟩ := h
      rw [Option.map_eq_some_iff] at h
      obtain ⟨n', hn, h⟩ := h
      simp only [Prod.mk.injEq] at h
      obtain ⟨rfl, rfl, rfl⟩ := h
      exact ⟨.inr hn, List.mem_cons_self, hp⟩
    · obtain ⟨h1, h2, h3⟩ := mem_playsFrom h
      refine ⟨?_, List.mem_cons_of_mem _ h2, h3⟩
      rw [List.filterMap_cons]
      rcases h1 with h1 | h1
      · left
        split
        · exact h1
        · exact List.mem_cons_of_mem _ h1
      · cases hs : switchedTo e' with
        | none =>
          rw [hs, Option.none_or] at h1
          exact .inr h1
        | some m =>
          rw [hs, Option.some_or] at h1
          cases h1
          exact .inl List.mem_cons_self

/-- A pitch that some note has while an instrument is current sounds the same afterwards. -/
theorem minify_sound {W : Type} {events : List Obj} {insts : List (Option Inst)} {swars : List (List W)}
    {events' : List Obj} {insts' : List (Option Inst)} {swars' : List (List W)}
    (h : minify events insts (some swars) = .ok (events', insts', swars')) (k : Nat)
    (hdefs : ∀ n ∈ (events.map (·.2)).filterMap switchedTo, ∀ inst, insts[n]? = some (some inst) →
      ∀ d ∈ definitions inst.kind, d.waveArchiveIDID = k ∧ d.type = 1) {e' : Ev} {n : Nat} {p : Int}
    (hmem : (e', n, p) ∈ playsFrom none (events.map (·.2))) (hpitch : 0 ≤ p ∧ p ≤ 127)
    (hne : sound insts swars n p ≠ none) :
    sound insts' swars' ((usedInsts events).idxOf n) p = sound insts swars n p := by
  obtain ⟨newInsts, waves, h1, hw, rfl, h3, hlen, hnone, hsome⟩ := minify_inv h
  obtain ⟨_, _, hused⟩ := usedInsts_spec events
  obtain ⟨_, _, hnotes⟩ := collect_spec events none [] (by simp) (by simp)
  obtain ⟨hn, he, hp⟩ := mem_playsFrom hmem
  have hn := hn.resolve_right (fun h => nomatch h)
  have hnu := (hused n).2 hn
  obtain ⟨hp0, hp127⟩ := hpitch
  have hpn := (hnotes n p).2 (.inr ⟨e', hmem⟩)
  have hget := newInsts_get h1 hnu
  unfold sound at hne ⊢
  cases hinst : insts[n]? with
  | none => rw [hinst] at hne; exact absurd rfl hne
  | some o =>
    cases o with
    | none => rw [hinst] at hne; exact absurd rfl hne
    | some inst =>
      rw [hinst] at hget
      obtain ⟨k', hk', hget'⟩ := hsome _ inst hget
      rw [hinst] at hne
      rw [hget']
      simp only [Option.join_some, Option.bind_some] at hne ⊢
      cases hd : definitionFor inst.kind p with
      | none => rw [hd] at hne; exact absurd rfl hne
      | some d =>
        have hkey : waveKey d ∈ waves := by
          rw [hw, mem_usedWaves]
          refine ⟨inst, _, mem_zip_of_get hget ?_, kindWaves_mem hpn hp0 hd⟩
          rw [List.getElem?_map, getElem?_idxOf hnu]
          rfl
        rw [minifyKind_def hp127 hk' hd hkey]
        simp only [Option.map_some, Option.some.injEq]
        have hall : ∀ n ∈ usedInsts events, ∀ inst, insts[n]? = some (some inst) → ∀ d ∈ definitions inst.kind,
            d.waveArchiveIDID = k ∧ d.type = 1 := fun n hn => hdefs n ((hused n).1 hn)
        apply soundOf_remap (k := k) _ h3 _ hkey
        · intro e hemem
          rw [hw] at hemem
          obtain ⟨m, hm, inst', hi', d', hd', rfl⟩ := usedWaves_sub h1 hemem
          exact (hall m hm inst' hi' d' hd').1
        · refine (hall n hnu inst hinst d ?_).2
          cases hk : inst.kind with
          | single d' => rw [hk] at hd; cases hd; exact List.mem_singleton.2 rfl
          | range first ds =>
            rw [hk] at hd
            simp only [definitionFor] at hd
            split at hd
            · exact List.mem_iff_getElem?.2 ⟨_, hd⟩
            · exact nomatch hd
          | regional rs =>
            rw [hk] at hd
            simp only [definitionFor, Option.map_eq_some_iff] at hd
            obtain ⟨r, hd, rfl⟩ := hd
            exact List.mem_map.2 ⟨r, List.mem_of_find?_eq_some hd, rfl⟩

/-! ## Only what is needed is kept -/

theorem rangeWaves_sound (notes : List Int) : ∀ (ds : List Note) (n : Int) (e : Nat × Nat), e ∈ rangeWaves notes n ds →
    ∃ (j : Nat) (d : Note), ds[j]? = some d ∧ n + j ∈ notes ∧ e = waveKey d
  | [], _, _, h => nomatch h
  | d :: ds, n, e, h => by
    have tail : e ∈ rangeWaves notes (n + 1) ds → ∃ (j : Nat) (d' : Note), (d :: ds)[j]? = some d' ∧ n + j ∈ notes ∧
        e = waveKey d' := by
      intro h
      obtain ⟨j, d', h1, h2, h3⟩ := rangeWaves_sound notes ds _ e h
      refine ⟨j + 1, d', h1, ?_, h3⟩
      have : n + 1 + (j : Int) = n + ((j + 1 : Nat) : Int) := by omega
      rw [← this]; exact h2
    rw [rangeWaves] at h
    split at h
    · rename_i hn
      rcases List.mem_cons.1 h with rfl | h
      · exact ⟨0, d, rfl, by simpa using hn, rfl⟩
      · exact tail h
    · exact tail h

theorem regionWaves_sound (notes : List Int) : ∀ (rs : List (Nat × Note)) (low : Nat) (e : Nat × Nat),
    e ∈ regionWaves notes low rs →
    ∃ p ∈ notes, (low : Int) ≤ p ∧ ∃ r, rs.find? (fun r => decide (p ≤ r.1)) = some r ∧ e = waveKey r.2
  | [], _, _, h => nomatch h
  | (last, d) :: rs, low, e, h => by
    rw [regionWaves] at h
    split at h
    · rename_i hany
      rcases List.mem_cons.1 h with rfl | h
      · rw [List.any_eq_true] at hany
        obtain ⟨i, hi, hn⟩ := hany
        rw [List.mem_range'] at hi
        obtain ⟨j, hj, rfl⟩ := hi
        refine ⟨_, by simpa using hn, by omega, (last, d), ?_, rfl⟩
        rw [List.find?_cons]
        dsimp only
        rw [decide_eq_true (by omega)]
      · rw [List.any_eq_true] at hany
        obtain ⟨i, hi, _⟩ := hany
        rw [List.mem_range'] at hi
        obtain ⟨j, hj, rfl⟩ := hi
        obtain ⟨p, hp, hl, r, h1, h2⟩ := regionWaves_sound notes rs _ e h
        refine ⟨p, hp, by omega, r, ?_, h2⟩
        rw [List.find?_cons]
        dsimp only
        rw [decide_eq_false (by omega)]
        exact h1
    · rename_i hany
      obtain ⟨p, hp, hl, r, h1, h2⟩ := regionWaves_sound notes rs _ e h
      refine ⟨p, hp, hl, r, ?_, h2⟩
      rw [List.find?_cons]
      dsimp only
      rw [decide_eq_false]
      · exact h1
      · intro hle
        apply hany
        rw [List.any_eq_true]
        refine ⟨p.toNat, List.mem_range'.2 ⟨p.toNat - low, by omega, by omega⟩, ?_⟩
        rw [Int.toNat_of_nonneg (by omega)]
        simpa using hp

theorem kindWaves_iff {notes : List Int} {k : Kind} {e : Nat × Nat} : e ∈ kindWaves notes k ↔
    ∃ d, ((k = .single d) ∨ ∃ p ∈ notes, 0 ≤ p ∧ definitionFor k p = some d) ∧ e = waveKey d := by
  constructor
  · intro h
    cases k with
    | single d => exact ⟨d, .inl rfl, List.mem_singleton.1 h⟩
    | range first ds =>
      obtain ⟨j, d, h1, h2, rfl⟩ := rangeWaves_sound notes ds first e h
      refine ⟨d, .inr ⟨_, h2, by omega, ?_⟩, rfl⟩
      rw [definitionFor, if_pos (by omega)]
      have : ((first : Int) + j - first).toNat = j := by omega
      rw [this]; exact h1
    | regional rs =>
      obtain ⟨p, hp, hl, r, h1, rfl⟩ := regionWaves_sound notes rs 0 e h
      exact ⟨r.2, .inr ⟨p, hp, by omega, by rw [definitionFor, h1]; rfl⟩, rfl⟩
  · rintro ⟨d, h | ⟨p, hp, h0, h⟩, rfl⟩
    · subst h
      exact List.mem_singleton.2 rfl
    · exact kindWaves_mem hp h0 h

theorem mem_zip_map {α β : Type} {l : List α} {us : List Nat} {f : Nat → β} {a : α} {b : β}
    (h : (a, b) ∈ l.zip (us.map f)) : ∃ (i : Nat) (n : Nat), us[i]? = some n ∧ l[i]? = some a ∧ b = f n := by
  obtain ⟨i, h⟩ := List.mem_iff_getElem?.1 h
  rw [List.getElem?_zip_eq_some, List.getElem?_map, Option.map_eq_some_iff] at h
  obtain ⟨h1, n, h2, h3⟩ := h
  exact ⟨i, n, h2, h1, h3.symm⟩

/-- The used waves are those of the only definition of an instrument, and of the definitions for the notes. -/
theorem usedWaves_iff {events : List Obj} {insts newInsts : List (Option Inst)}
    (h : mapE (fun n => pyIdx insts n) (usedInsts events) = .ok newInsts) (e : Nat × Nat) :
    e ∈ usedWaves newInsts ((usedInsts events).map fun n => ((collect events none []).lookup n).getD []) ↔
      ∃ n ∈ (events.map (·.2)).filterMap switchedTo, ∃ inst, insts[n]? = some (some inst) ∧ ∃ d,
        (inst.kind = .single d ∨ ∃ x p, (x, n, p) ∈ plays (events.map (·.2)) ∧ 0 ≤ p ∧
          definitionFor inst.kind p = some d) ∧ e = waveKey d := by
  obtain ⟨_, _, hused⟩ := usedInsts_spec events
  obtain ⟨_, _, hnotes⟩ := collect_spec events none [] (by simp) (by simp)
  have hmem : ∀ n p, p ∈ ((collect events none []).lookup n).getD [] ↔ ∃ x, (x, n, p) ∈ plays (events.map (·.2)) := by
    intro n p
    rw [hnotes n p, plays_eq]
    simp
  rw [mem_usedWaves]
  constructor
  · rintro ⟨inst, ns, h1, h2⟩
    obtain ⟨i, n, hu, hi, rfl⟩ := mem_zip_map h1
    obtain ⟨d, hd, rfl⟩ := kindWaves_iff.1 h2
    have hmu := List.mem_iff_getElem?.2 ⟨i, hu⟩
    obtain ⟨hil, hie⟩ := List.getElem?_eq_some_iff.1 hu
    obtain ⟨hil', hie'⟩ := List.getElem?_eq_some_iff.1 hi
    have hg := mapE_getElem h i hil hil'
    rw [hie, hie', pyIdx_eq_ok] at hg
    refine ⟨n, (hused n).1 hmu, inst, hg, d, ?_, rfl⟩
    rcases hd with hd | ⟨p, hp, h0, hd⟩
    · exact .inl hd
    · obtain ⟨x, hx⟩ := (hmem n p).1 hp
      exact .inr ⟨x, p, hx, h0, hd⟩
  · rintro ⟨n, hn, inst, hi, d, hd, rfl⟩
    have hnu := (hused n).2 hn
    refine ⟨inst, ((collect events none []).lookup n).getD [], mem_zip_of_get ((newInsts_get h hnu).trans hi) ?_,
      kindWaves_iff.2 ⟨d, ?_, rfl⟩⟩
    · rw [List.getElem?_map, getElem?_idxOf hnu]
      rfl
    · rcases hd with hd | ⟨x, p, hx, h0, hd⟩
      · exact .inl hd
      · exact .inr ⟨p, (hmem n p).2 ⟨x, hx⟩, h0, hd⟩

theorem usedWaves_sorted (insts : List (Option Inst)) (notes : List (List Int)) (a : Nat) :
    (((usedWaves insts notes).filter fun e => e.1 = a).map (·.2)).Pairwise (· < ·) := by
  have hs : (usedWaves insts notes).Pairwise (fun x y => sortKey x ≤ sortKey y) := sortBy_sorted sortKey _
  have hs := hs.and (usedWaves_nodup insts notes)
  have hs := hs.sublist (List.filter_sublist (p := fun e => decide (e.1 = a)))
  rw [List.pairwise_map]
  refine List.Pairwise.imp_of_mem (fun {x y} hx hy h => ?_) hs
  have hx := of_decide_eq_true (List.mem_filter.1 hx).2
  have hy := of_decide_eq_true (List.mem_filter.1 hy).2
  obtain ⟨h1, h2⟩ := h
  simp only [sortKey, hx, hy] at h1
  have h3 : x.2 ≠ y.2 := fun he => h2 (Prod.ext (hx.trans hy.symm) he)
  omega

/-! ## Several archives -/

theorem idxOf_eq_count {α : Type} [DecidableEq α] [BEq α] [LawfulBEq α] (key : α → Nat) : ∀ {l : List α},
    l.Pairwise (fun x y => key x < key y) → ∀ {a : α}, a ∈ l → l.idxOf a = (l.filter fun x => key x < key a).length
  | x :: l, hl, a, ha => by
    rw [List.pairwise_cons] at hl
    rcases List.mem_cons.1 ha with rfl | ha
    · rw [List.idxOf_cons_self, List.filter_cons, if_neg (by simp)]
      symm
      rw [List.length_eq_zero_iff, List.filter_eq_nil_iff]
      intro y hy
      have := hl.1 y hy
      simp only [decide_eq_true_eq]
      omega
    · have hlt := hl.1 a ha
      have hne : (x == a) = false := by rw [beq_eq_false_iff_ne]; rintro rfl; omega
      rw [List.idxOf_cons, hne, cond_false, List.filter_cons, if_pos (by simpa using hlt), List.length_cons,
        idxOf_eq_count key hl.2 ha]

/-- The number of a used wave, in all archives together and in its own. -/
theorem usedWaves_idx (insts : List (Option Inst)) (notes : List (List Int))
    (hID : ∀ x ∈ usedWaves insts notes, x.2 < 99999999) {a w : Nat} (h : (a, w) ∈ usedWaves insts notes) :
    ((usedWaves insts notes).idxOf (a, w) =
      ((usedWaves insts notes).filter fun x => x.1 < a ∨ x.1 = a ∧ x.2 < w).length) ∧
    (((usedWaves insts notes).filter fun x => x.1 = a).map (·.2)).idxOf w =
      ((usedWaves insts notes).filter fun x => x.1 = a ∧ x.2 < w).length := by
  have hs : (usedWaves insts notes).Pairwise (fun x y => sortKey x ≤ sortKey y) := sortBy_sorted sortKey _
  have hs := hs.and (usedWaves_nodup insts notes)
  have hs : (usedWaves insts notes).Pairwise (fun x y => sortKey x < sortKey y) := by
    refine hs.imp_of_mem fun {x y} hx hy h => ?_
    have h1 := hID x hx
    have h2 := hID y hy
    obtain ⟨h3, h4⟩ := h
    unfold sortKey at h3 ⊢
    by_cases h5 : x.1 = y.1
    · have : x.2 ≠ y.2 := fun h6 => h4 (Prod.ext h5 h6)
      omega
    · omega
  constructor
  · rw [idxOf_eq_count sortKey hs h]
    congr 1
    refine List.filter_congr fun x hx => ?_
    have h1 := hID x hx
    have h2 := hID _ h
    dsimp only at h2
    unfold sortKey
    dsimp only
    rw [decide_eq_decide]
    omega
  · have hm : w ∈ ((usedWaves insts notes).filter fun x => x.1 = a).map (·.2) :=
      List.mem_map.2 ⟨(a, w), List.mem_filter.2 ⟨h, by simp⟩, rfl⟩
    rw [idxOf_eq_count id (usedWaves_sorted insts notes a) hm, List.filter_map, List.length_map, List.filter_filter]
    congr 1
    refine List.filter_congr fun x _ => ?_
    simp [Bool.and_comm]

/-- The definition that a note uses afterwards. -/
theorem minify_used {W : Type} {events : List Obj} {insts : List (Option Inst)} {swars : List (List W)}
    {events' : List Obj} {insts' : List (Option Inst)} {swars' : List (List W)}
    (h : minify events insts (some swars) = .ok (events', insts', swars')) {i : Nat} {e : Ev} {d : Note}
    (hi : (used (events.map (·.2)) insts)[i]? = some (e, some d)) (hp : ∀ p, pitchOf e = some p → 0 ≤ p ∧ p ≤ 127) :
    ∃ newInsts waves, mapE (fun n => pyIdx insts n) (usedInsts events) = .ok newInsts ∧
      waves = usedWaves newInsts ((usedInsts events).map fun n => ((collect events none []).lookup n).getD []) ∧
      mapE (fun p : List W × Nat => newWaves waves p.2 p.1) swars.zipIdx = .ok swars' ∧ waveKey d ∈ waves ∧
      (used (events'.map (·.2)) insts')[i]? = some (e, some { d with waveID := waves.idxOf (waveKey d) }) := by
  obtain ⟨newInsts, waves, h1, hw, rfl, h3, hlen, hnone, hsome⟩ := minify_inv h
  obtain ⟨_, _, hused⟩ := usedInsts_spec events
  obtain ⟨_, _, hnotes⟩ := collect_spec events none [] (by simp) (by simp)
  have hev : (events.map (fun o => (o.1, renumbered (usedInsts events) o.2))).map (·.2) =
      (events.map (·.2)).map (renumbered (usedInsts events)) := by
    rw [List.map_map, List.map_map]; rfl
  have hpl : plays ((events.map (fun o => (o.1, renumbered (usedInsts events) o.2))).map (·.2)) =
      (plays (events.map (·.2))).map fun x => (x.1, (usedInsts events).idxOf x.2.1, x.2.2) := by
    rw [hev, plays_eq, plays_eq]
    exact playsFrom_renumbered (usedInsts events) (events.map (·.2)) none
  unfold used at hi ⊢
  rw [hpl]
  rw [List.getElem?_map, Option.map_eq_some_iff] at hi
  obtain ⟨⟨e', n, p⟩, hi, hes⟩ := hi
  simp only [Prod.mk.injEq] at hes
  obtain ⟨rfl, hd⟩ := hes
  rw [List.getElem?_map, List.getElem?_map, hi]
  have hmem : (e', n, p) ∈ playsFrom none (events.map (·.2)) := by
    rw [← plays_eq]
    exact List.mem_iff_getElem?.2 ⟨i, hi⟩
  obtain ⟨hn, he, hp'⟩ := mem_playsFrom hmem
  obtain ⟨hp0, hp127⟩ := hp p hp'
  have hn := hn.resolve_right (fun h => nomatch h)
  have hnu := (hused n).2 hn
  have hpn := (hnotes n p).2 (.inr ⟨e', hmem⟩)
  have hget := newInsts_get h1 hnu
  rw [Option.bind_eq_some_iff] at hd
  obtain ⟨inst, hinst, hd⟩ := hd
  rw [Option.join_eq_some_iff] at hinst
  rw [hinst] at hget
  obtain ⟨k', hk', hget'⟩ := hsome _ inst hget
  have hkey : waveKey d ∈ waves := by
    rw [hw, mem_usedWaves]
    refine ⟨inst, _, mem_zip_of_get hget ?_, kindWaves_mem hpn hp0 hd⟩
    rw [List.getElem?_map, getElem?_idxOf hnu]
    rfl
  refine ⟨newInsts, waves, h1, hw, h3, hkey, ?_⟩
  simp only [Option.map_some, hget', Option.join_some, Option.bind_some]
  rw [minifyKind_def hp127 hk' hd hkey]
  unfold remap
  rw [if_pos hkey]

theorem needed_iff {events : List Obj} {insts newInsts : List (Option Inst)}
    (h : mapE (fun n => pyIdx insts n) (usedInsts events) = .ok newInsts) (x : Nat × Nat) :
    x ∈ usedWaves newInsts ((usedInsts events).map fun n => ((collect events none []).lookup n).getD []) ↔
      Needed (events.map (·.2)) insts x := usedWaves_iff h x


theorem heard_of_used {W : Type} {events : List Ev} {insts : List (Option Inst)} {swars : List (List W)} {i : Nat} {e : Ev}
    {d : Note} (h : (used events insts)[i]? = some (e, some d)) :
    (heard events insts swars)[i]? = some (e, some (soundOf d swars)) := by
  unfold used at h
  rw [List.getElem?_map, Option.map_eq_some_iff] at h
  obtain ⟨x, hx, h⟩ := h
  rw [Prod.mk.injEq] at h
  obtain ⟨rfl, h⟩ := h
  unfold heard sound
  rw [List.getElem?_map, hx, Option.map_some, h]
  rfl

theorem nodup_getElem_inj {α : Type} {l : List α} (hn : l.Nodup) {i j : Nat} {hi : i < l.length} {hj : j < l.length}
    (h : l[i] = l[j]) : i = j := by
  rw [List.Nodup, List.pairwise_iff_getElem] at hn
  rcases Nat.lt_trichotomy i j with hlt | rfl | hlt
  · exact absurd h (hn i j hi hj hlt)
  · rfl
  · exact absurd h.symm (hn j i hj hi hlt)

theorem newWaves_at {W : Type} {used : List (Nat × Nat)} (hs : used.Nodup) {a w i : Nat} {ws ws' : List W}
    (h : newWaves used a ws = .ok ws') (hn : ws.Nodup) (hm : (a, w) ∈ used) :
    ws'[i]? = ws[w]? ↔ i = ((used.filter fun x => x.1 = a).map (·.2)).idxOf w := by
  have hw : w ∈ (used.filter fun x => x.1 = a).map (·.2) := List.mem_map.2 ⟨(a, w), List.mem_filter.2 ⟨hm, by simp⟩, rfl⟩
  have hd : ((used.filter fun x => x.1 = a).map (·.2)).Nodup := by
    unfold List.Nodup
    rw [List.pairwise_map]
    refine (hs.sublist List.filter_sublist).imp_of_mem fun {x y} hx hy hne h2 => hne ?_
    have hx := of_decide_eq_true (List.mem_filter.1 hx).2
    have hy := of_decide_eq_true (List.mem_filter.1 hy).2
    exact Prod.ext (hx.trans hy.symm) h2
  have hl := mapE_length h
  have hg : ∀ (j v : Nat), ((used.filter fun x => x.1 = a).map (·.2))[j]? = some v → ∃ hv : v < ws.length, ws'[j]? = some ws[v] := by
    intro j v hj
    rw [List.getElem?_map, Option.map_eq_some_iff] at hj
    obtain ⟨x, hx, rfl⟩ := hj
    obtain ⟨hjl, rfl⟩ := List.getElem?_eq_some_iff.1 hx
    have := mapE_getElem h j hjl (by omega)
    rw [pyIdx_eq_ok] at this
    obtain ⟨hv, he⟩ := List.getElem?_eq_some_iff.1 this
    exact ⟨hv, by rw [he, List.getElem?_eq_getElem (by omega)]⟩
  have hi := getElem?_idxOf hw
  obtain ⟨hv, he⟩ := hg _ _ hi
  constructor
  · intro h'
    rw [List.getElem?_eq_getElem hv] at h'
    have hil : i < ((used.filter fun x => x.1 = a).map (·.2)).length := by
      have := (List.getElem?_eq_some_iff.1 h').1
      rw [List.length_map]; omega
    have hgi := List.getElem?_eq_getElem hil
    obtain ⟨hv2, he2⟩ := hg _ _ hgi
    rw [he2, Option.some.injEq] at h'
    have := nodup_getElem_inj hn h'
    obtain ⟨hil2, hi⟩ := List.getElem?_eq_some_iff.1 hi
    exact nodup_getElem_inj hd (this.trans hi.symm)
  · rintro rfl
    rw [he, List.getElem?_eq_getElem hv]

theorem filter_eq_iff (l : List (Nat × Nat)) (a w : Nat) :
    (l.filter fun x => x.1 < a ∨ x.1 = a ∧ x.2 < w).length = (l.filter fun x => x.1 = a ∧ x.2 < w).length ↔
      ∀ x ∈ l, ¬ x.1 < a := by
  induction l with
  | nil => simp
  | cons x l ih =>
    have hle : (l.filter fun x => x.1 = a ∧ x.2 < w).length ≤ (l.filter fun x => x.1 < a ∨ x.1 = a ∧ x.2 < w).length := by
      have : (l.filter fun x => x.1 = a ∧ x.2 < w) =
          (l.filter fun x => x.1 < a ∨ x.1 = a ∧ x.2 < w).filter fun x => x.1 = a ∧ x.2 < w := by
        rw [List.filter_filter]
        refine List.filter_congr fun y _ => ?_
        rw [← Bool.decide_and, decide_eq_decide]
        exact ⟨fun h => ⟨h, .inr h⟩, fun h => h.1⟩
      rw [this]
      exact List.length_filter_le _ _
    rw [List.filter_cons, List.filter_cons, List.forall_mem_cons, ← ih]
    by_cases h1 : x.1 < a
    · rw [if_pos (by simp [h1]), if_neg (by simp only [decide_eq_true_eq]; omega), List.length_cons]
      constructor
      · intro h; omega
      · exact fun h => absurd h1 h.1
    · by_cases h2 : x.1 = a ∧ x.2 < w
      · rw [if_pos (by simp [h2]), if_pos (by simp [h2]), List.length_cons, List.length_cons]
        constructor
        · exact fun h => ⟨h1, by omega⟩
        · intro h; omega
      · rw [if_neg (by simp only [decide_eq_true_eq]; omega), if_neg (by simp only [decide_eq_true_eq]; omega)]
        exact ⟨fun h => ⟨h1, h⟩, fun h => h.2⟩


end Verif.Proofs.MusicMinify
