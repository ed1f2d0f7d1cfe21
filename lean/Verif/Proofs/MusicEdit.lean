import Verif.Spec.Music

/-! # Lemmas about simultaneous edits -/

namespace Verif.Proofs.MusicEdit

open Verif Verif.Model.Music Verif.Spec.Music

theorem record_lookup {α : Type} (edits : List (Edit α)) (i : Int) :
    ((edits.foldl record ([] : List (Int × Entry α))).lookup i) =
      if i ∈ edits.map Edit.index then some ⟨insertedAt edits i, putAt edits i, deletedAt edits i⟩ else none := by
  suffices h : ∀ (n : Nat) (edits : List (Edit α)), edits.length = n → (edits.foldl record ([] : List (Int × Entry α))).lookup i =
      if i ∈ edits.map Edit.index then some ⟨insertedAt edits i, putAt edits i, deletedAt edits i⟩ else none from
    h _ edits rfl
  intro n
  induction n with
  | zero =>
    intro edits h
    rw [List.length_eq_zero_iff.1 h]
    rfl
  | succ n ih =>
    intro edits h
    obtain ⟨l, e, rfl⟩ : ∃ l e, edits = l ++ [e] := by
      rcases List.eq_nil_or_concat edits with h0 | ⟨l, e, rfl⟩
      · subst h0; simp at h
      · exact ⟨l, e, by simp⟩
    have hl := ih l (by simp at h; exact h)
    rw [List.foldl_append, List.foldl_cons, List.foldl_nil]
    generalize List.foldl record [] l = log at hl
    unfold record
    dsimp only
    rw [dictSet_lookup]
    by_cases hi : i = e.index
    · subst hi
      rw [if_pos rfl, if_pos (by simp)]
      congr 1
      have hold : (log.lookup e.index).getD ⟨[], none, false⟩ =
          ⟨insertedAt l e.index, putAt l e.index, deletedAt l e.index⟩ := by
        rw [hl]
        split
        · rfl
        · rename_i hnm
          rw [Option.getD_none]
          have h1 : insertedAt l e.index = [] := by
            unfold insertedAt
            rw [List.filterMap_eq_nil_iff]
            intro x hx
            cases x with
            | insert j y =>
              dsimp only
              rw [if_neg]
              intro hj
              exact hnm (List.mem_map.2 ⟨_, hx, hj⟩)
            | set => rfl
            | del => rfl
          have h2 : putAt l e.index = none := by
            unfold putAt
            rw [List.getLast?_eq_none_iff, List.filterMap_eq_nil_iff]
            intro x hx
            cases x with
            | set j y =>
              dsimp only
              rw [if_neg]
              intro hj
              exact hnm (List.mem_map.2 ⟨_, hx, hj⟩)
            | insert => rfl
            | del => rfl
          have h3 : deletedAt l e.index = false := by
            unfold deletedAt
            rw [List.any_eq_false]
            intro x hx
            cases x with
            | del j =>
              simp only [decide_eq_true_eq]
              intro hj
              exact hnm (List.mem_map.2 ⟨_, hx, hj⟩)
            | insert => simp
            | set => simp
          rw [h1, h2, h3]
      rw [hold]
      cases e with
      | insert j x => simp [insertedAt, putAt, deletedAt, Edit.index]
      | set j x => simp [insertedAt, putAt, deletedAt, Edit.index]
      | del j => simp [insertedAt, putAt, deletedAt, Edit.index]
    · rw [if_neg hi, hl]
      have hm : i ∈ (l ++ [e]).map Edit.index ↔ i ∈ l.map Edit.index := by
        simp only [List.map_append, List.map_cons, List.map_nil, List.mem_append, List.mem_singleton]
        exact ⟨fun h => h.resolve_right hi, .inl⟩
      have h1 : insertedAt (l ++ [e]) i = insertedAt l i := by
        unfold insertedAt
        rw [List.filterMap_append]
        cases e with
        | insert j x =>
          have : ¬ j = i := fun h => hi h.symm
          simp [this]
        | set => simp
        | del => simp
      have h2 : putAt (l ++ [e]) i = putAt l i := by
        unfold putAt
        rw [List.filterMap_append]
        cases e with
        | set j x =>
          have : ¬ j = i := fun h => hi h.symm
          simp [this]
        | insert => simp
        | del => simp
      have h3 : deletedAt (l ++ [e]) i = deletedAt l i := by
        unfold deletedAt
        rw [List.any_append]
        cases e with
        | del j =>
          have : ¬ j = i := fun h => hi h.symm
          simp [this]
        | insert => simp
        | set => simp
      rw [h1, h2, h3]
      by_cases hh : i ∈ l.map Edit.index
      · rw [if_pos hh, if_pos (hm.2 hh)]
      · rw [if_neg hh, if_neg (fun h => hh (hm.1 h))]

theorem insertDesc_perm (a : Int) : ∀ l, (insertDesc a l).Perm (a :: l)
  | [] => .refl _
  | b :: l => by
    unfold insertDesc
    split
    · exact .refl _
    · exact ((insertDesc_perm a l).cons b).trans (.swap a b l)

theorem sortDesc_perm : ∀ l, (sortDesc l).Perm l
  | [] => .refl _
  | a :: l => (insertDesc_perm a _).trans ((sortDesc_perm l).cons a)

theorem insertDesc_sorted {a : Int} : ∀ {l : List Int}, l.Pairwise (· ≥ ·) → (insertDesc a l).Pairwise (· ≥ ·)
  | [], _ => by simp [insertDesc]
  | b :: l, h => by
    rw [List.pairwise_cons] at h
    unfold insertDesc
    split
    · rename_i hab
      rw [List.pairwise_cons]
      refine ⟨fun x hx => ?_, List.pairwise_cons.2 h⟩
      rcases List.mem_cons.1 hx with rfl | hx
      · exact hab
      · have := h.1 x hx; omega
    · rename_i hab
      rw [List.pairwise_cons]
      refine ⟨fun x hx => ?_, insertDesc_sorted h.2⟩
      rcases List.mem_cons.1 ((insertDesc_perm a l).mem_iff.1 hx) with rfl | hx
      · omega
      · exact h.1 x hx

theorem sortDesc_sorted : ∀ l, (sortDesc l).Pairwise (· ≥ ·)
  | [] => .nil
  | _ :: l => insertDesc_sorted (sortDesc_sorted l)

theorem dictSet_keys {κ ν : Type} [DecidableEq κ] (k : κ) (v : ν) : ∀ (d : List (κ × ν)), (d.map (·.1)).Nodup →
    ((dictSet d k v).map (·.1)).Nodup ∧ ∀ x, x ∈ (dictSet d k v).map (·.1) ↔ x = k ∨ x ∈ d.map (·.1)
  | [], _ => by simp [dictSet]
  | (a, b) :: d, h => by
    rw [List.map_cons, List.nodup_cons] at h
    obtain ⟨h1, h2⟩ := dictSet_keys k v d h.2
    unfold dictSet
    split
    · rename_i hk
      subst hk
      simp only [List.map_cons, List.nodup_cons, List.mem_cons]
      exact ⟨h, fun x => by simp⟩
    · rename_i hk
      simp only [List.map_cons, List.nodup_cons, List.mem_cons]
      refine ⟨⟨fun hm => ?_, h1⟩, fun x => ?_⟩
      · rcases (h2 a).1 hm with rfl | hm
        · exact hk rfl
        · exact h.1 hm
      · rw [h2]
        constructor
        · rintro (h | h | h) <;> simp [h]
        · rintro (h | h | h) <;> simp [h]

theorem record_keys {α : Type} : ∀ (edits : List (Edit α)) (log : List (Int × Entry α)), (log.map (·.1)).Nodup →
    ((edits.foldl record log).map (·.1)).Nodup ∧
      ∀ x, x ∈ (edits.foldl record log).map (·.1) ↔ x ∈ edits.map Edit.index ∨ x ∈ log.map (·.1)
  | [], log, h => ⟨h, fun x => by simp⟩
  | e :: es, log, h => by
    have hr : ((record log e).map (·.1)).Nodup ∧ ∀ x, x ∈ (record log e).map (·.1) ↔ x = e.index ∨ x ∈ log.map (·.1) := by
      unfold record
      exact dictSet_keys _ _ log h
    obtain ⟨h1, h2⟩ := record_keys es (record log e) hr.1
    refine ⟨h1, fun x => ?_⟩
    rw [List.foldl_cons, h2, hr.2, List.map_cons, List.mem_cons]
    constructor
    · rintro (h | h | h) <;> simp [h]
    · rintro ((h | h) | h) <;> simp [h]

/-- The result when only the positions from `k` on have been treated. -/
def full {α : Type} (events : List α) (edits : List (Edit α)) (k : Nat) : List α :=
  events.take k ++ (List.range' k (events.length + 1 - k)).flatMap (piece events edits)

theorem full_skip {α : Type} {events : List α} {edits : List (Edit α)} {k : Nat} (hk : k ≤ events.length)
    (h : (k : Int) ∉ edits.map Edit.index) : full events edits (k + 1) = full events edits k := by
  unfold full
  have e : events.length + 1 - k = (events.length + 1 - (k + 1)) + 1 := by omega
  rw [e, List.range'_succ, List.flatMap_cons, List.take_add_one, List.append_assoc]
  congr 2
  have hi : insertedAt edits k = [] := by
    unfold insertedAt
    rw [List.filterMap_eq_nil_iff]
    intro x hx
    cases x with
    | insert j y =>
      dsimp only
      rw [if_neg]
      intro hj
      exact h (List.mem_map.2 ⟨_, hx, hj⟩)
    | set => rfl
    | del => rfl
  have hp : putAt edits k = none := by
    unfold putAt
    rw [List.getLast?_eq_none_iff, List.filterMap_eq_nil_iff]
    intro x hx
    cases x with
    | set j y =>
      dsimp only
      rw [if_neg]
      intro hj
      exact h (List.mem_map.2 ⟨_, hx, hj⟩)
    | insert => rfl
    | del => rfl
  have hd : deletedAt edits k = false := by
    unfold deletedAt
    rw [List.any_eq_false]
    intro x hx
    cases x with
    | del j =>
      simp only [decide_eq_true_eq]
      intro hj
      exact h (List.mem_map.2 ⟨_, hx, hj⟩)
    | insert => simp
    | set => simp
  unfold piece
  rw [hi, hp, hd]
  simp

theorem itemPos_nat {len k : Nat} (h : k < len) : itemPos len (k : Int) = .ok k := by
  unfold itemPos
  rw [if_pos (by omega)]
  simp

theorem inserts_fold {α : Type} (p q : List α) : ∀ (l : List α),
    l.foldl (fun ev x => insertAt ev (insertPos ev.length (p.length : Int)) x) (p ++ q) = p ++ l.reverse ++ q := by
  intro l
  induction l generalizing q with
  | nil => simp
  | cons x xs ih =>
    rw [List.foldl_cons]
    have hp : insertPos (p ++ q).length (p.length : Int) = p.length := by
      unfold insertPos
      rw [if_neg (by omega)]
      simp
    have hi : insertAt (p ++ q) p.length x = p ++ x :: q := by
      unfold insertAt; rw [List.take_left, List.drop_left]
    rw [hp, hi, ih]
    simp

theorem full_step {α : Type} {events : List α} {edits : List (Edit α)} {k : Nat} (hk : k ≤ events.length)
    (hset : ∀ x, .set k x ∈ edits → k < events.length) (hdel : .del k ∈ edits → k < events.length) :
    applyEntry (full events edits (k + 1)) k ⟨insertedAt edits k, putAt edits k, deletedAt edits k⟩ =
      .ok (full events edits k) := by
  have e : events.length + 1 - k = (events.length + 1 - (k + 1)) + 1 := by omega
  have hfull : full events edits k = events.take k ++ (piece events edits k ++
      (List.range' (k + 1) (events.length + 1 - (k + 1))).flatMap (piece events edits)) := by
    unfold full
    rw [e, List.range'_succ, List.flatMap_cons]
  have hfull1 : full events edits (k + 1) = events.take k ++ ((events[k]?).toList ++
      (List.range' (k + 1) (events.length + 1 - (k + 1))).flatMap (piece events edits)) := by
    unfold full
    rw [List.take_add_one, List.append_assoc]
  rw [hfull, hfull1]
  generalize (List.range' (k + 1) (events.length + 1 - (k + 1))).flatMap (piece events edits) = R
  have hlen : (events.take k).length = k := by rw [List.length_take]; omega
  -- a requested change of the item itself is within the list
  have hput : ∀ x, putAt edits k = some x → k < events.length := by
    intro x hx
    unfold putAt at hx
    have := List.mem_of_getLast? hx
    rw [List.mem_filterMap] at this
    obtain ⟨ed, hed, hx⟩ := this
    cases ed with
    | set j y =>
      simp only [Option.ite_none_right_eq_some] at hx
      obtain ⟨rfl, _⟩ := hx
      exact hset y hed
    | insert => cases hx
    | del => cases hx
  have hdel : deletedAt edits k = true → k < events.length := by
    intro h
    unfold deletedAt at h
    rw [List.any_eq_true] at h
    obtain ⟨ed, hed, hx⟩ := h
    cases ed with
    | del j =>
      simp only [decide_eq_true_eq] at hx
      subst hx
      exact hdel hed
    | insert => cases hx
    | set => cases hx
  have fold : ∀ q, (insertedAt edits k).reverse.foldl
      (fun ev x => insertAt ev (insertPos ev.length (k : Int)) x) (events.take k ++ q) =
      events.take k ++ (insertedAt edits k ++ q) := by
    intro q
    have := inserts_fold (events.take k) q (insertedAt edits k).reverse
    rw [hlen, List.reverse_reverse, List.append_assoc] at this
    exact this
  unfold applyEntry piece
  cases hp : putAt edits k with
  | some x =>
    have hlt := hput x hp
    dsimp only
    rw [List.getElem?_eq_getElem hlt, Option.toList_some, itemPos_nat (by simp; omega), bind_ok, pure_def, bind_ok]
    have : (events.take k ++ ([events[k]] ++ R)).set k x = events.take k ++ ([x] ++ R) := by
      rw [List.set_append_right _ _ (by omega), hlen, Nat.sub_self]
      rfl
    rw [this, fold, List.append_assoc]
    rfl
  | none =>
    dsimp only
    by_cases hd : deletedAt edits k = true
    · have hlt := hdel hd
      rw [hd]
      dsimp only
      rw [List.getElem?_eq_getElem hlt, Option.toList_some, itemPos_nat (by simp; omega), bind_ok, pure_def, bind_ok]
      have : (events.take k ++ ([events[k]] ++ R)).eraseIdx k = events.take k ++ ([] ++ R) := by
        rw [List.eraseIdx_append_of_length_le (by omega), hlen, Nat.sub_self]
        rfl
      rw [this, fold, if_pos rfl, List.append_assoc]
      rfl
    · rw [Bool.eq_false_iff.2 hd]
      dsimp only
      rw [pure_def, bind_ok, fold, if_neg (by decide), List.append_assoc]
      rfl

theorem applyLog_full {α : Type} {events : List α} {edits : List (Edit α)} {log : List (Int × Entry α)}
    (hlog : ∀ i, i ∈ edits.map Edit.index → log.lookup i = some ⟨insertedAt edits i, putAt edits i, deletedAt edits i⟩)
    (hset : ∀ (k : Nat) x, .set k x ∈ edits → k < events.length)
    (hdel : ∀ (k : Nat), .del k ∈ edits → k < events.length) :
    ∀ (k : Nat), k ≤ events.length + 1 → ∀ (ks : List Int), ks.Pairwise (· > ·) →
      (∀ i ∈ ks, 0 ≤ i ∧ i < k ∧ i ∈ edits.map Edit.index) →
      (∀ i : Nat, i < k → (i : Int) ∈ edits.map Edit.index → (i : Int) ∈ ks) →
      applyLog log ks (full events edits k) = .ok (full events edits 0)
  | 0, _, ks, _, h2, _ => by
    cases ks with
    | nil => rfl
    | cons i ks =>
      have := h2 i (by simp)
      omega
  | k + 1, hk, ks, h1, h2, h3 => by
    by_cases hm : (k : Int) ∈ edits.map Edit.index
    · have hmem := h3 k (by omega) hm
      cases ks with
      | nil => cases hmem
      | cons i ks =>
        rw [List.pairwise_cons] at h1
        have hik : i = k := by
          rcases List.mem_cons.1 hmem with h | h
          · exact h.symm
          · have h4 := h1.1 _ h
            have h5 := (h2 i (by simp)).2.1
            omega
        subst hik
        unfold applyLog
        rw [hlog _ hm]
        dsimp only
        rw [full_step (by omega) (hset k) (hdel k), bind_ok]
        refine applyLog_full hlog hset hdel k (by omega) ks h1.2 (fun j hj => ?_) (fun j hj hje => ?_)
        · have h4 := h1.1 j hj
          have h5 := h2 j (by simp [hj])
          exact ⟨h5.1, by omega, h5.2.2⟩
        · rcases List.mem_cons.1 (h3 j (by omega) hje) with h | h
          · omega
          · exact h
    · rw [full_skip (by omega) hm]
      refine applyLog_full hlog hset hdel k (by omega) ks h1 (fun j hj => ?_) (fun j hj hje => h3 j (by omega) hje)
      have h5 := h2 j hj
      refine ⟨h5.1, ?_, h5.2.2⟩
      by_cases hjk : j = k
      · subst hjk; exact absurd h5.2.2 hm
      · omega

theorem pairwise_strict : ∀ {l : List Int}, l.Pairwise (· ≥ ·) → l.Nodup → l.Pairwise (· > ·)
  | [], _, _ => .nil
  | a :: l, h, hn => by
    rw [List.pairwise_cons] at h ⊢
    rw [List.nodup_cons] at hn
    refine ⟨fun b hb => ?_, pairwise_strict h.2 hn.2⟩
    have := h.1 b hb
    have : a ≠ b := fun e => hn.1 (e ▸ hb)
    omega

theorem modify_eq {α : Type} {events : List α} {edits : List (Edit α)}
    (hidx : ∀ e ∈ edits, 0 ≤ e.index ∧ e.index ≤ events.length)
    (hset : ∀ (k : Nat) x, .set k x ∈ edits → k < events.length)
    (hdel : ∀ (k : Nat), .del k ∈ edits → k < events.length) :
    modifyEvents events edits = .ok ((List.range (events.length + 1)).flatMap (piece events edits)) := by
  unfold modifyEvents
  dsimp only
  have hkeys := record_keys edits ([] : List (Int × Entry α)) (by simp)
  have hfull : full events edits (events.length + 1) = events := by
    unfold full
    rw [List.take_of_length_le (by omega), Nat.sub_self]
    simp
  have hzero : full events edits 0 = (List.range (events.length + 1)).flatMap (piece events edits) := by
    unfold full
    rw [List.take_zero, List.nil_append, Nat.sub_zero, ← List.range_eq_range']
  conv => lhs; arg 3; rw [← hfull]
  rw [← hzero]
  refine applyLog_full (fun i hi => by rw [record_lookup, if_pos hi]) hset hdel _ (Nat.le_refl _) _
    (pairwise_strict (sortDesc_sorted _) ((sortDesc_perm _).nodup_iff.2 hkeys.1)) (fun i hi => ?_) (fun i hi hie => ?_)
  · have h1 := (hkeys.2 i).1 ((sortDesc_perm _).mem_iff.1 hi)
    simp only [List.map_nil, List.not_mem_nil, or_false] at h1
    obtain ⟨e, he, rfl⟩ := List.mem_map.1 h1
    have := hidx e he
    exact ⟨this.1, by omega, h1⟩
  · exact (sortDesc_perm _).mem_iff.2 ((hkeys.2 i).2 (.inl hie))

end Verif.Proofs.MusicEdit
