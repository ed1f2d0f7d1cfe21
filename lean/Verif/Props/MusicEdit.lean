import Verif.Proofs.MusicEdit

/-! # Simultaneous edits of event lists (C50) -/

namespace Verif.Props.MusicEdit

open Verif Verif.Model.Music Verif.Spec.Music Verif.Proofs.MusicEdit

/-- **C50, partial.** If every insertion mentions an index from 0 to the length of the list, and every replacement and deletion
the index of an item, the list afterwards consists, for each position of the original, of the items inserted there in the
order of the requests, followed by the last replacement, or by nothing if only deletion was requested, or by the
original item.  Missing: negative indices, which do not refer to the original list, see `edits_negative`. -/
theorem edits_simultaneous_partial {α : Type} {events : List α} {edits : List (Edit α)}
    (hins : ∀ (i : Int) x, .insert i x ∈ edits → 0 ≤ i ∧ i ≤ events.length)
    (hset : ∀ (i : Int) x, .set i x ∈ edits → 0 ≤ i ∧ i < events.length)
    (hdel : ∀ (i : Int), .del i ∈ edits → 0 ≤ i ∧ i < events.length) :
    modifyEvents events edits = .ok ((List.range (events.length + 1)).flatMap (piece events edits)) := by
  refine modify_eq (fun e he => ?_) (fun k x h => ?_) (fun k h => ?_)
  · cases e with
    | insert i x => exact hins i x he
    | set i x => have := hset i x he; simp only [Edit.index]; omega
    | del i => have := hdel i he; simp only [Edit.index]; omega
  · have := hset k x h; omega
  · have := hdel k h; omega

/-- **C50.** Requests that concern different indices may come in any order. -/
theorem edits_commute {α : Type} {events : List α} {edits edits' : List (Edit α)}
    (hins : ∀ (i : Int) x, .insert i x ∈ edits → 0 ≤ i ∧ i ≤ events.length)
    (hset : ∀ (i : Int) x, .set i x ∈ edits → 0 ≤ i ∧ i < events.length)
    (hdel : ∀ (i : Int), .del i ∈ edits → 0 ≤ i ∧ i < events.length)
    (h : ∀ i, edits.filter (fun e => e.index = i) = edits'.filter fun e => e.index = i) :
    modifyEvents events edits = modifyEvents events edits' := by
  have hmem : ∀ e, e ∈ edits ↔ e ∈ edits' := by
    intro e
    have h1 : e ∈ edits ↔ e ∈ edits.filter (fun x => x.index = e.index) := by simp
    have h2 : e ∈ edits' ↔ e ∈ edits'.filter (fun x => x.index = e.index) := by simp
    rw [h1, h2, h]
  rw [edits_simultaneous_partial hins hset hdel, edits_simultaneous_partial (fun i x hx => hins i x ((hmem _).2 hx))
    (fun i x hx => hset i x ((hmem _).2 hx)) (fun i hx => hdel i ((hmem _).2 hx))]
  have hfm : ∀ (β : Type) (g : Edit α → Option β) (i : Int), (∀ e, e.index ≠ i → g e = none) →
      edits.filterMap g = edits'.filterMap g := by
    intro β g i hg
    have key : ∀ l : List (Edit α), l.filterMap g = (l.filter fun e => e.index = i).filterMap g := by
      intro l
      induction l with
      | nil => rfl
      | cons e l ih =>
        rw [List.filterMap_cons, List.filter_cons]
        by_cases he : e.index = i
        · rw [if_pos (by simpa using he), List.filterMap_cons, ih]
        · rw [if_neg (by simpa using he), hg e he, ih]
    rw [key, key edits', h]
  congr 2
  funext k
  have e1 : insertedAt edits k = insertedAt edits' k := by
    refine hfm _ _ k (fun e he => ?_)
    cases e with
    | insert j x => exact if_neg he
    | set => rfl
    | del => rfl
  have e2 : putAt edits k = putAt edits' k := by
    unfold putAt
    congr 1
    refine hfm _ _ k (fun e he => ?_)
    cases e with
    | set j x => exact if_neg he
    | insert => rfl
    | del => rfl
  have e3 : deletedAt edits k = deletedAt edits' k := by
    rw [Bool.eq_iff_iff]
    unfold deletedAt
    rw [List.any_eq_true, List.any_eq_true]
    exact ⟨fun ⟨e, he, hx⟩ => ⟨e, (hmem e).1 he, hx⟩, fun ⟨e, he, hx⟩ => ⟨e, (hmem e).2 he, hx⟩⟩
  unfold piece
  rw [e1, e2, e3]

/-- The example of the documentation, with a replacement and a deletion. -/
example : modifyEvents ['a', 'b', 'c'] [.insert 1 'd', .del 2, .insert 1 'e', .set 0 'z', .insert 1 'f', .insert 2 'g'] =
    .ok ['z', 'd', 'e', 'f', 'b', 'g'] := by decide +kernel
example : (∀ (i : Int) x, Edit.insert i x ∈ [Edit.insert 1 'd', .del 2, .set 0 'z'] → 0 ≤ i ∧ i ≤ 3) := by
  intro i x h
  simp only [List.mem_cons, List.not_mem_nil, or_false] at h
  rcases h with h | h | h <;> cases h
  omega

/-- **C50.** Negative indices are not relative to the original list: the item deleted here is the one just inserted at the
end, where Python's index -1 means the last item of the original. -/
theorem edits_negative : modifyEvents ['a', 'b', 'c'] [.insert 3 'd', .del (-1)] = .ok ['a', 'b', 'c'] := by
  decide +kernel

/-- The position that a Python index means in a list of this length, if it means one. -/
def Means (len : Nat) (i : Int) (p : Nat) : Prop := p < len ∧ ((p : Int) = i ∨ (p : Int) = i + len)

theorem itemPos_iff {len p : Nat} {i : Int} : itemPos len i = .ok p ↔ Means len i p ∧ (0 ≤ i → (p : Int) = i) := by
  unfold itemPos Means
  split
  · next h => simp only [Except.ok.injEq]; omega
  · next h =>
    split
    · next h' => simp only [Except.ok.injEq]; omega
    · next h' => simp only [reduceCtorEq, false_iff]; omega

theorem itemPos_of {len p : Nat} {i : Int} (h : Means len i p) (h' : 0 ≤ i → (p : Int) = i) : itemPos len i = .ok p :=
  itemPos_iff.2 ⟨h, h'⟩

theorem itemPos_none {len : Nat} {i : Int} (h : ∀ p, ¬ Means len i p) : itemPos len i = .error .indexError := by
  unfold itemPos
  unfold Means at h
  have h1 := h i.toNat
  have h2 := h (i + len).toNat
  rw [if_neg (by omega), if_neg (by omega)]

/-- **C50.** A single replacement does what it would do on the list itself: the item that a non-negative index means, or a
negative one counted from the end, is replaced, and for an index that means none there is `IndexError`. -/
theorem set_alone {α : Type} (events : List α) (i : Int) (x : α) :
    (∀ p, Means events.length i p → (0 ≤ i → (p : Int) = i) → modifyEvents events [.set i x] = .ok (events.set p x)) ∧
      ((∀ p, ¬ Means events.length i p) → modifyEvents events [.set i x] = .error .indexError) := by
  have e : modifyEvents events [.set i x] = (do
      let p ← itemPos events.length i
      pure (events.set p x)) := by
    unfold modifyEvents
    simp only [List.foldl_cons, List.foldl_nil, record, Edit.index, dictSet, List.lookup_nil, Option.getD_none,
      List.map_cons, List.map_nil, sortDesc, insertDesc, applyLog, List.lookup_cons, beq_self_eq_true, applyEntry]
    cases itemPos events.length i <;> rfl
  constructor
  · intro p h h'
    rw [e, itemPos_of h h']; rfl
  · intro h
    rw [e, itemPos_none h]; rfl

/-- **C50.** The same for a single deletion. -/
theorem del_alone {α : Type} (events : List α) (i : Int) :
    (∀ p, Means events.length i p → (0 ≤ i → (p : Int) = i) →
      modifyEvents events [.del i] = .ok (events.take p ++ events.drop (p + 1))) ∧
      ((∀ p, ¬ Means events.length i p) → modifyEvents events [.del i] = .error .indexError) := by
  have e : modifyEvents events [.del i] = (do
      let p ← itemPos events.length i
      pure (events.eraseIdx p)) := by
    unfold modifyEvents
    simp only [List.foldl_cons, List.foldl_nil, record, Edit.index, dictSet, List.lookup_nil, Option.getD_none,
      List.map_cons, List.map_nil, sortDesc, insertDesc, applyLog, List.lookup_cons, beq_self_eq_true, applyEntry]
    cases itemPos events.length i <;> rfl
  constructor
  · intro p h h'
    rw [e, itemPos_of h h', ← List.eraseIdx_eq_take_drop_succ]; rfl
  · intro h
    rw [e, itemPos_none h]; rfl

/-- **C50.** A single insertion never fails: it is before the item that the index means, and for an index that means none at
the end or, if it is negative, at the beginning. -/
theorem insert_alone {α : Type} (events : List α) (i : Int) (x : α) :
    (∀ p, Means events.length i p → (0 ≤ i → (p : Int) = i) →
      modifyEvents events [.insert i x] = .ok (events.take p ++ x :: events.drop p)) ∧
      ((events.length : Int) ≤ i → modifyEvents events [.insert i x] = .ok (events ++ [x])) ∧
      (i < -(events.length : Int) → modifyEvents events [.insert i x] = .ok (x :: events)) := by
  have e : modifyEvents events [.insert i x] = .ok (insertAt events (insertPos events.length i) x) := by
    unfold modifyEvents
    simp only [List.foldl_cons, List.foldl_nil, record, Edit.index, dictSet, List.lookup_nil, Option.getD_none,
      List.map_cons, List.map_nil, sortDesc, insertDesc, applyLog, List.lookup_cons, beq_self_eq_true, applyEntry]
    rfl
  rw [e]
  unfold insertAt insertPos Means
  refine ⟨fun p h h' => ?_, fun h => ?_, fun h => ?_⟩
  · rw [show (if i < 0 then (i + (events.length : Int)).toNat else min i.toNat events.length) = p by split <;> omega]
  · rw [if_neg (by omega), show min i.toNat events.length = events.length by omega, List.take_length, List.drop_length]
  · rw [if_pos (by omega), show (i + (events.length : Int)).toNat = 0 by omega]; rfl

example : Means 3 (-1) 2 ∧ (∀ p, ¬ Means 3 3 p) ∧ (∀ p, ¬ Means 3 (-4) p) := by
  unfold Means
  refine ⟨by omega, fun p => by omega, fun p => by omega⟩

end Verif.Props.MusicEdit
