/-!
# Sorting

Python's `sorted`/`list.sort` with a numeric key, as a stable insertion sort.  (Any stable sort computes the
same list.)
-/

namespace Verif

/-- Insert before the first element whose key is not smaller. -/
def insertBy {α : Type _} (key : α → Nat) (a : α) : List α → List α
  | [] => [a]
  | b :: bs => if key a ≤ key b then a :: b :: bs else b :: insertBy key a bs

/-- `sorted(l, key=key)`. -/
def sortBy {α : Type _} (key : α → Nat) : List α → List α
  | [] => []
  | a :: as => insertBy key a (sortBy key as)

theorem insertBy_perm {α : Type _} (key : α → Nat) (a : α) : ∀ (l : List α), (insertBy key a l).Perm (a :: l)
  | [] => List.Perm.refl _
  | b :: bs => by
    unfold insertBy
    split
    · exact List.Perm.refl _
    · exact ((insertBy_perm key a bs).cons b).trans (List.Perm.swap a b bs)

theorem sortBy_perm {α : Type _} (key : α → Nat) : ∀ (l : List α), (sortBy key l).Perm l
  | [] => List.Perm.refl _
  | a :: as => (insertBy_perm key a _).trans ((sortBy_perm key as).cons a)

theorem insertBy_sorted {α : Type _} {key : α → Nat} {a : α} : ∀ {l : List α},
    l.Pairwise (fun x y => key x ≤ key y) → (insertBy key a l).Pairwise (fun x y => key x ≤ key y)
  | [], _ => by simp [insertBy]
  | b :: bs, h => by
    obtain ⟨h1, h2⟩ := List.pairwise_cons.1 h
    unfold insertBy
    split
    · rename_i hab
      refine List.pairwise_cons.2 ⟨?_, h⟩
      intro x hx
      rcases List.mem_cons.1 hx with rfl | hx
      · exact hab
      · have := h1 x hx; omega
    · rename_i hab
      refine List.pairwise_cons.2 ⟨?_, insertBy_sorted h2⟩
      intro x hx
      rcases List.mem_cons.1 ((insertBy_perm key a bs).mem_iff.1 hx) with rfl | hx
      · omega
      · exact h1 x hx

theorem sortBy_sorted {α : Type _} (key : α → Nat) : ∀ (l : List α),
    (sortBy key l).Pairwise (fun x y => key x ≤ key y)
  | [] => List.Pairwise.nil
  | _ :: as => insertBy_sorted (sortBy_sorted key as)

/-- A list that is already sorted is left alone. -/
theorem sortBy_of_sorted {α : Type _} {key : α → Nat} : ∀ {l : List α},
    l.Pairwise (fun x y => key x ≤ key y) → sortBy key l = l
  | [], _ => rfl
  | a :: as, h => by
    obtain ⟨h1, h2⟩ := List.pairwise_cons.1 h
    rw [sortBy, sortBy_of_sorted h2]
    cases as with
    | nil => rfl
    | cons b bs => rw [insertBy, if_pos (h1 b (by simp))]

@[simp] theorem sortBy_length {α : Type _} (key : α → Nat) (l : List α) : (sortBy key l).length = l.length :=
  (sortBy_perm key l).length_eq

/-- Sorting by a key that is strictly increasing along a permutation of the list gives that permutation. -/
theorem sortBy_eq_of_perm {α : Type _} {key : α → Nat} {l m : List α} (hp : l.Perm m)
    (hs : m.Pairwise (fun a b => key a < key b)) : sortBy key l = m := by
  refine List.Perm.eq_of_pairwise (le := fun a b => key a ≤ key b) ?_ (sortBy_sorted key l) ?_ ?_
  · intro a b ha hb h1 h2
    have ha' : a ∈ m := hp.mem_iff.1 ((sortBy_perm key l).mem_iff.1 ha)
    rcases List.getElem_of_mem ha' with ⟨i, hi, rfl⟩
    rcases List.getElem_of_mem hb with ⟨j, hj, rfl⟩
    rw [List.pairwise_iff_getElem] at hs
    rcases Nat.lt_trichotomy i j with h | h | h
    · have := hs i j hi hj h; omega
    · subst h; rfl
    · have := hs j i hj hi h; omega
  · exact hs.imp (fun h => Nat.le_of_lt h)
  · exact (sortBy_perm key l).trans hp

end Verif
