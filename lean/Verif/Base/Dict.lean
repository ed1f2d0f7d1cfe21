/-!
# Python dictionaries

A `dict` is the list of its items in iteration order.  The keys of a well-formed list are distinct
(`(d.map Prod.fst).Nodup`).
-/

namespace Verif

/-- `d[k] = v`: an existing key keeps its place, a new one goes to the end. -/
def dictSet {κ ν : Type _} [DecidableEq κ] : List (κ × ν) → κ → ν → List (κ × ν)
  | [], k, v => [(k, v)]
  | p :: d, k, v => if p.1 = k then (k, v) :: d else p :: dictSet d k v

theorem dictSet_new {κ ν : Type _} [DecidableEq κ] {k : κ} {v : ν} : ∀ {d : List (κ × ν)},
    k ∉ d.map Prod.fst → dictSet d k v = d ++ [(k, v)]
  | [], _ => rfl
  | p :: d, h => by
    simp only [List.map_cons, List.mem_cons, not_or] at h
    rw [dictSet, if_neg (fun e => h.1 e.symm), dictSet_new h.2]; rfl

theorem dictSet_lookup {κ ν : Type _} [DecidableEq κ] (k k' : κ) (v : ν) : ∀ (d : List (κ × ν)),
    (dictSet d k v).lookup k' = if k' = k then some v else d.lookup k'
  | [] => by
    rw [dictSet, List.lookup_cons]
    by_cases h : k' = k
    · simp [h]
    · rw [beq_false_of_ne h, if_neg h]
  | p :: d => by
    rw [dictSet]
    split
    · rename_i hp
      rw [List.lookup_cons, List.lookup_cons]
      by_cases h : k' = k
      · simp [h]
      · rw [hp, beq_false_of_ne h, if_neg h]
    · rename_i hp
      rw [List.lookup_cons, List.lookup_cons, dictSet_lookup]
      by_cases h : k' = k
      · have : k' ≠ p.1 := by rw [h]; exact fun e => hp e.symm
        rw [beq_false_of_ne this, if_pos h]
      · simp [h]

end Verif
