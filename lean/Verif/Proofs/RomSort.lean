import Verif.Proofs.RomOk

namespace Verif.Proofs.Rom

open Verif Verif.Model.Rom Verif.Model.Util Verif.Spec.Rom

theorem mem_dictSet {κ ν : Type} [DecidableEq κ] {k : κ} {v : ν} {p : κ × ν} : ∀ {d : List (κ × ν)}, (d.map Prod.fst).Nodup →
    (p ∈ dictSet d k v ↔ p = (k, v) ∨ p.1 ≠ k ∧ p ∈ d)
  | [], _ => by simp [dictSet]
  | q :: d, h => by
    rw [List.map_cons, List.nodup_cons] at h
    rw [dictSet]
    split
    · next hq =>
      rw [List.mem_cons]
      constructor
      · rintro (rfl | h')
        · exact .inl rfl
        · refine .inr ⟨?_, by simp [h']⟩
          intro e
          apply h.1
          rw [hq, ← e]
          exact List.mem_map.2 ⟨p, h', rfl⟩
      · rintro (rfl | ⟨h1, h2⟩)
        · exact .inl rfl
        · rcases List.mem_cons.1 h2 with rfl | h2
          · exact absurd hq h1
          · exact .inr h2
    · next hq =>
      rw [List.mem_cons, mem_dictSet h.2, List.mem_cons]
      constructor
      · rintro (rfl | rfl | ⟨h1, h2⟩)
        · exact .inr ⟨hq, .inl rfl⟩
        · exact .inl rfl
        · exact .inr ⟨h1, .inr h2⟩
      · rintro (rfl | ⟨h1, rfl | h2⟩)
        · exact .inr (.inl rfl)
        · exact .inl rfl
        · exact .inr (.inr ⟨h1, h2⟩)

theorem dictSet_nodup {κ ν : Type} [DecidableEq κ] {k : κ} {v : ν} : ∀ {d : List (κ × ν)}, (d.map Prod.fst).Nodup →
    ((dictSet d k v).map Prod.fst).Nodup
  | [], _ => by simp [dictSet]
  | q :: d, h => by
    have h' := h
    rw [List.map_cons, List.nodup_cons] at h
    rw [dictSet]
    split
    · next hq =>
      rw [List.map_cons, List.nodup_cons]
      exact ⟨hq ▸ h.1, h.2⟩
    · next hq =>
      rw [List.map_cons, List.nodup_cons]
      refine ⟨?_, dictSet_nodup h.2⟩
      intro hm
      obtain ⟨p, hp, e⟩ := List.mem_map.1 hm
      rcases (mem_dictSet h.2).1 hp with rfl | ⟨-, hp⟩
      · exact hq e.symm
      · exact h.1 (List.mem_map.2 ⟨p, hp, e⟩)

/-- The dictionary of the offsets after `m` entries. -/
def IsDict (starts : List Nat) (m : Nat) (d : List (Nat × Int)) : Prop :=
  (d.map Prod.fst).Nodup ∧ ∀ s k, (s, k) ∈ d ↔
    ∃ i : Nat, i < m ∧ k = i ∧ starts[i]? = some s ∧ ∀ j, i < j → j < m → starts[j]? ≠ some s

theorem isDict_loop {starts : List Nat} : ∀ {rest : List Nat} {m : Nat} {d : List (Nat × Int)},
    rest = starts.drop m → IsDict starts m d →
    IsDict starts (m + rest.length) (((List.range' m rest.length).zip rest).foldl
      (fun (d : List (Nat × Int)) (x : Nat × Nat) => dictSet d x.2 (x.1 : Int)) d)
  | [], m, d, _, h => h
  | s :: rest, m, d, hr, h => by
    rw [List.length_cons, List.range'_succ, List.zip_cons_cons, List.foldl_cons,
      show m + (rest.length + 1) = m + 1 + rest.length by omega]
    have hm : starts[m]? = some s := by
      have : (starts.drop m)[0]? = some s := by rw [← hr]; rfl
      rw [List.getElem?_drop] at this
      simpa using this
    refine isDict_loop ?_ ?_
    · have := congrArg List.tail hr
      simpa using this
    · refine ⟨dictSet_nodup h.1, ?_⟩
      intro s' k
      rw [mem_dictSet h.1, h.2]
      constructor
      · rintro (e | ⟨h1, i, h2, h3, h4, h5⟩)
        · obtain ⟨rfl, rfl⟩ := Prod.mk.inj e
          exact ⟨m, by omega, rfl, hm, by intro j h1 h2; omega⟩
        · refine ⟨i, by omega, h3, h4, ?_⟩
          intro j j1 j2 j3
          by_cases e : j = m
          · subst e
            rw [hm] at j3
            exact h1 (Option.some.inj j3).symm
          · exact h5 j j1 (by omega) j3
      · rintro ⟨i, h2, h3, h4, h5⟩
        by_cases e : i = m
        · subst e
          rw [hm] at h4
          exact .inl (by rw [h3, Option.some.inj h4])
        · refine .inr ⟨?_, i, by omega, h3, h4, fun j j1 j2 => h5 j j1 (by omega)⟩
          intro e'
          exact h5 m (by omega) (by omega) (by rw [hm]; exact congrArg some e'.symm)

/-- Which IDs the sorted ones are, and in which order. -/
theorem sortIds_spec (starts : List Nat) :
    (∀ k, k ∈ sortIds starts ↔ ∃ (i s : Nat), k = i ∧ starts[i]? = some s ∧ ∀ j, i < j → starts[j]? ≠ some s) ∧
    (sortIds starts).Pairwise fun a b => ∀ s t, starts[a.toNat]? = some s → starts[b.toNat]? = some t → s < t := by
  have hd := isDict_loop (starts := starts) (rest := starts) (m := 0) (d := []) (by simp)
    ⟨by simp, by intro s k; simp⟩
  rw [← List.range_eq_range', Nat.zero_add] at hd
  unfold sortIds
  generalize (((List.range starts.length).zip starts).foldl
    (fun (d : List (Nat × Int)) (x : Nat × Nat) => dictSet d x.2 (x.1 : Int)) []) = d at hd ⊢
  obtain ⟨h1, h2⟩ := hd
  have hperm := sortBy_perm Prod.fst d
  constructor
  · intro k
    rw [List.mem_map]
    constructor
    · rintro ⟨⟨s, k'⟩, hm, rfl⟩
      obtain ⟨i, g1, g2, g3, g4⟩ := (h2 s k').1 (hperm.mem_iff.1 hm)
      refine ⟨i, s, g2, g3, ?_⟩
      intro j hj hs
      exact g4 j hj (List.getElem?_eq_some_iff.1 hs).1 hs
    · rintro ⟨i, s, rfl, g3, g4⟩
      exact ⟨(s, (i : Int)), hperm.mem_iff.2 ((h2 _ _).2
        ⟨i, (List.getElem?_eq_some_iff.1 g3).1, rfl, g3, fun j hj _ => g4 j hj⟩), rfl⟩
  · rw [List.pairwise_map]
    have hs := sortBy_sorted Prod.fst d
    have hn : ((sortBy Prod.fst d).map Prod.fst).Nodup := ((hperm.map Prod.fst).nodup_iff).2 h1
    rw [List.Nodup, List.pairwise_map] at hn
    have hb := hs.and hn
    refine List.Pairwise.imp_of_mem ?_ hb
    intro a b ha hb h s t hs ht
    obtain ⟨i, -, g2, g3, -⟩ := (h2 a.1 a.2).1 (hperm.mem_iff.1 ha)
    obtain ⟨j, -, g5, g6, -⟩ := (h2 b.1 b.2).1 (hperm.mem_iff.1 hb)
    rw [g2] at hs
    rw [g5] at ht
    simp only [Int.toNat_natCast] at hs ht
    rw [g3] at hs
    rw [g6] at ht
    have := Option.some.inj hs
    have := Option.some.inj ht
    obtain ⟨q1, q2⟩ := h
    omega

end Verif.Proofs.Rom
