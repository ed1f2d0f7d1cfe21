import Verif.Proofs.SoundBankInst

/-!
# The shared instrument data of a bank, in closed form

The data is the distinct pairs of bytes and merge number, in the order in which they first occur.
-/

namespace Verif.Proofs.SoundBank

open Verif Verif.Model.SoundBank

abbrev Key := Bytes × Nat

/-- Append the elements that are not there yet. -/
def nubInto {α : Type _} [DecidableEq α] : List α → List α → List α
  | acc, [] => acc
  | acc, a :: l => if a ∈ acc then nubInto acc l else nubInto (acc ++ [a]) l

section nub
variable {α : Type _} [DecidableEq α]

theorem mem_nubInto {x : α} : ∀ {l acc : List α}, x ∈ nubInto acc l ↔ x ∈ acc ∨ x ∈ l
  | [], acc => by simp [nubInto]
  | a :: l, acc => by
    rw [nubInto]
    split
    · rename_i h
      rw [mem_nubInto, List.mem_cons]
      constructor
      · rintro (h1 | h1)
        · exact .inl h1
        · exact .inr (.inr h1)
      · rintro (h1 | rfl | h1)
        · exact .inl h1
        · exact .inl h
        · exact .inr h1
    · rw [mem_nubInto]
      rw [List.mem_append, List.mem_singleton, List.mem_cons, or_assoc]

theorem nodup_nubInto : ∀ {l acc : List α}, acc.Nodup → (nubInto acc l).Nodup
  | [], _, h => h
  | a :: l, acc, h => by
    rw [nubInto]
    split
    · exact nodup_nubInto h
    · rename_i hn
      refine nodup_nubInto (List.nodup_append.2 ⟨h, by simp, ?_⟩)
      rintro x hx y hy rfl
      rw [List.mem_singleton] at hy
      subst hy
      exact hn hx

theorem nubInto_append : ∀ (l acc : List α), ∃ t, nubInto acc l = acc ++ t ∧ t.Sublist l
  | [], acc => ⟨[], by simp [nubInto], List.Sublist.refl _⟩
  | a :: l, acc => by
    rw [nubInto]
    split
    · obtain ⟨t, h1, h2⟩ := nubInto_append l acc
      exact ⟨t, h1, h2.cons a⟩
    · obtain ⟨t, h1, h2⟩ := nubInto_append l (acc ++ [a])
      exact ⟨a :: t, by simp [h1], h2.cons_cons a⟩

theorem nub_sublist (l : List α) : (nubInto [] l).Sublist l := by
  obtain ⟨t, h1, h2⟩ := nubInto_append l []
  rw [h1]; exact h2

end nub

/-- Where the data of a key starts. -/
def offOf : List Key → Key → Nat
  | [], _ => 0
  | a :: D, k => if a = k then 0 else a.1.length + offOf D k

theorem offOf_append {D E : List Key} {k : Key} (h : k ∈ D) : offOf (D ++ E) k = offOf D k := by
  induction D with
  | nil => cases h
  | cons a D ih =>
    rw [List.cons_append, offOf, offOf]
    split
    · rfl
    · rename_i hne
      rw [ih]
      rcases List.mem_cons.1 h with rfl | h
      · exact absurd rfl hne
      · exact h

theorem offOf_not_mem {D : List Key} {k : Key} (h : k ∉ D) : offOf D k = ((D.map Prod.fst).flatten).length := by
  induction D with
  | nil => rfl
  | cons a D ih =>
    simp only [List.mem_cons, not_or] at h
    rw [offOf, if_neg (fun e => h.1 e.symm), ih h.2]
    simp

theorem offOf_new {D : List Key} {k : Key} (h : k ∉ D) :
    offOf (D ++ [k]) k = ((D.map Prod.fst).flatten).length := by
  induction D with
  | nil => simp [offOf]
  | cons a D ih =>
    simp only [List.mem_cons, not_or] at h
    rw [List.cons_append, offOf, if_neg (fun e => h.1 e.symm), ih h.2]
    simp

/-- The pool with the given keys. -/
def poolOf (D : List Key) : Pool := ⟨D.map fun k => (k, offOf D k), (D.map Prod.fst).flatten⟩

theorem lookup_map {κ ν : Type _} [BEq κ] [LawfulBEq κ] {f : κ → ν} {k : κ} : ∀ {D : List κ},
    (k ∈ D → (D.map fun x => (x, f x)).lookup k = some (f k)) ∧
    (k ∉ D → (D.map fun x => (x, f x)).lookup k = none)
  | [] => by simp
  | a :: D => by
    obtain ⟨ih1, ih2⟩ := lookup_map (f := f) (k := k) (D := D)
    rw [List.map_cons, List.lookup_cons]
    by_cases h : k = a
    · subst h; simp
    · rw [beq_false_of_ne h, List.mem_cons]
      exact ⟨fun hm => ih1 (hm.resolve_left h), fun hm => ih2 (fun h' => hm (.inr h'))⟩

theorem add_mem {D : List Key} {k : Key} (h : k ∈ D) : (poolOf D).add k = (offOf D k, poolOf D) := by
  rw [Pool.add]
  simp only [poolOf]
  rw [lookup_map.1 h]

theorem add_new {D : List Key} {k : Key} (h : k ∉ D) :
    (poolOf D).add k = (offOf (D ++ [k]) k, poolOf (D ++ [k])) := by
  rw [Pool.add]
  simp only [poolOf]
  rw [lookup_map.2 h, offOf_new h]
  have : D.map (fun k' => (k', offOf (D ++ [k]) k')) = D.map (fun k' => (k', offOf D k')) :=
    List.map_congr_left (fun a ha => by rw [offOf_append ha])
  simp [this, offOf_new h]

/-- The key of an instrument. -/
def keyOf (i : Inst) : Key := (kindBytes i.kind, i.mergeID)

theorem addAll_ok : ∀ {l : List (Option Nat × Inst)} {D : List Key} {r : List (Nat × Nat) × Pool},
    addAll l (poolOf D) = .ok r ↔ (∀ j ∈ l, KindFits j.2.kind) ∧
      r = (l.filterMap fun j => j.1.map fun n => (n, offOf (nubInto D (l.map fun j => keyOf j.2)) (keyOf j.2)),
        poolOf (nubInto D (l.map fun j => keyOf j.2)))
  | [], D, r => by simp [addAll, nubInto, eq_comm]
  | (n, i) :: l, D, r => by
    rw [addAll]
    simp only [bind_eq_ok, pure_eq_ok, kind_save_ok]
    have key : ∀ D' : List Key, keyOf i ∈ D' → (poolOf D).add (keyOf i) = (offOf D' (keyOf i), poolOf D') →
        nubInto D (((n, i) :: l).map fun j => keyOf j.2) = nubInto D' (l.map fun j => keyOf j.2) →
        ((∃ a, (KindFits i.kind ∧ a = kindBytes i.kind) ∧ ∃ x, addAll l ((poolOf D).add (a, i.mergeID)).2 = .ok x ∧
          (match n with | none => x.1 | some k => (k, ((poolOf D).add (a, i.mergeID)).1) :: x.1, x.2) = r) ↔
        (∀ j ∈ (n, i) :: l, KindFits j.2.kind) ∧
          r = (((n, i) :: l).filterMap fun j => j.1.map fun m => (m, offOf (nubInto D
            (((n, i) :: l).map fun j => keyOf j.2)) (keyOf j.2)),
            poolOf (nubInto D (((n, i) :: l).map fun j => keyOf j.2)))) := by
      intro D' hmem hadd hnub
      rw [hnub]
      have hoff : offOf (nubInto D' (l.map fun j => keyOf j.2)) (keyOf i) = offOf D' (keyOf i) := by
        obtain ⟨t, ht, _⟩ := nubInto_append (l.map fun j => keyOf j.2) D'
        rw [ht, offOf_append hmem]
      constructor
      · rintro ⟨_, ⟨hf, rfl⟩, x, hx, rfl⟩
        have hk : (kindBytes i.kind, i.mergeID) = keyOf i := rfl
        rw [hk, hadd] at hx ⊢
        obtain ⟨h1, rfl⟩ := addAll_ok.1 hx
        refine ⟨?_, ?_⟩
        · intro j hj
          rcases List.mem_cons.1 hj with rfl | hj
          · exact hf
          · exact h1 j hj
        · cases n with
          | none => rfl
          | some m => simp [hoff]
      · rintro ⟨hf, rfl⟩
        refine ⟨_, ⟨hf (n, i) (by simp), rfl⟩, (l.filterMap fun j => j.1.map fun n => (n,
          offOf (nubInto D' (l.map fun j => keyOf j.2)) (keyOf j.2)), poolOf (nubInto D' (l.map fun j => keyOf j.2))),
          ?_, ?_⟩
        · have hk : (kindBytes i.kind, i.mergeID) = keyOf i := rfl
          rw [hk, hadd]
          exact addAll_ok.2 ⟨fun j hj => hf j (List.mem_cons_of_mem _ hj), rfl⟩
        · have hk : (kindBytes i.kind, i.mergeID) = keyOf i := rfl
          rw [hk, hadd]
          cases n with
          | none => rfl
          | some m => simp [hoff]
    by_cases h : keyOf i ∈ D
    · exact key D h (add_mem h) (by rw [List.map_cons, nubInto, if_pos h])
    · exact key (D ++ [keyOf i]) (by simp) (add_new h) (by rw [List.map_cons, nubInto, if_neg h])

/-! ## Where the data lies -/

theorem off_at : ∀ {D : List Key} {k : Key}, k ∈ D → At (D.map Prod.fst).flatten (offOf D k) k.1
  | a :: D, k, h => by
    rw [offOf, List.map_cons, List.flatten_cons]
    split
    · rename_i h; subst h; exact At.first _ _
    · rename_i hne
      rcases List.mem_cons.1 h with rfl | h
      · exact absurd rfl hne
      · exact (off_at h).append_left _

theorem off_cover : ∀ {D : List Key} {x : Nat}, D.Nodup → x < ((D.map Prod.fst).flatten).length →
    ∃ k ∈ D, offOf D k ≤ x ∧ x < offOf D k + k.1.length
  | [], x, _, h => by simp at h
  | a :: D, x, hn, h => by
    by_cases hx : x < a.1.length
    · exact ⟨a, by simp, by rw [offOf, if_pos rfl]; omega, by rw [offOf, if_pos rfl]; omega⟩
    · rw [List.map_cons, List.flatten_cons, List.length_append] at h
      obtain ⟨h1, h2⟩ := List.nodup_cons.1 hn
      obtain ⟨k, hk, ha, hb⟩ := off_cover (x := x - a.1.length) h2 (by omega)
      have hne : a ≠ k := fun e => h1 (e ▸ hk)
      exact ⟨k, by simp [hk], by rw [offOf, if_neg hne]; omega, by rw [offOf, if_neg hne]; omega⟩

theorem off_sorted : ∀ {D : List Key}, D.Nodup → (∀ k ∈ D, k.1 ≠ []) →
    D.Pairwise fun a b => offOf D a + a.1.length ≤ offOf D b
  | [], _, _ => List.Pairwise.nil
  | a :: D, hn, he => by
    obtain ⟨h1, h2⟩ := List.nodup_cons.1 hn
    refine List.pairwise_cons.2 ⟨?_, ?_⟩
    · intro b hb
      have hne : a ≠ b := fun e => h1 (e ▸ hb)
      rw [offOf, if_pos rfl, offOf, if_neg hne]; omega
    · refine (off_sorted h2 (fun k hk => he k (by simp [hk]))).imp_of_mem ?_
      intro x y hx hy h
      have hx' : a ≠ x := fun e => h1 (e ▸ hx)
      have hy' : a ≠ y := fun e => h1 (e ▸ hy)
      rw [offOf, if_neg hx', offOf, if_neg hy']; omega

theorem off_inj {D : List Key} (hn : D.Nodup) (he : ∀ k ∈ D, k.1 ≠ []) {a b : Key} (ha : a ∈ D) (hb : b ∈ D)
    (h : offOf D a = offOf D b) : a = b := by
  have hs := off_sorted hn he
  obtain ⟨i, hi, rfl⟩ := List.getElem_of_mem ha
  obtain ⟨j, hj, rfl⟩ := List.getElem_of_mem hb
  rw [List.pairwise_iff_getElem] at hs
  have h1 := List.length_pos_iff.2 (he _ ha)
  have h2 := List.length_pos_iff.2 (he _ hb)
  rcases Nat.lt_trichotomy i j with hlt | rfl | hlt
  · have := hs i j hi hj hlt; omega
  · rfl
  · have := hs j i hj hi hlt; omega

theorem kindBytes_ne (k : Kind) (h : KindFits k) : kindBytes k ≠ [] := by
  have := kindBytes_length k h
  intro he
  rw [he, List.length_nil] at this
  cases k <;> simp at this <;> omega

/-! ## The order of saving -/

theorem mem_numbered {l : List (Option Inst)} {k : Nat} {i : Inst} :
    (k, i) ∈ ((List.range l.length).zip l).filterMap (fun p => p.2.map fun i => (p.1, i)) ↔
      l[k]? = some (some i) := by
  rw [List.mem_filterMap]
  constructor
  · rintro ⟨⟨n, o⟩, hm, he⟩
    obtain ⟨j, hj, hje⟩ := List.getElem_of_mem hm
    rw [List.getElem_zip, Prod.mk.injEq, List.getElem_range] at hje
    cases o with
    | none => cases he
    | some i' =>
      simp only [Option.map_some, Option.some.injEq, Prod.mk.injEq] at he
      obtain ⟨rfl, rfl⟩ := he
      obtain ⟨rfl, h2⟩ := hje
      rw [List.getElem?_eq_getElem, h2]
      simpa using hj
  · intro h
    obtain ⟨hk, he⟩ := List.getElem?_eq_some_iff.1 h
    refine ⟨(k, some i), ?_, rfl⟩
    have : ((List.range l.length).zip l)[k]'(by simp [hk]) = (k, some i) := by simp [he]
    rw [← this]
    exact List.getElem_mem _

theorem mem_order {s : SBNK} {k : Nat} {i : Inst} :
    (some k, i) ∈ orderOf s ↔ s.instruments[k]? = some (some i) ∧ i.kind.type ≤ 17 := by
  rw [← mem_numbered]
  unfold orderOf
  simp only [List.mem_append, List.mem_flatMap, List.mem_map, Prod.mk.injEq, reduceCtorEq, false_and, and_false,
    exists_false, List.mem_cons, or_false, (sortBy_perm _ _).mem_iff, List.mem_filter, false_or,
    Option.some.injEq, decide_eq_true_eq]
  constructor
  · rintro ((⟨⟨a, b⟩, ⟨h1, h2⟩, rfl, rfl⟩ | ⟨⟨a, b⟩, ⟨h1, h2⟩, rfl, rfl⟩) | ⟨⟨a, b⟩, ⟨h1, h2⟩, rfl, rfl⟩)
    · exact ⟨h1, by dsimp only at h2 ⊢; omega⟩
    · exact ⟨h1, by dsimp only at h2 ⊢; omega⟩
    · exact ⟨h1, by dsimp only at h2 ⊢; omega⟩
  · rintro ⟨h1, h2⟩
    by_cases h : i.kind.type < 16
    · exact .inl (.inl ⟨(k, i), ⟨h1, h⟩, rfl, rfl⟩)
    · by_cases h' : i.kind.type = 16
      · exact .inl (.inr ⟨(k, i), ⟨h1, h'⟩, rfl, rfl⟩)
      · exact .inr ⟨(k, i), ⟨h1, by dsimp only; omega⟩, rfl, rfl⟩

theorem lookup_of_mem {κ ν : Type _} [BEq κ] [LawfulBEq κ] {k : κ} {v : ν} : ∀ {l : List (κ × ν)},
    (k, v) ∈ l → (∀ v', (k, v') ∈ l → v' = v) → l.lookup k = some v
  | [], h, _ => by cases h
  | (a, b) :: l, h, hu => by
    rw [List.lookup_cons]
    by_cases hk : k = a
    · subst hk
      simp [hu b (by simp)]
    · rw [beq_false_of_ne hk]
      dsimp only
      refine lookup_of_mem ?_ (fun v' hv => hu v' (List.mem_cons_of_mem _ hv))
      rcases List.mem_cons.1 h with h | h
      · cases h; exact absurd rfl hk
      · exact h

theorem lookup_none {κ ν : Type _} [BEq κ] [LawfulBEq κ] {k : κ} : ∀ {l : List (κ × ν)},
    (∀ v, (k, v) ∉ l) → l.lookup k = none
  | [], _ => rfl
  | (a, b) :: l, h => by
    rw [List.lookup_cons]
    by_cases hk : k = a
    · subst hk
      exact absurd (by simp) (h b)
    · rw [beq_false_of_ne hk]
      exact lookup_none (fun v hv => h v (List.mem_cons_of_mem _ hv))

/-- The distinct data of a bank. -/
def dataOf (s : SBNK) : List Key := nubInto [] ((orderOf s).map fun j => keyOf j.2)

/-- The offsets by slot. -/
def offsOf (s : SBNK) : List (Nat × Nat) :=
  (orderOf s).filterMap fun j => j.1.map fun n => (n, offOf (dataOf s) (keyOf j.2))

theorem mem_offsOf {s : SBNK} {k o : Nat} :
    (k, o) ∈ offsOf s ↔ ∃ i, (some k, i) ∈ orderOf s ∧ o = offOf (dataOf s) (keyOf i) := by
  rw [offsOf, List.mem_filterMap]
  constructor
  · rintro ⟨⟨n, i⟩, hm, he⟩
    cases n with
    | none => cases he
    | some n =>
      simp only [Option.map_some, Option.some.injEq, Prod.mk.injEq] at he
      obtain ⟨rfl, rfl⟩ := he
      exact ⟨i, hm, rfl⟩
  · rintro ⟨i, hm, rfl⟩
    exact ⟨_, hm, rfl⟩

theorem offs_lookup {s : SBNK} {k : Nat} {i : Inst} (h : s.instruments[k]? = some (some i)) (ht : i.kind.type ≤ 17) :
    (offsOf s).lookup k = some (offOf (dataOf s) (keyOf i)) := by
  refine lookup_of_mem (mem_offsOf.2 ⟨i, mem_order.2 ⟨h, ht⟩, rfl⟩) ?_
  intro o ho
  obtain ⟨i', hi', rfl⟩ := mem_offsOf.1 ho
  have := (mem_order.1 hi').1
  rw [h] at this
  cases this
  rfl

theorem offs_lookup_none {s : SBNK} {k : Nat} (h : s.instruments[k]? = some none) : (offsOf s).lookup k = none := by
  refine lookup_none fun o ho => ?_
  obtain ⟨i', hi', rfl⟩ := mem_offsOf.1 ho
  have := (mem_order.1 hi').1
  rw [h] at this
  cases this

end Verif.Proofs.SoundBank
