import Verif.Spec.SoundTools

namespace Verif.Proofs.SoundTools

open Verif Verif.Model.SoundArchiveObject Verif.Model.SoundTools Verif.Spec.SoundTools
open Verif.Model.Repr (lit)

/-! ## Sorting -/

theorem lt_of_not {a b : Str} (h : ¬ b < a) (hn : a ≠ b) : a < b :=
  Classical.byContradiction fun h' => hn (List.le_antisymm h h')

theorem insertStr_perm (a : Str) : ∀ l, (insertStr a l).Perm (a :: l)
  | [] => .refl _
  | b :: l => by
    unfold insertStr
    split
    · exact ((insertStr_perm a l).cons b).trans (.swap ..)
    · exact .refl _

theorem sortStr_perm : ∀ l, (sortStr l).Perm l
  | [] => .refl _
  | a :: l => (insertStr_perm a _).trans ((sortStr_perm l).cons a)

theorem insertStr_sorted (a : Str) : ∀ l, l.Pairwise (· < ·) → a ∉ l → (insertStr a l).Pairwise (· < ·)
  | [], _, _ => List.pairwise_singleton ..
  | b :: l, h, hn => by
    rw [List.pairwise_cons] at h
    rw [List.mem_cons, not_or] at hn
    unfold insertStr
    split
    · rename_i hb
      refine List.pairwise_cons.2 ⟨fun c hc => ?_, insertStr_sorted a l h.2 hn.2⟩
      rcases List.mem_cons.1 ((insertStr_perm a l).mem_iff.1 hc) with rfl | hc
      · exact hb
      · exact h.1 c hc
    · rename_i hb
      have := lt_of_not hb hn.1
      refine List.pairwise_cons.2 ⟨fun c hc => ?_, List.pairwise_cons.2 h⟩
      rcases List.mem_cons.1 hc with rfl | hc
      · exact this
      · exact List.lt_trans this (h.1 c hc)

theorem sortStr_sorted : ∀ l, l.Nodup → (sortStr l).Pairwise (· < ·)
  | [], _ => .nil
  | a :: l, h => by
    rw [List.nodup_cons] at h
    exact insertStr_sorted a _ (sortStr_sorted l h.2) fun hm => h.1 ((sortStr_perm l).mem_iff.1 hm)

/-! ## Names -/

theorem isSdat_iff {fn : Str} : isSdat fn = true ↔ ∃ n, fn = n ++ lit ".sdat" := by
  unfold isSdat
  rw [List.isSuffixOf_iff_suffix]
  exact ⟨fun ⟨n, h⟩ => ⟨n, h.symm⟩, fun ⟨n, h⟩ => ⟨n, h.symm⟩⟩

theorem stem (n : Str) : (n ++ lit ".sdat").take ((n ++ lit ".sdat").length - 5) = n := by
  have : (lit ".sdat").length = 5 := by decide
  rw [List.length_append, this, Nat.add_sub_cancel, List.take_left]

/-! ## The loop -/

/-- One archive that has been dealt with: its name, its content and the content of the new file. -/
structure Item where
  n : Str
  d : Bytes
  d2 : Bytes

def Item.out (i : Item) : Str × Bytes := (i.n ++ lit "_out.sdat", i.d2)
def Item.line (i : Item) : Str := Model.SoundTools.line (i.n ++ lit ".sdat") (outcome i.n i.d i.d2).1
def Item.fine (i : Item) : Bool := (outcome i.n i.d i.d2).2

theorem loop_filter (choose : List Nat → Nat) (k : Disk) : ∀ l r,
    testLoop choose k l r = testLoop choose k (l.filter isSdat) r
  | [], _ => rfl
  | fn :: l, r => by
    by_cases hs : isSdat fn = true
    · rw [List.filter_cons_of_pos hs]
      unfold testLoop
      simp only [hs, Bool.true_eq_false, if_false]
      split
      · rfl
      · exact loop_filter choose k l _
    · rw [List.filter_cons_of_neg hs]
      have : isSdat fn = false := by simpa using hs
      conv => lhs; unfold testLoop
      rw [if_pos this]
      exact loop_filter choose k l r

theorem loop_spec (choose : List Nat → Nat) (k : Disk) : ∀ (l : List Str) (r : Run), l.Nodup →
    (∀ n, n ++ lit "_out.sdat" ∈ r.out.map Prod.fst → n ++ lit ".sdat" ∉ l) → (∀ fn ∈ l, isSdat fn = true) →
    ∃ (items : List Item) (rest : List Str), l = items.map (fun i : Item => i.n ++ lit ".sdat") ++ rest ∧
      (∀ i ∈ items, resave choose k (i.n ++ lit ".sdat") = .ok (i.d, i.d2)) ∧
      (testLoop choose k l r).2 = ⟨r.out ++ items.map Item.out, r.printed ++ items.map Item.line, r.success && items.all Item.fine⟩ ∧
      ((rest = [] ∧ (testLoop choose k l r).1 = .ok ()) ∨
        ∃ n tl e, rest = (n ++ lit ".sdat") :: tl ∧ resave choose k (n ++ lit ".sdat") = .error e ∧
          (testLoop choose k l r).1 = .error e)
  | [], r, _, _, _ => ⟨[], [], rfl, by simp, by simp [testLoop], .inl ⟨rfl, rfl⟩⟩
  | fn :: l, r, hd, hf, hs => by
    obtain ⟨n, rfl⟩ := isSdat_iff.1 (hs _ (.head _))
    rw [List.nodup_cons] at hd
    unfold testLoop
    rw [if_neg (by rw [hs _ (.head _)]; decide)]
    cases hr : resave choose k (n ++ lit ".sdat") with
    | error e => exact ⟨[], _, rfl, by simp, by simp, .inr ⟨n, l, e, rfl, hr, rfl⟩⟩
    | ok v =>
      obtain ⟨d, d2⟩ := v
      dsimp only
      rw [stem]
      have hfresh : n ++ lit "_out.sdat" ∉ r.out.map Prod.fst := fun hm => hf n hm (.head _)
      rw [dictSet_new hfresh]
      obtain ⟨items, rest, h1, h2, h3, h4⟩ := loop_spec choose k l
        ⟨r.out ++ [(n ++ lit "_out.sdat", d2)], r.printed ++ [line (n ++ lit ".sdat") (outcome n d d2).1],
          r.success && (outcome n d d2).2⟩ hd.2 (by
          intro m hm hl
          simp only [List.map_append, List.map_cons, List.map_nil, List.mem_append, List.mem_singleton] at hm
          rcases hm with hm | hm
          · exact hf m hm (.tail _ hl)
          · have := List.append_cancel_right hm
            rw [this] at hl
            exact hd.1 hl) (fun fn h => hs fn (.tail _ h))
      refine ⟨⟨n, d, d2⟩ :: items, rest, ?_, ?_, ?_, h4⟩
      · rw [List.map_cons, List.cons_append, ← h1]
      · intro i hi
        rcases List.mem_cons.1 hi with rfl | hi
        · exact hr
        · exact h2 i hi
      · rw [h3]
        simp [Item.out, Item.line, Item.fine, Bool.and_assoc]

theorem lookup_nodup {α : Type} {n : Str} {d : α} : ∀ {l : List (Str × α)}, (l.map Prod.fst).Nodup →
    (l.lookup n = some d ↔ (n, d) ∈ l)
  | [], _ => by simp
  | p :: l, h => by
    rw [List.map_cons, List.nodup_cons] at h
    rw [List.lookup_cons, List.mem_cons]
    by_cases hp : n = p.1
    · subst hp
      have : (p.1, d) ∉ l := fun hm => h.1 (List.mem_map.2 ⟨_, hm, rfl⟩)
      simp only [BEq.rfl, this, or_false, Option.some.injEq]
      exact ⟨fun e => e ▸ rfl, fun e => (congrArg Prod.snd e).symm⟩
    · rw [beq_false_of_ne hp, lookup_nodup h.2]
      exact ⟨.inr, fun h => h.resolve_left fun e => hp (congrArg Prod.fst e)⟩

theorem files_nodup {k : Disk} (h : Names k) : (k.files.map Prod.fst).Nodup := (List.nodup_append.1 h.distinct).1

theorem contains_unique {k : Disk} (h : Names k) {n : Str} {d d' : Bytes} (h1 : Contains k n d) (h2 : Contains k n d') :
    d = d' := by
  have h1 := (lookup_nodup (files_nodup h)).2 h1
  rw [(lookup_nodup (files_nodup h)).2 h2] at h1
  cases h1
  rfl

theorem resave_ok {choose : List Nat → Nat} {k : Disk} {n : Str} {d d2 : Bytes} (hn : Names k) :
    resave choose k (n ++ lit ".sdat") = .ok (d, d2) ↔ Contains k n d ∧ Resaved choose d d2 := by
  have hf := files_nodup hn
  unfold resave Disk.read Contains Resaved
  rw [← lookup_nodup hf]
  cases k.files.lookup (n ++ lit ".sdat") with
  | none => exact ⟨fun h => (by cases h), fun h => (by cases h.1)⟩
  | some x =>
    dsimp only
    rw [bind_ok]
    cases hl : Archive.load choose x with
    | error e =>
      refine ⟨fun h => (by cases h), fun ⟨h1, a, h2, _⟩ => ?_⟩
      cases h1
      rw [hl] at h2
      cases h2
    | ok a =>
      rw [bind_ok]
      cases hs : a.save with
      | error e =>
        refine ⟨fun h => (by cases h), fun ⟨h1, b, h2, h3⟩ => ?_⟩
        cases h1
        rw [hl] at h2
        cases h2
        rw [hs] at h3
        cases h3
      | ok y =>
        rw [bind_ok]
        constructor
        · intro h
          cases h
          exact ⟨rfl, a, hl, hs⟩
        · rintro ⟨h1, b, h2, h3⟩
          cases h1
          rw [hl] at h2
          cases h2
          rw [hs] at h3
          cases h3
          rfl

/-- The archives in the order in which they are dealt with. -/
def archives (k : Disk) : List Str := (sortStr (k.files.map (·.1) ++ k.folders ++ [lit "out"])).filter isSdat

theorem archives_sorted {k : Disk} (h : Names k) (ho : ∀ d, (lit "out", d) ∉ k.files) : (archives k).Pairwise (· < ·) := by
  refine (sortStr_sorted _ (List.nodup_append.2 ⟨h.distinct, by simp, ?_⟩)).filter _
  rintro a ha b hb rfl
  cases List.mem_singleton.1 hb
  rcases List.mem_append.1 ha with ha | ha
  · obtain ⟨⟨_, d⟩, hm, rfl⟩ := List.mem_map.1 ha
    exact ho d hm
  · exact h.out ha

theorem mem_archives {k : Disk} {n : Str} :
    n ++ lit ".sdat" ∈ archives k ↔ (∃ d, Contains k n d) ∨ n ++ lit ".sdat" ∈ k.folders := by
  unfold archives Contains
  rw [List.mem_filter, (sortStr_perm _).mem_iff, isSdat_iff, List.mem_append, List.mem_append, List.mem_singleton, List.mem_map]
  have : n ++ lit ".sdat" ≠ lit "out" := by
    intro e
    have := congrArg List.length e
    rw [List.length_append, show (lit ".sdat").length = 5 from by decide, show (lit "out").length = 3 from by decide] at this
    omega
  constructor
  · rintro ⟨(⟨⟨_, d⟩, h, rfl⟩ | h) | h, _⟩
    · exact .inl ⟨d, h⟩
    · exact .inr h
    · exact absurd h this
  · rintro (⟨d, h⟩ | h)
    · exact ⟨.inl (.inl ⟨_, h, rfl⟩), n, rfl⟩
    · exact ⟨.inl (.inr h), n, rfl⟩

/-- What `testSDAT` does, if no file is named `out`. -/
theorem test_spec (choose : List Nat → Nat) {k : Disk} (hn : Names k) (ho : ∀ d, (lit "out", d) ∉ k.files) :
    ∃ (items : List Item) (rest : List Str), archives k = items.map (fun i : Item => i.n ++ lit ".sdat") ++ rest ∧
      (∀ i ∈ items, Contains k i.n i.d ∧ Resaved choose i.d i.d2) ∧
      (testSDAT choose k).2 = ({ k with out := some (items.map Item.out) }, items.map Item.line) ∧
      ((rest = [] ∧ (testSDAT choose k).1 = .ok (items.all Item.fine)) ∨
        ∃ n tl e, rest = (n ++ lit ".sdat") :: tl ∧ resave choose k (n ++ lit ".sdat") = .error e ∧
          (testSDAT choose k).1 = .error e) := by
  have hf := files_nodup hn
  have hl : k.files.lookup (lit "out") = none := by
    cases h : k.files.lookup (lit "out") with
    | none => rfl
    | some d => exact absurd ((lookup_nodup hf).1 h) (ho d)
  have hnd : (archives k).Nodup := (archives_sorted hn ho).imp fun h e => by
    subst e
    exact List.lt_irrefl _ h
  obtain ⟨items, rest, h1, h2, h3, h4⟩ := loop_spec choose k (archives k) ⟨[], [], true⟩ hnd (by simp)
    (fun fn h => (List.mem_filter.1 h).2)
  have ht : testSDAT choose k = ((testLoop choose k (archives k) ⟨[], [], true⟩).1.map
      fun _ => (testLoop choose k (archives k) ⟨[], [], true⟩).2.success,
      { k with out := some (testLoop choose k (archives k) ⟨[], [], true⟩).2.out },
      (testLoop choose k (archives k) ⟨[], [], true⟩).2.printed) := by
    unfold testSDAT
    rw [hl, loop_filter]
    rfl
  rw [ht, h3]
  refine ⟨items, rest, h1, fun i hi => (resave_ok hn).1 (h2 i hi), rfl, ?_⟩
  rcases h4 with ⟨ha, hb⟩ | ⟨n, tl, e, ha, hb, hc⟩
  · rw [hb]
    exact .inl ⟨ha, rfl⟩
  · rw [hc]
    exact .inr ⟨n, tl, e, ha, hb, rfl⟩

end Verif.Proofs.SoundTools
