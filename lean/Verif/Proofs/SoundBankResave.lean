import Verif.Proofs.SoundBank

/-!
# Saving a bank that was saved and loaded gives the same file
-/

namespace Verif.Proofs.SoundBank

open Verif Verif.Model.SoundBank Verif.Model.Common Verif.Spec.SoundBank

theorem nubInto_list_append {α : Type _} [DecidableEq α] : ∀ (a b acc : List α),
    nubInto acc (a ++ b) = nubInto (nubInto acc a) b
  | [], _, _ => rfl
  | x :: a, b, acc => by
    rw [List.cons_append, nubInto, nubInto]
    split
    · exact nubInto_list_append a b acc
    · exact nubInto_list_append a b (acc ++ [x])

theorem offOf_append_right {D E : List Key} {k : Key} (h : k ∉ D) :
    offOf (D ++ E) k = ((D.map Prod.fst).flatten).length + offOf E k := by
  induction D with
  | nil => simp
  | cons a D ih =>
    simp only [List.mem_cons, not_or] at h
    rw [List.cons_append, offOf, if_neg (fun e => h.1 e.symm), ih h.2]
    simp [Nat.add_assoc]

/-- Data of an earlier part of the list lies before the data of a later part. -/
theorem off_parts {a b : List Key} {x y : Key} (hx : x ∈ a) (hy : y ∉ a) (hne : x.1 ≠ []) :
    offOf (nubInto [] (a ++ b)) x < offOf (nubInto [] (a ++ b)) y := by
  rw [nubInto_list_append]
  obtain ⟨t, ht, _⟩ := nubInto_append b (nubInto [] a)
  have hx' : x ∈ nubInto [] a := mem_nubInto.2 (.inr hx)
  have hy' : y ∉ nubInto [] a := fun h => hy ((mem_nubInto.1 h).resolve_left (by simp))
  rw [ht, offOf_append hx', offOf_append_right hy']
  have := (off_at hx').bound
  have := List.length_pos_iff.2 hne
  omega

theorem offOf_map {g : Key → Key} (hg : ∀ k, (g k).1 = k.1) {k : Key} : ∀ {D : List Key},
    (∀ a ∈ D, g a = g k → a = k) → offOf (D.map g) (g k) = offOf D k
  | [], _ => rfl
  | a :: D, h => by
    rw [List.map_cons, offOf, offOf, hg, offOf_map hg (fun b hb => h b (List.mem_cons_of_mem _ hb))]
    by_cases e : a = k
    · subst e; simp
    · rw [if_neg e, if_neg (fun e' => e (h a (by simp) e'))]

/-! ## The groups -/

def numbered (s : SBNK) : List (Nat × Inst) := (slots s).filterMap fun p => p.2.map fun i => (p.1, i)

def group (s : SBNK) (test : Nat → Bool) : List (Nat × Inst) :=
  sortBy (fun p : Nat × Inst => p.2.orderKey) ((numbered s).filter fun p => test p.2.kind.type)

theorem flatMap_single {α β : Type _} (f : α → β) : ∀ l : List α, (l.flatMap fun x => [f x]) = l.map f
  | [] => rfl
  | a :: l => by rw [List.flatMap_cons, flatMap_single f l]; rfl

theorem order_groups {s : SBNK} (hi : s.inaccessible = []) :
    orderOf s = (group s (· < 16) ++ group s (· = 16) ++ group s (· = 17)).map fun p => (some p.1, p.2) := by
  unfold orderOf
  simp only [hi, List.lookup_nil, Option.getD_none, List.map_nil, List.filterMap_nil, List.filter_nil,
    sortBy, List.flatMap_nil, List.append_nil, List.nil_append, flatMap_single, List.map_append]
  rfl

theorem mem_group {s : SBNK} {test : Nat → Bool} {k : Nat} {i : Inst} :
    (k, i) ∈ group s test ↔ s.instruments[k]? = some (some i) ∧ test i.kind.type = true := by
  rw [group, (sortBy_perm _ _).mem_iff, List.mem_filter]
  exact and_congr_left fun _ => mem_numbered

/-- The three classes of instruments have data of different lengths. -/
theorem class_length {k : Kind} (hf : KindFits k) (hl : Loadable k) :
    (k.type < 16 ↔ (kindBytes k).length % 12 = 10) ∧ (k.type = 16 ↔ (kindBytes k).length % 12 = 2) ∧
      (k.type = 17 ↔ (kindBytes k).length % 12 = 8) := by
  rw [kindBytes_length k hf]
  cases k with
  | single n =>
    have : n.type < 16 := hl.2
    dsimp only [Kind.type]
    exact ⟨by omega, by omega, by omega⟩
  | range f ns =>
    dsimp only [Kind.type]
    exact ⟨by omega, by omega, by omega⟩
  | regional rs =>
    dsimp only [Kind.type]
    exact ⟨by omega, by omega, by omega⟩

/-- The number of the data in the table: the offset counted from the start of the file. -/
def absOff (s : SBNK) (i : Inst) : Nat := offOf (dataOf s) (keyOf i) + baseOf s

/-- Instruments of an earlier class lie before those of a later class. -/
theorem class_sorted {s : SBNK} (hi : s.inaccessible = []) (hs : Savable s) (hl : AllLoadable s) {k k' : Nat}
    {i i' : Inst} (h : s.instruments[k]? = some (some i)) (h' : s.instruments[k']? = some (some i'))
    (hc : (i.kind.type < 16 ∧ 16 ≤ i'.kind.type) ∨ (i.kind.type = 16 ∧ i'.kind.type = 17)) :
    absOff s i < absOff s i' := by
  have hli := hl i (List.mem_of_getElem? h)
  have hli' := hl i' (List.mem_of_getElem? h')
  have hfi : KindFits i.kind := hs.1 _ (mem_order.2 ⟨h, (loadable_type hli).2⟩)
  have hfi' : KindFits i'.kind := hs.1 _ (mem_order.2 ⟨h', (loadable_type hli').2⟩)
  have hcl := class_length hfi hli
  have hcl' := class_length hfi' hli'
  have hkeys : ∀ test : Nat → Bool, ∀ x ∈ (group s test).map fun p => keyOf p.2,
      ∃ j : Inst, x = keyOf j ∧ KindFits j.kind ∧ Loadable j.kind ∧ test j.kind.type = true := by
    intro test x hx
    obtain ⟨⟨n, j⟩, hj, rfl⟩ := List.mem_map.1 hx
    obtain ⟨hj1, hj2⟩ := mem_group.1 hj
    have hlj := hl j (List.mem_of_getElem? hj1)
    exact ⟨j, rfl, hs.1 _ (mem_order.2 ⟨hj1, (loadable_type hlj).2⟩), hlj, hj2⟩
  have hd : dataOf s = nubInto [] (((group s (· < 16)).map fun p => keyOf p.2) ++
      (((group s (· = 16)).map fun p => keyOf p.2) ++ ((group s (· = 17)).map fun p => keyOf p.2))) := by
    rw [dataOf, order_groups hi, List.map_map]
    simp [Function.comp_def]
  have hlt : offOf (dataOf s) (keyOf i) < offOf (dataOf s) (keyOf i') := by
    rcases hc with ⟨c1, c2⟩ | ⟨c1, c2⟩
    · rw [hd]
      refine off_parts (List.mem_map.2 ⟨(k, i), mem_group.2 ⟨h, by simpa using c1⟩, rfl⟩) ?_ (kindBytes_ne _ hfi)
      intro hm
      obtain ⟨j, e, f1, f2, f3⟩ := hkeys _ _ hm
      have hb : kindBytes i'.kind = kindBytes j.kind := congrArg Prod.fst e
      have hcj := class_length f1 f2
      rw [← hb] at hcj
      have f3 : j.kind.type < 16 := by simpa using f3
      omega
    · rw [hd, ← List.append_assoc]
      refine off_parts (List.mem_append_right _ (List.mem_map.2 ⟨(k, i), mem_group.2 ⟨h, by simpa using c1⟩, rfl⟩)) ?_
        (kindBytes_ne _ hfi)
      intro hm
      rcases List.mem_append.1 hm with hm | hm
      · obtain ⟨j, e, f1, f2, f3⟩ := hkeys _ _ hm
        have hb : kindBytes i'.kind = kindBytes j.kind := congrArg Prod.fst e
        have hcj := class_length f1 f2
        rw [← hb] at hcj
        have f3 : j.kind.type < 16 := by simpa using f3
        omega
      · obtain ⟨j, e, f1, f2, f3⟩ := hkeys _ _ hm
        have hb : kindBytes i'.kind = kindBytes j.kind := congrArg Prod.fst e
        have hcj := class_length f1 f2
        rw [← hb] at hcj
        have f3 : j.kind.type = 16 := by simpa using f3
        omega
  simp only [absOff]
  omega

/-! ## The reloaded bank -/

/-- The bank after saving and loading, if it has no inaccessible instruments. -/
def reload (s : SBNK) (unk02 : Nat) (wa : List (Option Int)) : SBNK := ⟨unk02, dropNones wa, reloaded s, []⟩

/-- An instrument after saving and loading. -/
def reInst (s : SBNK) (i : Inst) : Inst := ⟨i.kind, absOff s i, absOff s i⟩

theorem reload_slots {s : SBNK} (hl : AllLoadable s) (unk02 : Nat) (wa : List (Option Int)) :
    (reload s unk02 wa).instruments = s.instruments.map (Option.map (reInst s)) := by
  have : (reload s unk02 wa).instruments = (slots s).map fun p => p.2.map (reInst s) := by
    show reloaded s = _
    rw [reloaded, placed, List.map_map]
    refine List.map_congr_left ?_
    rintro ⟨n, x⟩ hm
    cases x with
    | none => rfl
    | some i =>
      have := slot_offNum hl (mem_slots.1 hm)
      simp only [Function.comp, Option.map_some, slotInst, reInst, absOff, this]
  rw [this]
  conv => rhs; rw [← slots_map_snd s, List.map_map]
  rfl

theorem reload_get {s : SBNK} (hl : AllLoadable s) (unk02 : Nat) (wa : List (Option Int)) {k : Nat} {j : Inst} :
    (reload s unk02 wa).instruments[k]? = some (some j) ↔
      ∃ i, s.instruments[k]? = some (some i) ∧ j = reInst s i := by
  rw [reload_slots hl, List.getElem?_map]
  constructor
  · intro h
    cases hk : s.instruments[k]? with
    | none => rw [hk] at h; cases h
    | some x =>
      rw [hk] at h
      cases x with
      | none => cases h
      | some i => cases h; exact ⟨i, rfl, rfl⟩
  · rintro ⟨i, hi, rfl⟩
    rw [hi]; rfl

/-- Sorted by a key, with distinct elements having distinct keys, and the same elements: the same list. -/
theorem eq_of_sorted {α : Type _} [DecidableEq α] {key : α → Nat} {a b : List α} (ha : a.Pairwise fun x y => key x < key y)
    (hb : b.Pairwise fun x y => key x < key y) (hm : ∀ x, x ∈ a ↔ x ∈ b) : a = b := by
  have nd : ∀ {l : List α}, (l.Pairwise fun x y => key x < key y) → l.Nodup := fun h =>
    h.imp (fun h e => by subst e; omega)
  have hp : a.Perm b := (List.perm_ext_iff_of_nodup (nd ha) (nd hb)).2 hm
  have h1 := sortBy_eq_of_perm hp hb
  rw [← h1, sortBy_of_sorted (ha.imp Nat.le_of_lt)]

/-- A key after saving and loading. -/
def reKey (s : SBNK) (k : Key) : Key := (k.1, offOf (dataOf s) k + baseOf s)

theorem resave {s : SBNK} (unk02 : Nat) (wa : List (Option Int)) (hi : s.inaccessible = []) (hs : Savable s)
    (hl : AllLoadable s) : Savable (reload s unk02 wa) ∧ fileOf (reload s unk02 wa) = fileOf s := by
  have hl' : AllLoadable (reload s unk02 wa) := by
    intro j hj
    obtain ⟨k, hk⟩ := List.getElem?_of_mem hj
    obtain ⟨i, hki, rfl⟩ := (reload_get hl unk02 wa).1 hk
    exact hl i (List.mem_of_getElem? hki)
  have hi' : (reload s unk02 wa).inaccessible = [] := rfl
  have hfit : ∀ {k : Nat} {i : Inst}, s.instruments[k]? = some (some i) → KindFits i.kind := fun h =>
    hs.1 _ (mem_order.2 ⟨h, (loadable_type (hl _ (List.mem_of_getElem? h))).2⟩)
  have hlen : (reload s unk02 wa).instruments.length = s.instruments.length := by
    rw [reload_slots hl, List.length_map]
  have hbase : baseOf (reload s unk02 wa) = baseOf s := by rw [baseOf, baseOf, hlen]
  -- the distinct data
  have hgi : ∀ i, keyOf (reInst s i) = reKey s (keyOf i) := fun i => rfl
  have hinj : ∀ a ∈ dataOf s, ∀ b ∈ dataOf s, reKey s a = reKey s b → a = b := by
    intro a ha b hb hab
    have : offOf (dataOf s) a + baseOf s = offOf (dataOf s) b + baseOf s := congrArg Prod.snd hab
    exact off_inj (data_nodup s) (data_ne hs) ha hb (by omega)
  have hdat : dataOf (reload s unk02 wa) = (dataOf s).map (reKey s) := by
    refine eq_of_sorted (key := Prod.snd) ?_ ?_ ?_
    · -- sorted
      have hsorted : ((orderOf (reload s unk02 wa)).map fun j => keyOf j.2).Pairwise fun x y => x.2 ≤ y.2 := by
        rw [order_groups hi', List.map_map, List.pairwise_map]
        have hg : ∀ test : Nat → Bool, (group (reload s unk02 wa) test).Pairwise fun p q =>
            p.2.mergeID ≤ q.2.mergeID := by
          intro test
          refine (sortBy_sorted (fun p : Nat × Inst => p.2.orderKey) _).imp_of_mem ?_
          rintro ⟨n, a⟩ ⟨m, b⟩ ha hb hab
          obtain ⟨i, _, rfl⟩ := (reload_get hl unk02 wa).1 ((mem_group (test := test) (k := n) (i := a)).1 ha).1
          obtain ⟨j, _, rfl⟩ := (reload_get hl unk02 wa).1 ((mem_group (test := test) (k := m) (i := b)).1 hb).1
          exact hab
        have hcross : ∀ {t1 t2 : Nat → Bool} {p q : Nat × Inst}, p ∈ group (reload s unk02 wa) t1 →
            q ∈ group (reload s unk02 wa) t2 →
            (p.2.kind.type < 16 ∧ 16 ≤ q.2.kind.type) ∨ (p.2.kind.type = 16 ∧ q.2.kind.type = 17) →
            p.2.mergeID ≤ q.2.mergeID := by
          rintro t1 t2 ⟨n, a⟩ ⟨m, b⟩ ha hb hc
          obtain ⟨i, hi1, rfl⟩ := (reload_get hl unk02 wa).1 (mem_group.1 ha).1
          obtain ⟨j, hj1, rfl⟩ := (reload_get hl unk02 wa).1 (mem_group.1 hb).1
          exact Nat.le_of_lt (class_sorted hi hs hl hi1 hj1 hc)
        have hty : ∀ {t : Nat → Bool} {p : Nat × Inst}, p ∈ group (reload s unk02 wa) t → t p.2.kind.type = true :=
          fun hp => (mem_group.1 hp).2
        refine List.pairwise_append.2 ⟨List.pairwise_append.2 ⟨hg _, hg _, ?_⟩, hg _, ?_⟩
        · intro p hp q hq
          have h1 : p.2.kind.type < 16 := by simpa using hty hp
          have h2 : q.2.kind.type = 16 := by simpa using hty hq
          exact hcross hp hq (by omega)
        · intro p hp q hq
          have h2 : q.2.kind.type = 17 := by simpa using hty hq
          rcases List.mem_append.1 hp with hp | hp
          · have h1 : p.2.kind.type < 16 := by simpa using hty hp
            exact hcross hp hq (by omega)
          · have h1 : p.2.kind.type = 16 := by simpa using hty hp
            exact hcross hp hq (by omega)
      have hsub := hsorted.sublist (nub_sublist ((orderOf (reload s unk02 wa)).map fun j => keyOf j.2))
      have hnd := data_nodup (reload s unk02 wa)
      have hboth := hsub.and hnd
      refine hboth.imp_of_mem ?_
      rintro x y hx hy ⟨h1, h2⟩
      have hdet : ∀ z ∈ dataOf (reload s unk02 wa), ∃ w ∈ dataOf s, z = reKey s w := by
        intro z hz
        rw [dataOf, mem_nubInto] at hz
        obtain ⟨⟨n, j⟩, hj, rfl⟩ := List.mem_map.1 (hz.resolve_left (by simp))
        obtain ⟨k, hk⟩ := order_plain hi' hj
        cases hk
        obtain ⟨i, hi1, rfl⟩ := (reload_get hl unk02 wa).1 (mem_order.1 hj).1
        exact ⟨keyOf i, key_mem hl hi1, hgi i⟩
      obtain ⟨a, ha, rfl⟩ := hdet x hx
      obtain ⟨b, hb, rfl⟩ := hdet y hy
      refine Nat.lt_of_le_of_ne h1 ?_
      intro e
      have e' : offOf (dataOf s) a + baseOf s = offOf (dataOf s) b + baseOf s := e
      have := off_inj (data_nodup s) (data_ne hs) ha hb (by omega)
      exact h2 (by rw [this])
    · rw [List.pairwise_map]
      refine (off_sorted (data_nodup s) (data_ne hs)).imp_of_mem ?_
      intro a b ha hb hab
      have := List.length_pos_iff.2 (data_ne hs a ha)
      show offOf (dataOf s) a + baseOf s < offOf (dataOf s) b + baseOf s
      omega
    · intro x
      rw [dataOf, mem_nubInto]
      constructor
      · intro hx
        obtain ⟨⟨n, j⟩, hj, rfl⟩ := List.mem_map.1 (hx.resolve_left (by simp))
        obtain ⟨k, hk⟩ := order_plain hi' hj
        cases hk
        obtain ⟨i, hi1, rfl⟩ := (reload_get hl unk02 wa).1 (mem_order.1 hj).1
        exact List.mem_map.2 ⟨keyOf i, key_mem hl hi1, rfl⟩
      · intro hx
        obtain ⟨w, hw, rfl⟩ := List.mem_map.1 hx
        obtain ⟨⟨n, i⟩, hj, rfl, _⟩ := data_fits hs hw
        obtain ⟨k, hk⟩ := order_plain hi hj
        cases hk
        have hki := (mem_order.1 hj)
        exact .inr (List.mem_map.2 ⟨(some k, reInst s i),
          mem_order.2 ⟨(reload_get hl unk02 wa).2 ⟨i, hki.1, rfl⟩, hki.2⟩, rfl⟩)
  have hblob : blobOf (reload s unk02 wa) = blobOf s := by
    rw [blobOf, blobOf, hdat, List.map_map]
    rfl
  have hpad : padOf (reload s unk02 wa) = padOf s := by rw [padOf, padOf, hbase, hblob]
  have htot : totalOf (reload s unk02 wa) = totalOf s := by rw [totalOf, totalOf, hbase, hblob, hpad]
  have hoff : ∀ {k : Nat} {i : Inst}, s.instruments[k]? = some (some i) →
      offNum (reload s unk02 wa) k = offNum s k := by
    intro k i hk
    rw [slot_offNum hl hk, slot_offNum hl' ((reload_get hl unk02 wa).2 ⟨i, hk, rfl⟩), hbase, hdat, hgi,
      offOf_map (g := reKey s) (fun _ => rfl) (fun a ha e => hinj a ha _ (key_mem hl hk) e)]
  have hslots : slots (reload s unk02 wa) = (slots s).map fun p => (p.1, p.2.map (reInst s)) := by
    rw [slots, slots, hlen, reload_slots hl]
    exact List.zip_map_right ..
  have hentry : ∀ p ∈ slots s, entryBytes (reload s unk02 wa) (p.1, p.2.map (reInst s)) = entryBytes s p := by
    rintro ⟨k, x⟩ hm
    have hk := mem_slots.1 hm
    cases x with
    | none =>
      have hk' : (reload s unk02 wa).instruments[k]? = some none := by
        rw [reload_slots hl, List.getElem?_map, hk]; rfl
      simp only [entryBytes, typeNum, offNum, Option.map_none, offs_lookup_none hk, offs_lookup_none hk']
    | some i =>
      simp only [entryBytes, Option.map_some, hoff hk]
      rfl
  refine ⟨⟨?_, ?_, ?_⟩, ?_⟩
  · rintro ⟨n, j⟩ hj
    obtain ⟨k, hk⟩ := order_plain hi' hj
    cases hk
    obtain ⟨i, hi1, rfl⟩ := (reload_get hl unk02 wa).1 (mem_order.1 hj).1
    exact (hfit hi1 : KindFits i.kind)
  · intro p hp
    rw [hslots] at hp
    obtain ⟨⟨k, x⟩, hm, rfl⟩ := List.mem_map.1 hp
    have hk := mem_slots.1 hm
    have := hs.2.1 _ hm
    cases x with
    | none =>
      have hk' : (reload s unk02 wa).instruments[k]? = some none := by
        rw [reload_slots hl, List.getElem?_map, hk]; rfl
      refine ⟨this.1, ?_⟩
      simp only [offNum, offs_lookup_none hk']
      omega
    | some i =>
      refine ⟨this.1, ?_⟩
      dsimp only
      rw [hoff hk]
      exact this.2
  · rw [htot]; exact hs.2.2
  · rw [fileOf, fileOf, hblob, hpad]
    have h1 : headOf (reload s unk02 wa) = headOf s := by rw [headOf, headOf, htot, hlen]
    have h2 : tableBytes (reload s unk02 wa) = tableBytes s := by
      have h3 : ((slots s).map fun p => entryBytes (reload s unk02 wa) (p.1, p.2.map (reInst s))) =
          (slots s).map (entryBytes s) := List.map_congr_left hentry
      rw [tableBytes, tableBytes, hslots, List.map_map, ← h3]
      rfl
    rw [h1, h2]

end Verif.Proofs.SoundBank
