import Verif.Proofs.SoundBankInst

/-!
# Loading banks: which exceptions there are, and that it ends
-/

namespace Verif.Proofs.SoundBank

open Verif Verif.Model.SoundBank Verif.Model.Common Verif.Spec.SoundBank

/-! ## Exceptions -/

theorem unpackUs_err {e : Endian} : ∀ {ks : List Nat} {d : Bytes} {o : Nat} {err : PyErr},
    unpackUs e ks d o = .error err → err = .structError
  | [], _, _, _, h => by cases h
  | k :: ks, d, o, err, h => by
    rw [unpackUs] at h
    simp only [bind_eq_error] at h
    rcases h with h | ⟨_, _, h | ⟨_, _, h⟩⟩
    · exact unpackU_err h
    · exact unpackUs_err h
    · cases h

theorem unpackStr_err {n : Nat} {d : Bytes} {o : Nat} {err : PyErr} (h : unpackStr n d o = .error err) :
    err = .structError := by
  unfold unpackStr at h
  split at h
  · cases h
  · cases h; rfl

theorem fromData_err {d : Bytes} {t : Nat} {err : PyErr} (h : Note.fromData d t = .error err) :
    err = .structError := by
  rw [Note.fromData] at h
  simp only [bind_eq_error] at h
  rcases h with h | ⟨_, _, h⟩
  · exact unpackUs_err h
  · split at h
    · cases h
    · cases h; rfl

theorem fromDataWithType_err {d : Bytes} {err : PyErr} (h : Note.fromDataWithType d = .error err) :
    err = .structError := by
  rw [Note.fromDataWithType] at h
  simp only [bind_eq_error] at h
  rcases h with h | ⟨_, _, h⟩
  · exact unpackUs_err h
  · split at h
    · cases h
    · cases h; rfl

theorem notesFrom_err {d : Bytes} {err : PyErr} : ∀ {k o : Nat}, notesFrom d k o = .error err → err = .structError
  | 0, _, h => by cases h
  | k + 1, o, h => by
    rw [notesFrom] at h
    simp only [bind_eq_error] at h
    rcases h with h | ⟨_, _, h | ⟨_, _, h⟩⟩
    · exact fromDataWithType_err h
    · exact notesFrom_err h
    · cases h

theorem regionsFrom_err {d : Bytes} {err : PyErr} : ∀ {es : List UInt8} {first : Bool} {o : Nat},
    regionsFrom d first es o = .error err → err = .structError
  | [], _, _, h => by cases h
  | e :: es, first, o, h => by
    rw [regionsFrom] at h
    split at h
    · cases h
    · simp only [bind_eq_error] at h
      rcases h with h | ⟨_, _, h | ⟨_, _, h⟩⟩
      · exact fromDataWithType_err h
      · exact regionsFrom_err h
      · cases h

theorem kindAt_err {d : Bytes} {t o : Nat} {err : PyErr} (h : kindAt d t o = .error err) :
    err = .structError ∨ (err = .valueError ∧ 17 < t) := by
  rw [kindAt] at h
  split at h
  · cases h
  split at h
  · simp only [bind_eq_error] at h
    rcases h with h | ⟨_, _, h⟩
    · exact .inl (fromData_err h)
    · cases h
  split at h
  · simp only [bind_eq_error] at h
    rcases h with h | ⟨_, _, h | ⟨_, _, h | ⟨_, _, h⟩⟩⟩
    · exact .inl (unpackU_err h)
    · exact .inl (unpackU_err h)
    · exact .inl (notesFrom_err h)
    · cases h
  split at h
  · simp only [bind_eq_error] at h
    rcases h with h | ⟨_, _, h | ⟨_, _, h⟩⟩
    · exact .inl (unpackStr_err h)
    · exact .inl (regionsFrom_err h)
    · cases h
  · cases h
    exact .inr ⟨rfl, by omega⟩

theorem makeInstrumentAt_err {d : Bytes} {t o : Nat} {u : List Nat} {err : PyErr}
    (h : makeInstrumentAt d t o u = .error err) : err = .structError ∨ (err = .valueError ∧ 17 < t) := by
  rw [makeInstrumentAt] at h
  simp only [bind_eq_error] at h
  rcases h with h | ⟨_, _, h⟩
  · exact kindAt_err h
  · cases h

theorem loadTable_err {d : Bytes} {err : PyErr} : ∀ {n id : Nat} {u : List Nat},
    loadTable d n id u = .error err → err = .structError ∨ err = .valueError
  | 0, _, _, h => by cases h
  | n + 1, id, u, h => by
    rw [loadTable] at h
    simp only [bind_eq_error] at h
    rcases h with h | ⟨_, _, h | ⟨_, _, h | ⟨_, _, h | ⟨_, _, h | ⟨_, _, h⟩⟩⟩⟩⟩
    · exact .inl (unpackU_err h)
    · exact .inl (unpackU_err h)
    · exact .inl (unpackU_err h)
    · rcases makeInstrumentAt_err h with h | h
      · exact .inl h
      · exact .inr h.1
    · exact loadTable_err h
    · cases h

theorem pyIdx_err {α : Type _} {d : List α} {i : Nat} {err : PyErr} (h : pyIdx d i = .error err) :
    err = .indexError := by
  unfold pyIdx at h
  split at h
  · cases h
  · cases h; rfl

theorem considerSingle_err {d : Bytes} {o : Nat} {t : List Nat} {err : PyErr}
    (h : considerSingle d o t = .error err) : err = .indexError := by
  rw [considerSingle] at h
  split at h
  · simp only [bind_eq_error] at h
    rcases h with h | ⟨_, _, h | ⟨_, _, h | ⟨_, _, h⟩⟩⟩
    · exact pyIdx_err h
    · exact pyIdx_err h
    · exact pyIdx_err h
    · split at h <;> cases h
  · cases h

theorem considerRange_err {d : Bytes} {o a : Nat} {t : List Nat} {err : PyErr}
    (h : considerRange d o a t = .error err) : err = .valueError := by
  rw [considerRange] at h
  split at h
  · split at h
    · cases h
    · cases h; rfl
  · cases h

theorem guess_err {choose : List Nat → Nat} {d : Bytes} {o a : Nat} {t : List Nat} {err : PyErr}
    (h : guess choose d o t a = .error err) : err = .indexError ∨ err = .valueError := by
  rw [guess] at h
  dsimp only at h
  split at h
  · cases h
  split at h
  · cases h
  simp only [bind_eq_error] at h
  rcases h with h | ⟨r, _, h⟩
  · exact .inl (considerSingle_err h)
  · cases r with
    | inr t => cases h
    | inl t2 =>
      dsimp only at h
      split at h
      · cases h
      · simp only [bind_eq_error] at h
        rcases h with h | ⟨_, _, h⟩
        · exact .inr (considerRange_err h)
        · split at h
          · cases h
          · split at h <;> cases h

/-! ## The bytes that are left -/

theorem consume_mem {u : List Nat} {o n i : Nat} : i ∈ consume u o n ↔ i ∈ u ∧ ¬ (o ≤ i ∧ i < o + n) := by
  simp only [consume, List.mem_filter, Bool.not_eq_true', decide_eq_false_iff_not]

theorem consume_sub {u : List Nat} {o n : Nat} : ∀ i ∈ consume u o n, i ∈ u := fun _ h => (consume_mem.1 h).1

theorem dropPadding_sub {f : Nat} {u : List Nat} : ∀ i ∈ dropPadding f u, i ∈ u := by
  intro i hi
  unfold dropPadding at hi
  split at hi
  · exact (List.mem_filter.1 hi).1
  · exact hi

theorem dropPadding_length {f : Nat} {u : List Nat} : (dropPadding f u).length ≤ u.length := by
  unfold dropPadding
  split
  · exact List.length_filter_le ..
  · exact Nat.le_refl _

theorem consume_length {a : Nat} {l : List Nat} {n : Nat} (hn : 0 < n) : (consume (a :: l) a n).length ≤ l.length := by
  have : consume (a :: l) a n = consume l a n := by
    simp only [consume, List.filter_cons]
    rw [if_neg (by simp; omega)]
  rw [this]
  exact List.length_filter_le ..

theorem recoverAt_left {choose : List Nat → Nat} {d : Bytes} {insts : List (Option Inst)} {ids : List (Nat × Nat)}
    {u : List Nat} {this : Nat} {i : Inst} {u' : List Nat}
    (h : recoverAt choose d insts ids u this = .ok (some (i, u'))) : ∃ n, 2 ≤ n ∧ u' = consume u this n := by
  rw [recoverAt] at h
  simp only [bind_eq_ok] at h
  obtain ⟨t, _, h⟩ := h
  cases t with
  | none => cases h
  | some t =>
    dsimp only at h
    split at h
    · rename_i hm
      cases h
      rw [makeInstrumentAt] at hm
      simp only [bind_eq_ok, pure_eq_ok, Prod.mk.injEq] at hm
      obtain ⟨⟨k, n⟩, hk, h1, h2⟩ := hm
      cases k with
      | none => cases h1
      | some k => exact ⟨n, (kindAt_inv hk).2.2, h2.symm⟩
    · cases h

theorem recoverAt_err {choose : List Nat → Nat} {d : Bytes} {insts : List (Option Inst)} {ids : List (Nat × Nat)}
    {u : List Nat} {this : Nat} {err : PyErr} (h : recoverAt choose d insts ids u this = .error err) :
    err = .indexError ∨ err = .valueError := by
  rw [recoverAt] at h
  simp only [bind_eq_error] at h
  rcases h with h | ⟨t, _, h⟩
  · exact guess_err h
  · cases t with
    | none => cases h
    | some t =>
      dsimp only at h
      split at h <;> cases h

/-- Looking for instruments that the table does not mention ends, whatever the bytes are. -/
theorem recover_err {choose : List Nat → Nat} {d : Bytes} {f : Nat} {insts : List (Option Inst)}
    {ids : List (Nat × Nat)} {err : PyErr} : ∀ {fuel : Nat} {u : List Nat} {acc : List (Option Nat × List Inst)},
    u.length ≤ fuel → recover choose d f insts ids fuel u acc = .error err → err = .indexError ∨ err = .valueError := by
  intro fuel
  induction fuel with
  | zero =>
    intro u acc hu h
    rw [recover] at h
    have : u = [] := List.length_eq_zero_iff.1 (by omega)
    subst this
    have : dropPadding f [] = [] := by simp [dropPadding]
    rw [this] at h
    cases h
  | succ fuel ih =>
    intro u acc hu h
    rw [recover] at h
    have hdl := dropPadding_length (f := f) (u := u)
    split at h
    · cases h
    · rename_i a rest hd
      rw [hd, List.length_cons] at hdl
      simp only [bind_eq_error] at h
      rcases h with h | ⟨r, hr, h⟩
      · exact recoverAt_err h
      · split at h
        · refine ih ?_ h
          have := List.length_filter_le (fun x => decide (x ≠ a + 1)) rest
          omega
        · rename_i i u'
          obtain ⟨n, hn, rfl⟩ := recoverAt_left hr
          refine ih ?_ h
          have := consume_length (a := a) (l := rest) (n := n) (by omega)
          omega

/-! ## Files that are as long as their header says -/

theorem possibleTypes_mem (p n : Option Nat) : ∀ t ∈ possibleTypes p n, t = 1 ∨ t = 16 ∨ t = 17 := by
  have hf : ∀ {l : List Nat} (x : Nat), (∀ t ∈ l, t = 1 ∨ t = 16 ∨ t = 17) →
      ∀ t ∈ l.filter (· ≠ x), t = 1 ∨ t = 16 ∨ t = 17 := fun x h t ht => h t (List.mem_filter.1 ht).1
  have hif : ∀ {c : Prop} [Decidable c] {l m : List Nat}, (∀ t ∈ l, t = 1 ∨ t = 16 ∨ t = 17) →
      (∀ t ∈ m, t = 1 ∨ t = 16 ∨ t = 17) → ∀ t ∈ (if c then l else m), t = 1 ∨ t = 16 ∨ t = 17 := by
    intro c _ l m h1 h2
    split
    · exact h1
    · exact h2
  have h3 : ∀ t ∈ [1, 16, 17], t = 1 ∨ t = 16 ∨ t = 17 := by simp
  have h2 : ∀ t ∈ [16, 17], t = 1 ∨ t = 16 ∨ t = 17 := by simp
  have key : ∀ l : List Nat, (∀ t ∈ l, t = 1 ∨ t = 16 ∨ t = 17) → ∀ t ∈ (match n with
      | none => l
      | some n =>
        let l := if n ≤ 16 then l.filter (· ≠ 17) else l
        if n < 16 then l.filter (· ≠ 16) else l), t = 1 ∨ t = 16 ∨ t = 17 := by
    intro l hl
    cases n with
    | none => exact hl
    | some n => exact hif (hf 16 (hif (hf 17 hl) hl)) (hif (hf 17 hl) hl)
  unfold possibleTypes
  refine key _ ?_
  cases p with
  | none => exact h3
  | some p => exact hif (hf 16 (hif h2 h3)) (hif h2 h3)

theorem possibleTypes_nodup (p n : Option Nat) : (possibleTypes p n).Nodup := by
  have hif : ∀ {c : Prop} [Decidable c] {l m : List Nat}, l.Nodup → m.Nodup → (if c then l else m).Nodup := by
    intro c _ l m h1 h2
    split
    · exact h1
    · exact h2
  have h3 : [1, 16, 17].Nodup := by decide
  have h2 : [16, 17].Nodup := by decide
  have key : ∀ l : List Nat, l.Nodup → (match n with
      | none => l
      | some n =>
        let l := if n ≤ 16 then l.filter (· ≠ 17) else l
        if n < 16 then l.filter (· ≠ 16) else l).Nodup := by
    intro l hl
    cases n with
    | none => exact hl
    | some n => exact hif ((hif (hl.filter _) hl).filter _) (hif (hl.filter _) hl)
  unfold possibleTypes
  refine key _ ?_
  cases p with
  | none => exact h3
  | some p => exact hif ((hif h2 h3).filter _) (hif h2 h3)

theorem nodup_const {a : Nat} : ∀ {l : List Nat}, l.Nodup → (∀ x ∈ l, x = a) → l.length < 2
  | [], _, _ => by simp
  | [_], _, _ => by simp
  | x :: y :: l, h, hc => by
    have h1 := hc x (by simp)
    have h2 := hc y (by simp)
    rw [List.nodup_cons] at h
    exact absurd (by simp [h1, h2]) h.1

theorem ruleOutIf_sub {c : Bool} {t : Nat} {l : List Nat} : ∀ x ∈ ruleOutIf c t l, x ∈ l := by
  intro x hx
  unfold ruleOutIf at hx
  split at hx
  · exact (List.mem_filter.1 hx).1
  · exact hx

theorem ruleOutIf_nodup {c : Bool} {t : Nat} {l : List Nat} (h : l.Nodup) : (ruleOutIf c t l).Nodup := by
  unfold ruleOutIf
  split
  · exact h.filter _
  · exact h

theorem ruleOutIf_ne {c : Bool} (hc : c = true) {t : Nat} {l : List Nat} : ∀ x ∈ ruleOutIf c t l, x ≠ t := by
  intro x hx
  rw [ruleOutIf, if_pos hc] at hx
  simpa using (List.mem_filter.1 hx).2

theorem mergePsg_id {l : List Nat} (h2 : 2 ∉ l) (h3 : 3 ∉ l) : mergePsg l = l := by
  simp [mergePsg, h2, h3]

theorem pyIdx_ok {d : Bytes} {i : Nat} (h : i < d.length) : ∃ x, pyIdx d i = .ok x :=
  ⟨d[i], pyIdx_eq_ok.2 (by simp [h])⟩

theorem considerSingle_ok {d : Bytes} {o : Nat} (t : List Nat) (h : o + 4 < d.length) :
    ∃ r, considerSingle d o t = .ok r := by
  obtain ⟨a, ha⟩ := pyIdx_ok (d := d) (i := o + 1) (by omega)
  obtain ⟨b, hb⟩ := pyIdx_ok (d := d) (i := o + 3) (by omega)
  obtain ⟨c, hc⟩ := pyIdx_ok (d := d) (i := o + 4) (by omega)
  rw [considerSingle, ha, hb, hc]
  simp only [bind_ok]
  split
  · split
    · exact ⟨_, rfl⟩
    · exact ⟨_, rfl⟩
  · exact ⟨_, rfl⟩

theorem considerRange_ok {d : Bytes} {o : Nat} (a : Nat) (t : List Nat) (h : o + 2 ≤ d.length) :
    ∃ r, considerRange d o a t = .ok r := by
  rw [considerRange]
  split
  · have hl : (slice d o (o + 2)).length = 2 := by rw [slice_length_of_le h]; omega
    match hs : slice d o (o + 2), hl with
    | [x, y], _ => exact ⟨_, rfl⟩
  · exact ⟨_, rfl⟩

theorem guess_ok {choose : List Nat → Nat} {d : Bytes} {o a : Nat} {t : List Nat} (hn : t.Nodup)
    (ht : ∀ x ∈ t, x = 1 ∨ x = 16 ∨ x = 17) (ha : o + a ≤ d.length) : ∃ r, guess choose d o t a = .ok r := by
  have hm : mergePsg t = t := mergePsg_id (fun h => by have := ht 2 h; omega) (fun h => by have := ht 3 h; omega)
  rw [guess]
  dsimp only
  rw [hm]
  split
  · exact ⟨_, rfl⟩
  split
  · exact ⟨_, rfl⟩
  · rename_i hlen
    have h14 : 14 ≤ a := by
      apply Nat.le_of_not_lt
      intro hlt
      refine hlen (nodup_const (a := 1) ?_ ?_)
      · exact ruleOutIf_nodup (ruleOutIf_nodup (ruleOutIf_nodup hn))
      · intro x hx
        have h17 : x ≠ 17 := ruleOutIf_ne (by simp; omega) x hx
        have hx := ruleOutIf_sub x hx
        have h16 : x ≠ 16 := ruleOutIf_ne (by simp; omega) x hx
        have := ht x (ruleOutIf_sub x (ruleOutIf_sub x hx))
        omega
    obtain ⟨r, hr⟩ := considerSingle_ok (d := d) (o := o) (ruleOutIf (decide (a < 8 + 12)) 17
      (ruleOutIf (decide (a < 2 + 12)) 16 (ruleOutIf (decide (a < 10)) 0 t))) (by omega)
    rw [hr, bind_ok]
    cases r with
    | inr t => exact ⟨_, rfl⟩
    | inl t2 =>
      dsimp only
      split
      · exact ⟨_, rfl⟩
      · obtain ⟨t3, h3⟩ := considerRange_ok (d := d) (o := o) a t2 (by omega)
        rw [h3, bind_ok]
        split
        · exact ⟨_, rfl⟩
        · split
          · exact ⟨_, rfl⟩
          · exact ⟨_, rfl⟩

theorem runLength_bound {n : Nat} : ∀ {l : List Nat} {a : Nat}, (∀ i ∈ a :: l, i < n) → a + runLength (a :: l) ≤ n
  | [], a, h => by
    have := h a (by simp)
    rw [runLength]; omega
  | b :: l, a, h => by
    have h1 := h a (by simp)
    rw [runLength]
    split
    · have := runLength_bound (l := l) (a := b) (fun i hi => h i (List.mem_cons_of_mem _ hi))
      omega
    · omega

theorem recoverAt_ok {choose : List Nat → Nat} {d : Bytes} (insts : List (Option Inst)) (ids : List (Nat × Nat))
    {l : List Nat} {a : Nat} (h : ∀ i ∈ a :: l, i < d.length) :
    ∃ r, recoverAt choose d insts ids (a :: l) a = .ok r := by
  obtain ⟨t, ht⟩ := guess_ok (choose := choose) (d := d) (o := a) (a := runLength (a :: l))
    (possibleTypes_nodup (typeOf insts (prevOf a ids none)) (typeOf insts (nextOf a ids none)))
    (possibleTypes_mem _ _) (runLength_bound h)
  rw [recoverAt, ht, bind_ok]
  cases t with
  | none => exact ⟨_, rfl⟩
  | some t =>
    dsimp only
    split
    · exact ⟨_, rfl⟩
    · exact ⟨_, rfl⟩

/-- If the file is as long as its header says, looking for further instruments does not raise. -/
theorem recover_ok {choose : List Nat → Nat} {d : Bytes} (f : Nat) (insts : List (Option Inst))
    (ids : List (Nat × Nat)) : ∀ (fuel : Nat) {u : List Nat} (acc : List (Option Nat × List Inst)),
    u.length ≤ fuel → (∀ i ∈ u, i < d.length) → ∃ r, recover choose d f insts ids fuel u acc = .ok r := by
  intro fuel
  induction fuel with
  | zero =>
    intro u acc hu hb
    have : u = [] := List.length_eq_zero_iff.1 (by omega)
    subst this
    rw [recover]
    have : dropPadding f [] = [] := by simp [dropPadding]
    rw [this]
    exact ⟨_, rfl⟩
  | succ fuel ih =>
    intro u acc hu hb
    rw [recover]
    have hdl := dropPadding_length (f := f) (u := u)
    have hds : ∀ i ∈ dropPadding f u, i < d.length := fun i hi => hb i (dropPadding_sub i hi)
    match hd : dropPadding f u with
    | [] => exact ⟨_, rfl⟩
    | a :: rest =>
      rw [hd, List.length_cons] at hdl
      rw [hd] at hds
      obtain ⟨r, hr⟩ := recoverAt_ok (choose := choose) insts ids hds
      dsimp only
      rw [hr, bind_ok]
      match r with
      | none =>
        refine ih _ ?_ ?_
        · have := List.length_filter_le (fun x => decide (x ≠ a + 1)) rest
          omega
        · intro i hi
          exact hds i (List.mem_cons_of_mem _ (List.mem_filter.1 hi).1)
      | some (i, u') =>
        obtain ⟨n, hn, rfl⟩ := recoverAt_left hr
        refine ih _ ?_ ?_
        · have := consume_length (a := a) (l := rest) (n := n) (by omega)
          omega
        · intro i hi
          exact hds i (consume_sub i hi)

end Verif.Proofs.SoundBank
