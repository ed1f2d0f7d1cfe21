import Verif.Proofs.SoundArchiveFiles

/-!
# Reading the files of a sound archive
-/

namespace Verif.Proofs.SoundArchive

open Verif Verif.Model.SoundArchive Verif.Spec.SoundArchive

/-- The next file starts where this one ends. -/
def nextOk (e : Nat × Nat) : List (Nat × Nat) → Bool
  | [] => true
  | e' :: _ => decide (e'.1 = e.1 + e.2)

/-- The files follow each other without gaps. -/
def contiguous : List (Nat × Nat) → Bool
  | [] => true
  | e :: es => nextOk e es && contiguous es

/-- The alignment that is found out. -/
def alignAll (es : List (Nat × Nat)) (a : Nat) : Nat := es.foldl (fun a e => alignmentOf e.1 a) a

/-- What the loop over the files does to its state. -/
def fatResult (data : Bytes) (k : Nat) (es : List (Nat × Nat)) (s : FatState) : FatState :=
  ⟨s.files ++ es.map fun e => slice data e.1 (e.1 + e.2), alignAll es s.fileAlignment,
    match es with
    | [] => s.firstFileAlignment
    | e :: _ => if k = 0 then some (alignmentOf e.1 s.fileAlignment) else s.firstFileAlignment,
    s.lengthsIncludePadding && contiguous es,
    match es.getLast? with
    | none => s.finalFileEnd
    | some e => e.1 + e.2⟩

theorem unpackUs_two_first {data : Bytes} {o a b : Nat} (h : unpackUs .little [4, 4] data o = .ok [a, b]) :
    unpackU .little 4 data o = .ok a := by
  simp only [unpackUs, bind_eq_ok, pure_eq_ok] at h
  obtain ⟨v, hv, vs, _, e⟩ := h
  injection e with e _
  rw [← e]; exact hv

theorem readFiles_eq {data : Bytes} {fat count : Nat} : ∀ {es : List (Nat × Nat)} {k : Nat} {s : FatState},
    (∀ i e, es[i]? = some e → unpackUs .little [4, 4] data (fat + 0xC + 0x10 * (k + i)) = .ok [e.1, e.2]) →
    k + es.length = count → readFiles data fat count (List.range' k es.length) s = .ok (fatResult data k es s)
  | [], k, s, _, _ => by
    simp only [List.length_nil, List.range'_zero, readFiles, fatResult, List.map_nil, List.append_nil, alignAll,
      List.foldl_nil, contiguous, Bool.and_true, List.getLast?_nil]
  | e :: es, k, s, h, hc => by
    rw [List.length_cons] at hc
    have hchk : checkPadding data fat count k e.1 e.2 s.lengthsIncludePadding =
        .ok (s.lengthsIncludePadding && nextOk e es) := by
      unfold checkPadding
      cases es with
      | nil => rw [if_pos (by simpa using hc)]; simp [nextOk]
      | cons e' es =>
        rw [List.length_cons] at hc
        rw [if_neg (by omega)]
        have h1 := unpackUs_two_first (h 1 e' (by simp))
        rw [h1, bind_ok, pure_def]
        by_cases heq : e'.1 = e.1 + e.2
        · rw [if_neg (by omega)]; simp [nextOk, heq]
        · rw [if_pos (by omega)]; simp [nextOk, heq]
    have h0 : unpackUs .little [4, 4] data (fat + 0xC + 0x10 * k) = .ok [e.1, e.2] := h 0 e (by simp)
    rw [List.length_cons, List.range'_succ, readFiles]
    have hf : readFile data fat count s k = .ok ⟨s.files ++ [slice data e.1 (e.1 + e.2)], alignmentOf e.1 s.fileAlignment,
        if k = 0 then some (alignmentOf e.1 s.fileAlignment) else s.firstFileAlignment,
        (s.lengthsIncludePadding && nextOk e es),
        e.1 + e.2⟩ := by
      unfold readFile
      rw [h0, bind_ok]
      dsimp only
      rw [hchk, bind_ok]
      rfl
    rw [hf, bind_ok, readFiles_eq (es := es) (k := k + 1) (fun i e' hi => by
      have := h (i + 1) e' (by simpa using hi)
      rw [show k + 1 + i = k + (i + 1) by omega]; exact this) (by omega)]
    unfold fatResult
    congr 1
    rw [FatState.mk.injEq]
    refine ⟨by simp, rfl, ?_, ?_, ?_⟩
    · cases es with
      | nil => rfl
      | cons e' es => dsimp only; rw [if_neg (by omega)]
    · simp only [contiguous, Bool.and_assoc]
    · cases es with
      | nil => rfl
      | cons e' es =>
        rw [List.getLast?_cons_cons]
        rw [List.getLast?_eq_some_getLast (by simp)]

/-! ## The alignment -/

theorem gcd_table : ∀ r : Nat, r < 512 → ∀ b, b < 513 → alignmentOf r 0x200 = Nat.gcd r 0x200 := by
  intro r hr _ _
  have : ∀ r : Fin 512, alignmentOf r.1 0x200 = Nat.gcd r.1 0x200 := by decide +kernel
  exact this ⟨r, hr⟩

theorem alignmentOf_mod (o a : Nat) : alignmentOf o a = alignmentOf (o % 0x200) a := by
  unfold alignmentOf
  have h1 : o % 0x200 % 0x200 = o % 0x200 := Nat.mod_mod_of_dvd _ (by decide)
  have h2 : o % 0x200 % 0x100 = o % 0x100 := Nat.mod_mod_of_dvd _ (by decide)
  have h3 : o % 0x200 % 0x80 = o % 0x80 := Nat.mod_mod_of_dvd _ (by decide)
  have h4 : o % 0x200 % 0x40 = o % 0x40 := Nat.mod_mod_of_dvd _ (by decide)
  have h5 : o % 0x200 % 0x20 = o % 0x20 := Nat.mod_mod_of_dvd _ (by decide)
  have h6 : o % 0x200 % 0x10 = o % 0x10 := Nat.mod_mod_of_dvd _ (by decide)
  have h7 : o % 0x200 % 8 = o % 8 := Nat.mod_mod_of_dvd _ (by decide)
  have h8 : o % 0x200 % 4 = o % 4 := Nat.mod_mod_of_dvd _ (by decide)
  have h9 : o % 0x200 % 2 = o % 2 := Nat.mod_mod_of_dvd _ (by decide)
  rw [h1, h2, h3, h4, h5, h6, h7, h8, h9]

theorem ite_min {c : Prop} [Decidable c] (a b k : Nat) :
    (if c then min (min a b) k else min a b) = min a (if c then min b k else b) := by
  split
  · rw [Nat.min_assoc]
  · rfl

theorem alignmentOf_min (o a : Nat) (ha : a ≤ 0x200) : alignmentOf o a = min a (alignmentOf o 0x200) := by
  have : a = min a 0x200 := by omega
  unfold alignmentOf
  dsimp only
  conv => lhs; rw [this]
  simp only [ite_min]

theorem alignmentOf_eq {o a : Nat} (ha : a ≤ 0x200) : alignmentOf o a = min a (Nat.gcd o 0x200) := by
  rw [alignmentOf_min o a ha, alignmentOf_mod, gcd_table _ (Nat.mod_lt _ (by decide)) 0 (by decide)]
  congr 1
  rw [← Nat.gcd_rec, Nat.gcd_comm]

theorem dvd_total : ∀ {a b : Nat}, a ∣ 0x200 → b ∣ 0x200 → a ≤ b → a ∣ b := by
  intro a b ha hb hab
  have h1 : ∀ x : Nat, x ∣ 0x200 → x ∈ [1, 2, 4, 8, 16, 32, 64, 128, 256, 512] := by
    intro x hx
    have hle := Nat.le_of_dvd (by decide) hx
    have : ∀ y : Fin 513, y.1 ∣ 0x200 → y.1 ∈ [1, 2, 4, 8, 16, 32, 64, 128, 256, 512] := by decide +kernel
    exact this ⟨x, by omega⟩ hx
  have h2 : ∀ x ∈ [1, 2, 4, 8, 16, 32, 64, 128, 256, 512], ∀ y ∈ [1, 2, 4, 8, 16, 32, 64, 128, 256, 512],
    x ≤ y → x ∣ y := by decide
  exact h2 a (h1 a ha) b (h1 b hb) hab

theorem alignAll_spec : ∀ {es : List (Nat × Nat)} {a : Nat}, a ∣ 0x200 →
    alignAll es a ∣ a ∧ alignAll es a ∣ 0x200 ∧ (∀ e ∈ es, alignAll es a ∣ e.1) ∧
      ∀ b, b ∣ 0x200 → b ∣ a → (∀ e ∈ es, b ∣ e.1) → b ∣ alignAll es a
  | [], a, ha => ⟨Nat.dvd_refl _, ha, by simp, fun b _ hb _ => hb⟩
  | e :: es, a, ha => by
    have hle := Nat.le_of_dvd (by decide) ha
    have hg : Nat.gcd e.1 0x200 ∣ 0x200 := Nat.gcd_dvd_right _ _
    have hstep : alignAll (e :: es) a = alignAll es (min a (Nat.gcd e.1 0x200)) := by
      unfold alignAll
      rw [List.foldl_cons, alignmentOf_eq hle]
    have hm : min a (Nat.gcd e.1 0x200) ∣ 0x200 := by
      rcases Nat.le_total a (Nat.gcd e.1 0x200) with h | h
      · rwa [Nat.min_eq_left h]
      · rwa [Nat.min_eq_right h]
    have hma : min a (Nat.gcd e.1 0x200) ∣ a := dvd_total hm ha (Nat.min_le_left _ _)
    have hmg : min a (Nat.gcd e.1 0x200) ∣ Nat.gcd e.1 0x200 := dvd_total hm hg (Nat.min_le_right _ _)
    obtain ⟨h1, h2, h3, h4⟩ := alignAll_spec (es := es) hm
    rw [hstep]
    refine ⟨Nat.dvd_trans h1 hma, h2, ?_, ?_⟩
    · intro e' he
      rcases List.mem_cons.1 he with rfl | he
      · exact Nat.dvd_trans (Nat.dvd_trans h1 hmg) (Nat.gcd_dvd_left _ _)
      · exact h3 e' he
    · intro b hb hba hbe
      refine h4 b hb ?_ fun e' he => hbe e' (List.mem_cons_of_mem _ he)
      have hbg := Nat.dvd_gcd (hbe e (List.mem_cons_self ..)) hb
      rcases Nat.le_total a (Nat.gcd e.1 0x200) with h | h
      · rwa [Nat.min_eq_left h]
      · rwa [Nat.min_eq_right h]

theorem alignAll_greatest (es : List (Nat × Nat)) : GreatestAlignment (alignAll es 0x200) (es.map Prod.fst) := by
  obtain ⟨_, h2, h3, h4⟩ := alignAll_spec (es := es) (Nat.dvd_refl 0x200)
  refine ⟨h2, ?_, fun b hb hbe => h4 b hb hb fun e he => hbe _ (List.mem_map_of_mem he)⟩
  intro o ho
  obtain ⟨e, he, rfl⟩ := List.mem_map.1 ho
  exact h3 e he

end Verif.Proofs.SoundArchive
