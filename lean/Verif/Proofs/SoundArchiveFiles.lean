import Verif.Model.SoundArchive
import Verif.Spec.SoundArchive

/-!
# The files of a sound archive
-/

namespace Verif.Proofs.SoundArchive

open Verif Verif.Model.SoundArchive Verif.Spec.SoundArchive

/-- Induction from the end of a list. -/
theorem snocInduction {α : Type _} {P : List α → Prop} (nil : P []) (append_singleton : ∀ l x, P l → P (l ++ [x])) (l : List α) :
    P l := by
  rw [← List.reverse_reverse l]
  induction l.reverse with
  | nil => exact nil
  | cons x l ih => rw [List.reverse_cons]; exact append_singleton _ _ ih

section firstUses
variable {α : Type} [DecidableEq α]

theorem firstUses_nil : firstUses ([] : List α) = [] := rfl

theorem firstUses_snoc (l : List α) (x : α) :
    firstUses (l ++ [x]) = if x ∈ l then firstUses l else firstUses l ++ [x] := by
  unfold firstUses
  rw [List.zipIdx_append, List.filter_append, List.map_append]
  have h1 : (l.zipIdx.filter fun p => decide (p.1 ∉ (l ++ [x]).take p.2)) =
      l.zipIdx.filter fun p => decide (p.1 ∉ l.take p.2) := by
    refine List.filter_congr fun p hp => ?_
    have := List.mem_zipIdx hp
    rw [List.take_append_of_le_length (by omega)]
  rw [h1]
  have h2 : (([x].zipIdx (0 + l.length)).filter fun p => decide (p.1 ∉ (l ++ [x]).take p.2)) =
      if x ∈ l then [] else [(x, l.length)] := by
    rw [List.zipIdx_singleton, Nat.zero_add, List.filter_cons]
    dsimp only
    rw [List.take_left]
    by_cases h : x ∈ l <;> simp [h]
  rw [h2]
  by_cases h : x ∈ l <;> simp [h]

theorem mem_firstUses {l : List α} {x : α} : x ∈ firstUses l ↔ x ∈ l := by
  induction l using snocInduction with
  | nil => simp [firstUses_nil]
  | append_singleton l y ih =>
    rw [firstUses_snoc]
    split
    · rename_i h
      rw [ih, List.mem_append, List.mem_singleton]
      constructor
      · exact .inl
      · rintro (h' | rfl)
        · exact h'
        · exact h
    · rw [List.mem_append, ih, List.mem_append]

theorem firstUses_nodup (l : List α) : (firstUses l).Nodup := by
  induction l using snocInduction with
  | nil => simp [firstUses_nil]
  | append_singleton l y ih =>
    rw [firstUses_snoc]
    split
    · exact ih
    · rename_i h
      refine List.nodup_append.2 ⟨ih, by simp, ?_⟩
      rintro a ha b hb rfl
      rw [List.mem_singleton] at hb
      subst hb
      exact h (mem_firstUses.1 ha)

theorem firstUses_prefix (l l' : List α) : firstUses l <+: firstUses (l ++ l') := by
  induction l' using snocInduction with
  | nil => simp
  | append_singleton l' y ih =>
    rw [← List.append_assoc, firstUses_snoc]
    split
    · exact ih
    · exact ih.trans (List.prefix_append _ _)

theorem firstUses_prefix' {l l' : List α} (h : l <+: l') : firstUses l <+: firstUses l' := by
  obtain ⟨t, rfl⟩ := h
  exact firstUses_prefix l t

/-- The number of an element does not change any more. -/
theorem idxOf_firstUses [BEq α] [LawfulBEq α] {l l' : List α} (h : l <+: l') {x : α} (hx : x ∈ l) :
    (firstUses l').idxOf x = (firstUses l).idxOf x := by
  obtain ⟨t, ht⟩ := firstUses_prefix' h
  rw [← ht, List.idxOf_append, if_pos (mem_firstUses.2 hx)]

end firstUses

theorem findFile_eq (file : Bytes) (m : Int) : ∀ (fs : Files) (i : Nat),
    findFile file m fs i = if (file, m) ∈ fs then some (i + fs.idxOf (file, m)) else none
  | [], i => by simp [findFile]
  | f :: fs, i => by
    rw [findFile, findFile_eq file m fs]
    by_cases h : f = (file, m)
    · subst h
      simp
    · have h' : ¬ (f.1 = file ∧ m = f.2) := fun ⟨h1, h2⟩ => h (Prod.ext h1 h2.symm)
      rw [if_neg h']
      have h'' : ¬ ((file, m) = f) := fun e => h e.symm
      by_cases hm : (file, m) ∈ fs
      · rw [if_pos hm, if_pos (List.mem_cons_of_mem _ hm), List.idxOf_cons, (beq_eq_false_iff_ne).2 h]
        simp only [cond_false, Option.some.injEq]
        omega
      · rw [if_neg hm, if_neg (by simp [hm, h''])]

/-- Adding a file to the files used so far. -/
theorem addFile_eq (l : List (Bytes × Int)) (file : Bytes) (m : Int) :
    addFileAndGetID (firstUses l) file m =
      ((firstUses (l ++ [(file, m)])).idxOf (file, m), firstUses (l ++ [(file, m)])) := by
  unfold addFileAndGetID
  rw [findFile_eq, firstUses_snoc]
  by_cases h : (file, m) ∈ l
  · rw [if_pos (mem_firstUses.2 h), if_pos h]
    simp
  · have h' : (file, m) ∉ firstUses l := fun h' => h (mem_firstUses.1 h')
    rw [if_neg h', if_neg h]
    simp [List.idxOf_append, h']

/-! ## Padding -/

theorem padLen_ceil {a n : Nat} (h : 0 < a) : n + padLen n a = ceilTo a n := by
  unfold padLen ceilTo
  have h1 := Nat.div_add_mod n a
  have h2 := Nat.mod_lt n h
  by_cases h0 : n % a = 0
  · rw [h0]
    simp only [Nat.sub_zero, Nat.mod_self, Nat.add_zero]
    have h3 : (n + a - 1) / a = n / a := by
      have h5 : n + a - 1 = a * (n / a) + (a - 1) := by omega
      rw [h5, Nat.mul_add_div h, Nat.div_eq_of_lt (by omega : a - 1 < a)]
      rfl
    rw [h3, Nat.mul_comm]
    omega
  · rw [Nat.mod_eq_of_lt (by omega : a - n % a < a)]
    have h3 : (n + a - 1) / a = n / a + 1 := by
      have h5 : n + a - 1 = a * (n / a + 1) + (n % a - 1) := by
        rw [Nat.mul_add]; omega
      rw [h5, Nat.mul_add_div h, Nat.div_eq_of_lt (by omega : n % a - 1 < a), Nat.add_zero]
    rw [h3, Nat.add_mul, Nat.mul_comm (n / a) a]
    omega

theorem ceilTo_dvd (a n : Nat) : a ∣ ceilTo a n := Nat.dvd_mul_left _ _

theorem le_ceilTo {a n : Nat} (h : 0 < a) : n ≤ ceilTo a n := by
  rw [← padLen_ceil h]; omega

theorem ceilTo_lt {a n : Nat} (h : 0 < a) : ceilTo a n < n + a := by
  rw [← padLen_ceil h]
  have := padLen_lt (len := n) h
  omega

/-- The characterization of the next multiple. -/
theorem ceilTo_eq {a n m : Nat} (h : 0 < a) (h1 : a ∣ m) (h2 : n ≤ m) (h3 : m < n + a) : ceilTo a n = m := by
  have h4 := ceilTo_dvd a n
  have h5 := le_ceilTo (n := n) h
  have h6 := ceilTo_lt (n := n) h
  obtain ⟨x, hx⟩ := h1
  obtain ⟨y, hy⟩ := h4
  rw [hx] at h2 h3 ⊢
  rw [hy] at h5 h6 ⊢
  rcases Nat.lt_trichotomy x y with hxy | rfl | hxy
  · have := Nat.mul_le_mul_left a (show x + 1 ≤ y from hxy)
    rw [Nat.mul_add] at this
    omega
  · rfl
  · have := Nat.mul_le_mul_left a (show y + 1 ≤ x from hxy)
    rw [Nat.mul_add] at this
    omega

theorem padZeros_eq_ok {n a k : Nat} : padZeros n a = .ok k ↔ 0 < a ∧ k = padLen n a := by
  unfold padZeros
  split
  · constructor
    · intro h; cases h
    · omega
  · rw [Except.ok.injEq]
    constructor
    · rintro rfl; exact ⟨by omega, rfl⟩
    · rintro ⟨_, rfl⟩; rfl

/-- The entry of a file in the file allocation table. -/
def fatEntry (o n : Nat) : Bytes := structBytes .little [(4, o), (4, n)] ++ zeros 8

theorem fatEntry_length (o n : Nat) : (fatEntry o n).length = 0x10 := by simp [fatEntry, structBytes]

/-- The length of a file in the file allocation table. -/
def fatLen (s : SDAT) (f : Bytes) : Nat :=
  if s.fatLengthsIncludePadding = true then ceilTo s.fileAlignment f.length else f.length

/-- The files one behind the other. -/
def body (a : Nat) : (pos : Nat) → List Bytes → Bytes
  | _, [] => []
  | pos, f :: fs => zeros (ceilTo a pos - pos) ++ f ++ body a (ceilTo a pos + f.length) fs

/-- Where the files end. -/
def bodyEnd (a : Nat) : (pos : Nat) → List Bytes → Nat
  | pos, [] => pos
  | pos, f :: fs => bodyEnd a (ceilTo a pos + f.length) fs

theorem body_length {a : Nat} (ha : 0 < a) : ∀ {fs : List Bytes} {pos : Nat}, pos + (body a pos fs).length = bodyEnd a pos fs
  | [], pos => rfl
  | f :: fs, pos => by
    rw [body, bodyEnd, ← body_length ha, List.length_append, List.length_append, zeros_length]
    have := le_ceilTo (n := pos) ha
    omega

theorem places_length {a : Nat} : ∀ {fs : List Bytes} {pos : Nat}, (places a pos fs).length = fs.length
  | [], _ => rfl
  | f :: fs, pos => by rw [places, List.length_cons, places_length, List.length_cons]

theorem packFiles_eq_ok {s : SDAT} : ∀ {fs : List Bytes} {pos : Nat} {r : Bytes × Bytes},
    packFiles s fs pos = .ok r ↔ (fs ≠ [] → 0 < s.fileAlignment) ∧
      (∀ p ∈ (places s.fileAlignment pos fs).zip fs, p.1 < 2 ^ 32 ∧ fatLen s p.2 < 2 ^ 32) ∧
      r = ((((places s.fileAlignment pos fs).zip fs).map fun p => fatEntry p.1 (fatLen s p.2)).flatten,
        body s.fileAlignment pos fs)
  | [], pos, r => by
    simp only [packFiles, Except.ok.injEq, places, body, List.zip_nil_left, List.map_nil, List.flatten_nil]
    constructor
    · rintro rfl; simp
    · rintro ⟨_, _, rfl⟩; rfl
  | f :: fs, pos, r => by
    rw [packFiles]
    simp only [bind_eq_ok, pure_eq_ok, padZeros_eq_ok, packUs_eq_ok]
    constructor
    · rintro ⟨_, ⟨ha, rfl⟩, _, ⟨⟨h1, h2, _⟩, rfl⟩, r', hr, rfl⟩
      dsimp only at h1 h2
      rw [padLen_ceil ha] at h1 hr
      rw [padLen_ceil ha] at h2
      obtain ⟨_, h3, rfl⟩ := packFiles_eq_ok.1 hr
      have hz : padLen pos s.fileAlignment = ceilTo s.fileAlignment pos - pos := by rw [← padLen_ceil ha]; omega
      refine ⟨fun _ => ha, ?_, ?_⟩
      · intro p hp
        rw [places, List.zip_cons_cons, List.mem_cons] at hp
        rcases hp with rfl | hp
        · exact ⟨h1, h2⟩
        · exact h3 p hp
      · rw [places, List.zip_cons_cons, List.map_cons, List.flatten_cons, body, padLen_ceil ha, padLen_ceil ha, hz]
        rfl
    · rintro ⟨ha, h1, rfl⟩
      have ha := ha (by simp)
      rw [places, List.zip_cons_cons] at h1
      obtain ⟨h2, h3⟩ := h1 _ (List.mem_cons_self ..)
      have hz : padLen pos s.fileAlignment = ceilTo s.fileAlignment pos - pos := by rw [← padLen_ceil ha]; omega
      refine ⟨_, ⟨ha, rfl⟩, _, ⟨⟨by rw [padLen_ceil ha]; exact h2, by rw [padLen_ceil ha]; exact h3, trivial⟩, rfl⟩, _,
        packFiles_eq_ok.2 ⟨fun _ => ha, fun p hp => h1 p ?_, rfl⟩, ?_⟩
      · rw [padLen_ceil ha] at hp
        exact List.mem_cons_of_mem _ hp
      · rw [places, List.zip_cons_cons, List.map_cons, List.flatten_cons, body, padLen_ceil ha, padLen_ceil ha, hz]
        rfl

end Verif.Proofs.SoundArchive
