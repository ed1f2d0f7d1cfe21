import Verif.Proofs.Reader
import Verif.Spec.FormatSbnk
import Verif.Props.SoundBank

/-!
# Instrument banks, byte by byte (C103)
-/

namespace Verif.Props.FormatSbnk

open Verif Verif.Model.Common Verif.Model.SoundBank Verif.Spec.Reader Verif.Spec.FormatSbnk Verif.Proofs.Reader

/-! ## Instruments -/

theorem note_iff {d : Bytes} {o type : Nat} {n : Note} :
    Note.fromData (slice d o (o + 10)) type = .ok n ↔ o + 10 ≤ d.length ∧ n = noteAt d o type := by
  unfold Note.fromData
  simp only [bind_eq_ok, slice_bytesAt, unpackUs_iff (ks := [2, 2, 1, 1, 1, 1, 1, 1]) (by decide) (by decide), bytesAt_length]
  have e : readAll (bytesAt d o 10) [2, 2, 1, 1, 1, 1, 1, 1] 0 = [u16 d o, u16 d (o + 2), u8 d (o + 4), u8 d (o + 5),
      u8 d (o + 6), u8 d (o + 7), u8 d (o + 8), u8 d (o + 9)] := by
    simp only [readAll, uN, Nat.zero_add]
    rw [u16_bytesAt _ _ (by omega), u16_bytesAt _ _ (by omega), u8_bytesAt _ _ (by omega), u8_bytesAt _ _ (by omega),
      u8_bytesAt _ _ (by omega), u8_bytesAt _ _ (by omega), u8_bytesAt _ _ (by omega), u8_bytesAt _ _ (by omega)]
    rfl
  rw [e]
  constructor
  · rintro ⟨_, ⟨h1, rfl⟩, h⟩
    simp only [pure_eq_ok] at h
    exact ⟨by simp at h1; omega, h.symm⟩
  · rintro ⟨h1, rfl⟩
    exact ⟨_, ⟨by simp; omega, rfl⟩, rfl⟩

theorem typedNote_iff {d : Bytes} {o : Nat} {n : Note} :
    Note.fromDataWithType (slice d o (o + 0xC)) = .ok n ↔ o + 12 ≤ d.length ∧ n = typedNoteAt d o := by
  unfold Note.fromDataWithType
  simp only [bind_eq_ok, slice_bytesAt, unpackUs_iff (ks := [2, 2, 2, 1, 1, 1, 1, 1, 1]) (by decide) (by decide), bytesAt_length]
  have e : readAll (bytesAt d o 0xC) [2, 2, 2, 1, 1, 1, 1, 1, 1] 0 = [u16 d o, u16 d (o + 2), u16 d (o + 2 + 2),
      u8 d (o + 2 + 4), u8 d (o + 2 + 5), u8 d (o + 2 + 6), u8 d (o + 2 + 7), u8 d (o + 2 + 8), u8 d (o + 2 + 9)] := by
    simp only [readAll, uN, Nat.zero_add]
    rw [u16_bytesAt _ _ (by omega), u16_bytesAt _ _ (by omega), u16_bytesAt _ _ (by omega), u8_bytesAt _ _ (by omega),
      u8_bytesAt _ _ (by omega), u8_bytesAt _ _ (by omega), u8_bytesAt _ _ (by omega), u8_bytesAt _ _ (by omega),
      u8_bytesAt _ _ (by omega)]
    rfl
  rw [e]
  constructor
  · rintro ⟨_, ⟨h1, rfl⟩, h⟩
    simp only [pure_eq_ok] at h
    exact ⟨by simp at h1; omega, h.symm⟩
  · rintro ⟨h1, rfl⟩
    exact ⟨_, ⟨by simp; omega, rfl⟩, rfl⟩

theorem range_shift {α : Type} (n : Nat) (f : Nat → α) :
    (List.range (n + 1)).map f = f 0 :: (List.range n).map fun i => f (i + 1) := by
  rw [List.range_succ_eq_map, List.map_cons, List.map_map]; rfl

theorem notesFrom_iff {d : Bytes} : ∀ {n o : Nat} {l : List Note}, o ≤ d.length →
    (notesFrom d n o = .ok l ↔ o + 12 * n ≤ d.length ∧ l = (List.range n).map fun i => typedNoteAt d (o + 12 * i))
  | 0, o, l, h => by
    unfold notesFrom
    constructor
    · intro h'; cases h'; exact ⟨h, rfl⟩
    · rintro ⟨-, rfl⟩; rfl
  | n + 1, o, l, h => by
    unfold notesFrom
    simp only [bind_eq_ok, typedNote_iff, pure_eq_ok]
    have e : ((List.range n).map fun i => typedNoteAt d (o + 12 * (i + 1))) =
        (List.range n).map fun i => typedNoteAt d (o + 12 + 12 * i) :=
      List.map_congr_left fun i _ => by congr 1; omega
    rw [range_shift, e]
    constructor
    · rintro ⟨_, ⟨h1, rfl⟩, _, h2, rfl⟩
      obtain ⟨h2, rfl⟩ := (notesFrom_iff (by omega)).1 h2
      exact ⟨by omega, rfl⟩
    · rintro ⟨h1, rfl⟩
      exact ⟨_, ⟨by omega, rfl⟩, _, (notesFrom_iff (by omega)).2 ⟨by omega, rfl⟩, rfl⟩

/-- How many regions follow the first one. -/
def more (es : List UInt8) : Nat := (es.takeWhile (· ≠ 0)).length

theorem regionsFrom_iff {d : Bytes} : ∀ {es : List UInt8} {o : Nat} {l : List (Nat × Note)}, o ≤ d.length →
    (regionsFrom d false es o = .ok l ↔ o + 12 * more es ≤ d.length ∧
      l = (List.range (more es)).map fun i => ((es.getD i 0).toNat, typedNoteAt d (o + 12 * i)))
  | [], o, l, h => by
    unfold regionsFrom
    constructor
    · intro h'; cases h'; exact ⟨h, rfl⟩
    · rintro ⟨-, rfl⟩; rfl
  | e :: es, o, l, h => by
    unfold regionsFrom more
    by_cases he : e = 0
    · subst he
      simp only [and_self, if_true, List.takeWhile_cons, ne_eq, not_true, decide_false, Bool.false_eq_true, if_false]
      constructor
      · intro h'; cases h'; exact ⟨h, rfl⟩
      · rintro ⟨-, rfl⟩; rfl
    · rw [if_neg (fun h => he h.1), List.takeWhile_cons_of_pos (by simpa using he), List.length_cons]
      simp only [bind_eq_ok, typedNote_iff, pure_eq_ok]
      rw [range_shift]
      have e' : ((List.range (more es)).map fun i => (((e :: es).getD (i + 1) 0).toNat, typedNoteAt d (o + 12 * (i + 1)))) =
          (List.range (more es)).map fun i => ((es.getD i 0).toNat, typedNoteAt d (o + 12 + 12 * i)) :=
        List.map_congr_left fun i _ => by
          rw [show o + 12 * (i + 1) = o + 12 + 12 * i by omega, List.getD_cons_succ]
      show _ ↔ o + 12 * (more es + 1) ≤ _ ∧ l = _ :: (List.range (more es)).map _
      rw [e']
      constructor
      · rintro ⟨_, ⟨h1, rfl⟩, _, h2, rfl⟩
        obtain ⟨h2, rfl⟩ := (regionsFrom_iff (by omega)).1 h2
        exact ⟨by omega, rfl⟩
      · rintro ⟨h1, rfl⟩
        exact ⟨_, ⟨by omega, rfl⟩, _, (regionsFrom_iff (by omega)).2 ⟨by omega, rfl⟩, rfl⟩

theorem more_eq {d : Bytes} {o : Nat} (e : UInt8) (es : List UInt8) (h : bytesAt d o 8 = e :: es) (ho : o + 8 ≤ d.length) :
    1 + more es = regionCount d o ∧ ∀ i, i < 8 → ((e :: es).getD i 0).toNat = u8 d (o + i) := by
  have hg : ∀ i, i < 8 → ((e :: es).getD i 0).toNat = u8 d (o + i) := by
    intro i hi
    rw [← h, ← u8_bytesAt d o hi, List.getD_eq_getElem?_getD]
    rfl
  have hl : es.length = 7 := by
    have := congrArg List.length h
    rw [bytesAt_length, List.length_cons] at this
    omega
  refine ⟨?_, hg⟩
  unfold more regionCount
  congr 1
  have e2 : es.map UInt8.toNat = (List.range 7).map fun i => u8 d (o + 1 + i) := by
    apply List.ext_getElem
    · simp [hl]
    · intro i h1 h2
      simp at h2
      have := hg (i + 1) (by omega)
      rw [List.getD_cons_succ, List.getD_eq_getElem?_getD, List.getElem?_eq_getElem (by omega)] at this
      simp only [List.getElem_map, List.getElem_range]
      rw [show o + 1 + i = o + (i + 1) by omega]
      exact this
  have e3 : (es.takeWhile (· ≠ 0)).length = ((es.map UInt8.toNat).takeWhile (· ≠ 0)).length := by
    rw [List.takeWhile_map, List.length_map]
    congr 2
    funext x
    have : (x = 0) ↔ x.toNat = 0 := by
      rw [← UInt8.toNat_inj]; rfl
    simp [this]
  rw [e3, e2, List.takeWhile_map, List.length_map]
  rfl

/-- C103: an instrument of a type can be read from a place exactly if it lies in the file, and is what is found there. -/
theorem instrument_load_iff (d : Bytes) (type o : Nat) (r : Option Kind × Nat) :
    kindAt d type o = .ok r ↔ InstOk d type o ∧ r = (instAt d type o, sizeAt d type o) := by
  unfold kindAt InstOk instAt sizeAt
  by_cases h0 : type = 0
  · simp only [h0, if_true, Except.ok.injEq, true_or, and_true]
    constructor
    · rintro rfl; exact ⟨by decide, rfl⟩
    · rintro ⟨-, rfl⟩; rfl
  simp only [h0, if_false, false_or]
  by_cases h1 : type < 16
  · simp only [h1, if_true, bind_eq_ok, pure_eq_ok, note_iff]
    constructor
    · rintro ⟨_, ⟨h2, rfl⟩, rfl⟩; exact ⟨⟨by omega, h2⟩, rfl⟩
    · rintro ⟨⟨-, h2⟩, rfl⟩; exact ⟨_, ⟨h2, rfl⟩, rfl⟩
  simp only [h1, if_false]
  by_cases h2 : type = 16
  · subst h2
    simp only [if_true, bind_eq_ok, pure_eq_ok, unpack1]
    constructor
    · rintro ⟨_, ⟨h2, rfl⟩, _, ⟨h3, rfl⟩, _, h4, rfl⟩
      obtain ⟨h4, rfl⟩ := (notesFrom_iff (by omega)).1 h4
      refine ⟨⟨by decide, ?_⟩, ?_⟩
      · unfold rangeCount; omega
      · simp [rangeCount]
    · rintro ⟨⟨-, h2⟩, rfl⟩
      unfold rangeCount at h2
      refine ⟨_, ⟨by omega, rfl⟩, _, ⟨by omega, rfl⟩, _, (notesFrom_iff (by omega)).2 ⟨by omega, rfl⟩, ?_⟩
      simp [rangeCount]
  simp only [h2, if_false]
  by_cases h3 : type = 17
  · subst h3
    simp only [if_true, bind_eq_ok, pure_eq_ok, unpackStr_iff]
    have key : ∀ (_ : o + 8 ≤ d.length) (l : List (Nat × Note)), regionsFrom d true (bytesAt d o 8) (o + 8) = .ok l ↔
        o + 8 + 12 * regionCount d o ≤ d.length ∧
          l = (List.range (regionCount d o)).map fun i => (u8 d (o + i), typedNoteAt d (o + 8 + 12 * i)) := by
      intro h8 l
      cases hb : bytesAt d o 8 with
      | nil =>
        have := congrArg List.length hb
        rw [bytesAt_length, List.length_nil] at this
        omega
      | cons e es =>
        obtain ⟨hc, hg⟩ := more_eq e es hb h8
        have hm : more es ≤ 7 := by
          have := congrArg List.length hb
          rw [bytesAt_length, List.length_cons] at this
          have := (List.takeWhile_sublist (l := es) (fun x : UInt8 => decide (x ≠ 0))).length_le
          unfold more
          omega
        rw [← hc, Nat.add_comm 1, range_shift]
        unfold regionsFrom
        rw [if_neg (by simp)]
        simp only [bind_eq_ok, typedNote_iff, pure_eq_ok]
        have e0 := hg 0 (by omega)
        rw [List.getD_cons_zero] at e0
        have em : ((List.range (more es)).map fun i => ((es.getD i 0).toNat, typedNoteAt d (o + 8 + 0xC + 12 * i))) =
            (List.range (more es)).map fun i => (u8 d (o + (i + 1)), typedNoteAt d (o + 8 + 12 * (i + 1))) :=
          List.map_congr_left fun i hi => by
            have := List.mem_range.1 hi
            rw [← hg (i + 1) (by omega), List.getD_cons_succ, show o + 8 + 0xC + 12 * i = o + 8 + 12 * (i + 1) by omega]
        rw [← em, ← e0]
        constructor
        · rintro ⟨_, ⟨h1, rfl⟩, _, h2, rfl⟩
          obtain ⟨h2, rfl⟩ := (regionsFrom_iff (by omega)).1 h2
          exact ⟨by omega, rfl⟩
        · rintro ⟨h1, rfl⟩
          exact ⟨_, ⟨by omega, rfl⟩, _, (regionsFrom_iff (by omega)).2 ⟨by omega, rfl⟩, rfl⟩
    constructor
    · rintro ⟨_, ⟨h1, rfl⟩, _, h2, rfl⟩
      obtain ⟨h2, rfl⟩ := (key h1 _).1 h2
      exact ⟨⟨by decide, by omega⟩, by simp⟩
    · rintro ⟨⟨-, h2⟩, rfl⟩
      exact ⟨_, ⟨by omega, rfl⟩, _, (key (by omega) _).2 ⟨by omega, rfl⟩, by simp⟩
  simp only [h3, if_false]
  constructor
  · intro h; cases h
  · rintro ⟨⟨h, -⟩, -⟩; omega

/-! ## The table -/

/-- The instrument in a slot. -/
def slot (d : Bytes) (i : Nat) : Option Inst :=
  (instAt d (typeAt d i) (placeAt d i)).map fun k => ⟨k, placeAt d i, placeAt d i⟩

theorem slot_isSome (d : Bytes) (i : Nat) : (slot d i).isSome = decide (typeAt d i ≠ 0) := by
  unfold slot instAt
  by_cases h : typeAt d i = 0
  · simp [h]
  · simp only [h, if_false, ne_eq, not_false_eq_true, decide_true]
    split
    · rfl
    · split <;> rfl

/-- A byte belongs to the instrument in a slot. -/
def usedBy (d : Bytes) (x i : Nat) : Prop :=
  placeAt d i ≤ x ∧ x < placeAt d i + sizeAt d (typeAt d i) (placeAt d i)
instance (d : Bytes) (x i : Nat) : Decidable (usedBy d x i) := by unfold usedBy; infer_instance

/-- What is left of the bytes, and the places, after some slots. -/
def left (d : Bytes) (is u : List Nat) : List Nat := u.filter fun x => ∀ i ∈ is, ¬ usedBy d x i
def found (d : Bytes) (is : List Nat) : List (Nat × Nat) := (is.filter fun i => typeAt d i ≠ 0).map fun i => (i, placeAt d i)

theorem loadTable_iff {d : Bytes} : ∀ {n id : Nat} {u : List Nat} {r : List (Option Inst) × List Nat × List (Nat × Nat)},
    0x3C + 4 * id ≤ d.length →
    (loadTable d n id u = .ok r ↔ (0x3C + 4 * (id + n) ≤ d.length ∧ ∀ i ∈ List.range' id n, InstOk d (typeAt d i) (placeAt d i)) ∧
      r = ((List.range' id n).map (slot d), left d (List.range' id n) u, found d (List.range' id n)))
  | 0, id, u, r, h => by
    have : left d [] u = u := List.filter_eq_self.2 (by simp)
    unfold loadTable
    simp [h, eq_comm, this, found]
  | n + 1, id, u, r, h => by
    unfold loadTable makeInstrumentAt
    simp only [bind_eq_ok, pure_eq_ok, unpack1, unpack2, List.range'_succ, List.forall_mem_cons, List.map_cons]
    have hl : left d (List.range' (id + 1) n) (consume u (placeAt d id) (sizeAt d (typeAt d id) (placeAt d id))) =
        left d (id :: List.range' (id + 1) n) u := by
      unfold left consume
      rw [List.filter_filter]
      refine List.filter_congr fun x _ => ?_
      rw [Bool.eq_iff_iff, Bool.and_eq_true, decide_eq_true_eq, decide_eq_true_eq, Bool.not_eq_true', decide_eq_false_iff_not,
        List.forall_mem_cons, and_comm]
      rfl
    have hf : found d (id :: List.range' (id + 1) n) = if (slot d id).isSome then
        (id, placeAt d id) :: found d (List.range' (id + 1) n) else found d (List.range' (id + 1) n) := by
      rw [slot_isSome]
      unfold found
      by_cases ht : typeAt d id = 0
      · rw [List.filter_cons_of_neg (by simpa using ht)]; simp [ht]
      · rw [List.filter_cons_of_pos (by simpa using ht)]; simp [ht]
    constructor
    · rintro ⟨_, ⟨h1, rfl⟩, _, ⟨h2, rfl⟩, _, ⟨h3, -⟩, _, ⟨_, h4, rfl⟩, _, h5, rfl⟩
      obtain ⟨h4', rfl⟩ := (instrument_load_iff _ _ _ _).1 h4
      obtain ⟨⟨h5, h6⟩, rfl⟩ := (loadTable_iff (by omega)).1 h5
      refine ⟨⟨by omega, h4', h6⟩, ?_⟩
      rw [hf, ← hl]
      rfl
    · rintro ⟨⟨h1, h2, h3⟩, rfl⟩
      refine ⟨_, ⟨by omega, rfl⟩, _, ⟨by omega, rfl⟩, _, ⟨by omega, rfl⟩, _, ⟨_, (instrument_load_iff _ _ _ _).2 ⟨h2, rfl⟩, rfl⟩,
        _, (loadTable_iff (by omega)).2 ⟨⟨by omega, h3⟩, rfl⟩, ?_⟩
      rw [hf, ← hl]
      rfl

theorem mem_found {d : Bytes} {n : Nat} {p : Nat × Nat} :
    p ∈ found d (List.range' 0 n) ↔ p.1 < n ∧ typeAt d p.1 ≠ 0 ∧ p.2 = placeAt d p.1 := by
  unfold found
  rw [List.mem_map]
  constructor
  · rintro ⟨i, hi, rfl⟩
    rw [List.mem_filter, List.mem_range'_1] at hi
    exact ⟨by omega, by simpa using hi.2, rfl⟩
  · rintro ⟨h1, h2, h3⟩
    refine ⟨p.1, ?_, by rw [← h3]⟩
    rw [List.mem_filter, List.mem_range'_1]
    exact ⟨by omega, by simpa using h2⟩

theorem found_sorted (d : Bytes) (n : Nat) : (found d (List.range' 0 n)).Pairwise fun a b => a.1 ≤ b.1 := by
  unfold found
  rw [List.pairwise_map]
  exact (List.pairwise_le_range' (s := 0) (n := n)).filter _

theorem prevOf_some {o : Nat} : ∀ {l : List (Nat × Nat)} {b : Nat × Nat}, b.2 < o → ((b :: l).Pairwise fun a b => a.1 ≤ b.1) →
    ∃ r, prevOf o l (some b) = some r ∧ r ∈ b :: l ∧ r.2 < o ∧ ∀ x ∈ b :: l, x.2 < o → x.2 < r.2 ∨ x.2 = r.2 ∧ r.1 ≤ x.1
  | [], b, hb, _ => ⟨b, rfl, by simp, hb, by simp⟩
  | (id, off) :: l, b, hb, hp => by
    unfold prevOf
    rw [List.pairwise_cons] at hp
    split
    · rename_i hc
      obtain ⟨r, h1, h2, h3, h4⟩ := prevOf_some (l := l) (b := (id, off)) hc.1 hp.2
      refine ⟨r, h1, List.mem_cons_of_mem _ h2, h3, ?_⟩
      intro x hx hxo
      rcases List.mem_cons.1 hx with rfl | hx
      · have := hc.2 _ rfl
        have := h4 (id, off) (by simp) hc.1
        left; omega
      · exact h4 x hx hxo
    · rename_i hc
      have hp2 : (b :: l).Pairwise fun a b => a.1 ≤ b.1 :=
        List.pairwise_cons.2 ⟨fun x hx => hp.1 x (List.mem_cons_of_mem _ hx), (List.pairwise_cons.1 hp.2).2⟩
      obtain ⟨r, h1, h2, h3, h4⟩ := prevOf_some (l := l) (b := b) hb hp2
      refine ⟨r, h1, ?_, h3, ?_⟩
      · rcases List.mem_cons.1 h2 with rfl | h2 <;> simp [*]
      · intro x hx hxo
        rcases List.mem_cons.1 hx with rfl | hx
        · exact h4 _ (by simp) hxo
        · rcases List.mem_cons.1 hx with rfl | hx
          · have hle : off ≤ b.2 := by
              apply Nat.le_of_not_lt
              intro hlt
              exact hc ⟨hxo, fun b' hb' => by cases hb'; exact hlt⟩
            have hb1 := hp.1 (id, off) (by simp)
            have := h4 b (by simp) hb
            rcases this with this | ⟨h5, h6⟩
            · left; show off < r.2; omega
            · show off < r.2 ∨ off = r.2 ∧ r.1 ≤ id
              simp only at hb1
              omega
          · exact h4 x (List.mem_cons_of_mem _ hx) hxo

theorem prevOf_none {o : Nat} : ∀ {l : List (Nat × Nat)}, (l.Pairwise fun a b => a.1 ≤ b.1) →
    (prevOf o l none = none ∧ ∀ x ∈ l, o ≤ x.2) ∨
    ∃ r, prevOf o l none = some r ∧ r ∈ l ∧ r.2 < o ∧ ∀ x ∈ l, x.2 < o → x.2 < r.2 ∨ x.2 = r.2 ∧ r.1 ≤ x.1
  | [], _ => .inl ⟨rfl, by simp⟩
  | (id, off) :: l, hp => by
    unfold prevOf
    split
    · rename_i hc
      exact .inr (prevOf_some hc.1 hp)
    · rename_i hc
      have ho : o ≤ off := by
        apply Nat.le_of_not_lt
        intro hlt
        exact hc ⟨hlt, fun b hb => by cases hb⟩
      rcases prevOf_none (l := l) (List.pairwise_cons.1 hp).2 with ⟨h1, h2⟩ | ⟨r, h1, h2, h3, h4⟩
      · exact .inl ⟨h1, fun x hx => by
          rcases List.mem_cons.1 hx with rfl | hx
          · exact ho
          · exact h2 x hx⟩
      · refine .inr ⟨r, h1, List.mem_cons_of_mem _ h2, h3, fun x hx hxo => ?_⟩
        rcases List.mem_cons.1 hx with rfl | hx
        · exact absurd ho (Nat.not_le.2 hxo)
        · exact h4 x hx hxo

theorem nextOf_some {o : Nat} : ∀ {l : List (Nat × Nat)} {b : Nat × Nat}, o < b.2 → ((b :: l).Pairwise fun a b => a.1 ≤ b.1) →
    ∃ r, nextOf o l (some b) = some r ∧ r ∈ b :: l ∧ o < r.2 ∧ ∀ x ∈ b :: l, o < x.2 → r.2 < x.2 ∨ x.2 = r.2 ∧ r.1 ≤ x.1
  | [], b, hb, _ => ⟨b, rfl, by simp, hb, by simp⟩
  | (id, off) :: l, b, hb, hp => by
    unfold nextOf
    rw [List.pairwise_cons] at hp
    split
    · rename_i hc
      obtain ⟨r, h1, h2, h3, h4⟩ := nextOf_some (l := l) (b := (id, off)) hc.1 hp.2
      refine ⟨r, h1, List.mem_cons_of_mem _ h2, h3, ?_⟩
      intro x hx hxo
      rcases List.mem_cons.1 hx with rfl | hx
      · have := hc.2 _ rfl
        have := h4 (id, off) (by simp) hc.1
        left; omega
      · exact h4 x hx hxo
    · rename_i hc
      have hp2 : (b :: l).Pairwise fun a b => a.1 ≤ b.1 :=
        List.pairwise_cons.2 ⟨fun x hx => hp.1 x (List.mem_cons_of_mem _ hx), (List.pairwise_cons.1 hp.2).2⟩
      obtain ⟨r, h1, h2, h3, h4⟩ := nextOf_some (l := l) (b := b) hb hp2
      refine ⟨r, h1, ?_, h3, ?_⟩
      · rcases List.mem_cons.1 h2 with rfl | h2 <;> simp [*]
      · intro x hx hxo
        rcases List.mem_cons.1 hx with rfl | hx
        · exact h4 _ (by simp) hxo
        · rcases List.mem_cons.1 hx with rfl | hx
          · have hle : b.2 ≤ off := by
              apply Nat.le_of_not_lt
              intro hlt
              exact hc ⟨hxo, fun b' hb' => by cases hb'; exact hlt⟩
            have hb1 := hp.1 (id, off) (by simp)
            have := h4 b (by simp) hb
            rcases this with this | ⟨h5, h6⟩
            · left; show r.2 < off; omega
            · show r.2 < off ∨ off = r.2 ∧ r.1 ≤ id
              simp only at hb1
              omega
          · exact h4 x (List.mem_cons_of_mem _ hx) hxo

theorem nextOf_none {o : Nat} : ∀ {l : List (Nat × Nat)}, (l.Pairwise fun a b => a.1 ≤ b.1) →
    (nextOf o l none = none ∧ ∀ x ∈ l, x.2 ≤ o) ∨
    ∃ r, nextOf o l none = some r ∧ r ∈ l ∧ o < r.2 ∧ ∀ x ∈ l, o < x.2 → r.2 < x.2 ∨ x.2 = r.2 ∧ r.1 ≤ x.1
  | [], _ => .inl ⟨rfl, by simp⟩
  | (id, off) :: l, hp => by
    unfold nextOf
    split
    · rename_i hc
      exact .inr (nextOf_some hc.1 hp)
    · rename_i hc
      have ho : off ≤ o := by
        apply Nat.le_of_not_lt
        intro hlt
        exact hc ⟨hlt, fun b hb => by cases hb⟩
      rcases nextOf_none (l := l) (List.pairwise_cons.1 hp).2 with ⟨h1, h2⟩ | ⟨r, h1, h2, h3, h4⟩
      · exact .inl ⟨h1, fun x hx => by
          rcases List.mem_cons.1 hx with rfl | hx
          · exact ho
          · exact h2 x hx⟩
      · refine .inr ⟨r, h1, List.mem_cons_of_mem _ h2, h3, fun x hx hxo => ?_⟩
        rcases List.mem_cons.1 hx with rfl | hx
        · exact absurd ho (Nat.not_le.2 hxo)
        · exact h4 x hx hxo

/-! ## Instruments that the table does not mention -/

theorem guess_mem {choose : List Nat → Nat} (hc : ∀ l, l ≠ [] → choose l ∈ l) {d : Bytes} {o a t : Nat} {types : List Nat}
    (ht : ∀ x ∈ types, x = 1 ∨ x = 16 ∨ x = 17) (h : guess choose d o types a = .ok (some t)) : t ∈ types := by
  have hm : mergePsg types = types :=
    Proofs.SoundBank.mergePsg_id (fun h => by have := ht 2 h; omega) (fun h => by have := ht 3 h; omega)
  have hr := @Proofs.SoundBank.ruleOutIf_sub
  have hh : ∀ {l : List Nat}, l.head? = some t → t ∈ l := fun h => List.mem_of_mem_head? (by rw [h]; exact rfl)
  unfold guess at h
  rw [hm] at h
  simp only at h
  split at h
  · exact hh (Except.ok.inj h)
  split at h
  · exact hr _ (hr _ (hr _ (hh (Except.ok.inj h))))
  rw [bind_eq_ok] at h
  obtain ⟨c, h1, h⟩ := h
  unfold considerSingle at h1
  have hsub : ∀ t2, c = .inl t2 → ∀ x ∈ t2, x ∈ types := by
    intro t2 hc2 x hx
    subst hc2
    split at h1
    · simp only [bind_eq_ok] at h1
      obtain ⟨_, _, _, _, _, _, h1⟩ := h1
      split at h1
      · cases h1
      · cases h1
        exact hr _ (hr _ (hr _ (hr _ (hr _ (hr _ hx)))))
    · cases h1
      exact hr _ (hr _ (hr _ hx))
  split at h
  · rename_i t'
    have : t' = t := by simpa using pure_eq_ok.1 h
    subst this
    split at h1
    · rename_i h1m
      simp only [bind_eq_ok] at h1
      obtain ⟨_, _, _, _, _, _, h1⟩ := h1
      split at h1
      · cases h1
        exact hr _ (hr _ (hr _ h1m))
      · cases h1
    · cases h1
  · rename_i t2
    have hsub := hsub t2 rfl
    split at h
    · exact hsub _ (hh (pure_eq_ok.1 h))
    rw [bind_eq_ok] at h
    obtain ⟨t3, h3, h⟩ := h
    have hsub3 : ∀ x ∈ t3, x ∈ types := by
      intro x hx
      unfold considerRange at h3
      split at h3
      · split at h3
        · cases h3; exact hsub _ (hr _ hx)
        · cases h3
      · cases h3; exact hsub _ hx
    split at h
    · exact hsub3 _ (hh (pure_eq_ok.1 h))
    have hsub4 : ∀ x ∈ considerRegional d o a t3, x ∈ types := by
      intro x hx
      unfold considerRegional at hx
      split at hx
      · exact hsub3 _ (hr _ hx)
      · exact hsub3 _ hx
    split at h
    · exact hsub4 _ (hh (pure_eq_ok.1 h))
    · rename_i hlen
      have : choose (considerRegional d o a t3) = t := by simpa using pure_eq_ok.1 h
      rw [← this]
      exact hsub4 _ (hc _ (fun he => by rw [he] at hlen; exact hlen (by simp)))

theorem rank_le (a b : Nat) : rank a ≤ rank b ↔ (b < 16 → a < 16) ∧ (b = 16 → a ≤ 16) := by
  unfold rank
  by_cases h1 : a < 16 <;> by_cases h2 : b < 16 <;> by_cases h3 : a = 16 <;> by_cases h4 : b = 16 <;> simp [*] <;> omega

theorem possible_prev {p : Nat} {n : Option Nat} {t : Nat} (h : t ∈ possibleTypes (some p) n) (hp : p < 18) : rank p ≤ rank t := by
  have h17 := Proofs.SoundBank.possibleTypes_mem _ _ t h
  have hin : t ∈ (if p = 17 then (if 16 ≤ p then [16, 17] else [1, 16, 17]).filter (· ≠ 16)
      else if 16 ≤ p then [16, 17] else [1, 16, 17]) := by
    unfold possibleTypes at h
    cases n with
    | none => exact h
    | some n =>
      simp only at h
      split at h <;> split at h
      · exact (List.mem_filter.1 (List.mem_filter.1 h).1).1
      · exact (List.mem_filter.1 h).1
      · exact (List.mem_filter.1 h).1
      · exact h
  rw [rank_le]
  split at hin
  · split at hin
    · simp at hin
      omega
    · omega
  · split at hin
    · simp at hin
      omega
    · omega

theorem possible_next {n : Nat} {p : Option Nat} {t : Nat} (h : t ∈ possibleTypes p (some n)) : rank t ≤ rank n := by
  have h17 := Proofs.SoundBank.possibleTypes_mem _ _ t h
  unfold possibleTypes at h
  rw [rank_le]
  simp only at h
  split at h <;> split at h
  · have h1 := (List.mem_filter.1 h).2
    have h2 := (List.mem_filter.1 (List.mem_filter.1 h).1).2
    simp at h1 h2
    omega
  · have h2 := (List.mem_filter.1 h).2
    simp at h2
    omega
  · have h2 := (List.mem_filter.1 h).2
    simp at h2
    omega
  · omega

theorem instAt_type {d : Bytes} {t o : Nat} {k : Kind} (ht : t < 18) (h : instAt d t o = some k) :
    k.type = t ∧ rankOf k = rank t ∧ size k = sizeAt d t o := by
  unfold instAt at h
  unfold sizeAt rank
  by_cases h0 : t = 0
  · rw [if_pos h0] at h; cases h
  rw [if_neg h0] at h
  by_cases h1 : t < 16
  · rw [if_pos h1] at h
    cases h
    simp [h0, h1, Kind.type, noteAt, rankOf, size]
  rw [if_neg h1] at h
  by_cases h2 : t = 16
  · rw [if_pos h2] at h
    cases h
    simp [h2, Kind.type, rankOf, size]
  · rw [if_neg h2] at h
    cases h
    have : t = 17 := by omega
    subst this
    simp [Kind.type, rankOf, size]

theorem typeOf_slot {d : Bytes} {n i p : Nat} (hi : i < n) (h0 : typeAt d i ≠ 0) (h : typeAt d i < 18) :
    typeOf ((List.range' 0 n).map (slot d)) (some (i, p)) = some (typeAt d i) := by
  unfold typeOf
  simp only
  rw [List.getD_eq_getElem?_getD, List.getElem?_map, List.getElem?_range' hi]
  simp only [Option.map_some, Option.getD_some, Nat.zero_add, Nat.one_mul]
  have := slot_isSome d i
  unfold slot at this ⊢
  cases hk : instAt d (typeAt d i) (placeAt d i) with
  | none => rw [hk] at this; simp [h0] at this
  | some k => simp [(instAt_type h hk).1]

/-- What is found at a byte. -/
theorem recoverAt_found {choose : List Nat → Nat} (hc : ∀ l, l ≠ [] → choose l ∈ l) {d : Bytes} (hf : FileOk d) {u : List Nat} {o : Nat}
    {x : Inst} {u' : List Nat} (h : recoverAt choose d ((List.range' 0 (slots d)).map (slot d))
      (found d (List.range' 0 (slots d))) u o = .ok (some (x, u')))
    (h1 : 0x3C + 4 * slots d ≤ o) (h2 : o < u32 d 8) (h3 : ¬ Used d o) :
    x.orderKey = o ∧ u' = consume u o (size x.kind) ∧ 2 ≤ size x.kind ∧
      FoundAfter d ((prevOf o (found d (List.range' 0 (slots d))) none).map Prod.fst) x := by
  obtain ⟨-, -, -, -, hi⟩ := hf
  obtain ⟨n2, hn2, hu2⟩ := Proofs.SoundBank.recoverAt_left h
  unfold recoverAt at h
  rw [bind_eq_ok] at h
  obtain ⟨t, hg, h⟩ := h
  cases t with
  | none => cases h
  | some t =>
    simp only at h
    have htm := guess_mem hc (Proofs.SoundBank.possibleTypes_mem _ _) hg
    have ht := Proofs.SoundBank.possibleTypes_mem _ _ t htm
    split at h
    · rename_i x' u'' hm
      cases h
      unfold makeInstrumentAt at hm
      simp only [bind_eq_ok, pure_eq_ok, instrument_load_iff, Prod.mk.injEq] at hm
      obtain ⟨_, ⟨hok, rfl⟩, hx, rfl⟩ := hm
      simp only at hx
      cases hk : instAt d t o with
      | none => rw [hk] at hx; cases hx
      | some k =>
        rw [hk] at hx
        cases hx
        obtain ⟨-, hr, hs⟩ := instAt_type hok.1 hk
        have hs2 : 2 ≤ size k := by cases k <;> simp [size] <;> omega
        have hsorted := found_sorted d (slots d)
        refine ⟨rfl, by rw [hs], hs2, ⟨t, hok, hk, ht⟩, rfl, h1, h2, h3, ?_, ?_, ?_⟩
        · rcases prevOf_none (o := o) hsorted with ⟨e, hall⟩ | ⟨r, e, hr, hro, hall⟩
          · rw [e]
            intro i hi h0
            exact hall (i, placeAt d i) (mem_found.2 ⟨hi, h0, rfl⟩)
          · rw [e]
            obtain ⟨a, b, c⟩ := mem_found.1 hr
            refine ⟨a, b, by rw [← c]; exact hro, fun i hi h0 hlt => ?_⟩
            have := hall (i, placeAt d i) (mem_found.2 ⟨hi, h0, rfl⟩) hlt
            rw [← c]
            exact this
        · intro i hi'
          rw [hr]
          rcases prevOf_none (o := o) hsorted with ⟨e, hall⟩ | ⟨r, e, hr, hro, hall⟩
          · rw [e] at hi'; cases hi'
          · rw [e] at hi' htm
            cases hi'
            obtain ⟨a, b, c⟩ := mem_found.1 hr
            rw [show (some r : Option (Nat × Nat)) = some (r.1, r.2) from rfl, typeOf_slot a b (hi _ a).1] at htm
            exact possible_prev htm (hi _ a).1
        · intro i ⟨ha, hb, hlt, hall⟩
          rw [hr]
          rcases nextOf_none (o := o) hsorted with ⟨e, hall'⟩ | ⟨r, e, hr, hro, hall'⟩
          · have := hall' (i, placeAt d i) (mem_found.2 ⟨ha, hb, rfl⟩)
            simp only at this
            have : o < placeAt d i := hlt
            omega
          · rw [e] at htm
            obtain ⟨a, b, c⟩ := mem_found.1 hr
            rw [show (some r : Option (Nat × Nat)) = some (r.1, r.2) from rfl, typeOf_slot a b (hi _ a).1] at htm
            have hri : r.1 = i := by
              have h1 := hall' (i, placeAt d i) (mem_found.2 ⟨ha, hb, rfl⟩) hlt
              have h2 := hall r.1 a b (by rw [← c]; exact hro)
              rw [← c] at h2
              simp only at h1
              omega
            rw [← hri]
            exact possible_next htm
    · cases h

theorem add_flat {d : List (Option Nat × List Inst)} {k : Option Nat} {x : Inst} :
    ((addInaccessible d k x).flatMap (·.2)).Perm (x :: d.flatMap (·.2)) ∧
    ∀ p ∈ addInaccessible d k x, ∀ y ∈ p.2, (p.1 = k ∧ y = x) ∨ ∃ q ∈ d, q.1 = p.1 ∧ y ∈ q.2 := by
  unfold addInaccessible
  induction d with
  | nil =>
    refine ⟨by simp [dictSet], ?_⟩
    intro p hp y hy
    simp [dictSet] at hp
    subst hp
    simp at hy
    exact .inl ⟨rfl, hy⟩
  | cons q d ih =>
    unfold dictSet
    rw [List.lookup_cons]
    by_cases hq : q.1 = k
    · subst hq
      simp only [if_true, beq_self_eq_true, Option.getD_some]
      constructor
      · simp only [List.flatMap_cons, List.append_assoc, List.singleton_append]
        exact List.perm_middle
      · intro p hp y hy
        rcases List.mem_cons.1 hp with rfl | hp
        · rcases List.mem_append.1 hy with hy | hy
          · exact .inr ⟨q, by simp, rfl, hy⟩
          · exact .inl ⟨rfl, by simpa using hy⟩
        · exact .inr ⟨p, by simp [hp], rfl, hy⟩
    · rw [if_neg hq, beq_false_of_ne (fun e => hq e.symm)]
      simp only
      constructor
      · simp only [List.flatMap_cons]
        exact (ih.1.append_left _).trans List.perm_middle
      · intro p hp y hy
        rcases List.mem_cons.1 hp with rfl | hp
        · exact .inr ⟨p, by simp, rfl, hy⟩
        · rcases ih.2 p hp y hy with h | ⟨q', h1, h2, h3⟩
          · exact .inl h
          · exact .inr ⟨q', by simp [h1], h2, h3⟩

/-- Everything that is found is described by `FoundAfter`, and no two have a byte in common. -/
theorem recover_found {choose : List Nat → Nat} (hc : ∀ l, l ≠ [] → choose l ∈ l) {d : Bytes} (hf : FileOk d) {f : Nat} :
    ∀ (fuel : Nat) {u : List Nat} {acc r : List (Option Nat × List Inst)},
    recover choose d f ((List.range' 0 (slots d)).map (slot d)) (found d (List.range' 0 (slots d))) fuel u acc = .ok r →
    (∀ x ∈ u, 0x3C + 4 * slots d ≤ x ∧ x < u32 d 8 ∧ ¬ Used d x) → u.Pairwise (· < ·) →
    (∀ p ∈ acc, ∀ x ∈ p.2, FoundAfter d p.1 x) → (acc.flatMap (·.2)).Pairwise Apart →
    (∀ x ∈ acc.flatMap (·.2), ∀ y ∈ u, x.orderKey + size x.kind ≤ y) →
    (∀ p ∈ r, ∀ x ∈ p.2, FoundAfter d p.1 x) ∧ (r.flatMap (·.2)).Pairwise Apart := by
  have hd : ∀ {u : List Nat}, u.Pairwise (· < ·) → (dropPadding f u).Pairwise (· < ·) := by
    intro u h
    unfold dropPadding
    split
    · exact h.filter _
    · exact h
  intro fuel
  induction fuel with
  | zero =>
    intro u acc r h hu hs ha hp hb
    unfold recover at h
    split at h
    · cases h; exact ⟨ha, hp⟩
    · cases h
  | succ fuel ih =>
    intro u acc r h hu hs ha hp hb
    unfold recover at h
    split at h
    · cases h; exact ⟨ha, hp⟩
    · rename_i o rest hdp
      have hs' := hd hs
      have hsub := fun x hx => Proofs.SoundBank.dropPadding_sub (f := f) (u := u) x hx
      rw [hdp] at hs' hsub
      rw [bind_eq_ok] at h
      obtain ⟨res, hr, h⟩ := h
      obtain ⟨ho1, ho2, ho3⟩ := hu o (hsub o (by simp))
      split at h
      · refine ih h ?_ ?_ ha hp ?_
        · intro x hx
          exact hu x (hsub x (List.mem_cons_of_mem _ (List.mem_filter.1 hx).1))
        · exact (List.pairwise_cons.1 hs').2.filter _
        · intro x hx y hy
          exact hb x hx y (hsub y (List.mem_cons_of_mem _ (List.mem_filter.1 hy).1))
      · rename_i x u'
        obtain ⟨e1, e2, e3, e4⟩ := recoverAt_found hc hf hr ho1 ho2 ho3
        subst e2
        have hflat := add_flat (d := acc) (k := (prevOf o (found d (List.range' 0 (slots d))) none).map Prod.fst) (x := x)
        have hsubc : ∀ y ∈ consume (o :: rest) o (size x.kind), y ∈ o :: rest ∧ o + size x.kind ≤ y := by
          intro y hy
          obtain ⟨hy1, hy2⟩ := Proofs.SoundBank.consume_mem.1 hy
          refine ⟨hy1, ?_⟩
          rcases List.mem_cons.1 hy1 with rfl | hy1
          · omega
          · have := (List.pairwise_cons.1 hs').1 y hy1
            omega
        refine ih h ?_ ?_ ?_ ?_ ?_
        · intro y hy
          exact hu y (hsub y (hsubc y hy).1)
        · exact hs'.filter _
        · intro p hp' y hy
          rcases hflat.2 p hp' y hy with ⟨h1, rfl⟩ | ⟨q, h1, h2, h3⟩
          · rw [h1]; exact e4
          · rw [← h2]; exact ha q h1 y h3
        · refine (hflat.1.pairwise_iff ?_).2 ?_
          · intro a b h
            exact Or.symm h
          · rw [List.pairwise_cons]
            refine ⟨fun y hy => ?_, hp⟩
            right
            rw [e1]
            exact hb y hy o (hsub o (by simp))
        · intro y hy z hz
          rcases List.mem_cons.1 (hflat.1.mem_iff.1 hy) with rfl | hy
          · rw [e1]; exact (hsubc z hz).2
          · exact hb y hy z (hsub z (hsubc z hz).1)

/-! ## Files -/

theorem dropNones_eq : ∀ l : List (Option Int), dropNones l = trimmed l := by
  have hd : ∀ (l : List (Option Int)) (x : Option Int), dropNones (x :: l) =
      if dropNones l = [] then (if x.isNone then [] else [x]) else x :: dropNones l := by
    intro l x
    unfold dropNones
    rw [List.reverse_cons, List.dropWhile_append]
    cases h : List.dropWhile Option.isNone l.reverse with
    | nil => cases x <;> simp
    | cons a t => simp
  intro l
  induction l with
  | nil => rfl
  | cons x l ih =>
    rw [hd, ih]
    cases x with
    | none =>
      conv => rhs; unfold trimmed
      cases trimmed l <;> simp
    | some x =>
      conv => rhs; unfold trimmed
      cases trimmed l <;> simp

/-- The bytes behind the table that belong to no instrument of it. -/
def unused (d : Bytes) : List Nat :=
  left d (List.range' 0 (slots d)) (List.range' (0x3C + 4 * slots d) (u32 d 8 - (0x3C + 4 * slots d)))

theorem mem_unused {d : Bytes} {x : Nat} : x ∈ unused d ↔ 0x3C + 4 * slots d ≤ x ∧ x < u32 d 8 ∧ ¬ Used d x := by
  unfold unused left Used usedBy
  simp only [List.mem_filter, List.mem_range'_1, decide_eq_true_eq]
  constructor
  · rintro ⟨⟨h1, h2⟩, h3⟩
    refine ⟨h1, by omega, ?_⟩
    rintro ⟨i, hi, h⟩
    exact h3 i ⟨by omega, by omega⟩ h
  · rintro ⟨h1, h2, h3⟩
    exact ⟨⟨h1, by omega⟩, fun i hi h => h3 ⟨i, by omega, h⟩⟩

theorem load_split {choose : List Nat → Nat} {d : Bytes} {unk02 : Nat} {wa : List (Option Int)} {s : SBNK} :
    SBNK.load choose d unk02 wa = .ok s ↔ FileOk d ∧ ∃ hidden, recover choose d (u32 d 8)
      ((List.range' 0 (slots d)).map (slot d)) (found d (List.range' 0 (slots d))) (unused d).length (unused d) [] = .ok hidden ∧
      s = ⟨unk02, trimmed wa, instruments d, hidden⟩ := by
  have hm : (List.range' 0 (slots d)).map (slot d) = instruments d := by
    unfold instruments
    rw [List.range_eq_range']
    rfl
  unfold SBNK.load FileOk
  simp only [bind_eq_ok, raiseIf_iff, pyAssert_iff, stdHeader_iff, unpackStr_iff, unpack4, pure_eq_ok, Decidable.not_not]
  rw [← dropNones_eq]
  constructor
  · rintro ⟨_, h0, _, ⟨h1, rfl⟩, _, h2, _, h3, _, ⟨h4, rfl⟩, _, ⟨h5, rfl⟩, _, ⟨h6, rfl⟩, _, h7, _, h8, hidden, h9, rfl⟩
    rw [Nat.mul_comm (u32 d 56) 4] at h8
    obtain ⟨⟨h10, h11⟩, rfl⟩ := (loadTable_iff (by omega)).1 h8
    refine ⟨⟨h0, h3, h7, ?_, fun i hi => h11 i (List.mem_range'_1.2 ⟨by omega, ?_⟩)⟩, hidden, h9, ?_⟩
    · unfold slots; omega
    · unfold slots at hi; omega
    · rw [← hm]; rfl
  · rintro ⟨⟨h0, h3, h7, h10, h11⟩, hidden, h9, rfl⟩
    refine ⟨(), h0, _, ⟨by omega, rfl⟩, (), h0, (), h3, _, ⟨by omega, rfl⟩, _, ⟨by omega, rfl⟩, _, ⟨by omega, rfl⟩, (), h7,
      ((List.range' 0 (slots d)).map (slot d), unused d, found d (List.range' 0 (slots d))), ?_, hidden, h9, ?_⟩
    · rw [Nat.mul_comm (u32 d 56) 4]
      refine (loadTable_iff (by omega)).2 ⟨⟨?_, fun i hi => h11 i ?_⟩, rfl⟩
      · unfold slots at h10; omega
      · have := (List.mem_range'_1.1 hi).2
        unfold slots; omega
    · rw [← hm]

/-- C103: whatever is loaded from a file is what the file says: the wave archives without the `None`s at the end, the instrument in
each slot of the table, and instruments from bytes that the table does not mention, each in the dictionary under the slot whose
instrument is the last before it, no two with a byte in common. -/
theorem bank_load (choose : List Nat → Nat) (hc : ∀ l, l ≠ [] → choose l ∈ l) (d : Bytes) (unk02 : Nat) (wa : List (Option Int))
    (s : SBNK) (h : SBNK.load choose d unk02 wa = .ok s) :
    FileOk d ∧ s.unk02 = unk02 ∧ s.waveArchiveIDs = trimmed wa ∧ s.instruments = instruments d ∧
    (∀ p ∈ s.inaccessible, ∀ x ∈ p.2, FoundAfter d p.1 x) ∧ (s.inaccessible.flatMap (·.2)).Pairwise Apart := by
  obtain ⟨hf, hidden, hr, rfl⟩ := load_split.1 h
  refine ⟨hf, rfl, rfl, rfl, ?_⟩
  refine recover_found hc hf _ hr (fun x hx => mem_unused.1 hx) ?_ (by simp) (by simp) (by simp)
  exact List.Pairwise.filter _ List.pairwise_lt_range'

/-- C103: a file that has the bytes which its header says can be loaded exactly if it is all right. -/
theorem bank_loads_iff (choose : List Nat → Nat) (d : Bytes) (unk02 : Nat) (wa : List (Option Int)) (hl : u32 d 8 ≤ d.length) :
    (∃ s, SBNK.load choose d unk02 wa = .ok s) ↔ FileOk d := by
  constructor
  · rintro ⟨s, h⟩
    exact (load_split.1 h).1
  · intro hf
    obtain ⟨r, hr⟩ := Proofs.SoundBank.recover_ok (choose := choose) (d := d) (u32 d 8) ((List.range' 0 (slots d)).map (slot d))
      (found d (List.range' 0 (slots d))) (unused d).length (u := unused d) [] (Nat.le_refl _)
      (fun i hi => Nat.lt_of_lt_of_le (mem_unused.1 hi).2.1 hl)
    exact ⟨_, load_split.2 ⟨hf, r, hr, rfl⟩⟩

/-- C103: loading a file all of whose bytes belong to instruments of the table. -/
theorem bank_load_iff (choose : List Nat → Nat) (d : Bytes) (unk02 : Nat) (wa : List (Option Int)) (s : SBNK) (hcov : Covered d) :
    SBNK.load choose d unk02 wa = .ok s ↔ FileOk d ∧ s = ⟨unk02, trimmed wa, instruments d, []⟩ := by
  have hdp : dropPadding (u32 d 8) (unused d) = [] := by
    rcases hcov with h | ⟨h1, h2⟩
    · have : unused d = [] := List.eq_nil_iff_forall_not_mem.2 fun x hx => by
        obtain ⟨a, b, c⟩ := mem_unused.1 hx
        exact c (h x a b)
      rw [this]
      simp [dropPadding]
    · have hm : ∀ x, x ∈ unused d ↔ 0x3C + 4 * slots d ≤ x ∧ x < u32 d 8 ∧ u32 d 8 ≤ x + 2 := by
        intro x
        rw [mem_unused]
        constructor
        · rintro ⟨a, b, c⟩
          rw [h2 x a b] at c
          exact ⟨a, b, by omega⟩
        · rintro ⟨a, b, c⟩
          exact ⟨a, b, by rw [h2 x a b]; omega⟩
      unfold dropPadding
      rw [if_pos ⟨(hm _).2 (by omega), (hm _).2 (by omega), fun h => by have := (hm _).1 h; omega⟩, List.filter_eq_nil_iff]
      intro x hx
      have := (hm x).1 hx
      simp
      omega
  rw [load_split]
  constructor
  · rintro ⟨hf, hidden, hr, rfl⟩
    refine ⟨hf, ?_⟩
    cases hn : (unused d).length <;> rw [hn] at hr <;> unfold recover at hr <;> rw [hdp] at hr <;> cases hr <;> rfl
  · rintro ⟨hf, rfl⟩
    refine ⟨hf, [], ?_, rfl⟩
    cases hn : (unused d).length <;> unfold recover <;> rw [hdp]

/-! ## Examples -/

/-- A file in which the table mentions a single note and a regional instrument; between them is a range instrument. -/
def exHidden : Bytes :=
  [0x53, 0x42, 0x4E, 0x4B, 0xFF, 0xFE, 0, 1, 0x7C, 0, 0, 0, 0x10, 0, 1, 0] ++ [0x44, 0x41, 0x54, 0x41, 0x6C, 0, 0, 0] ++
  List.replicate 32 0 ++ [2, 0, 0, 0] ++ [1, 0x44, 0, 0] ++ [17, 0x68, 0, 0] ++
  [5, 0, 1, 0, 60, 127, 100, 127, 80, 64] ++
  [60, 61, 1, 0, 6, 0, 0, 0, 60, 127, 100, 127, 80, 64, 1, 0, 7, 0, 0, 0, 61, 127, 100, 127, 80, 64] ++
  [127, 0, 0, 0, 0, 0, 0, 0, 1, 0, 8, 0, 1, 0, 60, 127, 100, 127, 80, 64]

-- it is all right, and the instrument between the others is found
example : FileOk exHidden ∧ ((SBNK.load (fun l => l.headD 0) exHidden 0 [some 1, none, some 2, none]).toOption.map fun s =>
    (s.waveArchiveIDs, s.instruments.map (Option.map (·.orderKey)))) = some ([some 1, none, some 2], [some 0x44, some 0x68]) ∧
    ((SBNK.load (fun l => l.headD 0) exHidden 0 []).toOption.map fun s =>
      s.inaccessible.map fun p => (p.1, p.2.map fun x => (rankOf x.kind, x.orderKey))) = some [(some 0, [(1, 0x4E)])] := by
  refine ⟨⟨by decide +kernel, by decide +kernel, by decide +kernel, by decide +kernel, ?_⟩, by decide +kernel, by decide +kernel⟩
  have : slots exHidden = 2 := by decide +kernel
  rw [this]
  intro i hi
  have : i = 0 ∨ i = 1 := by omega
  rcases this with rfl | rfl <;> exact ⟨by decide +kernel, .inr (by decide +kernel)⟩

/-- A file in which two slots share a single note, with two bytes of padding at the end. -/
def exPlain : Bytes :=
  [0x53, 0x42, 0x4E, 0x4B, 0xFF, 0xFE, 0, 1, 0x50, 0, 0, 0, 0x10, 0, 1, 0] ++ [0x44, 0x41, 0x54, 0x41, 0x40, 0, 0, 0] ++
  List.replicate 32 0 ++ [2, 0, 0, 0] ++ [1, 0x44, 0, 0] ++ [2, 0x44, 0, 0] ++ [5, 0, 1, 0, 60, 127, 100, 127, 80, 64, 0, 0]

example : Covered exPlain ∧ FileOk exPlain ∧ (instruments exPlain).map (Option.map fun x => x.kind.type) = [some 1, some 2] := by
  have hs : slots exPlain = 2 := by decide +kernel
  have hu : u32 exPlain 8 = 0x50 := by decide +kernel
  refine ⟨.inr ⟨by decide +kernel, ?_⟩, ⟨by decide +kernel, by decide +kernel, by decide +kernel, by decide +kernel, ?_⟩,
    by decide +kernel⟩
  · rw [hs, hu]
    unfold Used
    rw [hs]
    intro x h1 h2
    have p0 : placeAt exPlain 0 = 0x44 := by decide +kernel
    have p1 : placeAt exPlain 1 = 0x44 := by decide +kernel
    have s0 : sizeAt exPlain (typeAt exPlain 0) 0x44 = 10 := by decide +kernel
    have s1 : sizeAt exPlain (typeAt exPlain 1) 0x44 = 10 := by decide +kernel
    constructor
    · rintro ⟨i, hi, ha, hb⟩
      have : i = 0 ∨ i = 1 := by omega
      rcases this with rfl | rfl
      · rw [p0, s0] at hb; omega
      · rw [p1, s1] at hb; omega
    · intro h
      exact ⟨0, by omega, by rw [p0]; omega, by rw [p0, s0]; omega⟩
  · rw [hs]
    intro i hi
    have : i = 0 ∨ i = 1 := by omega
    rcases this with rfl | rfl <;> exact ⟨by decide +kernel, .inr (by decide +kernel)⟩

end Verif.Props.FormatSbnk
