import Verif.Spec.FormatBmg
import Verif.Proofs.Reader
import Verif.Proofs.BmgMore

/-!
# Reading a BMG file, byte by byte
-/

namespace Verif.Proofs.FormatBmg

open Verif Verif.Model.Text Verif.Model.Bmg Verif.Spec.Reader Verif.Spec.FormatBmg Verif.Proofs.Reader Verif.Proofs.Bmg

/-! ## Numbers -/

theorem beVal_2 {d : Bytes} {o : Nat} (h : o + 2 ≤ d.length) : leVal (slice d o (o + 2)).reverse = e16 .big d o := by
  rw [slice_succ (by omega), slice_succ (by omega), slice_none]
  rw [e16, u8_eq (by omega), u8_eq (by omega)]
  simp [leVal]; omega

theorem beVal_4 {d : Bytes} {o : Nat} (h : o + 4 ≤ d.length) : leVal (slice d o (o + 4)).reverse = e32 .big d o := by
  rw [slice_succ (by omega), slice_succ (by omega), slice_succ (by omega), slice_succ (by omega), slice_none]
  rw [e32, u8_eq (by omega), u8_eq (by omega), u8_eq (by omega), u8_eq (by omega)]
  simp only [show o + 1 + 1 = o + 2 from rfl, show o + 2 + 1 = o + 3 from rfl, List.reverse_cons, List.reverse_nil, List.nil_append,
    List.cons_append, leVal]
  omega

theorem en1 {e : Endian} {d : Bytes} {o n : Nat} : unpackU e 1 d o = .ok n ↔ o + 1 ≤ d.length ∧ n = u8 d o := by
  cases e with
  | little => exact unpack1
  | big =>
    rw [← unpack1, unpackU_eq_ok, unpackU_eq_ok]
    refine and_congr_right fun h => ?_
    rw [slice_succ (by omega), slice_none]
    rfl

theorem en2 {e : Endian} {d : Bytes} {o n : Nat} : unpackU e 2 d o = .ok n ↔ o + 2 ≤ d.length ∧ n = e16 e d o := by
  cases e with
  | little => exact unpack2
  | big => rw [unpackU_eq_ok]; exact and_congr_right fun h => by rw [← beVal_2 h]; rfl

theorem en4 {e : Endian} {d : Bytes} {o n : Nat} : unpackU e 4 d o = .ok n ↔ o + 4 ≤ d.length ∧ n = e32 e d o := by
  cases e with
  | little => exact unpack4
  | big => rw [unpackU_eq_ok]; exact and_congr_right fun h => by rw [← beVal_4 h]; rfl

theorem e16_lt (e : Endian) (d : Bytes) (o : Nat) : e16 e d o < 65536 := by
  cases e with
  | little => exact u16_lt d o
  | big =>
    have := u8_lt d o
    have := u8_lt d (o + 1)
    rw [e16]
    omega

theorem enS1 {e : Endian} {d : Bytes} {o : Nat} {z : Int} : unpackS e 1 d o = .ok z ↔ o + 1 ≤ d.length ∧ z = s8 d o := by
  unfold unpackS
  simp only [bind_eq_ok, pure_eq_ok, en1]
  have := u8_lt d o
  constructor
  · rintro ⟨n, ⟨h, rfl⟩, rfl⟩
    refine ⟨h, ?_⟩
    unfold signedVal s8
    split <;> split <;> omega
  · rintro ⟨h, rfl⟩
    refine ⟨_, ⟨h, rfl⟩, ?_⟩
    unfold signedVal s8
    split <;> split <;> omega

theorem enS2 {e : Endian} {d : Bytes} {o : Nat} {z : Int} : unpackS e 2 d o = .ok z ↔ o + 2 ≤ d.length ∧ z = s16 e d o := by
  unfold unpackS
  simp only [bind_eq_ok, pure_eq_ok, en2]
  have := e16_lt e d o
  constructor
  · rintro ⟨n, ⟨h, rfl⟩, rfl⟩
    refine ⟨h, ?_⟩
    unfold signedVal s16
    split <;> split <;> omega
  · rintro ⟨h, rfl⟩
    refine ⟨_, ⟨h, rfl⟩, ?_⟩
    unfold signedVal s16
    split <;> split <;> omega

theorem fields224 {e : Endian} {d : Bytes} {o : Nat} {fs : List Nat} : unpackUs e [2, 2, 4] d o = .ok fs ↔
    o + 8 ≤ d.length ∧ fs = [e16 e d o, e16 e d (o + 2), e32 e d (o + 4)] := by
  simp only [unpackUs, bind_eq_ok, pure_eq_ok, en2, en4, Except.ok.injEq]
  constructor
  · rintro ⟨_, ⟨h1, rfl⟩, _, ⟨_, ⟨h2, rfl⟩, _, ⟨_, ⟨h3, rfl⟩, _, rfl, rfl⟩, rfl⟩, rfl⟩
    exact ⟨by omega, rfl⟩
  · rintro ⟨h, rfl⟩
    exact ⟨_, ⟨by omega, rfl⟩, _, ⟨_, ⟨by omega, rfl⟩, _, ⟨_, ⟨by omega, rfl⟩, _, rfl, rfl⟩, rfl⟩, rfl⟩

theorem fieldsHead {e : Endian} {d : Bytes} {o : Nat} {fs : List Nat} : unpackUs e [4, 4, 1, 4, 4, 4] d o = .ok fs ↔
    o + 21 ≤ d.length ∧ fs = [e32 e d o, e32 e d (o + 4), u8 d (o + 8), e32 e d (o + 9), e32 e d (o + 13), e32 e d (o + 17)] := by
  simp only [unpackUs, bind_eq_ok, pure_eq_ok, en1, en4, Except.ok.injEq]
  constructor
  · rintro ⟨_, ⟨h1, rfl⟩, _, ⟨_, ⟨h2, rfl⟩, _, ⟨_, ⟨h3, rfl⟩, _, ⟨_, ⟨h4, rfl⟩, _, ⟨_, ⟨h5, rfl⟩, _, ⟨_, ⟨h6, rfl⟩, _, rfl, rfl⟩, rfl⟩,
      rfl⟩, rfl⟩, rfl⟩, rfl⟩
    exact ⟨by omega, rfl⟩
  · rintro ⟨h, rfl⟩
    exact ⟨_, ⟨by omega, rfl⟩, _, ⟨_, ⟨by omega, rfl⟩, _, ⟨_, ⟨by omega, rfl⟩, _, ⟨_, ⟨by omega, rfl⟩, _, ⟨_, ⟨by omega, rfl⟩, _,
      ⟨_, ⟨by omega, rfl⟩, _, rfl, rfl⟩, rfl⟩, rfl⟩, rfl⟩, rfl⟩, rfl⟩

theorem fieldsScript {e : Endian} {d : Bytes} {o : Nat} {fs : List Nat} : unpackUs e [4, 2, 1, 1] d o = .ok fs ↔
    o + 8 ≤ d.length ∧ fs = [e32 e d o, e16 e d (o + 4), u8 d (o + 6), u8 d (o + 7)] := by
  simp only [unpackUs, bind_eq_ok, pure_eq_ok, en1, en2, en4, Except.ok.injEq]
  constructor
  · rintro ⟨_, ⟨h1, rfl⟩, _, ⟨_, ⟨h2, rfl⟩, _, ⟨_, ⟨h3, rfl⟩, _, ⟨_, ⟨h4, rfl⟩, _, rfl, rfl⟩, rfl⟩, rfl⟩, rfl⟩
    exact ⟨by omega, rfl⟩
  · rintro ⟨h, rfl⟩
    exact ⟨_, ⟨by omega, rfl⟩, _, ⟨_, ⟨by omega, rfl⟩, _, ⟨_, ⟨by omega, rfl⟩, _, ⟨_, ⟨by omega, rfl⟩, _, rfl, rfl⟩, rfl⟩, rfl⟩, rfl⟩

/-! ## Sections -/

/-- What a section adds. -/
def add (e : Endian) (d : Bytes) (r : Raw) (o : Nat) : Raw :=
  if bytesAt d o 4 = INF1 then { r with inf1 := r.inf1 ++ entries e d o, id := e32 e d (o + 12) }
  else if bytesAt d o 4 = DAT1 then { r with dat1 := span d (o + 8) (o + e32 e d (o + 4)) }
  else if bytesAt d o 4 = FLW1 then
    { r with instructions := r.instructions ++ instructionsAt e d o, labels := r.labels ++ labelsAt e d o }
  else { r with scripts := r.scripts ++ scriptsAt e d o }

theorem infEntry_iff {e : Endian} {d : Bytes} {o l i : Nat} {x : Nat × Bytes} : infEntry e d o l i = .ok x ↔
    o + 16 + i * l + 4 ≤ d.length ∧ x = (e32 e d (o + 16 + i * l), span d (o + 16 + i * l + 4) (o + 16 + (i + 1) * l)) := by
  unfold infEntry
  simp only [bind_eq_ok, pure_eq_ok, en4]
  rw [slice_span, Nat.succ_mul, ← Nat.add_assoc (o + 16)]
  constructor
  · rintro ⟨_, ⟨h, rfl⟩, rfl⟩; exact ⟨h, rfl⟩
  · rintro ⟨h, rfl⟩; exact ⟨_, ⟨h, rfl⟩, rfl⟩

theorem labelAt_iff {e : Endian} {d : Bytes} {a b i : Nat} {x : Int × Int} : labelAt e d a b i = .ok x ↔
    (a + i * 2 + 2 ≤ d.length ∧ b + i + 1 ≤ d.length) ∧ x = (s8 d (b + i), s16 e d (a + 2 * i)) := by
  unfold labelAt
  simp only [bind_eq_ok, pure_eq_ok, enS1, enS2]
  rw [Nat.mul_comm 2 i]
  constructor
  · rintro ⟨_, ⟨h, rfl⟩, _, ⟨h', rfl⟩, rfl⟩; exact ⟨⟨h, h'⟩, rfl⟩
  · rintro ⟨⟨h, h'⟩, rfl⟩; exact ⟨_, ⟨h, rfl⟩, _, ⟨h', rfl⟩, rfl⟩

theorem scriptAt_iff {e : Endian} {d : Bytes} {o i : Nat} {x : Nat × Nat} : scriptAt e d o i = .ok x ↔
    o + 16 + i * 8 + 8 ≤ d.length ∧ x = (e32 e d (o + 16 + 8 * i), e16 e d (o + 16 + 8 * i + 4)) := by
  unfold scriptAt
  simp only [bind_eq_ok, fieldsScript]
  rw [Nat.mul_comm 8 i]
  constructor
  · rintro ⟨_, ⟨h, rfl⟩, h'⟩; exact ⟨h, (pure_eq_ok.1 h').symm⟩
  · rintro ⟨h, rfl⟩; exact ⟨_, ⟨h, rfl⟩, rfl⟩

theorem parseINF1_iff {e : Endian} {d : Bytes} {o : Nat} {r r' : Raw} : parseINF1 e d o r = .ok r' ↔
    (o + 16 ≤ d.length ∧ ∀ i < e16 e d (o + 8), o + 16 + i * e16 e d (o + 10) + 4 ≤ d.length) ∧
      r' = { r with inf1 := r.inf1 ++ entries e d o, id := e32 e d (o + 12) } := by
  unfold parseINF1
  simp only [bind_eq_ok, fields224]
  constructor
  · rintro ⟨_, ⟨h, rfl⟩, h'⟩
    simp only [bind_eq_ok, pure_eq_ok] at h'
    obtain ⟨es, he, rfl⟩ := h'
    rw [mapE_eq_map (fun _ _ => infEntry_iff)] at he
    exact ⟨⟨h, fun i hi => he.1 i (List.mem_range.2 hi)⟩, by rw [he.2]; rfl⟩
  · rintro ⟨⟨h, h1⟩, rfl⟩
    refine ⟨_, ⟨h, rfl⟩, ?_⟩
    simp only [bind_eq_ok, pure_eq_ok]
    exact ⟨_, (mapE_eq_map (fun _ _ => infEntry_iff) _ _).2 ⟨fun i hi => h1 i (List.mem_range.1 hi), rfl⟩, rfl⟩

theorem parseFLI1_iff {e : Endian} {d : Bytes} {o : Nat} {r r' : Raw} : parseFLI1 e d o r = .ok r' ↔
    (o + 16 + 8 * e16 e d (o + 8) ≤ d.length ∧ e16 e d (o + 10) = 8) ∧ r' = { r with scripts := r.scripts ++ scriptsAt e d o } := by
  unfold parseFLI1
  simp only [bind_eq_ok, fields224]
  constructor
  · rintro ⟨_, ⟨h, rfl⟩, h'⟩
    simp only [bind_eq_ok, pure_eq_ok, pyAssert_iff] at h'
    obtain ⟨_, h8, es, he, rfl⟩ := h'
    rw [mapE_eq_map (fun _ _ => scriptAt_iff), records_end (by omega)] at he
    exact ⟨⟨he.1, h8⟩, by rw [he.2]; rfl⟩
  · rintro ⟨⟨h, h1⟩, rfl⟩
    refine ⟨_, ⟨by omega, rfl⟩, ?_⟩
    simp only [bind_eq_ok, pure_eq_ok, pyAssert_iff]
    exact ⟨(), h1, _, (mapE_eq_map (fun _ _ => scriptAt_iff) _ _).2 ⟨(records_end (by omega)).2 h, rfl⟩, rfl⟩

theorem labels_end {n s len : Nat} : (∀ i ∈ List.range n, s + i * 2 + 2 ≤ len ∧ s + n * 2 + i + 1 ≤ len) ↔
    n = 0 ∨ s + 3 * n ≤ len := by
  constructor
  · intro h
    cases n with
    | zero => exact .inl rfl
    | succ n => have := (h n (by simp)).2; exact .inr (by omega)
  · intro h i hi
    have := List.mem_range.1 hi
    omega

theorem filter_congr_iff {α : Type _} {p q : α → Prop} [DecidablePred p] [DecidablePred q] (h : ∀ a, p a ↔ q a) (l : List α) :
    l.filter (fun a => decide (p a)) = l.filter (fun a => decide (q a)) := by
  congr 1
  funext a
  simp [h a]

theorem parseFLW1_iff {e : Endian} {d : Bytes} {o : Nat} {r r' : Raw} : parseFLW1 e d o r = .ok r' ↔
    (o + 16 ≤ d.length ∧ (e16 e d (o + 10) = 0 ∨ o + 16 + 8 * e16 e d (o + 8) + 3 * e16 e d (o + 10) ≤ d.length)) ∧
      r' = { r with instructions := r.instructions ++ instructionsAt e d o, labels := r.labels ++ labelsAt e d o } := by
  have hc : (List.map (fun i => slice d (o + 16 + i * 8) (o + 16 + i * 8 + 8)) (List.range (e16 e d (o + 8)))).filter
      (fun cmd => decide (cmd ≠ zeros 8)) = instructionsAt e d o := by
    unfold instructionsAt
    congr 1
    apply List.map_congr_left
    intro i _
    rw [slice_bytesAt, Nat.mul_comm i 8]
  have hl : ∀ l : List (Int × Int), l.filter (fun l => decide (l.1 ≠ 0 ∨ l.2 ≠ 0)) = l.filter (fun l => decide (l ≠ (0, 0))) :=
    filter_congr_iff fun a => by
      rw [Ne, Ne, Ne, Prod.ext_iff]
      constructor
      · rintro (h | h) h'
        · exact h h'.1
        · exact h h'.2
      · intro h
        by_cases h1 : a.1 = 0
        · exact .inr fun h2 => h ⟨h1, h2⟩
        · exact .inl h1
  unfold parseFLW1
  simp only [bind_eq_ok, fields224]
  constructor
  · rintro ⟨_, ⟨h, rfl⟩, h'⟩
    simp only [bind_eq_ok, pure_eq_ok] at h'
    obtain ⟨es, he, rfl⟩ := h'
    rw [mapE_eq_map (fun _ _ => labelAt_iff), labels_end] at he
    refine ⟨⟨h, ?_⟩, ?_⟩
    · rw [Nat.mul_comm 8]; exact he.1
    · rw [show o + 8 = o + 8 from rfl, hc, hl, he.2]
      unfold labelsAt
      rw [Nat.mul_comm 8, Nat.mul_comm 2]
  · rintro ⟨⟨h, h1⟩, rfl⟩
    refine ⟨_, ⟨h, rfl⟩, ?_⟩
    simp only [bind_eq_ok, pure_eq_ok]
    refine ⟨_, (mapE_eq_map (fun _ _ => labelAt_iff) _ _).2 ⟨labels_end.2 ?_, rfl⟩, ?_⟩
    · rw [Nat.mul_comm 8] at h1; exact h1
    · rw [show o + 8 = o + 8 from rfl, hc, hl]
      unfold labelsAt
      rw [Nat.mul_comm 8, Nat.mul_comm 2]

theorem parseSection_iff {e : Endian} {d : Bytes} {o : Nat} {r r' : Raw} (h : o + 8 ≤ d.length) :
    parseSection e d o (bytesAt d o 4) (e32 e d (o + 4)) r = .ok r' ↔ SectionOk e d o ∧ r' = add e d r o := by
  have h1 : DAT1 ≠ INF1 := by decide
  have h2 : FLW1 ≠ INF1 := by decide
  have h3 : FLW1 ≠ DAT1 := by decide
  have h4 : FLI1 ≠ INF1 := by decide
  have h5 : FLI1 ≠ DAT1 := by decide
  have h6 : FLI1 ≠ FLW1 := by decide
  unfold parseSection add SectionOk
  rw [show magicINF1 = INF1 from rfl, show magicDAT1 = DAT1 from rfl, show magicFLW1 = FLW1 from rfl, show magicFLI1 = FLI1 from rfl]
  by_cases c1 : bytesAt d o 4 = INF1
  · rw [if_pos c1, if_pos c1, parseINF1_iff]
    simp [c1, h, h1.symm, h2.symm, h4.symm]
  · rw [if_neg c1, if_neg c1]
    by_cases c2 : bytesAt d o 4 = DAT1
    · rw [if_pos c2, if_pos c2, slice_span, Except.ok.injEq]
      simp [c2, h, eq_comm]
    · rw [if_neg c2, if_neg c2]
      by_cases c3 : bytesAt d o 4 = FLW1
      · rw [if_pos c3, if_pos c3, parseFLW1_iff]
        simp [c3, h, h2, h3, h6.symm]
      · rw [if_neg c3, if_neg c3]
        by_cases c4 : bytesAt d o 4 = FLI1
        · rw [if_pos c4, parseFLI1_iff]
          simp [c4, h, h4, h5, h6]
        · rw [if_neg c4]
          simp [c1, c2, c3, c4]

theorem parseSections_iff {e : Endian} {d : Bytes} : ∀ {n o : Nat} {r r' : Raw}, parseSections e d n o r = .ok r' ↔
    (∀ p ∈ places e d n o, SectionOk e d p) ∧ r' = (places e d n o).foldl (add e d) r
  | 0, o, r, r' => by simp [parseSections, places, eq_comm]
  | n + 1, o, r, r' => by
    rw [parseSections]
    simp only [bind_eq_ok, unpackStr_iff, en4, places, List.mem_cons, forall_eq_or_imp, List.foldl_cons]
    constructor
    · rintro ⟨_, ⟨h1, rfl⟩, _, ⟨h2, rfl⟩, r1, h3, h4⟩
      rw [parseSection_iff (by omega)] at h3
      rw [parseSections_iff, h3.2] at h4
      exact ⟨⟨h3.1, h4.1⟩, h4.2⟩
    · rintro ⟨⟨h1, h2⟩, rfl⟩
      have := h1.1
      exact ⟨_, ⟨by omega, rfl⟩, _, ⟨by omega, rfl⟩, _, (parseSection_iff h1.1).2 ⟨h1, rfl⟩, parseSections_iff.2 ⟨h2, rfl⟩⟩

/-- The value for the last element. -/
def lastD {α β : Type _} (f : α → β) (x : β) (l : List α) : β :=
  match l.getLast? with
  | none => x
  | some o => f o

theorem lastD_cons {α β : Type _} (f : α → β) (x : β) (a : α) (l : List α) : lastD f x (a :: l) = lastD f (f a) l := by
  unfold lastD
  rw [List.getLast?_cons]
  cases l.getLast? <;> rfl

theorem foldl_add {e : Endian} {d : Bytes} : ∀ (l : List Nat) (r : Raw), (∀ p ∈ l, SectionOk e d p) → l.foldl (add e d) r =
    ⟨r.inf1 ++ (named d INF1 l).flatMap (entries e d), lastD (fun o => span d (o + 8) (o + e32 e d (o + 4))) r.dat1 (named d DAT1 l),
      r.instructions ++ (named d FLW1 l).flatMap (instructionsAt e d), r.labels ++ (named d FLW1 l).flatMap (labelsAt e d),
      r.scripts ++ (named d FLI1 l).flatMap (scriptsAt e d), lastD (fun o => e32 e d (o + 12)) r.id (named d INF1 l)⟩
  | [], r, _ => by simp [named, lastD]
  | o :: l, r, h => by
    have h1 : DAT1 ≠ INF1 := by decide
    have h2 : FLW1 ≠ INF1 := by decide
    have h3 : FLW1 ≠ DAT1 := by decide
    have h4 : FLI1 ≠ INF1 := by decide
    have h5 : FLI1 ≠ DAT1 := by decide
    have h6 : FLI1 ≠ FLW1 := by decide
    rw [List.foldl_cons, foldl_add l _ fun p hp => h p (by simp [hp])]
    have hn : ∀ m, named d m (o :: l) = if bytesAt d o 4 = m then o :: named d m l else named d m l := by
      intro m
      unfold named
      rw [List.filter_cons]
      simp
    rw [hn, hn, hn, hn]
    unfold add
    rcases (h o (by simp)).2 with c | c | c | c
    · simp [c.1, h1.symm, h2.symm, h4.symm, lastD_cons]
    · simp [c, h1, h3.symm, h5.symm, lastD_cons]
    · simp [c.1, h2, h3, h6.symm]
    · simp [c.1, h4, h5, h6]

/-! ## Messages -/

theorem flush_self (c : Codec) (dat : Bytes) (o : Nat) (acc : List Part) : flush c dat o o acc = .ok acc := by
  unfold flush
  rw [if_neg (fun h => h.2 rfl)]

/-- Reading in front of a special unit: the text so far, then the rest. -/
theorem readParts_flush {c : Codec} {dat : Bytes} {f start o : Nat} {acc : List Part} (hf : 0 < f)
    (h : slice dat o (o + c.null.length) = c.null ∨ slice dat o (o + c.null.length) = c.sub) :
    readParts c dat f start o acc = (flush c dat start o acc >>= fun a => readParts c dat f o o a) := by
  obtain ⟨f, rfl⟩ : ∃ g, f = g + 1 := ⟨f - 1, by omega⟩
  cases hfl : flush c dat start o acc with
  | error e =>
    rw [bind_error, readParts]
    split
    · rw [hfl, bind_error]
    · rw [if_pos (h.resolve_left (by assumption)), hfl, bind_error]
  | ok a =>
    rw [bind_ok, readParts, readParts, hfl, bind_ok, bind_ok, flush_self, bind_ok, bind_ok]
    by_cases h0 : slice dat o (o + c.null.length) = c.null
    · rw [if_pos h0, if_pos h0]
    · rw [if_neg h0, if_neg h0, if_pos (h.resolve_left h0), if_pos (h.resolve_left h0)]

theorem run_skip {c : Codec} {dat : Bytes} : ∀ {n f start o : Nat} {acc : List Part}, Run c.null c.sub dat o n →
    readParts c dat (f + n) start o acc = readParts c dat f start (o + n * c.null.length) acc
  | 0, f, start, o, acc, _ => by simp
  | n + 1, f, start, o, acc, h => by
    have h0 := h 0 (by omega)
    simp only [Nat.zero_mul, Nat.add_zero, ← slice_bytesAt] at h0
    rw [show f + (n + 1) = (f + n) + 1 from rfl, readParts, if_neg h0.1, if_neg h0.2, run_skip]
    · congr 1
      rw [Nat.succ_mul]; omega
    · intro k hk
      have := h (k + 1) (by omega)
      rw [Nat.succ_mul] at this
      rw [show o + c.null.length + k * c.null.length = o + (k * c.null.length + c.null.length) by omega]
      exact this

theorem head_iff {c : Codec} {dat : Bytes} {o : Nat} {h : Nat × Nat} : escapeHead c dat o = .ok h ↔
    o + c.sub.length + 2 ≤ dat.length ∧ h = (u8 dat (o + c.sub.length), u8 dat (o + c.sub.length + 1)) := by
  constructor
  · intro he
    obtain ⟨l, t, hs, rfl⟩ := escapeHead_eq he
    have hl := congrArg List.length hs
    rw [slice_length] at hl
    simp only [List.length_cons, List.length_nil] at hl
    have hb : o + c.sub.length + 2 ≤ dat.length := by omega
    refine ⟨hb, ?_⟩
    rw [slice_succ (by omega), slice_succ (by omega), slice_none] at hs
    injection hs with h1 hs
    injection hs with h2 _
    rw [u8_eq (by omega), u8_eq (by omega), h1, h2]
  · rintro ⟨hb, rfl⟩
    rw [escapeHead_of (l := dat[o + c.sub.length]) (t := dat[o + c.sub.length + 1])]
    · rw [u8_eq (by omega), u8_eq (by omega)]
    · rw [slice_succ (by omega), slice_succ (by omega), slice_none]

theorem message_read {c : Codec} (C : Shape c) (hne : c.null ≠ c.sub) {dat : Bytes} {o q : Nat} {ps : List Part}
    (h : MessageAt c.null c.sub c.dec dat o ps q) : ∃ f, 0 < f ∧ ∀ acc, readParts c dat f o o acc = .ok (acc ++ ps, q) := by
  induction h with
  | @done o h0 =>
    refine ⟨1, by omega, fun acc => ?_⟩
    rw [← slice_bytesAt] at h0
    rw [readParts, if_pos h0, flush_self, bind_ok]
    simp [pure_eq_ok]
  | @text o n s ps q ho hn hr hu hd _ ih =>
    obtain ⟨f, hf, ih⟩ := ih
    refine ⟨f + n, by omega, fun acc => ?_⟩
    rw [run_skip hr, readParts_flush hf (by rw [slice_bytesAt]; exact hu)]
    have hp : 0 < n * c.null.length := Nat.mul_pos hn C.pos
    unfold flush
    rw [if_pos ⟨ho, by omega⟩, slice_span, hd, bind_ok, pure_eq_ok.2 rfl, bind_ok, ih]
    simp
  | @ignored n ps q hn hr hu _ ih =>
    obtain ⟨f, hf, ih⟩ := ih
    refine ⟨f + n, by omega, fun acc => ?_⟩
    rw [run_skip hr, Nat.zero_add, readParts_flush hf (by rw [slice_bytesAt]; exact hu)]
    unfold flush
    rw [if_neg (fun h => h.1 rfl), bind_ok, ih]
  | @escape o ps q hu hb _ ih =>
    obtain ⟨f, hf, ih⟩ := ih
    refine ⟨f + 1, by omega, fun acc => ?_⟩
    rw [← slice_bytesAt] at hu
    rw [readParts]
    by_cases h0 : slice dat o (o + c.null.length) = c.null
    · exact absurd (h0.symm.trans hu) hne
    · rw [if_neg h0, if_pos hu, flush_self, bind_ok, head_iff.2 ⟨by rw [C.sub_len]; exact hb, rfl⟩, bind_ok, slice_span, C.sub_len]
      dsimp only
      rw [ih]
      simp

/-- The text up to a special unit in front of the rest of a message. -/
theorem flush_message {c : Codec} (C : Shape c) {dat : Bytes} {start k q : Nat} {acc acc' ps : List Part}
    (hr : Run c.null c.sub dat start k) (hu : bytesAt dat (start + k * c.null.length) c.null.length = c.null ∨
      bytesAt dat (start + k * c.null.length) c.null.length = c.sub)
    (hf : flush c dat start (start + k * c.null.length) acc = .ok acc')
    (hm : MessageAt c.null c.sub c.dec dat (start + k * c.null.length) ps q) :
    ∃ ps', acc' ++ ps = acc ++ ps' ∧ MessageAt c.null c.sub c.dec dat start ps' q := by
  unfold flush at hf
  rcases Nat.eq_zero_or_pos k with rfl | hk
  · rw [Nat.zero_mul, Nat.add_zero] at *
    rw [if_neg (fun h => h.2 rfl)] at hf
    cases hf
    exact ⟨ps, rfl, hm⟩
  · have hp : 0 < k * c.null.length := Nat.mul_pos hk C.pos
    by_cases h0 : start = 0
    · subst h0
      rw [if_neg (fun h => h.1 rfl)] at hf
      cases hf
      rw [Nat.zero_add] at hu hm
      exact ⟨ps, rfl, .ignored hk hr hu hm⟩
    · rw [if_pos ⟨h0, by omega⟩, slice_span] at hf
      obtain ⟨s, hs, hf⟩ := bind_eq_ok.1 hf
      cases pure_eq_ok.1 hf
      exact ⟨.text s :: ps, by simp, .text h0 hk hr hu hs hm⟩

theorem read_message {c : Codec} (C : Shape c) {dat : Bytes} : ∀ {f start k q : Nat} {acc ps : List Part},
    Run c.null c.sub dat start k → readParts c dat f start (start + k * c.null.length) acc = .ok (ps, q) →
    ∃ ps', ps = acc ++ ps' ∧ MessageAt c.null c.sub c.dec dat start ps' q
  | 0, _, _, _, _, _, _, h => by cases h
  | f + 1, start, k, q, acc, ps, hr, h => by
    rw [readParts, slice_bytesAt] at h
    split at h
    · rename_i h0
      obtain ⟨acc', hf, h⟩ := bind_eq_ok.1 h
      cases pure_eq_ok.1 h
      obtain ⟨ps', h1, h2⟩ := flush_message C hr (.inl h0) hf (.done h0)
      rw [List.append_nil] at h1
      exact ⟨ps', h1, h2⟩
    · rename_i h0
      split at h
      · rename_i h1
        obtain ⟨acc', hf, h⟩ := bind_eq_ok.1 h
        obtain ⟨x, hx, h⟩ := bind_eq_ok.1 h
        rw [head_iff, C.sub_len] at hx
        obtain ⟨hb, rfl⟩ := hx
        dsimp only at h
        rw [slice_span, C.sub_len] at h
        obtain ⟨ps1, rfl, hm⟩ := read_message C (k := 0) (fun _ hk => by omega) (by rw [Nat.zero_mul, Nat.add_zero]; exact h)
        obtain ⟨ps', h3, h4⟩ := flush_message C hr (.inr h1) hf (.escape h1 hb hm)
        exact ⟨ps', by rw [← h3]; simp, h4⟩
      · rename_i h1
        refine read_message C (k := k + 1) ?_ (by rw [Nat.succ_mul, ← Nat.add_assoc]; exact h)
        intro j hj
        rcases Nat.lt_or_ge j k with h' | h'
        · exact hr j h'
        · obtain rfl : j = k := by omega
          exact ⟨h0, h1⟩

/-- More rounds do not change a result. -/
theorem readParts_mono {c : Codec} {dat : Bytes} : ∀ {f start o : Nat} {acc : List Part} {x : List Part × Nat},
    readParts c dat f start o acc = .ok x → ∀ k, readParts c dat (f + k) start o acc = .ok x
  | 0, _, _, _, _, h, _ => by cases h
  | f + 1, start, o, acc, x, h, k => by
    rw [readParts] at h
    rw [show f + 1 + k = (f + k) + 1 by omega, readParts]
    split
    · rename_i h0; rwa [if_pos h0] at h
    · rename_i h0
      rw [if_neg h0] at h
      split
      · rename_i h1
        rw [if_pos h1] at h
        obtain ⟨a, ha, h⟩ := bind_eq_ok.1 h
        obtain ⟨y, hy, h⟩ := bind_eq_ok.1 h
        rw [ha, bind_ok, hy, bind_ok]
        exact readParts_mono h k
      · rename_i h1
        rw [if_neg h1] at h
        exact readParts_mono h k

theorem readParts_iff {c : Codec} (C : Shape c) (hne : c.null ≠ c.sub) {dat : Bytes} {f o q : Nat} {ps : List Part} (hf : dat.length < f) :
    readParts c dat f o o [] = .ok (ps, q) ↔ MessageAt c.null c.sub c.dec dat o ps q := by
  constructor
  · intro h
    obtain ⟨ps', rfl, hm⟩ := read_message C (k := 0) (fun _ hk => by omega) (by rw [Nat.zero_mul, Nat.add_zero]; exact h)
    exact hm
  · intro h
    obtain ⟨g, -, hg⟩ := message_read C hne h
    have hg := hg []
    have : readParts c dat (g + (dat.length + 1)) o o [] = .ok (ps, q) := readParts_mono hg _
    rw [readParts_more C dat.length f (g + (dat.length + 1)) o o [] (by omega) hf (by omega)]
    exact this

end Verif.Proofs.FormatBmg
