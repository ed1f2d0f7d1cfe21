import Verif.Proofs.LzAny

/-!
# Decompressing any data (C110)
-/

namespace Verif.Props.LzAny

open Verif Verif.Model Verif.Spec.LZ Verif.Spec.Reader Verif.Proofs.LzAny Verif.Proofs.Reader

/-! ## LZ10 -/

/-- C110: `lz10.decompress` succeeds with `out` on any byte string if and only if that is what the stream means: the magic
byte, the length in the next three bytes, and blocks of a flag byte and eight items.  References to before the start and
references beyond the length declared have the meaning given in the specification; everything else raises. -/
theorem lz10_decompress_any (data out : Bytes) : Lz10.decompress data = .ok out ↔ Lz10Means data out :=
  lz10_means data out

/-- A literal, then a reference that overlaps itself and is cut off at the length declared. -/
example : Lz10Means [0x10, 4, 0, 0, 0x40, 7, 0xF0, 0x00, 99] [7, 7, 7, 7] := by
  refine ⟨by decide, by decide, ?_⟩
  decide +kernel

/-- A reference that comes round to what is already there: five bytes back from place 2 in an output of four is place 1. -/
example : Lz10Means [0x10, 4, 0, 0, 0x20, 7, 8, 0x00, 0x04] [7, 8, 8, 8] := by
  refine ⟨by decide, by decide, ?_⟩
  decide +kernel

theorem decode_append {n extra : Nat} {ref : Nat → Nat → Bytes → Option Bytes} (J : Bytes) :
    ∀ (l : Nat) (R : Bytes) (k fl : Nat) (out o : Bytes), R.length ≤ l →
      decode n extra ref k fl R out = some o → decode n extra ref k fl (R ++ J) out = some o := by
  intro l
  induction l using Nat.strongRecOn with
  | ind l ih =>
  intro R k fl out o hR h
  by_cases hn : n ≤ out.length
  · rw [read_full hn] at h ⊢; exact h
  · match R, k with
    | [], k => simp [decode, hn] at h
    | b :: R, 0 =>
      rw [decode_zero, if_neg hn] at h
      simp only [List.length_cons] at hR
      rw [List.cons_append, decode_zero, if_neg hn]
      exact ih (l - 1) (by omega) R _ _ _ _ (by omega) h
    | b :: R, k + 1 =>
      rw [decode_succ, if_neg hn] at h
      simp only [List.length_cons] at hR
      rw [List.cons_append, decode_succ, if_neg hn]
      by_cases hf : fl / 2 ^ k % 2 = 0
      · rw [if_pos hf] at h ⊢
        exact ih (l - 1) (by omega) R _ _ _ _ (by omega) h
      · rw [if_neg hf] at h ⊢
        match R with
        | [] => cases h
        | b' :: R =>
          simp only [List.length_cons] at hR
          dsimp only [List.cons_append] at h ⊢
          cases hw : ref (b.toNat / 16 + 3) (b.toNat % 16 * 256 + b'.toNat + extra) out with
          | none => rw [hw] at h; cases h
          | some out' =>
            rw [hw] at h
            exact ih (l - 2) (by omega) R _ _ _ _ (by omega) h

/-- Anything may follow an LZ10 file: what decompresses still gives the same with further bytes behind it. -/
theorem lz10_decompress_trailing (data out junk : Bytes) (h : Lz10.decompress data = .ok out) :
    Lz10.decompress (data ++ junk) = .ok out := by
  rw [lz10_means] at h ⊢
  obtain ⟨h1, h2, h3⟩ := h
  have e (i : Nat) (hi : i < 4) : u8 (data ++ junk) i = u8 data i := by
    unfold u8; rw [List.getElem?_append_left (by omega)]
  have e24 : u24 (data ++ junk) 1 = u24 data 1 := by
    simp only [u24]; rw [e 1 (by omega), e (1 + 1) (by omega), e (1 + 2) (by omega)]
  refine ⟨by simp; omega, by rw [e 0 (by omega)]; exact h2, ?_⟩
  rw [e24, List.drop_append_of_le_length h1]
  exact decode_append junk _ _ _ _ _ _ (Nat.le_refl _) h3

example : Lz10.decompress [0x10, 4, 0, 0, 0x40, 7, 0x10, 0x00] = .ok [7, 7, 7, 7] := by decide +kernel

/-! ## Code compression -/

theorem word_split (d : Bytes) (o : Nat) : u32 d o / 2 ^ 24 = u8 d (o + 3) ∧ u32 d o % 2 ^ 24 = u24 d o := by
  have h0 := u8_lt d o
  have h1 := u8_lt d (o + 1)
  have h2 := u8_lt d (o + 2)
  simp only [u32, u24]
  omega

instance (data : Bytes) (k : Nat) : Decidable (FooterAt data k) := by unfold FooterAt; infer_instance

theorem detectLoop_one (data : Bytes) (k : Nat) (ks : List Nat) :
    CodeCompression.detectLoop data (4 * k :: ks) =
      if data.length < 4 * k + 5 then .ok none
      else if data.length < 4 * k + 8 then .error .structError
      else if FooterAt data k then .ok (some (4 * k)) else CodeCompression.detectLoop data ks := by
  by_cases h1 : data.length < 4 * k + 5
  · rw [if_pos h1, Proofs.CodeCompression.detectLoop_short _ _ _ h1]
  · rw [if_neg h1]
    by_cases h2 : data.length < 4 * k + 8
    · rw [if_pos h2, Proofs.CodeCompression.detectLoop_bad _ _ _ (by omega) h2]
    · rw [if_neg h2, Proofs.CodeCompression.detectLoop_step _ _ _ (by omega)]
      have hw : leVal (slice data (data.length - 4 * k - 8) (data.length - 4 * k - 4)) = u32 data (data.length - 4 * k - 8) := by
        have := leVal_4 (d := data) (o := data.length - 4 * k - 8) (by omega)
        rw [← this]
        congr 2; omega
      obtain ⟨w1, w2⟩ := word_split data (data.length - 4 * k - 8)
      have e : data.length - 4 * k - 8 + 3 = data.length - 4 * k - 5 := by omega
      rw [e] at w1
      dsimp only
      rw [hw, w1, w2]
      by_cases hf : FooterAt data k
      · rw [if_pos hf]
        obtain ⟨_, f1, f2⟩ := hf
        rw [if_neg (by omega)]
      · rw [if_neg hf]
        have : ¬ (8 ≤ u8 data (data.length - 4 * k - 5) ∧ u24 data (data.length - 4 * k - 8) ≤ data.length) :=
          fun h => hf ⟨by omega, h.1, h.2⟩
        rw [if_pos (by omega)]

theorem detect_from (data : Bytes) : ∀ (m k : Nat),
    (∀ r, CodeCompression.detectLoop data ((List.range' k m).map (4 * ·)) = .ok (some r) ↔
      ∃ j, k ≤ j ∧ j < k + m ∧ r = 4 * j ∧ FooterAt data j ∧ ∀ i, k ≤ i → i < j → ¬ FooterAt data i) ∧
    (CodeCompression.detectLoop data ((List.range' k m).map (4 * ·)) = .ok none ↔
      (∀ i, k ≤ i → i < k + m → ¬ FooterAt data i ∧ ¬ (4 * i + 5 ≤ data.length ∧ data.length < 4 * i + 8)))
  | 0, k => by
    rw [show CodeCompression.detectLoop data ((List.range' k 0).map (4 * ·)) = .ok none from rfl]
    refine ⟨fun r => ⟨fun h => (by cases h), ?_⟩, ⟨fun _ i h1 h2 => by omega, fun _ => rfl⟩⟩
    rintro ⟨j, h1, h2, _⟩; omega
  | m + 1, k => by
    obtain ⟨ih1, ih2⟩ := detect_from data m (k + 1)
    rw [List.range'_succ, List.map_cons, detectLoop_one]
    by_cases h1 : data.length < 4 * k + 5
    · rw [if_pos h1]
      refine ⟨fun r => ⟨fun h => (by cases h), ?_⟩, ⟨fun _ i a b => ⟨fun f => by have := f.1; omega, by omega⟩, fun _ => rfl⟩⟩
      rintro ⟨j, a, b, rfl, f, _⟩
      have := f.1; omega
    · rw [if_neg h1]
      by_cases h2 : data.length < 4 * k + 8
      · rw [if_pos h2]
        refine ⟨fun r => ⟨fun h => (by cases h), ?_⟩, ⟨fun h => (by cases h), fun h => ?_⟩⟩
        · rintro ⟨j, a, b, rfl, f, _⟩
          have := f.1; omega
        · exact absurd ⟨by omega, h2⟩ (h k (by omega) (by omega)).2
      · rw [if_neg h2]
        by_cases hf : FooterAt data k
        · rw [if_pos hf]
          refine ⟨fun r => ⟨fun h => ?_, ?_⟩, ⟨fun h => (by cases h), fun h => absurd hf (h k (by omega) (by omega)).1⟩⟩
          · cases h
            exact ⟨k, by omega, by omega, rfl, hf, fun i a b => by omega⟩
          · rintro ⟨j, a, b, rfl, f, hno⟩
            rcases Nat.lt_or_eq_of_le a with a | rfl
            · exact absurd hf (hno k (Nat.le_refl _) a)
            · rfl
        · rw [if_neg hf]
          refine ⟨fun r => (ih1 r).trans ⟨?_, ?_⟩, ih2.trans ⟨fun h i a b => ?_, fun h i a b => h i (by omega) (by omega)⟩⟩
          · rintro ⟨j, a, b, rfl, f, hno⟩
            refine ⟨j, by omega, by omega, rfl, f, fun i c d => ?_⟩
            rcases Nat.lt_or_eq_of_le c with c | rfl
            · exact hno i (by omega) d
            · exact hf
          · rintro ⟨j, a, b, rfl, f, hno⟩
            refine ⟨j, ?_, by omega, rfl, f, fun i c d => hno i (by omega) d⟩
            rcases Nat.lt_or_eq_of_le a with a | rfl
            · omega
            · exact absurd f hf
          · rcases Nat.lt_or_eq_of_le a with a | rfl
            · exact h i (by omega) (by omega)
            · exact ⟨hf, by omega⟩

theorem u8_of_get {d : Bytes} {i : Nat} {b : UInt8} (h : d[i]? = some b) : u8 d i = b.toNat := by
  unfold u8; rw [h]; rfl

theorem core_any (d app out : Bytes) (h8 : 8 ≤ d.length) (hh : 8 ≤ u8 d (d.length - 5)) :
    CodeCompression.decompressCore d app = .ok out ↔ CodeMeans d app out := by
  unfold CodeCompression.decompressCore CodeMeans
  dsimp only
  have hz : d.drop (d.length - 4) = [0, 0, 0, 0] ↔ u32 d (d.length - 4) = 0 := by
    obtain ⟨a, b, c, e, he⟩ : ∃ a b c e, d.drop (d.length - 4) = [a, b, c, e] := by
      have hl : (d.drop (d.length - 4)).length = 4 := by simp; omega
      match hd : d.drop (d.length - 4) with
      | [] | [_] | [_, _] | [_, _, _] | _ :: _ :: _ :: _ :: _ :: _ => rw [hd] at hl; simp at hl
      | [a, b, c, e] => exact ⟨a, b, c, e, rfl⟩
    have hg (i : Nat) : u8 d (d.length - 4 + i) = (([a, b, c, e] : Bytes)[i]?.getD 0).toNat := by
      unfold u8; rw [← he, List.getElem?_drop]
    rw [he]
    simp only [u32]
    have h0 := hg 0
    have h1 := hg 1
    have h2 := hg 2
    have h3 := hg 3
    simp only [Nat.add_zero] at h0
    rw [h0, h1, h2, h3]
    simp only [List.getElem?_cons_zero, List.getElem?_cons_succ, Option.getD_some, List.cons.injEq, and_true]
    constructor
    · rintro ⟨rfl, rfl, rfl, rfl⟩; rfl
    · intro h
      refine ⟨?_, ?_, ?_, ?_⟩ <;> apply UInt8.toNat_inj.1 <;> simp <;> omega
  by_cases hx : u32 d (d.length - 4) = 0
  · rw [if_pos (hz.2 hx), if_pos hx]
    constructor
    · intro h; cases h; rfl
    · rintro rfl; rfl
  · rw [if_neg (fun h => hx (hz.1 h)), if_neg hx]
    have hu : CodeCompression.unpackFooter d ((d.length : Int) - 8) = .ok (u32 d (d.length - 8), u32 d (d.length - 4)) := by
      unfold CodeCompression.unpackFooter
      rw [if_pos (by omega)]
      have e : ((d.length : Int) - 8).toNat = d.length - 8 := by omega
      rw [e, unpack4.2 ⟨by omega, rfl⟩, bind_ok, unpack4.2 ⟨by omega, rfl⟩, bind_ok]
      rw [show d.length - 8 + 4 = d.length - 4 by omega]; rfl
    rw [hu, bind_ok]
    obtain ⟨w1, w2⟩ := word_split d (d.length - 8)
    rw [show d.length - 8 + 3 = d.length - 5 by omega] at w1
    dsimp only
    rw [w1, w2]
    by_cases c1 : u8 d (d.length - 5) ≤ d.length
    · by_cases c2 : u24 d (d.length - 8) ≤ d.length
      · have hany : ((slice d (d.length - u8 d (d.length - 5)) (d.length - 8)).any (fun b => b != 0xFF)) = true ↔
            ¬ ∀ i, d.length - u8 d (d.length - 5) ≤ i → i < d.length - 8 → u8 d i = 0xFF := by
          rw [List.any_eq_true]
          constructor
          · rintro ⟨b, hb, hne⟩ hall
            obtain ⟨i, hi⟩ := List.getElem?_of_mem hb
            rw [getElem?_slice] at hi
            split at hi
            · rename_i hlt
              have := hall (d.length - u8 d (d.length - 5) + i) (by omega) (by omega)
              rw [u8_of_get hi] at this
              have hb' : b = 0xFF := UInt8.toNat_inj.1 (by simpa using this)
              simp [hb'] at hne
            · cases hi
          · intro hno
            rw [Classical.not_forall] at hno
            obtain ⟨i, hi⟩ := hno
            rw [Classical.not_imp, Classical.not_imp] at hi
            obtain ⟨h1, h2, h3⟩ := hi
            have hlt : i < d.length := by omega
            refine ⟨d[i], ?_, ?_⟩
            · apply List.mem_of_getElem? (i := i - (d.length - u8 d (d.length - 5)))
              rw [getElem?_slice, if_pos (by omega)]
              rw [show d.length - u8 d (d.length - 5) + (i - (d.length - u8 d (d.length - 5))) = i by omega]
              exact List.getElem?_eq_getElem hlt
            · simp only [bne_iff_ne, ne_eq]
              intro h
              apply h3
              unfold u8
              rw [List.getElem?_eq_getElem hlt, h]; rfl
        rw [raiseIf_false (by omega), bind_ok, raiseIf_false (by omega), bind_ok]
        by_cases c3 : ∀ i, d.length - u8 d (d.length - 5) ≤ i → i < d.length - 8 → u8 d i = 0xFF
        · rw [raiseIf_false (fun h => hany.1 h c3), bind_ok]
          have hn : d.length + u32 d (d.length - 4) - (d.length - u24 d (d.length - 8)) =
              u24 d (d.length - 8) + u32 d (d.length - 4) := by omega
          rw [hn]
          generalize hnn : u24 d (d.length - 8) + u32 d (d.length - 4) = n
          have hspan : slice d (d.length - u24 d (d.length - 8)) (d.length - u8 d (d.length - 5)) =
              span d (d.length - u24 d (d.length - 8)) (d.length - u8 d (d.length - 5)) := slice_span _ _ _
          rw [hspan]
          have hl : (span d (d.length - u24 d (d.length - 8)) (d.length - u8 d (d.length - 5))).reverse.length ≤
              u24 d (d.length - 8) := by
            rw [List.length_reverse, ← hspan]
            simp [slice]; omega
          have hl2 : (span d (d.length - u24 d (d.length - 8)) (d.length - u8 d (d.length - 5))).reverse.length <
              d.length := by
            rw [List.length_reverse, ← hspan]
            simp [slice]; omega
          generalize (span d (d.length - u24 d (d.length - 8)) (d.length - u8 d (d.length - 5))).reverse = rev at hl hl2 ⊢
          have hread := decLoop_read rev _ _ n hl hl2 _ _ 0 0 0 n [] (Nat.le_refl _) rfl (by simp) (by omega) (by simp)
          rw [List.drop_zero] at hread
          rw [← hread]
          have e : stC n [] 0 0 (2 ^ 0) = { out := zeros n, cur := 0, readBytes := 0, flags := 0, mask := 1 } := rfl
          rw [e]
          cases CodeCompression.decLoop rev (u24 d (d.length - 8)) d.length n
              { out := zeros n, cur := 0, readBytes := 0, flags := 0, mask := 1 } with
          | error e =>
            simp only [bind_error, Except.toOption, Option.map_none]
            constructor
            · intro h; cases h
            · rintro ⟨_, _, _, o, h, _⟩; cases h
          | ok st =>
            simp only [bind_ok, pure_eq_ok, Except.toOption, Option.map_some, Option.some.injEq]
            constructor
            · intro h; exact ⟨c1, c2, c3, st.out, rfl, h.symm⟩
            · rintro ⟨_, _, _, o, rfl, h⟩; exact h.symm
        · rw [raiseIf_true (hany.2 c3), bind_error]
          constructor
          · intro h; cases h
          · rintro ⟨_, _, h, _⟩; exact absurd h c3
      · rw [raiseIf_false (by omega), bind_ok, raiseIf_true (by omega), bind_error]
        constructor
        · intro h; cases h
        · rintro ⟨_, h, _⟩; exact absurd h c2
    · rw [raiseIf_true (by omega), bind_error]
      constructor
      · intro h; cases h
      · rintro ⟨h, _⟩; exact absurd h c1

/-- C110, continued: `codeCompression.decompress` on any byte string.  The footer is the first one found when looking 0, 4, 8,
... or 28 bytes before the end; with it, the file means what the specification says.  Without one the data comes back as it
is, unless it has between 5 and 35 bytes and no multiple of four. -/
theorem code_decompress_any (data out : Bytes) :
    CodeCompression.decompress data = .ok out ↔
      (∃ k < 8, FooterAt data k ∧ (∀ j < k, ¬ FooterAt data j) ∧
        CodeMeans (data.take (data.length - 4 * k)) (data.drop (data.length - 4 * k)) out) ∨
      ((∀ k < 8, ¬ FooterAt data k) ∧ ¬ (5 ≤ data.length ∧ data.length < 36 ∧ data.length % 4 ≠ 0) ∧ out = data) := by
  obtain ⟨d1, d2⟩ := detect_from data 8 0
  have hlist : (List.range' 0 8).map (4 * ·) = [0, 4, 8, 12, 16, 20, 24, 28] := rfl
  rw [hlist] at d1 d2
  unfold CodeCompression.decompress
  cases hd : CodeCompression.detectAppendedData data with
  | error e =>
    rw [bind_error]
    unfold CodeCompression.detectAppendedData at hd
    constructor
    · intro h; cases h
    · rintro (⟨k, hk, f, hno, _⟩ | ⟨hno, hlen, _⟩)
      · have := (d1 (4 * k)).2 ⟨k, by omega, by omega, rfl, f, fun i _ h => hno i h⟩
        rw [hd] at this; cases this
      · have := d2.2 (fun i _ h => ⟨hno i (by omega), by omega⟩)
        rw [hd] at this; cases this
  | ok r =>
    rw [bind_ok]
    unfold CodeCompression.detectAppendedData at hd
    cases r with
    | none =>
      have hnone := d2.1 hd
      dsimp only
      rw [pure_eq_ok]
      constructor
      · intro h
        right
        refine ⟨fun k hk => (hnone k (by omega) (by omega)).1, ?_, h.symm⟩
        rintro ⟨a, b, c⟩
        have := (hnone ((data.length - 5) / 4) (by omega) (by omega)).2
        omega
      · rintro (⟨k, hk, f, _⟩ | ⟨_, _, rfl⟩)
        · exact absurd f (hnone k (by omega) (by omega)).1
        · rfl
    | some r =>
      obtain ⟨j, _, hj, rfl, f, hno⟩ := (d1 r).1 hd
      dsimp only
      have hlen : (data.take (data.length - 4 * j)).length = data.length - 4 * j := by simp
      rw [core_any _ _ _ (by have := f.1; omega) (by
        have f1 := f.1
        have f2 := f.2.1
        rw [hlen]
        unfold u8 at f2 ⊢
        rw [List.getElem?_take_of_lt (by omega)]; exact f2)]
      constructor
      · intro h
        exact Or.inl ⟨j, by omega, f, fun i hi => hno i (by omega) hi, h⟩
      · rintro (⟨k, hk, f', hno', h⟩ | ⟨hall, _⟩)
        · have : k = j := by
            rcases Nat.lt_trichotomy k j with h | h | h
            · exact absurd f' (hno k (by omega) h)
            · exact h
            · exact absurd f (hno' j h)
          subst this; exact h
        · exact absurd f (hall j (by omega))

/-- The example file of C05, described: the footer is at the very end. -/
example : FooterAt [13, 208, 9, 144, 3, 48, 0, 0, 65, 65, 65, 30, 20, 0, 0, 8, 20, 0, 0, 0] 0 ∧
    CodeMeans [13, 208, 9, 144, 3, 48, 0, 0, 65, 65, 65, 30, 20, 0, 0, 8, 20, 0, 0, 0] [] (List.replicate 40 65) := by
  have h : CodeCompression.decompress [13, 208, 9, 144, 3, 48, 0, 0, 65, 65, 65, 30, 20, 0, 0, 8, 20, 0, 0, 0] =
      .ok (List.replicate 40 65) := by decide +kernel
  refine ⟨by decide, ?_⟩
  rcases (code_decompress_any _ _).1 h with ⟨k, hk, f, hno, hm⟩ | ⟨hno, _⟩
  · have : k = 0 := by
      rcases Nat.eq_zero_or_pos k with h | h
      · exact h
      · exact absurd (by decide) (hno 0 h)
    subst this
    exact hm
  · exact absurd (by decide) (hno 0 (by decide))

/-- A file with twelve more bytes behind the footer. -/
example : ∀ k, k < 8 → (FooterAt ([13, 208, 9, 144, 3, 48, 0, 0, 65, 65, 65, 30, 20, 0, 0, 8, 20, 0, 0, 0] ++ zeros 12) k ↔ k = 3) := by
  decide +kernel

end Verif.Props.LzAny
