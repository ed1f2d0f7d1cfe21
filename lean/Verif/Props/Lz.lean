import Verif.Proofs.Lz10
import Verif.Proofs.CodeCompression

/-!
# Properties of LZ10 and code compression (C01–C07)
-/

namespace Verif.Props.Lz

open Verif Verif.Model Verif.Spec.LZ

/-! ## C01, C02 -/

/-- C01: every byte string below 16 MiB is compressed successfully and decompresses to itself. -/
theorem lz10_roundtrip (data : Bytes) (h : data.length < 2 ^ 24) :
    ∃ c, Lz10.compress data = .ok c ∧ Lz10.decompress c = .ok data := by
  obtain ⟨R, ignD, ignC, h1, h2, _⟩ := Proofs.LzCommon.compress_spec Proofs.Lz10.cfgOk data
  refine ⟨enBytes .little 4 (data.length * 256 + 16) ++ R, ?_, ?_⟩
  · unfold Lz10.compress
    rw [h1, bind_ok, packU_of_lt (by omega), bind_ok]
    rfl
  · exact Proofs.Lz10.decompress_decodes h h2

/-- A non-trivial case of C01, evaluated: a repetitive string with a tail. -/
example : (Lz10.compress [1, 2, 3, 1, 2, 3, 1, 2, 3, 9] >>= Lz10.decompress) =
    .ok [1, 2, 3, 1, 2, 3, 1, 2, 3, 9] := by decide +kernel

/-- C02: `compress` raises `struct.error` exactly for inputs of 16 MiB or more, and otherwise succeeds with a
four-byte header that holds the magic number and the true length. -/
theorem lz10_compress_error_iff (data : Bytes) :
    (Lz10.compress data = .error .structError ↔ 2 ^ 24 ≤ data.length) ∧
    (data.length < 2 ^ 24 → ∃ c, Lz10.compress data = .ok c ∧ c.head? = some 0x10 ∧
      leVal (slice c 1 4) = data.length) := by
  obtain ⟨R, ignD, ignC, h1, h2, _⟩ := Proofs.LzCommon.compress_spec Proofs.Lz10.cfgOk data
  have hok : data.length < 2 ^ 24 →
      Lz10.compress data = .ok (enBytes .little 4 (data.length * 256 + 16) ++ R) := by
    intro h
    unfold Lz10.compress
    rw [h1, bind_ok, packU_of_lt (by omega), bind_ok]
    rfl
  refine ⟨⟨?_, ?_⟩, ?_⟩
  · intro h
    rcases Nat.lt_or_ge data.length (2 ^ 24) with hl | hl
    · rw [hok hl] at h; cases h
    · exact hl
  · intro h
    unfold Lz10.compress
    rw [h1, bind_ok, packU_error (by omega), bind_error]
  · intro h
    refine ⟨_, hok h, ?_, ?_⟩
    · simp only [enBytes, leBytes, List.cons_append, List.head?_cons]
      congr 1
      apply UInt8.toNat_inj.1
      simp
    · simp only [enBytes, leBytes, List.cons_append, slice, List.drop_succ_cons, List.drop_zero,
        List.take_succ_cons, List.nil_append, List.take_zero, leVal, UInt8.toNat_ofNat']
      omega

example : (Lz10.compress [7, 7, 7, 7, 7, 7, 7]).toOption.map (·.take 4) = some [0x10, 7, 0, 0] := by
  decide +kernel

/-! ## C03 -/

/-- C03: on every input `decompress` returns exactly the declared number of bytes or raises `TypeError` (only
for a wrong magic byte), `IndexError` or `struct.error`.  In particular it never runs out of fuel, i.e. the
loops always terminate. -/
theorem lz10_decompress_total (data : Bytes) :
    (∃ out, Lz10.decompress data = .ok out ∧ data.head? = some 0x10 ∧
      out.length = leVal (slice data 1 4)) ∨
    (Lz10.decompress data = .error .typeError ∧ ∃ b, data.head? = some b ∧ b ≠ 0x10) ∨
    Lz10.decompress data = .error .indexError ∨ Lz10.decompress data = .error .structError := by
  unfold Lz10.decompress
  cases hd : data with
  | nil => right; right; left; rfl
  | cons b rest =>
    have h0 : pyIdx (b :: rest) 0 = .ok b := rfl
    rw [h0, bind_ok]
    by_cases hb : b = 0x10
    · rw [raiseIf_false (by simp [hb]), bind_ok]
      cases hu : unpackU .little 4 (b :: rest) 0 with
      | error e =>
        unfold unpackU at hu
        split at hu
        · cases hu
        · cases hu; right; right; right; rfl
      | ok word =>
        rw [bind_ok]
        have hw : word / 256 = leVal (slice (b :: rest) 1 4) := by
          obtain ⟨hle, rfl⟩ := unpackU_eq_ok.1 hu
          match rest with
          | [] => simp at hle
          | [_] => simp at hle
          | [_, _] => simp at hle
          | x :: y :: z :: tl =>
            simp [enVal, slice, leVal]
            have := b.toNat_lt
            omega
        dsimp only
        have hg := Proofs.Lz10.blocks_good (b :: rest) (word / 256)
          { out := zeros (word / 256), inPos := 4, outPos := 0, left := word / 256 } (Nat.le_refl _)
        revert hg
        cases Lz10.blocks (b :: rest) (word / 256)
            { out := zeros (word / 256), inPos := 4, outPos := 0, left := word / 256 } with
        | error e =>
          intro hg
          rcases hg with rfl | rfl
          · right; right; left; rfl
          · right; right; right; rfl
        | ok st =>
          rintro ⟨h1, h2⟩
          left
          refine ⟨st.out, rfl, by simp [hb], ?_⟩
          rw [h1, ← hw]; simp
    · right; left
      rw [raiseIf_true hb, bind_error]
      exact ⟨rfl, b, rfl, hb⟩

example : Lz10.decompress [0x10, 5, 0, 0, 0x00, 1, 2] = .error .indexError := by decide +kernel
example : Lz10.decompress [0x11, 5, 0, 0] = .error .typeError := by decide +kernel
/-- A back reference to before the start wraps around, as Python's negative indices do. -/
example : Lz10.decompress [0x10, 3, 0, 0, 0x80, 0x00, 0x01] = .ok [0, 0, 0] := by decide +kernel

/-- C03, continued: a stream that is valid according to the format description decompresses to what it
describes, whoever produced it and whatever follows the stream. -/
theorem lz10_decompress_refines_spec (R out : Bytes) (h : Decodes 1 R out) (hl : out.length < 2 ^ 24) :
    Lz10.decompress (enBytes .little 4 (out.length * 256 + 0x10) ++ R) = .ok out :=
  Proofs.Lz10.decompress_decodes hl h

/-- An overlapping copy, which the compressor never produces, is decoded according to the format. -/
example : Decodes 1 [0x40, 7, 0x10, 0x00] [7, 7, 7, 7, 7] := by
  refine ⟨⟨4, 6, 0x40, [7, 7, 7, 7, 7]⟩, ?_, rfl⟩
  refine Reach.step (Reach.step (Reach.step Reach.start (Step.fetch _ _ _ 0x40 rfl))
    (Step.literal _ 7 _ _ 7 (by decide) rfl)) ?_
  exact Step.ref 2 6 0x40 [7] _ 0x10 0x00 (by decide) rfl rfl (by decide)

/-! ## C04 -/

/-- C04: the search returns a match of the greatest possible length: it lies wholly inside the window, no
longer match exists, and among the matches of that length the first one (or, searching in reverse, the last
one) is taken. -/
theorem search_longest (cfg : LzCommon.Cfg) (data : Bytes) (pos : Nat) (hp : pos ≤ data.length) :
    let r := LzCommon.compressionSearch cfg data pos
    let start := pos - cfg.maxMatchDiff
    r.2 ≤ cfg.maxMatchLen ∧ pos + r.2 ≤ data.length ∧
    (0 < r.2 → IsMatch data start pos r.2 r.1) ∧
    (∀ len p, len ≤ cfg.maxMatchLen → pos + len ≤ data.length → IsMatch data start pos len p → len ≤ r.2) ∧
    (0 < r.2 → ∀ p, IsMatch data start pos r.2 p → if cfg.searchReverse then p ≤ r.1 else r.1 ≤ p) := by
  intro r start
  obtain ⟨h1, h2, h3⟩ := Proofs.LzCommon.compressionSearch_lookup cfg data pos hp
  have hle := Proofs.LzCommon.search_le (cfg := cfg) (data := data) hp
  refine ⟨hle.1, hle.2, fun h => Proofs.LzCommon.search_isMatch hp h, ?_, ?_⟩
  · intro len p hl1 hl2 hm
    rcases Nat.lt_or_ge r.2 len with h | h
    · exfalso
      exact Proofs.LzCommon.lookup_none (cfg := cfg) hl2 (h3 len (by omega) h) p hm
    · exact h
  · intro h0 p hm
    rcases h2 with ⟨h, _⟩ | hs
    · exact absurd h (Nat.pos_iff_ne_zero.1 h0)
    · have hlen : (slice data pos (pos + r.2)).length = r.2 := by
        rw [slice_length_of_le hle.2]; exact Nat.add_sub_cancel_left ..
      obtain ⟨m1, m2, m3⟩ := hm
      unfold LzCommon.lookup at hs
      change (if cfg.searchReverse = true then LzCommon.pyRFind data (slice data pos (pos + r.2)) start pos
        else LzCommon.pyFind data (slice data pos (pos + r.2)) start pos) = some r.1 at hs
      split at hs
      · rename_i hrev
        rw [if_pos hrev]
        rcases Nat.lt_or_ge r.1 p with hlt | hge
        · exfalso
          unfold LzCommon.pyRFind at hs
          rw [List.find?_eq_some_iff_append] at hs
          obtain ⟨_, as, bs, hab, hnot⟩ := hs
          have hpm : p ∈ (List.range' start (pos + 1 - (slice data pos (pos + r.2)).length - start)).reverse := by
            rw [List.mem_reverse, List.mem_range'_1, hlen]; omega
          have hsorted : List.Pairwise (· > ·)
              (List.range' start (pos + 1 - (slice data pos (pos + r.2)).length - start)).reverse := by
            rw [List.pairwise_reverse]; exact List.pairwise_lt_range'
          rw [hab] at hpm hsorted
          rw [List.mem_append, List.mem_cons] at hpm
          rw [List.pairwise_append] at hsorted
          rcases hpm with hpa | hpe | hpb
          · have := hnot p hpa
            rw [hlen] at this
            simp [m3] at this
          · omega
          · have := (List.pairwise_cons.1 hsorted.2.1).1 p hpb
            omega
        · exact hge
      · rename_i hrev
        rw [if_neg hrev]
        rcases Nat.lt_or_ge p r.1 with hlt | hge
        · exfalso
          unfold LzCommon.pyFind at hs
          rw [List.find?_eq_some_iff_append] at hs
          obtain ⟨_, as, bs, hab, hnot⟩ := hs
          have hpm : p ∈ List.range' start (pos + 1 - (slice data pos (pos + r.2)).length - start) := by
            rw [List.mem_range'_1, hlen]; omega
          have hsorted : List.Pairwise (· < ·)
              (List.range' start (pos + 1 - (slice data pos (pos + r.2)).length - start)) :=
            List.pairwise_lt_range'
          rw [hab] at hpm hsorted
          rw [List.mem_append, List.mem_cons] at hpm
          rw [List.pairwise_append] at hsorted
          rcases hpm with hpa | hpe | hpb
          · have := hnot p hpa
            rw [hlen] at this
            simp [m3] at this
          · omega
          · have := (List.pairwise_cons.1 hsorted.2.1).1 p hpb
            omega
        · exact hge

example : LzCommon.compressionSearch Lz10.cfg [1, 2, 3, 1, 2, 3, 4, 1, 2, 3, 4] 7 = (3, 4) := by
  decide +kernel

/-! ## C05, C06 -/

/-- C05: whenever `compress` makes the data smaller, `decompress` restores it exactly. -/
theorem code_roundtrip_of_shorter (data c : Bytes) (isArm9 : Bool)
    (h : CodeCompression.compress data isArm9 = .ok c) (hlt : c.length < data.length)
    (h24 : c.length < 2 ^ 24) : CodeCompression.decompress c = .ok data := by
  unfold CodeCompression.compress at h
  simp only [bind_eq_ok, pure_eq_ok] at h
  obtain ⟨c', hc', rfl⟩ := h
  have hsplit : (if isArm9 then data.take 0x4000 else []) ++ (if isArm9 then data.drop 0x4000 else data) =
      data := by
    cases isArm9 <;> simp
  generalize (if isArm9 then data.take 0x4000 else []) = P at *
  generalize (if isArm9 then data.drop 0x4000 else data) = D at *
  subst hsplit
  simp only [List.length_append] at hlt h24
  obtain ⟨lit, S, x, rfl, h1, h2, h3, h4⟩ :=
    Proofs.CodeCompression.compressInner_ok hc' (by omega) (by omega)
  have hlen := Proofs.CodeCompression.compFile_length lit S x
  have hlit : lit.length ≤ D.length := by
    have := congrArg List.length h2; simp at this; omega
  have := Proofs.CodeCompression.decompress_compFile (P := P) (lit := lit) (S := S)
    (out := D.drop lit.length) (x := x) h1 (by omega) h4 (by omega) (by simp; omega)
  rw [this]
  congr 1
  rw [List.append_assoc]
  congr 1
  conv => lhs; arg 1; rw [← h2]
  rw [List.take_append_drop]

/-- C05 is not vacuous: 40 equal bytes shrink and come back. -/
example : ∃ c, CodeCompression.compress (List.replicate 40 65) false = .ok c ∧ c.length < 40 ∧
    CodeCompression.decompress c = .ok (List.replicate 40 65) := by
  refine ⟨[13, 208, 9, 144, 3, 48, 0, 0, 65, 65, 65, 30, 20, 0, 0, 8, 20, 0, 0, 0], ?_⟩
  decide +kernel

/-- C06 is false: `compress` can raise.  14 equal bytes are an example. -/
theorem code_compress_can_raise :
    CodeCompression.compress (List.replicate 14 65) false = .error .structError := by decide +kernel

/-- C06 is false: the round trip can silently return different data.  20 equal bytes are an example:
`decompress` takes the compressed file for an uncompressed one. -/
theorem code_roundtrip_can_corrupt :
    ∃ c, CodeCompression.compress (List.replicate 20 65) false = .ok c ∧
      CodeCompression.decompress c = .ok c ∧ c ≠ List.replicate 20 65 := by
  refine ⟨[5, 80, 3, 48, 0, 0, 65, 65, 65, 28, 255, 255, 20, 0, 0, 10, 0, 0, 0, 0], ?_⟩
  decide +kernel

/-- C06 is false: incompressible data does not come back unchanged.  The empty string is an example. -/
theorem code_roundtrip_empty :
    CodeCompression.compress [] false = .ok [0, 0, 0, 0] ∧
    CodeCompression.decompress [0, 0, 0, 0] = .ok [0, 0, 0, 0] := by decide +kernel

/-- C06, what does hold: for data below 16 MiB exactly one of four things happens, told apart by the length
of the output.  `compress` raises `struct.error`; or the output is shorter and the round trip is exact; or the
output is as long as the input and `decompress` returns the output itself; or the output is the input padded
to a multiple of four plus four null bytes. -/
theorem code_compress_cases_partial (data : Bytes) (isArm9 : Bool) (hl : data.length < 2 ^ 24) :
    CodeCompression.compress data isArm9 = .error .structError ∨
    ∃ c, CodeCompression.compress data isArm9 = .ok c ∧
      ((c.length < data.length ∧ CodeCompression.decompress c = .ok data) ∨
       (c.length = data.length ∧ CodeCompression.decompress c = .ok c) ∨
       (c.length = data.length + padLen data.length 4 + 4 ∧
         c = data ++ zeros (padLen data.length 4) ++ [0, 0, 0, 0]) ∨
       (isArm9 = true ∧ data.length < 0x4000 ∧ c = data ++ [0, 0, 0, 0])) := by
  by_cases hsmall : isArm9 = true ∧ data.length < 0x4000
  · right
    obtain ⟨h1, h2⟩ := hsmall
    refine ⟨data ++ [0, 0, 0, 0], ?_, Or.inr (Or.inr (Or.inr ⟨h1, h2, rfl⟩))⟩
    unfold CodeCompression.compress
    rw [h1]
    simp only [if_true]
    rw [List.take_of_length_le (by omega), List.drop_eq_nil_of_le (by omega)]
    have : CodeCompression.compressInner [] = .ok [0, 0, 0, 0] := by decide +kernel
    rw [this, bind_ok]; rfl
  · unfold CodeCompression.compress
    have hsplit : (if isArm9 then data.take 0x4000 else []) ++ (if isArm9 then data.drop 0x4000 else data) =
        data := by
      cases isArm9 <;> simp
    have hmod : (if isArm9 then data.take 0x4000 else []).length % 4 = 0 := by
      cases isArm9
      · simp
      · have : 0x4000 ≤ data.length := by simp at hsmall; omega
        simp only [if_true, List.length_take]; omega
    generalize (if isArm9 then data.take 0x4000 else []) = P at *
    generalize (if isArm9 then data.drop 0x4000 else data) = D at *
    subst hsplit
    simp only [List.length_append] at *
    rcases Proofs.CodeCompression.compressInner_cases D (by omega) with h | h | ⟨lit, S, x, h, h1, h2, h3⟩
    · right
      refine ⟨_, by rw [h, bind_ok]; rfl, Or.inr (Or.inr (Or.inl ?_))⟩
      have hp : padLen (P.length + D.length) 4 = padLen D.length 4 := by
        unfold padLen; omega
      refine ⟨?_, ?_⟩
      · simp [hp]; omega
      · rw [hp]; simp [padTo, zeros]
    · left; rw [h, bind_error]
    · right
      refine ⟨_, by rw [h, bind_ok]; rfl, ?_⟩
      have hlen := Proofs.CodeCompression.compFile_length lit S x
      have hlit : lit.length ≤ D.length := by
        have := congrArg List.length h2; simp at this; omega
      rcases Nat.eq_zero_or_pos x with rfl | hx
      · right; left
        refine ⟨by simp; omega, ?_⟩
        exact Proofs.CodeCompression.decompress_compFile_zero (by omega)
      · left
        refine ⟨by simp; omega, ?_⟩
        have := Proofs.CodeCompression.decompress_compFile (P := P) (lit := lit) (S := S)
          (out := D.drop lit.length) (x := x) h1 hx (by omega) (by omega) (by simp; omega)
        rw [this, List.append_assoc]
        congr 2
        conv => lhs; arg 1; rw [← h2]
        rw [List.take_append_drop]

/-! ## C07 -/

/-- A plausible footer ends `amt` bytes before the end of the file: its header length is at least 8 and its
24-bit compressed length does not exceed the file. -/
def FooterAt (data : Bytes) (amt : Nat) : Prop :=
  amt + 8 ≤ data.length ∧
  (∃ h, data[data.length - amt - 5]? = some h ∧ 8 ≤ h.toNat) ∧
  leVal (slice data (data.length - amt - 8) (data.length - amt - 5)) ≤ data.length

/-- No footer at any of the eight places where the code looks for one. -/
def NoFooter (data : Bytes) : Prop := ∀ i < 8, ¬ FooterAt data (4 * i)

theorem word_split (data : Bytes) (amt : Nat) (h : amt + 8 ≤ data.length) :
    ∃ b, data[data.length - amt - 5]? = some b ∧
    leVal (slice data (data.length - amt - 8) (data.length - amt - 4)) / 2 ^ 24 = b.toNat ∧
    leVal (slice data (data.length - amt - 8) (data.length - amt - 4)) % 2 ^ 24 =
      leVal (slice data (data.length - amt - 8) (data.length - amt - 5)) := by
  obtain ⟨b, hb⟩ : ∃ b, data[data.length - amt - 5]? = some b :=
    ⟨data[data.length - amt - 5]'(by omega), by rw [List.getElem?_eq_getElem]⟩
  refine ⟨b, hb, ?_⟩
  have h1 := slice_append_slice data (a := data.length - amt - 8) (b := data.length - amt - 5)
    (c := data.length - amt - 4) (by omega) (by omega)
  have h2 : slice data (data.length - amt - 5) (data.length - amt - 4) = [b] := by
    obtain ⟨hlt, hget⟩ := List.getElem?_eq_some_iff.1 hb
    unfold slice
    rw [List.drop_eq_getElem_cons hlt, show data.length - amt - 4 - (data.length - amt - 5) = 1 by omega]
    simp [hget]
  have h3 : (slice data (data.length - amt - 8) (data.length - amt - 5)).length = 3 := by
    rw [slice_length_of_le (by omega)]; omega
  rw [← h1, h2]
  match hs : slice data (data.length - amt - 8) (data.length - amt - 5), h3 with
  | [x, y, z], _ =>
    simp only [List.cons_append, List.nil_append, leVal]
    have := x.toNat_lt; have := y.toNat_lt; have := z.toNat_lt; have := b.toNat_lt
    omega

theorem detectLoop_skip {data : Bytes} {amt : Nat} {amts : List Nat} (h : amt + 8 ≤ data.length)
    (hf : ¬ FooterAt data amt) :
    CodeCompression.detectLoop data (amt :: amts) = CodeCompression.detectLoop data amts := by
  rw [Proofs.CodeCompression.detectLoop_step data amt amts h]
  obtain ⟨b, hb, h1, h2⟩ := word_split data amt h
  dsimp only
  rw [h1, h2, if_pos]
  rcases Nat.lt_or_ge b.toNat 8 with hb8 | hb8
  · exact Or.inl hb8
  · right
    rcases Nat.lt_or_ge data.length (leVal (slice data (data.length - amt - 8) (data.length - amt - 5)))
      with hc | hc
    · exact hc
    · exact absurd ⟨h, ⟨b, hb, hb8⟩, hc⟩ hf

/-- The detection on footerless data, from the `i`-th candidate on. -/
theorem detect_from {data : Bytes} (hf : NoFooter data) : ∀ (n i : Nat), i + n = 8 →
    CodeCompression.detectLoop data ((List.range' i n).map (4 * ·)) =
      if 5 ≤ data.length - 4 * i ∧ data.length < 36 ∧ data.length % 4 ≠ 0 then .error .structError
      else .ok none
  | 0, i, hi => by
    simp only [List.range'_zero, List.map_nil, CodeCompression.detectLoop]
    rw [if_neg (by omega)]
  | n + 1, i, hi => by
    rw [List.range'_succ, List.map_cons]
    rcases Nat.lt_or_ge data.length (4 * i + 5) with h | h
    · rw [Proofs.CodeCompression.detectLoop_short _ _ _ h, if_neg (by omega)]
    · rcases Nat.lt_or_ge data.length (4 * i + 8) with h' | h'
      · rw [Proofs.CodeCompression.detectLoop_bad _ _ _ h h', if_pos (by omega)]
      · rw [detectLoop_skip h' (hf i (by omega)), detect_from hf n (i + 1) (by omega)]
        by_cases hc : data.length < 36 ∧ data.length % 4 ≠ 0
        · rw [if_pos (by omega), if_pos (by omega)]
        · rw [if_neg (by omega), if_neg (by omega)]

/-- C07, what does hold: data without a footer is returned unchanged, provided that its length is at least 36,
or at most 4, or a multiple of 4.  The proviso is necessary, see `code_decompress_raises`. -/
theorem code_decompress_plain_partial (data : Bytes) (hf : NoFooter data)
    (hl : 36 ≤ data.length ∨ data.length < 5 ∨ data.length % 4 = 0) :
    CodeCompression.decompress data = .ok data := by
  have h := detect_from hf 8 0 rfl
  rw [if_neg (by omega)] at h
  unfold CodeCompression.decompress CodeCompression.detectAppendedData
  have e : ((List.range' 0 8).map (4 * ·)) = [0, 4, 8, 12, 16, 20, 24, 28] := by decide
  rw [e] at h
  rw [h, bind_ok]
  rfl

/-- C07 is false as stated: data without a footer whose length is between 5 and 35 and not a multiple of 4
always makes `decompress` raise `struct.error`. -/
theorem code_decompress_raises (data : Bytes) (hf : NoFooter data)
    (hl : 5 ≤ data.length ∧ data.length < 36 ∧ data.length % 4 ≠ 0) :
    CodeCompression.decompress data = .error .structError := by
  have h := detect_from hf 8 0 rfl
  rw [if_pos (by omega)] at h
  unfold CodeCompression.decompress CodeCompression.detectAppendedData
  have e : ((List.range' 0 8).map (4 * ·)) = [0, 4, 8, 12, 16, 20, 24, 28] := by decide
  rw [e] at h
  rw [h, bind_error]

instance (data : Bytes) (amt : Nat) : Decidable (FooterAt data amt) := by
  unfold FooterAt
  have : Decidable (∃ h, data[data.length - amt - 5]? = some h ∧ 8 ≤ h.toNat) := by
    cases data[data.length - amt - 5]? with
    | none => exact isFalse (by rintro ⟨_, h, _⟩; cases h)
    | some b =>
      exact if hb : 8 ≤ b.toNat then isTrue ⟨b, rfl, hb⟩
        else isFalse (by rintro ⟨_, h, h'⟩; cases h; exact hb h')
  infer_instance

instance (data : Bytes) : Decidable (NoFooter data) := by unfold NoFooter; infer_instance

example : NoFooter [1, 2, 3, 4, 5, 6] ∧ CodeCompression.decompress [1, 2, 3, 4, 5, 6] = .error .structError := by
  decide +kernel
example : NoFooter (List.replicate 40 1) ∧
    CodeCompression.decompress (List.replicate 40 1) = .ok (List.replicate 40 1) := by decide +kernel

/-! ## C59 -/

theorem detect_appended {c extra : Bytes} (hf : FooterAt c 0) : ∀ (n k : Nat) (amts : List Nat),
    extra.length = 4 * (k + n) → (∀ i, k ≤ i → i < k + n → ¬ FooterAt (c ++ extra) (4 * i)) →
    CodeCompression.detectLoop (c ++ extra) ((List.range' k (n + 1)).map (4 * ·) ++ amts) =
      .ok (some extra.length)
  | 0, k, amts, hl, _ => by
    obtain ⟨h1, ⟨b, hb, hb8⟩, h3⟩ := hf
    simp only [Nat.zero_add, List.range'_one, List.map_cons, List.map_nil, List.cons_append, List.nil_append]
    have hk : 4 * k + 8 ≤ (c ++ extra).length := by rw [List.length_append]; omega
    rw [Proofs.CodeCompression.detectLoop_step _ _ _ hk]
    obtain ⟨b', hb', e1, e2⟩ := word_split (c ++ extra) (4 * k) hk
    have hlen : (c ++ extra).length - 4 * k = c.length := by rw [List.length_append]; omega
    dsimp only
    rw [e1, e2]
    rw [hlen] at hb' ⊢
    rw [List.getElem?_append_left (by omega)] at hb'
    have hbb : b = b' := by
      rw [Nat.sub_zero] at hb; rw [hb] at hb'; cases hb'; rfl
    subst hbb
    have hs : slice (c ++ extra) (c.length - 8) (c.length - 5) = slice c (c.length - 8) (c.length - 5) := by
      unfold slice
      rw [List.drop_append_of_le_length (by omega), List.take_append_of_le_length (by simp)]
    rw [Nat.sub_zero] at h3
    rw [hs, if_neg (by rw [List.length_append]; omega)]
    rw [Nat.add_zero] at hl
    rw [hl]
  | n + 1, k, amts, hl, hno => by
    rw [List.range'_succ, List.map_cons, List.cons_append,
      detectLoop_skip (by rw [List.length_append]; have := hf.1; omega) (hno k (by omega) (by omega))]
    exact detect_appended hf n (k + 1) amts (by omega) (fun i h1 h2 => hno i (by omega) (by omega))

/-- C59: data appended to a compressed file (at most 28 bytes, a multiple of four, not looking like a footer itself)
is kept: it follows the decompressed data. -/
theorem code_decompress_appended (c extra data : Bytes) (k : Nat) (hk : k < 8) (hl : extra.length = 4 * k)
    (hf : FooterAt c 0) (hz : c.drop (c.length - 4) ≠ [0, 0, 0, 0])
    (hno : ∀ i < k, ¬ FooterAt (c ++ extra) (4 * i)) (h : CodeCompression.decompress c = .ok data) :
    CodeCompression.decompress (c ++ extra) = .ok (data ++ extra) := by
  have hrange : ∀ k < 8, [0, 4, 8, 12, 16, 20, 24, 28] =
      (List.range' 0 (k + 1)).map (4 * ·) ++ (List.range' (k + 1) (7 - k)).map (4 * ·) := by decide
  have d1 : CodeCompression.detectAppendedData (c ++ extra) = .ok (some extra.length) := by
    unfold CodeCompression.detectAppendedData
    rw [hrange k hk]
    exact detect_appended hf k 0 _ (by omega) (fun i _ h2 => hno i (by omega))
  have d0 : CodeCompression.detectAppendedData c = .ok (some 0) := by
    have := detect_appended (extra := []) hf 0 0 ((List.range' 1 7).map (4 * ·)) rfl (fun i h1 h2 => by omega)
    rw [List.append_nil, ← hrange 0 (by omega)] at this
    exact this
  unfold CodeCompression.decompress at h ⊢
  rw [d0, bind_ok] at h
  rw [d1, bind_ok]
  dsimp only at h ⊢
  rw [Nat.sub_zero, List.take_length, List.drop_length] at h
  have hc : (c ++ extra).length - extra.length = c.length := by rw [List.length_append]; omega
  rw [hc, List.take_left, List.drop_left]
  unfold CodeCompression.decompressCore at h ⊢
  rw [if_neg hz] at h ⊢
  simp only [bind_eq_ok, pure_eq_ok] at h ⊢
  obtain ⟨w, h1, u1, h2, u2, h3, u3, h4, st, h5, rfl⟩ := h
  exact ⟨w, h1, u1, h2, u2, h3, u3, h4, st, h5, by simp⟩

example : FooterAt [13, 208, 9, 144, 3, 48, 0, 0, 65, 65, 65, 30, 20, 0, 0, 8, 20, 0, 0, 0] 0 ∧
    (∀ i < 3, ¬ FooterAt ([13, 208, 9, 144, 3, 48, 0, 0, 65, 65, 65, 30, 20, 0, 0, 8, 20, 0, 0, 0] ++
      [0x21, 0x06, 0xC0, 0xDE, 1, 0, 0, 0, 2, 0, 0, 0]) (4 * i)) ∧
    CodeCompression.decompress ([13, 208, 9, 144, 3, 48, 0, 0, 65, 65, 65, 30, 20, 0, 0, 8, 20, 0, 0, 0] ++
      [0x21, 0x06, 0xC0, 0xDE, 1, 0, 0, 0, 2, 0, 0, 0]) =
        .ok (List.replicate 40 65 ++ [0x21, 0x06, 0xC0, 0xDE, 1, 0, 0, 0, 2, 0, 0, 0]) := by decide +kernel

/-- The condition `hz` is needed: if the file says that it is not compressed (its last word is zero), appended data
is dropped. -/
theorem code_decompress_appended_lost :
    CodeCompression.decompress ([1, 2, 3, 4, 8, 0, 0, 8, 0, 0, 0, 0] ++ [5, 6, 7, 8]) =
      .ok [1, 2, 3, 4, 8, 0, 0, 8, 0, 0, 0, 0] := by decide +kernel

end Verif.Props.Lz
