import Verif.Spec.FormatSseq
import Verif.Proofs.Reader
import Verif.Proofs.SeqRead
import Verif.Props.SequenceRead
import Verif.Props.Sequence

/-!
# Sequence data, byte by byte (C106)
-/

namespace Verif.Props.FormatSseq

open Verif Verif.Model.SoundSequence Verif.Spec.Reader Verif.Spec.FormatSseq Verif.Proofs.Reader
open Verif.Proofs.SeqVar Verif.Proofs.SeqEvent Verif.Proofs.SeqDecode

/-! ## Single fields -/

theorem idx_iff {d : Bytes} {o : Nat} {b : UInt8} : pyIdx d o = .ok b ↔ o < d.length ∧ b = UInt8.ofNat (u8 d o) := by
  rw [pyIdx_eq_ok]
  constructor
  · intro h
    have := (List.getElem?_eq_some_iff.1 h).1
    refine ⟨this, ?_⟩
    unfold u8
    rw [h]; simp
  · rintro ⟨h, rfl⟩
    unfold u8
    rw [List.getElem?_eq_getElem h]; simp

theorem idx_ok {d : Bytes} {o : Nat} (h : o < d.length) : pyIdx d o = .ok (UInt8.ofNat (u8 d o)) := idx_iff.2 ⟨h, rfl⟩

theorem ofNat_u8 (d : Bytes) (o : Nat) : (UInt8.ofNat (u8 d o)).toNat = u8 d o := by
  have := u8_lt d o
  simp [Nat.mod_eq_of_lt this]

theorem unpackS1 {d : Bytes} {o : Nat} {z : Int} : unpackS .little 1 d o = .ok z ↔ o + 1 ≤ d.length ∧ z = i8 d o := by
  unfold unpackS
  simp only [bind_eq_ok, pure_eq_ok, unpack1]
  have := u8_lt d o
  constructor
  · rintro ⟨n, ⟨h, rfl⟩, rfl⟩
    refine ⟨h, ?_⟩
    unfold signedVal i8
    split <;> split <;> omega
  · rintro ⟨h, rfl⟩
    refine ⟨_, ⟨h, rfl⟩, ?_⟩
    unfold signedVal i8
    split <;> split <;> omega

theorem unpackS2 {d : Bytes} {o : Nat} {z : Int} : unpackS .little 2 d o = .ok z ↔ o + 2 ≤ d.length ∧ z = i16 d o := by
  unfold unpackS
  simp only [bind_eq_ok, pure_eq_ok, unpack2]
  have := u16_lt d o
  constructor
  · rintro ⟨n, ⟨h, rfl⟩, rfl⟩
    refine ⟨h, ?_⟩
    unfold signedVal i16
    split <;> split <;> omega
  · rintro ⟨h, rfl⟩
    refine ⟨_, ⟨h, rfl⟩, ?_⟩
    unfold signedVal i16
    split <;> split <;> omega

/-- Three bytes, of which some may be missing. -/
theorem slice_u24 (d : Bytes) (o : Nat) : leVal (slice d o (o + 3)) = u24 d o := by
  have hz : ∀ i, d.length ≤ i → u8 d i = 0 := fun i hi => by
    unfold u8; rw [List.getElem?_eq_none hi]; rfl
  by_cases h3 : o + 3 ≤ d.length
  · exact leVal_3 h3
  have hn : ∀ i j, d.length ≤ i → slice d i j = [] := fun i j hi => by
    unfold slice; rw [List.drop_eq_nil_of_le hi]; simp
  unfold u24
  by_cases h0 : d.length ≤ o
  · rw [hn _ _ h0, hz o h0, hz (o + 1) (by omega), hz (o + 2) (by omega)]; rfl
  rw [slice_succ (k := 2) (by omega), leVal, u8_eq (by omega), hz (o + 2) (by omega)]
  by_cases h1 : d.length ≤ o + 1
  · rw [hn _ _ h1, hz (o + 1) h1]; rfl
  rw [slice_succ (k := 1) (by omega), leVal, u8_eq (o := o + 1) (by omega), hn _ _ (by omega), leVal]
  omega

theorem readVarLoop_iff {d : Bytes} {o : Nat} : ∀ {room k v : Nat}, o + k < d.length →
    (readVarLoop d room (o + k + 1) (septets d o k) = .ok v ↔
      ∃ m, m ≤ room ∧ o + (k + m) < d.length ∧ (∀ i, k ≤ i → i < k + m → 128 ≤ u8 d (o + i)) ∧ u8 d (o + (k + m)) < 128 ∧
        v = septets d o (k + m))
  | room, k, v, hk => by
    rw [readVarLoop, Nat.add_sub_cancel, idx_ok hk, bind_ok, ofNat_u8]
    have hlt := u8_lt d (o + k)
    by_cases h80 : u8 d (o + k) < 128
    · rw [if_pos (and80_lt h80)]
      constructor
      · intro h
        cases h
        exact ⟨0, by omega, hk, fun i h1 h2 => by omega, h80, rfl⟩
      · rintro ⟨m, -, -, h3, -, rfl⟩
        cases m with
        | zero => rfl
        | succ m => have := h3 k (by omega) (by omega); omega
    · rw [if_neg (fun h => h80 (and80_zero hlt h))]
      by_cases hk1 : o + k + 1 < d.length
      · rw [idx_ok hk1, bind_ok]
        cases room with
        | zero =>
          constructor
          · intro h; cases h
          · rintro ⟨m, h1, -, -, h4, -⟩
            obtain rfl : m = 0 := by omega
            exact absurd h4 h80
        | succ room =>
          have e : (septets d o k <<< 7 ||| (UInt8.ofNat (u8 d (o + k + 1))).toNat &&& 0x7F) = septets d o (k + 1) := by
            rw [ofNat_u8, and7F, or_shift7 (by omega)]; rfl
          simp only [e]
          refine (readVarLoop_iff (room := room) (k := k + 1) (v := v) hk1).trans ?_
          constructor
          · rintro ⟨m, h1, h2, h3, h4, h5⟩
            refine ⟨m + 1, by omega, by rw [show k + (m + 1) = k + 1 + m by omega]; exact h2, ?_,
              by rw [show k + (m + 1) = k + 1 + m by omega]; exact h4, by rw [show k + (m + 1) = k + 1 + m by omega]; exact h5⟩
            intro i hi1 hi2
            by_cases hik : i = k
            · subst hik; omega
            · exact h3 i (by omega) (by omega)
          · rintro ⟨m, h1, h2, h3, h4, h5⟩
            cases m with
            | zero => exact absurd h4 h80
            | succ m =>
              rw [show k + (m + 1) = k + 1 + m by omega] at h2 h4 h5
              exact ⟨m, by omega, h2, fun i h1 h2 => h3 i (by omega) (by omega), h4, h5⟩
      · constructor
        · intro h
          rw [bind_eq_ok] at h
          obtain ⟨b, hb, -⟩ := h
          exact absurd (idx_iff.1 hb).1 hk1
        · rintro ⟨m, h1, h2, -, h4, -⟩
          obtain rfl : m = 0 := by omega
          exact absurd h4 h80

theorem readVar_iff {d : Bytes} {o v : Nat} : readVar d o = .ok v ↔ ∃ n, VarAt d o n v := by
  unfold readVar VarAt
  rw [bind_eq_ok]
  constructor
  · rintro ⟨b, hb, h⟩
    obtain ⟨ho, rfl⟩ := idx_iff.1 hb
    rw [ofNat_u8, and7F] at h
    obtain ⟨m, h1, h2, h3, h4, h5⟩ := (readVarLoop_iff (k := 0) ho).1 h
    rw [Nat.zero_add] at *
    exact ⟨m + 1, by omega, by omega, by omega, fun i hi => h3 i (by omega) (by omega), h4, h5⟩
  · rintro ⟨n, h1, h2, h3, h4, h5, h6⟩
    refine ⟨_, idx_ok (by omega), ?_⟩
    rw [ofNat_u8, and7F]
    refine (readVarLoop_iff (k := 0) (by omega)).2 ⟨n - 1, by omega, by omega, fun i _ hi => h4 i (by omega), ?_, ?_⟩
    · rw [Nat.zero_add]; exact h5
    · rw [Nat.zero_add]; exact h6

/-! ## Commands -/

theorem variable_mem (a : Arith) : (a.code, a) ∈ variableCommands := by cases a <;> decide
theorem byte_mem (s : Simple) : (s.code, s) ∈ byteCommands := by cases s <;> decide
theorem variable_cls : ∀ p ∈ variableCommands, clsOf p.1 = some (.arith p.2) := by decide
theorem byte_cls : ∀ p ∈ byteCommands, clsOf p.1 = some (.simple p.2) := by decide

instance (t k : Nat) : Decidable (Kept t k) := by unfold Kept; infer_instance

/-- The number of argument bytes of random events. -/
theorem kept_iff {t : Nat} (ht : t < 256) (k : Nat) : randomLength t = .ok (6 + k) ↔ Kept t k := by
  have h : ∀ t < 256, (∀ k < 6, ((randomLength (Int.ofNat t)).toOption = some (6 + k) ↔ Kept t k)) ∧
      (randomLength (Int.ofNat t)).toOption.all (· < 12) = true := by
    decide +kernel
  obtain ⟨h1, h2⟩ := h t ht
  rw [Int.ofNat_eq_natCast] at h1 h2
  have ho : ∀ {n : Nat}, (randomLength (t : Int)).toOption = some n ↔ randomLength (t : Int) = .ok n := by
    intro n
    cases randomLength (t : Int) <;> simp [Except.toOption]
  by_cases hk : k < 6
  · exact ho.symm.trans (h1 k hk)
  · constructor
    · intro e; rw [e] at h2; simp [Except.toOption] at h2; omega
    · intro e
      unfold Kept at e
      rcases e with h | h | h | h
      · omega
      · omega
      · omega
      · simp [keptTable] at h; omega

theorem goes {d : Bytes} {o : Nat} (ho : o < d.length) : decode d o =
    (if u8 d o = 0x93 then do
      let trackNumber ← pyIdx d (o + 1)
      return .beginTrack trackNumber.toNat (leVal (slice d (o + 2) (o + 5)))
    else if u8 d o = 0x94 then return .jump (leVal (slice d (o + 1) (o + 4)))
    else if u8 d o = 0x95 then return .call (leVal (slice d (o + 1) (o + 4)))
    else if u8 d o ≤ 0x7F then noteFromData (u8 d o) d o
    else match clsOf (u8 d o) with
      | none => .error .valueError
      | some c => fromData c d o) := by
  unfold decode
  rw [idx_ok ho, bind_ok, ofNat_u8]
  rfl

theorem pos_of {d : Bytes} {o t : Nat} (h : u8 d o = t) (ht : t ≠ 0) : o < d.length := by
  apply Nat.lt_of_not_le
  intro hle
  unfold u8 at h
  rw [List.getElem?_eq_none hle] at h
  exact ht h.symm

theorem decode_cls {d : Bytes} {o : Nat} {c : Cls} (h : clsOf (u8 d o) = some c) (h1 : c ≠ .beginTrack) (h2 : c ≠ .jump)
    (h3 : c ≠ .call) : decode d o = fromData c d o := by
  have hc := clsOf_inv h
  have hlow : 0x80 ≤ u8 d o := by
    rw [hc]
    cases c with
    | arith a => cases a <;> decide
    | simple s => cases s <;> decide
    | _ => decide
  have hne : ∀ t, clsOf t ≠ some c → u8 d o ≠ t := by
    intro t ht e
    exact ht (e ▸ h)
  rw [goes (pos_of (t := u8 d o) rfl (by omega)), if_neg (hne _ (fun e => h1 (by cases e; rfl))),
    if_neg (hne _ (fun e => h2 (by cases e; rfl))), if_neg (hne _ (fun e => h3 (by cases e; rfl))), if_neg (by omega), h]

theorem low7 (d : Bytes) (o : Nat) : (u8 d o &&& 0x80 != 0) = true ↔ 128 ≤ u8 d o := by
  have hlt := u8_lt d o
  rw [bne_iff_ne]
  constructor
  · intro h
    apply Nat.le_of_not_lt
    intro hl
    exact h (and80_lt hl)
  · intro h e
    have := and80_zero hlt e
    omega

theorem tracks_bits (n : Nat) : ((List.range 16).filter fun i => n &&& (1 <<< i) != 0) = (List.range 16).filter (bit n) := by
  apply List.filter_congr
  intro i _
  rw [Nat.one_shiftLeft, ← and_pow]
  by_cases h : n &&& 2 ^ i = 0 <;> simp [h]

theorem args_iff {d : Bytes} {o k : Nat} {l : Bytes} (ho : o + k ≤ d.length) :
    mapE (fun i => pyIdx d (o + i)) (List.range k) = .ok l ↔ l = (List.range k).map (fun i => UInt8.ofNat (u8 d (o + i))) := by
  have h : mapE (fun i => pyIdx d (o + i)) (List.range k) = .ok ((List.range k).map (fun i => UInt8.ofNat (u8 d (o + i)))) := by
    apply mapE_ok_of_forall
    intro i hi
    exact idx_ok (by have := List.mem_range.1 hi; omega)
  rw [h]
  constructor
  · intro e; cases e; rfl
  · rintro rfl; rfl

/-- C106: the event that is made of the data at a place is the one whose bytes are there. -/
theorem event_iff (d : Bytes) (o : Nat) (e : Ev) : decode d o = .ok e ↔ ∃ n, EventAt d o n e := by
  constructor
  · intro h
    have ho : o < d.length := by
      unfold decode at h
      rw [bind_eq_ok] at h
      obtain ⟨b, hb, -⟩ := h
      exact (idx_iff.1 hb).1
    by_cases hc : ∃ c, clsOf (u8 d o) = some c ∧ c ≠ .beginTrack ∧ c ≠ .jump ∧ c ≠ .call
    · obtain ⟨c, hc, h1, h2, h3⟩ := hc
      rw [decode_cls hc h1 h2 h3] at h
      have hu := clsOf_inv hc
      cases c with
      | beginTrack => exact absurd rfl h1
      | jump => exact absurd rfl h2
      | call => exact absurd rfl h3
      | rest =>
        simp only [fromData, bind_eq_ok, pure_eq_ok, readVar_iff] at h
        obtain ⟨v, ⟨k, hk⟩, rfl⟩ := h
        exact ⟨_, hu, k, v, hk, rfl, rfl⟩
      | instrumentSwitch =>
        simp only [fromData, bind_eq_ok, pure_eq_ok, readVar_iff] at h
        obtain ⟨v, ⟨k, hk⟩, rfl⟩ := h
        exact ⟨_, hu, k, v, hk, shr7 v, and7F v, rfl⟩
      | random =>
        simp only [fromData, randomFromData, bind_eq_ok, pure_eq_ok, unpackS2] at h
        obtain ⟨s, hs, len, hlen, args, hargs, lo, ⟨hlo1, hlo⟩, hi, ⟨hhi1, hhi⟩, rfl⟩ := h
        obtain ⟨hs1, rfl⟩ := idx_iff.1 hs
        rw [ofNat_u8] at hlen ⊢
        have hge := randomLength_ge hlen
        obtain ⟨k, rfl⟩ : ∃ k, len = 6 + k := ⟨len - 6, by omega⟩
        rw [Nat.add_sub_cancel_left] at *
        rw [args_iff (by omega)] at hargs
        refine ⟨_, hu, k, (kept_iff (u8_lt _ _) k).1 hlen, rfl, by omega, rfl, ?_, hlo, ?_⟩
        · rw [hargs, List.map_map]
          apply List.map_congr_left
          intro i _
          simp only [Function.comp, ofNat_u8]
        · rw [hhi, show o + 2 + k + 2 = o + 4 + k by omega]
      | fromVariable =>
        simp only [fromData, fromVariableFromData, bind_eq_ok] at h
        obtain ⟨s, hs, h⟩ := h
        obtain ⟨hs1, rfl⟩ := idx_iff.1 hs
        rw [ofNat_u8] at h
        split at h
        · rename_i hb
          simp only [bind_eq_ok, pure_eq_ok, unpackS1] at h
          obtain ⟨u, ⟨-, rfl⟩, v, ⟨hl, rfl⟩, rfl⟩ := h
          exact ⟨_, hu, rfl, by omega, rfl, .inl ⟨hb.1, hb.2, rfl, rfl⟩⟩
        · rename_i hb
          simp only [bind_eq_ok, pure_eq_ok, unpackS2] at h
          obtain ⟨v, ⟨hl, rfl⟩, rfl⟩ := h
          exact ⟨_, hu, rfl, by omega, rfl, .inr ⟨hb, rfl, rfl⟩⟩
      | ifE => cases h; exact ⟨_, hu, rfl⟩
      | arith a =>
        simp only [fromData, bind_eq_ok, pure_eq_ok, unpack1, unpackS2] at h
        obtain ⟨i, ⟨-, rfl⟩, v, ⟨hl, rfl⟩, rfl⟩ := h
        exact ⟨_, by rw [hu]; exact variable_mem a, rfl, by omega, rfl, rfl⟩
      | simple s =>
        simp only [fromData, bind_eq_ok, pure_eq_ok] at h
        obtain ⟨b, hb, rfl⟩ := h
        obtain ⟨hl, rfl⟩ := idx_iff.1 hb
        exact ⟨_, by rw [hu]; exact byte_mem s, rfl, by omega, by rw [ofNat_u8]⟩
      | monoPoly =>
        simp only [fromData, bind_eq_ok, pure_eq_ok, raiseIf_iff] at h
        obtain ⟨b, hb, -, hr, rfl⟩ := h
        obtain ⟨hl, rfl⟩ := idx_iff.1 hb
        rw [ofNat_u8] at hr ⊢
        exact ⟨_, hu, rfl, by omega, rfl, by omega⟩
      | vibratoType =>
        simp only [fromData, bind_eq_ok, pure_eq_ok, raiseIf_iff] at h
        obtain ⟨b, hb, -, hr, rfl⟩ := h
        obtain ⟨hl, rfl⟩ := idx_iff.1 hb
        rw [ofNat_u8] at hr ⊢
        exact ⟨_, hu, rfl, by omega, rfl, by omega⟩
      | tempo =>
        simp only [fromData, bind_eq_ok, pure_eq_ok, unpack2] at h
        obtain ⟨v, ⟨hl, rfl⟩, rfl⟩ := h
        exact ⟨_, hu, rfl, by omega, rfl⟩
      | sweepPitch =>
        simp only [fromData, bind_eq_ok, pure_eq_ok, unpack2] at h
        obtain ⟨v, ⟨hl, rfl⟩, rfl⟩ := h
        exact ⟨_, hu, rfl, by omega, rfl⟩
      | endLoop => cases h; exact ⟨_, hu, rfl⟩
      | ret => cases h; exact ⟨_, hu, rfl⟩
      | defineTracks =>
        simp only [fromData, bind_eq_ok, pure_eq_ok, unpack2] at h
        obtain ⟨v, ⟨hl, rfl⟩, rfl⟩ := h
        exact ⟨_, hu, rfl, by omega, tracks_bits _⟩
      | endTrack => cases h; exact ⟨_, hu, rfl⟩
    · rw [goes ho] at h
      split at h
      · rename_i hu
        simp only [bind_eq_ok, pure_eq_ok] at h
        obtain ⟨b, hb, rfl⟩ := h
        obtain ⟨hl, rfl⟩ := idx_iff.1 hb
        exact ⟨_, hu, hl, by rw [ofNat_u8], slice_u24 d (o + 2), rfl⟩
      split at h
      · rename_i hu
        cases h
        exact ⟨_, hu, slice_u24 d (o + 1), rfl⟩
      split at h
      · rename_i hu
        cases h
        exact ⟨_, hu, slice_u24 d (o + 1), rfl⟩
      split at h
      · unfold noteFromData noteInit at h
        simp only [bind_eq_ok, pure_eq_ok, readVar_iff] at h
        obtain ⟨b, hb, v, ⟨k, hk⟩, rfl⟩ := h
        obtain ⟨hl, rfl⟩ := idx_iff.1 hb
        rw [ofNat_u8]
        exact ⟨_, ho, by omega, rfl, hl, by rw [and7F], low7 _ _, k, v, hk, rfl, rfl⟩
      split at h
      · cases h
      · rename_i h1 h2 h3 _ _ c hcc
        refine absurd ⟨c, hcc, ?_, ?_, ?_⟩ hc
        · rintro rfl; exact h1 (clsOf_inv hcc)
        · rintro rfl; exact h2 (clsOf_inv hcc)
        · rintro rfl; exact h3 (clsOf_inv hcc)
  · rintro ⟨n, h⟩
    have hcls : ∀ {t : Nat} {c : Cls}, u8 d o = t → clsOf t = some c → c ≠ .beginTrack → c ≠ .jump → c ≠ .call →
        decode d o = fromData c d o := fun hu hc => decode_cls (by rw [hu]; exact hc)
    cases e with
    | note p v f dur =>
      obtain ⟨ho, hu, rfl, hl, rfl, hf, k, x, hk, rfl, -⟩ := h
      rw [goes ho, if_neg (by omega), if_neg (by omega), if_neg (by omega), if_pos (by omega)]
      unfold noteFromData noteInit
      rw [idx_ok hl, bind_ok, readVar_iff.2 ⟨k, hk⟩, bind_ok, ofNat_u8, and7F]
      have : (u8 d (o + 1) &&& 0x80 != 0) = f := by
        rw [Bool.eq_iff_iff, low7]; exact hf.symm
      rw [this]; rfl
    | rest dur =>
      obtain ⟨hu, k, x, hk, rfl, -⟩ := h
      rw [hcls hu (c := .rest) rfl (by decide) (by decide) (by decide), fromData, readVar_iff.2 ⟨k, hk⟩, bind_ok]; rfl
    | instrumentSwitch b i =>
      obtain ⟨hu, k, x, hk, rfl, rfl, -⟩ := h
      rw [hcls hu (c := .instrumentSwitch) rfl (by decide) (by decide) (by decide), fromData, readVar_iff.2 ⟨k, hk⟩, bind_ok,
        shr7, and7F]; rfl
    | beginTrack t x =>
      obtain ⟨hu, hl, rfl, rfl, -⟩ := h
      rw [goes (by omega), if_pos hu, idx_ok hl, bind_ok, ofNat_u8, show o + 5 = o + 2 + 3 from rfl, slice_u24]; rfl
    | jump x =>
      obtain ⟨hu, rfl, -⟩ := h
      rw [goes (pos_of hu (by decide)), if_neg (by omega), if_pos hu, show o + 4 = o + 1 + 3 from rfl, slice_u24]; rfl
    | call x =>
      obtain ⟨hu, rfl, -⟩ := h
      rw [goes (pos_of hu (by decide)), if_neg (by omega), if_neg (by omega), if_pos hu, show o + 4 = o + 1 + 3 from rfl, slice_u24]; rfl
    | random s args lo hi =>
      obtain ⟨hu, k, hk, rfl, hl, rfl, rfl, rfl, rfl⟩ := h
      rw [hcls hu (c := .random) rfl (by decide) (by decide) (by decide), fromData, randomFromData, idx_ok (by omega), bind_ok, ofNat_u8,
        (kept_iff (u8_lt _ _) k).2 hk, bind_ok, Nat.add_sub_cancel_left, (args_iff (by omega)).2 rfl, bind_ok,
        unpackS2.2 ⟨by omega, rfl⟩, bind_ok, unpackS2.2 ⟨by omega, rfl⟩, bind_ok]
      rw [show o + 2 + k + 2 = o + 4 + k by omega, List.map_map]
      have : ((fun b : UInt8 => (b.toNat : Int)) ∘ fun i => UInt8.ofNat (u8 d (o + 2 + i))) = fun i => (u8 d (o + 2 + i) : Int) := by
        funext i; simp only [Function.comp, ofNat_u8]
      rw [this]; rfl
    | fromVariable s v u =>
      obtain ⟨hu, -, hl, rfl, h⟩ := h
      rw [hcls hu (c := .fromVariable) rfl (by decide) (by decide) (by decide), fromData, fromVariableFromData, idx_ok (by omega), bind_ok,
        ofNat_u8]
      rcases h with ⟨h1, h2, rfl, rfl⟩ | ⟨h1, rfl, rfl⟩
      · rw [if_pos ⟨h1, h2⟩, unpackS1.2 ⟨by omega, rfl⟩, bind_ok, unpackS1.2 ⟨by omega, rfl⟩, bind_ok]; rfl
      · rw [if_neg h1, unpackS2.2 ⟨by omega, rfl⟩, bind_ok]; rfl
    | ifE => rw [hcls h.1 (c := .ifE) rfl (by decide) (by decide) (by decide)]; rfl
    | arith a i v =>
      obtain ⟨hu, -, hl, rfl, rfl⟩ := h
      rw [decode_cls (variable_cls _ hu) (by intro h; cases h) (by intro h; cases h) (by intro h; cases h), fromData,
        unpack1.2 ⟨by omega, rfl⟩, bind_ok, unpackS2.2 ⟨by omega, rfl⟩, bind_ok]; rfl
    | simple c v =>
      obtain ⟨hu, -, hl, rfl⟩ := h
      rw [decode_cls (byte_cls _ hu) (by intro h; cases h) (by intro h; cases h) (by intro h; cases h), fromData,
        idx_ok (by omega), bind_ok, ofNat_u8]; rfl
    | monoPoly v =>
      obtain ⟨hu, -, hl, rfl, h1⟩ := h
      rw [hcls hu (c := .monoPoly) rfl (by decide) (by decide) (by decide), fromData, idx_ok (by omega), bind_ok, ofNat_u8,
        (raiseIf_iff (u := ())).2 (by omega), bind_ok]; rfl
    | vibratoType v =>
      obtain ⟨hu, -, hl, rfl, h1⟩ := h
      rw [hcls hu (c := .vibratoType) rfl (by decide) (by decide) (by decide), fromData, idx_ok (by omega), bind_ok, ofNat_u8,
        (raiseIf_iff (u := ())).2 (by omega), bind_ok]; rfl
    | tempo v =>
      obtain ⟨hu, -, hl, rfl⟩ := h
      rw [hcls hu (c := .tempo) rfl (by decide) (by decide) (by decide), fromData, unpack2.2 ⟨by omega, rfl⟩, bind_ok]; rfl
    | sweepPitch v =>
      obtain ⟨hu, -, hl, rfl⟩ := h
      rw [hcls hu (c := .sweepPitch) rfl (by decide) (by decide) (by decide), fromData, unpack2.2 ⟨by omega, rfl⟩, bind_ok]; rfl
    | endLoop => rw [hcls h.1 (c := .endLoop) rfl (by decide) (by decide) (by decide)]; rfl
    | ret => rw [hcls h.1 (c := .ret) rfl (by decide) (by decide) (by decide)]; rfl
    | defineTracks l =>
      obtain ⟨hu, -, hl, rfl⟩ := h
      rw [hcls hu (c := .defineTracks) rfl (by decide) (by decide) (by decide), fromData, unpack2.2 ⟨by omega, rfl⟩, bind_ok,
        tracks_bits]; rfl
    | endTrack => rw [hcls h.1 (c := .endTrack) rfl (by decide) (by decide) (by decide)]; rfl
    | raw b => exact h.elim

/-! ## How long events are -/

theorem var_length {d : Bytes} {o n x : Nat} (h : VarAt d o n x) (h80 : u8 d o ≠ 0x80) : lenVar x = .ok n := by
  obtain ⟨-, hat⟩ := readVar_inv (readVar_iff.2 ⟨n, h⟩)
  have hat := hat (by
    intro e
    apply h80
    unfold u8
    rw [e]; rfl)
  obtain ⟨w, last, hw, h1, h2, -⟩ := Props.Sequence.vlq_format x
  rw [writeVar_eq] at hw
  injection hw with hw
  rw [hw] at hat
  rw [lenVar_eq', hw]
  obtain ⟨a, b, rfl, rfl⟩ := hat
  have hget : ∀ i (hi : i < (w ++ [last]).length), u8 (a ++ (w ++ [last]) ++ b) (a.length + i) = ((w ++ [last])[i]).toNat := by
    intro i hi
    unfold u8
    rw [List.append_assoc, List.getElem?_append_right (by omega), Nat.add_sub_cancel_left, List.getElem?_append_left hi,
      List.getElem?_eq_getElem hi]
    rfl
  obtain ⟨g1, g2, g3, g4, g5, -⟩ := h
  simp only [List.length_append, List.length_singleton]
  have hlast := hget w.length (by simp)
  rw [List.getElem_concat_length rfl] at hlast
  congr 1
  rcases Nat.lt_trichotomy (w.length + 1) n with hlt | heq | hgt
  · have := g4 w.length (by omega)
    omega
  · exact heq
  · have h3 := hget (n - 1) (by simp; omega)
    rw [List.getElem_append_left (by omega)] at h3
    have := h1 _ (List.getElem_mem (l := w) (n := n - 1) (by omega))
    omega

/-- C106: the declared length of an event is the number of bytes it was read from, unless its variable-length integer begins with a byte 80h
or it is a from-variable event whose sub-event is not an arithmetic one. -/
theorem event_width (d : Bytes) (o n : Nat) (e : Ev) (h : EventAt d o n e) (hp : Plain d o e) : e.dataLength = .ok n := by
  cases e with
  | note p v f dur =>
    obtain ⟨-, -, -, -, -, -, k, x, hk, rfl, rfl⟩ := h
    rw [Ev.dataLength, var_length hk hp]; rfl
  | rest dur =>
    obtain ⟨-, k, x, hk, rfl, rfl⟩ := h
    rw [Ev.dataLength, var_length hk hp]; rfl
  | instrumentSwitch b i =>
    obtain ⟨-, k, x, hk, rfl, rfl, rfl⟩ := h
    rw [Ev.dataLength, or_shift7 (by omega), show x / 128 * 128 + x % 128 = x by omega, var_length hk hp]; rfl
  | random s args lo hi =>
    obtain ⟨-, k, hk, rfl, -, rfl, -⟩ := h
    rw [Ev.dataLength, (kept_iff (u8_lt _ _) k).2 hk]
  | fromVariable s v u =>
    obtain ⟨-, rfl, -⟩ := h
    rw [Ev.dataLength, if_pos (show 0xB0 ≤ s ∧ s ≤ 0xBD from hp)]
  | beginTrack t x => rw [h.2.2.2.2]; rfl
  | jump x => rw [h.2.2]; rfl
  | call x => rw [h.2.2]; rfl
  | ifE => rw [h.2]; rfl
  | arith a i v => rw [h.2.1]; rfl
  | simple c v => rw [h.2.1]; rfl
  | monoPoly v => rw [h.2.1]; rfl
  | vibratoType v => rw [h.2.1]; rfl
  | tempo v => rw [h.2.1]; rfl
  | sweepPitch v => rw [h.2.1]; rfl
  | endLoop => rw [h.2]; rfl
  | ret => rw [h.2]; rfl
  | defineTracks l => rw [h.2.1]; rfl
  | endTrack => rw [h.2]; rfl
  | raw b => exact h.elim

/-- C106: the length of the others. -/
theorem event_width_short (d : Bytes) (o n : Nat) (s v : Int) (u : Option Int) (h : EventAt d o n (.fromVariable s v u))
    (hs : ¬ (0xB0 ≤ s ∧ s ≤ 0xBD)) : n = 4 ∧ Ev.dataLength (.fromVariable s v u) = .ok 3 := by
  obtain ⟨-, rfl, -⟩ := h
  exact ⟨rfl, by rw [Ev.dataLength, if_neg hs]⟩

example : EventAt [0xA1, 0xC1, 0x05, 0x00] 0 4 (.fromVariable 0xC1 5 none) := by
  refine ⟨by decide, rfl, by decide, by decide, .inr ⟨by decide, rfl, by decide⟩⟩

/-! ## Whole sequences -/

/-- C106: every event that is read from sequence data is the one whose bytes are at its place. -/
theorem read_events (depth : Nat) (d : Bytes) (notable : List Nat) (l : List (Nat × Ev)) (ids : List Nat)
    (h : readSequenceEvents depth d notable = .ok (l, ids)) (o : Nat) (e : Ev) (hm : (o, e) ∈ l) :
    (∃ b, e = .raw b) ∨ ∃ n, EventAt d o n e := by
  rcases (Props.SequenceRead.read_tiles depth d notable l ids h).2.2 (o, e) hm with h | ⟨h, -⟩
  · exact .inl h
  · exact .inr ((event_iff d o e).1 h)

/-- C106: saved events have the bytes of the format at their place, and references hold the places of the events they refer to. -/
theorem saved_events (pre post : List (Nat × Ev)) (e : Nat × Ev) (notable : List Nat) (data : Bytes) (noffs : List Nat)
    (hp : Props.Sequence.Proper (pre ++ e :: post)) (hf : Spec.Sequence.isFromVariable e.2 = false) (hr : Spec.Sequence.InRange e.2)
    (h : saveSequenceEvents (pre ++ e :: post) notable = .ok (data, noffs)) :
    ∃ n, EventAt data (Spec.Sequence.total pre) n
      (Spec.Sequence.mapRefs (fun r => (Spec.Sequence.position (pre ++ e :: post) r).getD 0) e.2) := by
  obtain ⟨h1, b, h2, h3, h4⟩ := Props.Sequence.sequence_event_at pre post e notable data noffs hp h
  obtain ⟨-, h5⟩ := Props.Sequence.event_length_partial e.2 _ hr hf
  have h6 := h5 b h2
  have h7 := Proofs.SeqSave.declared_of h6
  rw [h7, List.take_length] at h4
  obtain ⟨i, b', hi⟩ : ∃ i b', data = i ++ b ++ b' ∧ i.length = Spec.Sequence.total pre := by
    have hb : Spec.Sequence.total pre + b.length ≤ data.length ∨ b = [] := by
      have := congrArg List.length h4
      rw [slice_length] at this
      by_cases hb : b.length = 0
      · exact .inr (List.length_eq_zero_iff.1 hb)
      · left; omega
    rcases hb with hb | hb
    · exact At.of_slice hb (by omega) h4
    · subst hb
      have := Proofs.SeqSave.evBytes_pos (fun r => (Spec.Sequence.position (pre ++ e :: post) r).getD 0) hr
      rw [h7] at this
      simp at this
  refine (event_iff _ _ _).1 ?_
  rw [hi.1, ← hi.2]
  exact (Props.Sequence.event_roundtrip_refs e.2 hr _ b h2 i b').1

example : saveSequenceEvents [(7, .beginTrack 1 9), (8, .jump 8), (9, .note 60 100 true 300), (10, .endTrack)] [8] =
    .ok ([0x93, 1, 9, 0, 0, 0x94, 5, 0, 0, 60, 0xE4, 0x82, 0x2C, 0xFF], [5]) := by decide +kernel

/-! ## Files -/

/-- C106: an SSEQ file loads exactly if it has the right magic and version and is not too short; its event data lies between the place and the
file length that the headers give. -/
theorem sseq_load_iff (d : Bytes) (s : SSEQ) : SSEQ.load d = .ok s ↔
    0x1C ≤ d.length ∧ bytesAt d 0 4 = [0x53, 0x53, 0x45, 0x51] ∧ u16 d 6 = 0x100 ∧ s = .unparsed (span d (u32 d 0x18) (u32 d 8)) := by
  unfold SSEQ.load
  simp only [bind_eq_ok, pure_eq_ok, raiseIf_iff, unpack2, unpack4, slice_span, Classical.not_not]
  constructor
  · rintro ⟨-, h1, -, ⟨-, rfl⟩, -, ⟨-, rfl⟩, -, h2, -, ⟨h3, rfl⟩, rfl⟩
    exact ⟨h3, h1, h2, rfl⟩
  · rintro ⟨h3, h1, h2, rfl⟩
    exact ⟨(), h1, _, ⟨by omega, rfl⟩, _, ⟨by omega, rfl⟩, (), h2, _, ⟨h3, rfl⟩, rfl⟩

example : SSEQ.load ([0x53, 0x53, 0x45, 0x51, 0xFF, 0xFE, 0, 1, 0x1E, 0, 0, 0, 0x10, 0, 1, 0, 0x44, 0x41, 0x54, 0x41, 0x0E, 0, 0, 0,
    0x1C, 0, 0, 0, 0xFC, 0xFF, 0x77]) = .ok (.unparsed [0xFC, 0xFF]) := by decide +kernel

theorem unpackS4 {d : Bytes} {o : Nat} {z : Int} : unpackS .little 4 d o = .ok z ↔ o + 4 ≤ d.length ∧ z = i32 d o := by
  unfold unpackS
  simp only [bind_eq_ok, pure_eq_ok, unpack4]
  have := u32_lt d o
  constructor
  · rintro ⟨n, ⟨h, rfl⟩, rfl⟩
    refine ⟨h, ?_⟩
    unfold signedVal i32
    split <;> split <;> omega
  · rintro ⟨h, rfl⟩
    refine ⟨_, ⟨h, rfl⟩, ?_⟩
    unfold signedVal i32
    split <;> split <;> omega

theorem loadSequence_iff {d : Bytes} {o : Nat} {s : Model.SoundSequenceArchive.Sequence} :
    Model.SoundSequenceArchive.loadSequence d o = .ok s ↔ o + 10 ≤ d.length ∧ s = sequenceAt d o := by
  unfold Model.SoundSequenceArchive.loadSequence
  simp only [bind_eq_ok, unpackS4, unpackUs_iff (ks := [2, 1, 1, 1, 1]) (by decide) (by decide)]
  have hf : Model.SoundSequenceArchive.firstOf (i32 d o) = .unparsed (if u32 d o = 0xFFFFFFFF then none else some (i32 d o)) := by
    unfold Model.SoundSequenceArchive.firstOf
    congr 1
    have := u32_lt d o
    by_cases h : u32 d o = 0xFFFFFFFF
    · rw [if_pos h, if_pos]
      unfold i32; rw [h]; decide
    · rw [if_neg h, if_neg]
      unfold i32
      split <;> omega
  constructor
  · rintro ⟨z, ⟨h1, rfl⟩, l, ⟨h2, rfl⟩, h⟩
    simp only [readAll, uN, pure_eq_ok] at h
    simp only [List.sum_cons, List.sum_nil] at h2
    refine ⟨by omega, ?_⟩
    rw [← h, hf]
    rfl
  · rintro ⟨h, rfl⟩
    refine ⟨_, ⟨by omega, rfl⟩, _, ⟨by simp; omega, rfl⟩, ?_⟩
    simp only [readAll, uN, pure_eq_ok, hf]
    rfl

/-- C106: an SSAR file loads exactly if it has the right magics and version and its table lies within it; every sequence comes from its record
of twelve bytes (of which the last two are not looked at), with its name, or none if there is none. -/
theorem ssar_load_iff (d : Bytes) (unk02 : Nat) (names : List (Option Str)) (a : Model.SoundSequenceArchive.SSAR) :
    Model.SoundSequenceArchive.SSAR.load d unk02 names = .ok a ↔
      0x20 ≤ d.length ∧ bytesAt d 0 4 = [0x53, 0x53, 0x41, 0x52] ∧ u16 d 6 = 0x100 ∧ bytesAt d 0x10 4 = [0x44, 0x41, 0x54, 0x41] ∧
      (∀ i < u32 d 0x1C, 0x20 + 12 * i + 10 ≤ d.length) ∧
      a = ⟨unk02, (List.range (u32 d 0x1C)).map (fun i => (names.getD i none, sequenceAt d (0x20 + 12 * i))),
        .unparsed (span d (u32 d 0x18) (u32 d 8))⟩ := by
  unfold Model.SoundSequenceArchive.SSAR.load
  simp only [bind_eq_ok, pure_eq_ok, raiseIf_iff, pyAssert_iff, unpack4, slice_span, Classical.not_not, stdHeader_iff, unpackStr_iff]
  have hm := fun (n : Nat) (r : List Model.SoundSequenceArchive.Sequence) =>
    mapE_eq_map (f := fun i => Model.SoundSequenceArchive.loadSequence d (0x20 + 0xC * i)) (P := fun i => 0x20 + 0xC * i + 10 ≤ d.length)
      (g := fun i => sequenceAt d (0x20 + 0xC * i)) (fun i s => loadSequence_iff) (List.range n) r
  have hz : ∀ n, (((List.range n).zip ((List.range n).map fun i => sequenceAt d (0x20 + 0xC * i))).map fun p =>
      (names.getD p.1 none, p.2)) = (List.range n).map (fun i => (names.getD i none, sequenceAt d (0x20 + 12 * i))) := by
    intro n
    apply List.ext_getElem?
    intro i
    by_cases hi : i < n <;> simp [hi]
  constructor
  · rintro ⟨-, h1, hd, ⟨h2, rfl⟩, -, h3, -, h4, m, ⟨h5, rfl⟩, -, -, -, ⟨-, rfl⟩, c, ⟨h6, rfl⟩, -, h7, seqs, hs, rfl⟩
    obtain ⟨hs1, rfl⟩ := (hm _ _).1 hs
    exact ⟨by omega, h1, h3, h7, fun i hi => hs1 i (List.mem_range.2 hi), by rw [hz]⟩
  · rintro ⟨h1, h2, h3, h4, h5, rfl⟩
    refine ⟨(), h2, _, ⟨by omega, rfl⟩, (), h3, (), h2, _, ⟨by omega, rfl⟩, _, ⟨by omega, rfl⟩, _, ⟨by omega, rfl⟩, _, ⟨by omega, rfl⟩, (), h4,
      _, (hm _ _).2 ⟨fun i hi => h5 i (List.mem_range.1 hi), rfl⟩, by rw [hz]⟩

/-- A file with two sequences, of which the first has no data. -/
def exSsar : Bytes := [0x53, 0x53, 0x41, 0x52, 0xFF, 0xFE, 0, 1, 0x3A, 0, 0, 0, 0x10, 0, 1, 0, 0x44, 0x41, 0x54, 0x41, 0x2A, 0, 0, 0,
  0x38, 0, 0, 0, 2, 0, 0, 0, 0xFF, 0xFF, 0xFF, 0xFF, 1, 2, 3, 4, 5, 6, 0, 0, 1, 0, 0, 0, 7, 0, 8, 9, 10, 11, 0, 0, 0xFC, 0xFF]

example : Model.SoundSequenceArchive.SSAR.load exSsar 5 [some [65]] =
    .ok ⟨5, [(some [65], ⟨.unparsed none, 0x201, 3, 4, 5, 6⟩), (none, ⟨.unparsed (some 1), 7, 8, 9, 10, 11⟩)], .unparsed [0xFC, 0xFF]⟩ := by
  decide +kernel

end Verif.Props.FormatSseq
