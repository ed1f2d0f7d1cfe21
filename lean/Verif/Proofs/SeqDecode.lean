import Verif.Proofs.SeqSave

/-!
# What can be said about an event that was decoded
-/

namespace Verif.Proofs.SeqDecode

open Verif Verif.Model.SoundSequence Verif.Proofs.SeqVar Verif.Proofs.SeqEvent Verif.Proofs.SeqSave
open Verif.Spec.Sequence

theorem At.of_pyIdx {d : Bytes} {o : Nat} {b : UInt8} (h : pyIdx d o = .ok b) : At d o [b] := by
  rw [pyIdx_eq_ok] at h
  obtain ⟨hl, hb⟩ := List.getElem?_eq_some_iff.1 h
  refine At.of_slice (b := o + 1) (by omega) (by omega) ?_
  apply List.ext_getElem?
  intro i
  rw [getElem?_slice]
  cases i with
  | zero => simp [h]
  | succ i => simp

theorem At.cons {d : Bytes} {o : Nat} {b : UInt8} {t : Bytes} (h1 : pyIdx d o = .ok b) (h2 : At d (o + 1) t) :
    At d o (b :: t) :=
  (At.split (s := [b])).2 ⟨At.of_pyIdx h1, h2⟩

/-! ## Variable-length integers -/

theorem and80_of_ge {n : Nat} (h : n < 256) (h' : n &&& 0x80 ≠ 0) : n % 128 + 128 = n := by
  by_cases hn : n < 128
  · exact absurd (and80_lt hn) h'
  · omega

theorem and80_zero {n : Nat} (h : n < 256) (h' : n &&& 0x80 = 0) : n < 128 := by
  by_cases hn : n < 128
  · exact hn
  · have := and80_ge (n := n - 128) (by omega)
    rw [show n - 128 + 128 = n by omega] at this
    exact absurd h' this

theorem readVarLoop_inv {d : Bytes} : ∀ {room off v x : Nat} {p : UInt8},
    readVarLoop d room (off + 1) v = .ok x → pyIdx d off = .ok p →
    ∃ l : List Nat, l.length ≤ room ∧ (∀ y ∈ l, y < 128) ∧ x = l.foldl (fun acc y => acc * 128 + y) v ∧
      At d off (enc (p.toNat % 128 :: l)) := by
  intro room
  induction room with
  | zero =>
    intro off v x p h hp
    have hlt := p.toNat_lt
    rw [readVarLoop, Nat.add_sub_cancel, hp, bind_ok] at h
    split at h
    · rename_i hm
      cases h
      have := and80_zero hlt hm
      refine ⟨[], by simp, by simp, rfl, ?_⟩
      rw [Nat.mod_eq_of_lt this]
      have e : enc [p.toNat] = [p] := by simp [enc, markDigits]
      rw [e]; exact At.of_pyIdx hp
    · simp only [bind_eq_ok] at h
      obtain ⟨b, _, h⟩ := h
      cases h
  | succ room ih =>
    intro off v x p h hp
    have hlt := p.toNat_lt
    rw [readVarLoop, Nat.add_sub_cancel, hp, bind_ok] at h
    split at h
    · rename_i hm
      cases h
      have := and80_zero hlt hm
      refine ⟨[], by simp, by simp, rfl, ?_⟩
      rw [Nat.mod_eq_of_lt this]
      have e : enc [p.toNat] = [p] := by simp [enc, markDigits]
      rw [e]; exact At.of_pyIdx hp
    · rename_i hm
      simp only [bind_eq_ok] at h
      obtain ⟨b, hb, h⟩ := h
      obtain ⟨l, h1, h2, h3, h4⟩ := ih h hb
      refine ⟨b.toNat % 128 :: l, by simp; omega, ?_, ?_, ?_⟩
      · intro y hy
        rcases List.mem_cons.1 hy with rfl | hy
        · omega
        · exact h2 y hy
      · rw [h3, and7F, or_shift7 (by omega)]; rfl
      · rw [enc_cons2]
        apply At.cons _ h4
        rw [hp, or80 (by omega), and80_of_ge hlt hm]
        simp

theorem foldl_lt : ∀ (l : List Nat) (v k : Nat), (∀ y ∈ l, y < 128) → v < 128 ^ k →
    l.foldl (fun acc y => acc * 128 + y) v < 128 ^ (k + l.length)
  | [], v, k, _, hv => by simpa using hv
  | y :: l, v, k, hl, hv => by
    have hy := hl y (by simp)
    rw [List.foldl_cons, List.length_cons, show k + (l.length + 1) = k + 1 + l.length by omega]
    apply foldl_lt l _ (k + 1) (fun z hz => hl z (by simp [hz]))
    rw [Nat.pow_succ]; omega

theorem foldl_pos : ∀ (l : List Nat) (v : Nat), 0 < v → 0 < l.foldl (fun acc y => acc * 128 + y) v
  | [], v, hv => hv
  | y :: l, v, hv => by
    rw [List.foldl_cons]
    exact foldl_pos l _ (by omega)

theorem varDigits_unique : ∀ (r : List Nat) (p f : Nat), p < 128 → (∀ y ∈ r, y < 128) → (p ≠ 0 ∨ r = []) →
    r.reverse.foldl (fun acc y => acc * 128 + y) p ≤ f →
    varDigits f (r.reverse.foldl (fun acc y => acc * 128 + y) p) = r ++ [p]
  | [], p, f, hp, _, _, _ => by
    simp only [List.reverse_nil, List.foldl_nil, List.nil_append]
    exact varDigits_small hp
  | q :: r, p, f, hp, hl, hne, hf => by
    have hq := hl q (by simp)
    have hp0 : 0 < p := by
      rcases hne with h | h
      · omega
      · cases h
    simp only [List.reverse_cons, List.foldl_append, List.foldl_cons, List.foldl_nil] at hf ⊢
    have hpos := foldl_pos r.reverse p hp0
    generalize hx : r.reverse.foldl (fun acc y => acc * 128 + y) p = x at hf hpos
    cases f with
    | zero => omega
    | succ f =>
      rw [varDigits_big (by omega), show (x * 128 + q) % 128 = q by omega, show (x * 128 + q) / 128 = x by omega]
      have := varDigits_unique r p f hp (fun y hy => hl y (by simp [hy])) (.inl (by omega)) (by rw [hx]; omega)
      rw [hx] at this
      rw [this]; rfl

theorem readVar_inv {d : Bytes} {off x : Nat} (h : readVar d off = .ok x) :
    x < 2 ^ 35 ∧ (d[off]? ≠ some 0x80 → At d off (varBytes x)) := by
  unfold readVar at h
  simp only [bind_eq_ok] at h
  obtain ⟨b, hb, h⟩ := h
  obtain ⟨l, h1, h2, h3, h4⟩ := readVarLoop_inv h hb
  rw [and7F] at h3
  constructor
  · have := foldl_lt l (b.toNat % 128) 1 h2 (by omega)
    rw [← h3] at this
    have h5 : 128 ^ (1 + l.length) ≤ 128 ^ 5 := Nat.pow_le_pow_right (by decide) (by omega)
    have : (128 : Nat) ^ 5 = 2 ^ 35 := by decide
    omega
  · intro hne
    have hc : b.toNat % 128 ≠ 0 ∨ l.reverse = [] := by
      cases l with
      | nil => exact .inr rfl
      | cons q l =>
        left
        intro h0
        rw [enc_cons2, h0] at h4
        have := At.head h4
        rw [pyIdx_eq_ok] at this
        exact hne (by rw [this]; rfl)
    have := varDigits_unique l.reverse (b.toNat % 128) x (by omega)
      (fun y hy => h2 y (List.mem_reverse.1 hy)) hc (by rw [List.reverse_reverse, ← h3]; exact Nat.le_refl _)
    rw [List.reverse_reverse, ← h3] at this
    unfold varBytes
    rw [this]
    simpa using h4

/-! ## Type numbers -/

/-- The type number of a class. -/
def clsCode : Cls → Nat
  | .rest => 0x80 | .instrumentSwitch => 0x81 | .beginTrack => 0x93 | .jump => 0x94 | .call => 0x95
  | .random => 0xA0 | .fromVariable => 0xA1 | .ifE => 0xA2 | .arith a => a.code | .simple s => s.code
  | .monoPoly => 0xC7 | .vibratoType => 0xCC | .tempo => 0xE1 | .sweepPitch => 0xE3 | .endLoop => 0xFC
  | .ret => 0xFD | .defineTracks => 0xFE | .endTrack => 0xFF

theorem clsOf_inv {t : Nat} {c : Cls} (h : clsOf t = some c) : t = clsCode c := by
  unfold clsOf at h
  split at h <;> cases h <;> rfl

/-! ## Fields -/

theorem unpackS_inv {k : Nat} {d : Bytes} {o : Nat} {z : Int} (h : unpackS .little k d o = .ok z) :
    SRange k z ∧ At d o (sBytes k z) := by
  unfold unpackS at h
  simp only [bind_eq_ok, pure_eq_ok] at h
  obtain ⟨n, hn, rfl⟩ := h
  have hlt := unpackU_lt hn
  refine ⟨?_, ?_⟩
  · unfold SRange signedVal
    generalize 256 ^ k = m at hlt
    split <;> omega
  · unfold sBytes
    rw [signedRep_signedVal hlt]
    exact At.of_unpackU hn

theorem ofNat_toNat (b : UInt8) : UInt8.ofNat b.toNat = b := by simp

theorem leBytes1 (b : UInt8) : leBytes 1 b.toNat = [b] := by simp [leBytes]

theorem velocity_back (b : UInt8) :
    (b.toNat &&& 0x7F) ||| (if (b.toNat &&& 0x80 != 0) = true then 0x80 else 0) = b.toNat := by
  have hb := b.toNat_lt
  generalize b.toNat = n at hb
  by_cases h : n &&& 0x80 = 0
  · have := and80_zero hb h
    rw [h, and7F, Nat.mod_eq_of_lt this]; simp
  · rw [if_pos (bne_iff_ne.2 h), and7F, or80 (by omega), and80_of_ge hb h]

theorem tracks_back {n : Nat} (h : n < 256 ^ 2) :
    tracksBits ((List.range 16).filter fun i => n &&& (1 <<< i) != 0) = n := by
  apply Nat.eq_of_testBit_eq
  intro i
  rw [tracksBits_testBit]
  by_cases hi : i < 16
  · have : (i ∈ (List.range 16).filter fun i => n &&& (1 <<< i) != 0) ↔ n.testBit i = true := by
      rw [List.mem_filter, List.mem_range, Nat.one_shiftLeft, Bits.and_two_pow_ne]
      exact ⟨fun h => h.2, fun h => ⟨hi, h⟩⟩
    simp only [hi, decide_true, Bool.true_and]
    by_cases hb : n.testBit i = true
    · rw [decide_eq_true (this.2 hb), hb]
    · rw [decide_eq_false (fun hm => hb (this.1 hm))]
      simpa using hb
  · have : n.testBit i = false := Nat.testBit_lt_two_pow (Nat.lt_of_lt_of_le h (by
      have : 2 ^ 16 ≤ 2 ^ i := Nat.pow_le_pow_right (by decide) (by omega)
      simpa using this))
    simp [hi, this]

theorem ubyte (b : UInt8) : UByte b.toNat := by
  have := b.toNat_lt
  unfold UByte; omega

theorem randomLength_ge {s : Int} {n : Nat} (h : randomLength s = .ok n) : 6 ≤ n := by
  unfold randomLength at h
  split at h
  · cases h; decide
  · split at h
    · cases h
    · rename_i c _
      cases c <;> simp only [zeroLength] at h <;> cases h <;> decide

theorem mapE_idx_at : ∀ {n : Nat} {d : Bytes} {o : Nat} {bs : Bytes},
    mapE (fun i => pyIdx d (o + i)) (List.range n) = .ok bs → o + n ≤ d.length ∨ n = 0 →
      bs.length = n ∧ (o ≤ d.length → At d o bs) := by
  intro n d o bs h _
  have hl := mapE_length h
  rw [List.length_range] at hl
  refine ⟨hl, fun ho => ?_⟩
  have hget : ∀ i, i < n → d[o + i]? = bs[i]? := by
    intro i hi
    have := mapE_getElem h i (by simpa using hi) (by omega)
    simp only [List.getElem_range] at this
    rw [pyIdx_eq_ok] at this
    rw [this, List.getElem?_eq_getElem]
  have hb : o + n ≤ d.length := by
    cases n with
    | zero => omega
    | succ n =>
      have := hget n (by omega)
      rw [List.getElem?_eq_getElem (l := bs) (by omega)] at this
      have := (List.getElem?_eq_some_iff.1 this).1
      omega
  refine At.of_slice (b := o + n) hb (by omega) ?_
  apply List.ext_getElem?
  intro i
  rw [getElem?_slice]
  by_cases hi : i < n
  · rw [if_pos (by omega), hget i hi]
  · rw [if_neg (by omega), List.getElem?_eq_none (by omega)]

theorem intBytes_map (bs : Bytes) : intBytes (bs.map fun b => (b.toNat : Int)) = bs := by
  unfold intBytes
  rw [List.map_map]
  conv => rhs; rw [← List.map_id bs]
  apply List.map_congr_left
  intro b _
  simp

theorem slice3 {d : Bytes} {o : Nat} (h : o + 3 ≤ d.length) : At d o (leBytes 3 (leVal (slice d o (o + 3)))) := by
  have hl : (slice d o (o + 3)).length = 3 := by rw [slice_length_of_le h]; omega
  have := leBytes_leVal (slice d o (o + 3))
  rw [hl] at this
  rw [this]
  exact At.of_slice h (by omega) rfl

/-- A decoded event has fields in range, and if its variable-length integer is the shortest one and it does not
reach past the end, the bytes it declares are the ones it would be saved to. -/
theorem decode_inv {d : Bytes} {o : Nat} {e : Ev} (h : decode d o = .ok e) :
    InRange e ∧ (Shortest d o e → o + declared e ≤ d.length →
      At d o ((evBytes id e).take (declared e))) := by
  unfold decode at h
  simp only [bind_eq_ok] at h
  obtain ⟨t, ht, h⟩ := h
  have htl := t.toNat_lt
  have hat := At.of_pyIdx ht
  split at h
  · rename_i h93
    simp only [bind_eq_ok, pure_eq_ok] at h
    obtain ⟨tn, htn, rfl⟩ := h
    refine ⟨ubyte tn, fun _ hlen => ?_⟩
    simp only [declared, Ev.dataLength] at hlen ⊢
    rw [List.take_of_length_le (by simp [evBytes])]
    simp only [evBytes, At.split, List.length_singleton, leBytes_length, List.length_append, id_eq]
    refine ⟨⟨?_, ?_⟩, ?_⟩
    · have : t = 0x93 := UInt8.toNat_inj.1 h93
      rw [← this]; exact hat
    · rw [Int.toNat_natCast, leBytes1]; exact At.of_pyIdx htn
    · exact (slice3 (d := d) (o := o + 2) (by omega)).cast (by omega)
  split at h
  · rename_i h93
    cases h
    refine ⟨trivial, fun _ hlen => ?_⟩
    simp only [declared, Ev.dataLength] at hlen ⊢
    rw [List.take_of_length_le (by simp [evBytes])]
    simp only [evBytes, At.split, List.length_singleton, id_eq]
    refine ⟨?_, ?_⟩
    · have : t = 0x94 := UInt8.toNat_inj.1 h93
      rw [← this]; exact hat
    · exact slice3 (by omega)
  split at h
  · rename_i h93
    cases h
    refine ⟨trivial, fun _ hlen => ?_⟩
    simp only [declared, Ev.dataLength] at hlen ⊢
    rw [List.take_of_length_le (by simp [evBytes])]
    simp only [evBytes, At.split, List.length_singleton, id_eq]
    refine ⟨?_, ?_⟩
    · have : t = 0x95 := UInt8.toNat_inj.1 h93
      rw [← this]; exact hat
    · exact slice3 (by omega)
  split at h
  · rename_i hn
    unfold noteFromData noteInit at h
    simp only [bind_eq_ok, pure_eq_ok] at h
    obtain ⟨v, hv, dur, hd, rfl⟩ := h
    obtain ⟨r1, r2⟩ := readVar_inv hd
    have hin : InRange (.note (t.toNat : Int) (v.toNat &&& 0x7F : Nat) (v.toNat &&& 0x80 != 0) dur) := by
      refine ⟨by omega, ?_, by omega⟩
      rw [and7F]; omega
    refine ⟨hin, fun hs _ => ?_⟩
    rw [declared_of (dataLength_eq id hin rfl), List.take_of_length_le (Nat.le_refl _)]
    simp only [evBytes, At.split, List.length_append, leBytes_length, Int.toNat_natCast]
    refine ⟨⟨?_, ?_⟩, ?_⟩
    · rw [leBytes1]; exact hat
    · rw [velocity_back, leBytes1]; exact At.of_pyIdx hv
    · exact r2 hs
  rename_i h1 h2 h3 h4
  split at h
  · cases h
  rename_i c hc
  have hcode := clsOf_inv hc
  have htype : At d o [UInt8.ofNat (clsCode c)] := by
    rw [← hcode, ofNat_toNat]; exact hat
  cases c with
  | rest =>
    simp only [fromData, bind_eq_ok, pure_eq_ok] at h
    obtain ⟨n, hn, rfl⟩ := h
    obtain ⟨r1, r2⟩ := readVar_inv hn
    have hin : InRange (.rest n) := by
      refine ⟨by omega, by omega⟩
    refine ⟨hin, fun hs _ => ?_⟩
    rw [declared_of (dataLength_eq id hin rfl), List.take_of_length_le (Nat.le_refl _)]
    simp only [evBytes, At.split, List.length_singleton, Int.toNat_natCast]
    exact ⟨htype, r2 hs⟩
  | instrumentSwitch =>
    simp only [fromData, bind_eq_ok, pure_eq_ok] at h
    obtain ⟨n, hn, rfl⟩ := h
    obtain ⟨r1, r2⟩ := readVar_inv hn
    have hin : InRange (.instrumentSwitch (n >>> 7) (n &&& 0x7F)) := by
      rw [and7F, shr7]
      refine ⟨by omega, by omega⟩
    refine ⟨hin, fun hs _ => ?_⟩
    rw [declared_of (dataLength_eq id hin rfl), List.take_of_length_le (Nat.le_refl _)]
    simp only [evBytes]
    rw [instr_value' hin.1, and7F, shr7, show n / 128 * 128 + n % 128 = n by omega]
    simp only [At.split, List.length_singleton]
    exact ⟨htype, r2 hs⟩
  | beginTrack => cases h
  | jump => cases h
  | call => cases h
  | random =>
    simp only [fromData, randomFromData, bind_eq_ok, pure_eq_ok] at h
    obtain ⟨s, hs, len, hlen, args, hargs, lo, hlo, hi, hhi, rfl⟩ := h
    obtain ⟨l1, l2⟩ := unpackS_inv hlo
    obtain ⟨m1, m2⟩ := unpackS_inv hhi
    have hge := randomLength_ge hlen
    have hb2 := m2.bound
    rw [sBytes_length] at hb2
    obtain ⟨a1, a2⟩ := mapE_idx_at hargs (.inl (by omega))
    have hin : InRange (.random s.toNat (args.map fun b => (b.toNat : Int)) lo hi) := by
      refine ⟨ubyte s, ?_, ?_, srange2.1 l1, srange2.1 m1⟩
      · intro x hx
        obtain ⟨b, _, rfl⟩ := List.mem_map.1 hx
        exact ubyte b
      · rw [hlen, List.length_map, a1]; congr 1; omega
    refine ⟨hin, fun _ _ => ?_⟩
    rw [declared_of (dataLength_eq id hin rfl), List.take_of_length_le (Nat.le_refl _)]
    simp only [evBytes]
    rw [show intBytes ((s.toNat : Int) :: args.map fun b => (b.toNat : Int)) =
      [s] ++ intBytes (args.map fun b => (b.toNat : Int)) by simp [intBytes], intBytes_map]
    simp only [At.split, List.length_append, List.length_singleton, sBytes_length, a1]
    exact ⟨⟨htype, At.of_pyIdx hs, (a2 (by omega)).cast (by omega)⟩, l2.cast (by omega), m2.cast (by omega)⟩
  | fromVariable =>
    simp only [fromData, fromVariableFromData, bind_eq_ok] at h
    obtain ⟨s, hs, h⟩ := h
    by_cases hb : 0xB0 ≤ s.toNat ∧ s.toNat ≤ 0xBD
    · rw [if_pos hb] at h
      simp only [bind_eq_ok, pure_eq_ok] at h
      obtain ⟨u, hu, v, hv, rfl⟩ := h
      obtain ⟨u1, u2⟩ := unpackS_inv hu
      obtain ⟨v1, v2⟩ := unpackS_inv hv
      have hb' : (0xB0 : Int) ≤ (s.toNat : Int) ∧ (s.toNat : Int) ≤ 0xBD := by omega
      refine ⟨⟨ubyte s, ?_⟩, fun _ _ => ?_⟩
      · rw [if_pos hb']
        exact ⟨⟨u, rfl, srange1.1 u1⟩, srange1.1 v1⟩
      · rw [declared_of ((fromVariable_length id _ _ _).1 hb').1, evBytes, if_pos hb']
        rw [← List.append_assoc [0xA1], List.take_append_of_le_length (by simp),
          List.take_of_length_le (by simp)]
        simp only [At.split, List.length_append, List.length_singleton, sBytes_length,
          Int.toNat_natCast, Option.getD_some, leBytes1]
        exact ⟨htype, ⟨At.of_pyIdx hs, u2.cast (by omega)⟩, v2.cast (by omega)⟩
    · rw [if_neg hb] at h
      simp only [bind_eq_ok, pure_eq_ok] at h
      obtain ⟨v, hv, rfl⟩ := h
      obtain ⟨v1, v2⟩ := unpackS_inv hv
      have hb' : ¬ ((0xB0 : Int) ≤ (s.toNat : Int) ∧ (s.toNat : Int) ≤ 0xBD) := by omega
      refine ⟨⟨ubyte s, ?_⟩, fun _ _ => ?_⟩
      · rw [if_neg hb']
        exact ⟨rfl, srange2.1 v1⟩
      · rw [evBytes, if_neg hb']
        apply At.take
        simp only [At.split, List.length_singleton, Int.toNat_natCast, leBytes1]
        exact ⟨htype, At.of_pyIdx hs, v2.cast (by omega)⟩
  | ifE =>
    cases h
    exact ⟨trivial, fun _ _ => htype⟩
  | endLoop =>
    cases h
    exact ⟨trivial, fun _ _ => htype⟩
  | ret =>
    cases h
    exact ⟨trivial, fun _ _ => htype⟩
  | endTrack =>
    cases h
    exact ⟨trivial, fun _ _ => htype⟩
  | arith a =>
    simp only [fromData, bind_eq_ok, pure_eq_ok] at h
    obtain ⟨i, hi, v, hv, rfl⟩ := h
    obtain ⟨v1, v2⟩ := unpackS_inv hv
    have hin : InRange (.arith a i v) := ⟨by have := unpackU_lt hi; unfold UByte; omega, srange2.1 v1⟩
    refine ⟨hin, fun _ _ => ?_⟩
    rw [declared_of (dataLength_eq id hin rfl), List.take_of_length_le (Nat.le_refl _)]
    simp only [evBytes, At.split, List.length_singleton, leBytes_length, Int.toNat_natCast]
    exact ⟨htype, At.of_unpackU (e := .little) hi, v2.cast (by omega)⟩
  | simple s =>
    simp only [fromData, bind_eq_ok, pure_eq_ok] at h
    obtain ⟨b, hb, rfl⟩ := h
    have hin : InRange (.simple s b.toNat) := ubyte b
    refine ⟨hin, fun _ _ => ?_⟩
    rw [declared_of (dataLength_eq id hin rfl), List.take_of_length_le (Nat.le_refl _)]
    simp only [evBytes, At.split, List.length_singleton, Int.toNat_natCast, leBytes1]
    exact ⟨htype, At.of_pyIdx hb⟩
  | monoPoly =>
    simp only [fromData, bind_eq_ok, pure_eq_ok, raiseIf_eq_ok] at h
    obtain ⟨b, hb, _, hlt, rfl⟩ := h
    have hin : InRange (.monoPoly b.toNat) := by
      show _ ∨ _; omega
    refine ⟨hin, fun _ _ => ?_⟩
    rw [declared_of (dataLength_eq id hin rfl), List.take_of_length_le (Nat.le_refl _)]
    simp only [evBytes, At.split, List.length_singleton, Int.toNat_natCast, leBytes1]
    exact ⟨htype, At.of_pyIdx hb⟩
  | vibratoType =>
    simp only [fromData, bind_eq_ok, pure_eq_ok, raiseIf_eq_ok] at h
    obtain ⟨b, hb, _, hlt, rfl⟩ := h
    have hin : InRange (.vibratoType b.toNat) := by
      show _ ∨ _; omega
    refine ⟨hin, fun _ _ => ?_⟩
    rw [declared_of (dataLength_eq id hin rfl), List.take_of_length_le (Nat.le_refl _)]
    simp only [evBytes, At.split, List.length_singleton, Int.toNat_natCast, leBytes1]
    exact ⟨htype, At.of_pyIdx hb⟩
  | tempo =>
    simp only [fromData, bind_eq_ok, pure_eq_ok] at h
    obtain ⟨n, hn, rfl⟩ := h
    have hin : InRange (.tempo n) := by
      have := unpackU_lt hn
      exact ⟨by omega, by omega⟩
    refine ⟨hin, fun _ _ => ?_⟩
    rw [declared_of (dataLength_eq id hin rfl), List.take_of_length_le (Nat.le_refl _)]
    simp only [evBytes, At.split, List.length_singleton, Int.toNat_natCast]
    exact ⟨htype, At.of_unpackU (e := .little) hn⟩
  | sweepPitch =>
    simp only [fromData, bind_eq_ok, pure_eq_ok] at h
    obtain ⟨n, hn, rfl⟩ := h
    have hin : InRange (.sweepPitch n) := by
      have := unpackU_lt hn
      exact ⟨by omega, by omega⟩
    refine ⟨hin, fun _ _ => ?_⟩
    rw [declared_of (dataLength_eq id hin rfl), List.take_of_length_le (Nat.le_refl _)]
    simp only [evBytes, At.split, List.length_singleton, Int.toNat_natCast]
    exact ⟨htype, At.of_unpackU (e := .little) hn⟩
  | defineTracks =>
    simp only [fromData, bind_eq_ok, pure_eq_ok] at h
    obtain ⟨n, hn, rfl⟩ := h
    have hin : InRange (.defineTracks ((List.range 16).filter fun i => n &&& (1 <<< i) != 0)) := by
      refine ⟨List.Pairwise.filter _ List.pairwise_lt_range, ?_⟩
      intro x hx
      exact List.mem_range.1 (List.mem_filter.1 hx).1
    refine ⟨hin, fun _ _ => ?_⟩
    rw [declared_of (dataLength_eq id hin rfl), List.take_of_length_le (Nat.le_refl _)]
    simp only [evBytes, At.split, List.length_singleton]
    rw [tracks_back (unpackU_lt hn)]
    exact ⟨htype, At.of_unpackU (e := .little) hn⟩

end Verif.Proofs.SeqDecode
