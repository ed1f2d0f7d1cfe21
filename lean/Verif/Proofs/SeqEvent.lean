import Verif.Proofs.SeqVar
import Verif.Spec.Sequence

/-!
# Single sequence events: what `save` writes and what is decoded from it
-/

namespace Verif.Proofs.SeqEvent

open Verif Verif.Model.SoundSequence Verif.Proofs.SeqVar Verif.Spec.Sequence

theorem toBytes_eq_ok {k : Nat} {x : Int} {b : Bytes} :
    toBytes k x = .ok b ↔ (0 ≤ x ∧ x.toNat < 256 ^ k) ∧ b = leBytes k x.toNat := by
  unfold toBytes
  have e : (0 ≤ x ∧ x < (256 ^ k : Nat)) ↔ (0 ≤ x ∧ x.toNat < 256 ^ k) := by omega
  by_cases h : 0 ≤ x ∧ x < (256 ^ k : Nat)
  · rw [if_pos h]
    simp only [Except.ok.injEq, e.1 h, and_self, true_and]
    exact eq_comm
  · rw [if_neg h]
    simp only [reduceCtorEq, false_iff]
    exact fun h' => h (e.2 h'.1)

theorem toBytes_err {k : Nat} {x : Int} {err : PyErr} (h : toBytes k x = .error err) : err = .overflowError := by
  unfold toBytes at h
  by_cases hz : 0 ≤ x ∧ x < (256 ^ k : Nat)
  · rw [if_pos hz] at h; cases h
  · rw [if_neg hz] at h; cases h; rfl

/-- Bytes given by a list of ints. -/
def intBytes (l : List Int) : Bytes := l.map fun x => UInt8.ofNat x.toNat

theorem bytesOf_eq_ok : ∀ {l : List Int} {b : Bytes},
    bytesOf l = .ok b ↔ (∀ x ∈ l, 0 ≤ x ∧ x < 256) ∧ b = intBytes l
  | [], b => by simp [bytesOf, mapE_nil, intBytes, eq_comm]
  | x :: l, b => by
    have ih := @bytesOf_eq_ok l
    unfold bytesOf at ih ⊢
    rw [mapE_cons_ok]
    constructor
    · rintro ⟨y, ys, hy, hys, rfl⟩
      obtain ⟨h1, rfl⟩ := ih.1 hys
      by_cases hx : 0 ≤ x ∧ x < 256
      · rw [if_pos hx] at hy; cases hy
        refine ⟨?_, rfl⟩
        intro z hz
        rcases List.mem_cons.1 hz with rfl | hz
        · exact hx
        · exact h1 z hz
      · rw [if_neg hx] at hy; cases hy
    · rintro ⟨h1, rfl⟩
      refine ⟨_, _, if_pos (h1 x (by simp)), ih.2 ⟨fun z hz => h1 z (by simp [hz]), rfl⟩, rfl⟩

theorem At.toByte' {d : Bytes} {o n : Nat} (h : At d o (leBytes 1 n)) : pyIdx d o = .ok (UInt8.ofNat n) :=
  At.head h

theorem toNat_ofNat {n : Nat} (h : n < 256) : (UInt8.ofNat n).toNat = n := by
  rw [UInt8.toNat_ofNat']; omega

theorem At.leVal_slice {d : Bytes} {o k n : Nat} (h : At d o (leBytes k n)) (hn : n < 256 ^ k) :
    leVal (slice d o (o + k)) = n := by
  rw [h.slice_eq (by rw [leBytes_length]), leVal_leBytes_of_lt hn]

/-! ## Type numbers -/

theorem clsOf_arith (a : Arith) : clsOf a.code = some (.arith a) := by cases a <;> rfl

theorem clsOf_simple (s : Simple) : clsOf s.code = some (.simple s) := by cases s <;> rfl

theorem arith_code (a : Arith) : 0xA2 < a.code ∧ a.code < 256 := by cases a <;> decide

theorem simple_code (s : Simple) : 0xA2 < s.code ∧ s.code < 256 := by cases s <;> decide

/-! ## Decoding by type -/

theorem decode_note {d : Bytes} {o t : Nat} (h : pyIdx d o = .ok (UInt8.ofNat t)) (ht : t ≤ 0x7F) :
    decode d o = noteFromData t d o := by
  unfold decode
  rw [h, bind_ok, toNat_ofNat (by omega), if_neg (by omega), if_neg (by omega), if_neg (by omega), if_pos ht]

theorem decode_cls {d : Bytes} {o : Nat} {t : UInt8} {c : Cls} (h : pyIdx d o = .ok t) (ht : 0x7F < t.toNat)
    (h93 : t.toNat ≠ 0x93) (h94 : t.toNat ≠ 0x94) (h95 : t.toNat ≠ 0x95) (hc : clsOf t.toNat = some c) :
    decode d o = fromData c d o := by
  unfold decode
  rw [h, bind_ok, if_neg h93, if_neg h94, if_neg h95, if_neg (by omega), hc]

/-! ## Velocity and tracks -/

theorem flag_bits {v : Nat} (hv : v < 128) (f : Bool) :
    (v ||| (if f then 0x80 else 0)) < 256 ∧ (v ||| (if f then 0x80 else 0)) &&& 0x7F = v ∧
      ((v ||| (if f then 0x80 else 0)) &&& 0x80 != 0) = f := by
  cases f
  · simp only [Bool.false_eq_true, if_false, Nat.or_zero]
    refine ⟨by omega, ?_, ?_⟩
    · rw [and7F]; omega
    · rw [and80_lt hv]; rfl
  · simp only [if_true]
    rw [or80 hv]
    refine ⟨by omega, ?_, ?_⟩
    · rw [and7F]; omega
    · exact bne_iff_ne.2 (and80_ge hv)

theorem tracks_foldl (l : List Nat) : ∀ (is : List Nat) (b : Nat) (i : Nat),
    (is.foldl (fun bits i => if i ∈ l then bits ||| (1 <<< i) else bits) b).testBit i =
      (b.testBit i || (decide (i ∈ is) && decide (i ∈ l)))
  | [], b, i => by simp
  | j :: is, b, i => by
    rw [List.foldl_cons, tracks_foldl l is]
    by_cases hj : j ∈ l
    · rw [if_pos hj, Nat.testBit_or, Nat.one_shiftLeft, Nat.testBit_two_pow]
      by_cases hji : j = i
      · subst hji; simp [hj]
      · have : i ≠ j := fun e => hji e.symm
        simp [hji, this]
    · rw [if_neg hj]
      by_cases hji : i = j
      · subst hji; simp [hj]
      · simp [hji]

theorem tracksBits_testBit (l : List Nat) (i : Nat) :
    (tracksBits l).testBit i = (decide (i < 16) && decide (i ∈ l)) := by
  unfold tracksBits
  rw [tracks_foldl]
  simp

theorem tracksBits_lt (l : List Nat) : tracksBits l < 256 ^ 2 := by
  have : tracksBits l < 2 ^ 16 := by
    apply Nat.lt_pow_two_of_testBit
    intro i hi
    rw [tracksBits_testBit]
    simp; omega
  simpa using this

theorem tracks_bit (l : List Nat) {i : Nat} (hi : i < 16) : (tracksBits l &&& (1 <<< i) != 0) = decide (i ∈ l) := by
  rw [Nat.one_shiftLeft, Bits.and_two_pow_ne, tracksBits_testBit]
  simp [hi]

/-- An increasing list of numbers below `n` is what filtering the range by membership gives. -/
theorem filter_range_mem : ∀ (n : Nat) (l : List Nat), l.Pairwise (· < ·) → (∀ x ∈ l, x < n) →
    (List.range n).filter (fun i => decide (i ∈ l)) = l := by
  intro n l hs hl
  apply List.Perm.eq_of_pairwise (le := (· < ·))
  · intro a b _ _ h1 h2; omega
  · exact List.Pairwise.filter _ List.pairwise_lt_range
  · exact hs
  · rw [List.perm_ext_iff_of_nodup]
    · intro a
      simp only [List.mem_filter, List.mem_range, decide_eq_true_eq]
      exact ⟨fun h => h.2, fun h => ⟨hl a h, h⟩⟩
    · exact List.Pairwise.filter _ List.nodup_range
    · exact hs.imp (fun h => by omega)

theorem tracks_load (l : List Nat) (hs : l.Pairwise (· < ·)) (hl : ∀ x ∈ l, x < 16) :
    ((List.range 16).filter fun i => tracksBits l &&& (1 <<< i) != 0) = l := by
  rw [← filter_range_mem 16 l hs hl]
  have : (List.range 16).filter (fun i => decide (i ∈ l)) = l := filter_range_mem 16 l hs hl
  rw [this]
  rw [← this]
  apply List.filter_congr
  intro i hi
  rw [this]
  exact tracks_bit l (List.mem_range.1 hi)

/-! ## What an event saves to -/

/-- The bytes of a signed 16-bit or 8-bit field. -/
def sBytes (k : Nat) (z : Int) : Bytes := enBytes .little k (signedRep k z)

/-- Range of a signed field of `k` bytes. -/
def SRange (k : Nat) (z : Int) : Prop := -(256 ^ k : Nat) ≤ 2 * z ∧ 2 * z < (256 ^ k : Nat)

/-- The bytes `save` returns for an event whose references resolve to `g`. -/
def evBytes (g : Nat → Nat) : Ev → Bytes
  | .note p v f dur => leBytes 1 p.toNat ++ leBytes 1 (v.toNat ||| (if f then 0x80 else 0)) ++ varBytes dur.toNat
  | .rest dur => [0x80] ++ varBytes dur.toNat
  | .instrumentSwitch b i => ([0x81] : Bytes) ++ varBytes ((i &&& 0x7F) ||| (b <<< 7))
  | .beginTrack t dest => [0x93] ++ leBytes 1 t.toNat ++ leBytes 3 (g dest)
  | .jump dest => [0x94] ++ leBytes 3 (g dest)
  | .call dest => [0x95] ++ leBytes 3 (g dest)
  | .random s args lo hi => [0xA0] ++ intBytes (s :: args) ++ (sBytes 2 lo ++ sBytes 2 hi)
  | .fromVariable s v u =>
    if 0xB0 ≤ s ∧ s ≤ 0xBD then [0xA1] ++ (leBytes 1 s.toNat ++ sBytes 1 (u.getD 0) ++ sBytes 1 v ++ [0, 0])
    else [0xA1] ++ (leBytes 1 s.toNat ++ sBytes 2 v)
  | .ifE => [0xA2]
  | .arith op i v => [UInt8.ofNat op.code] ++ (leBytes 1 i.toNat ++ sBytes 2 v)
  | .simple k v => [UInt8.ofNat k.code] ++ leBytes 1 v.toNat
  | .monoPoly v => [0xC7] ++ leBytes 1 v.toNat
  | .vibratoType v => [0xCC] ++ leBytes 1 v.toNat
  | .tempo v => [0xE1] ++ leBytes 2 v.toNat
  | .sweepPitch v => [0xE3] ++ leBytes 2 v.toNat
  | .endLoop => [0xFC]
  | .ret => [0xFD]
  | .defineTracks l => [0xFE] ++ leBytes 2 (tracksBits l)
  | .endTrack => [0xFF]
  | .raw b => b

/-- When `save` succeeds, apart from references. -/
def Saves : Ev → Prop
  | .note p v _ dur => (0 ≤ p ∧ p ≤ 127) ∧ (0 ≤ v ∧ v ≤ 127) ∧ 0 ≤ dur
  | .rest dur => 0 ≤ dur
  | .beginTrack t _ => 0 ≤ t ∧ t < 256
  | .random s args lo hi => (∀ x ∈ s :: args, 0 ≤ x ∧ x < 256) ∧ SRange 2 lo ∧ SRange 2 hi
  | .fromVariable s v u =>
    (0 ≤ s ∧ s < 256) ∧
      if 0xB0 ≤ s ∧ s ≤ 0xBD then (∃ u', u = some u' ∧ SRange 1 u') ∧ SRange 1 v else SRange 2 v
  | .arith _ i v => (0 ≤ i ∧ i < 256) ∧ SRange 2 v
  | .simple _ v => 0 ≤ v ∧ v < 256
  | .monoPoly v => 0 ≤ v ∧ v < 256
  | .vibratoType v => 0 ≤ v ∧ v < 256
  | .tempo v => 0 ≤ v ∧ v < 65536
  | .sweepPitch v => 0 ≤ v ∧ v < 65536
  | _ => True

theorem offsetOf_eq_ok {offs : Nat → Option Nat} {i o : Nat} : offsetOf offs i = .ok o ↔ offs i = some o := by
  unfold offsetOf
  cases h : offs i <;> simp

theorem packByte_eq_ok {x : Int} {b : Bytes} :
    packByte x = .ok b ↔ (0 ≤ x ∧ x < 256) ∧ b = leBytes 1 x.toNat := by
  unfold packByte
  rw [packUInt_eq_ok]
  constructor
  · rintro ⟨h1, h2, rfl⟩
    exact ⟨⟨h1, by omega⟩, rfl⟩
  · rintro ⟨h1, rfl⟩
    exact ⟨h1.1, by omega, rfl⟩

theorem packS_eq_ok' {k : Nat} {z : Int} {b : Bytes} : packS .little k z = .ok b ↔ SRange k z ∧ b = sBytes k z :=
  packS_eq_ok

theorem velocityByte_eq_ok {v : Int} {f : Bool} (hv : v ≤ 127) {b : Bytes} :
    velocityByte v f = .ok b ↔ 0 ≤ v ∧ b = leBytes 1 (v.toNat ||| (if f then 0x80 else 0)) := by
  unfold velocityByte
  by_cases h : v < 0
  · rw [if_pos h]
    simp only [reduceCtorEq, false_iff, not_and]
    intro h'; omega
  · rw [if_neg h, toBytes_eq_ok]
    have := (flag_bits (v := v.toNat) (by omega) f).1
    simp only [Int.toNat_natCast]
    constructor
    · rintro ⟨-, rfl⟩; exact ⟨by omega, rfl⟩
    · rintro ⟨-, rfl⟩; exact ⟨⟨by omega, by omega⟩, rfl⟩

/-- `save` succeeds exactly when the fields are in range and the references resolve to offsets below 2²⁴. -/
theorem save_eq_ok {offs : Nat → Option Nat} {e : Ev} {b : Bytes} :
    e.save offs = .ok b ↔
      Saves e ∧ (∀ r ∈ refs e, ∃ o, offs r = some o ∧ o < 2 ^ 24) ∧ b = evBytes (fun r => (offs r).getD 0) e := by
  cases e with
  | note p v f dur =>
    simp only [Ev.save, bind_eq_ok, raiseIf_eq_ok, pure_eq_ok, toBytes_eq_ok, writeVar_eq_ok, Saves, refs, evBytes]
    constructor
    · rintro ⟨_, h1, _, h2, _, h3, _, ⟨_, rfl⟩, _, hv, _, ⟨h4, rfl⟩, rfl⟩
      obtain ⟨h5, rfl⟩ := (velocityByte_eq_ok (by omega)).1 hv
      exact ⟨⟨by omega, by omega, h4⟩, by simp, rfl⟩
    · rintro ⟨⟨h1, h2, h3⟩, -, rfl⟩
      exact ⟨(), by omega, (), by omega, (), by omega, _, ⟨by omega, rfl⟩, _,
        (velocityByte_eq_ok (by omega)).2 ⟨by omega, rfl⟩, _, ⟨h3, rfl⟩, rfl⟩
  | rest dur =>
    simp only [Ev.save, bind_eq_ok, pure_eq_ok, writeVar_eq_ok, Saves, refs, evBytes]
    constructor
    · rintro ⟨_, ⟨h, rfl⟩, rfl⟩; exact ⟨h, by simp, rfl⟩
    · rintro ⟨h, -, rfl⟩; exact ⟨_, ⟨h, rfl⟩, rfl⟩
  | instrumentSwitch bk i =>
    simp only [Ev.save, bind_eq_ok, pure_eq_ok, writeVar_eq_ok, Saves, refs, evBytes]
    constructor
    · rintro ⟨_, ⟨h, rfl⟩, rfl⟩; exact ⟨trivial, by simp, by rw [Int.toNat_natCast]⟩
    · rintro ⟨h, -, rfl⟩; exact ⟨_, ⟨by omega, rfl⟩, by rw [Int.toNat_natCast]⟩
  | beginTrack t dest =>
    simp only [Ev.save, bind_eq_ok, pure_eq_ok, toBytes_eq_ok, offsetOf_eq_ok, Saves, refs, evBytes,
      List.mem_singleton, forall_eq]
    constructor
    · rintro ⟨_, ⟨h1, rfl⟩, o, ho, _, ⟨h2, rfl⟩, rfl⟩
      exact ⟨by omega, ⟨o, ho, by omega⟩, by rw [ho]; rfl⟩
    · rintro ⟨h1, ⟨o, ho, h2⟩, rfl⟩
      exact ⟨_, ⟨by omega, rfl⟩, o, ho, _, ⟨by omega, rfl⟩, by rw [ho]; rfl⟩
  | jump dest =>
    simp only [Ev.save, bind_eq_ok, pure_eq_ok, toBytes_eq_ok, offsetOf_eq_ok, Saves, refs, evBytes,
      List.mem_singleton, forall_eq]
    constructor
    · rintro ⟨o, ho, _, ⟨h2, rfl⟩, rfl⟩
      exact ⟨trivial, ⟨o, ho, by omega⟩, by rw [ho]; rfl⟩
    · rintro ⟨h1, ⟨o, ho, h2⟩, rfl⟩
      exact ⟨o, ho, _, ⟨by omega, rfl⟩, by rw [ho]; rfl⟩
  | call dest =>
    simp only [Ev.save, bind_eq_ok, pure_eq_ok, toBytes_eq_ok, offsetOf_eq_ok, Saves, refs, evBytes,
      List.mem_singleton, forall_eq]
    constructor
    · rintro ⟨o, ho, _, ⟨h2, rfl⟩, rfl⟩
      exact ⟨trivial, ⟨o, ho, by omega⟩, by rw [ho]; rfl⟩
    · rintro ⟨h1, ⟨o, ho, h2⟩, rfl⟩
      exact ⟨o, ho, _, ⟨by omega, rfl⟩, by rw [ho]; rfl⟩
  | random s args lo hi =>
    simp only [Ev.save, bind_eq_ok, pure_eq_ok, bytesOf_eq_ok, packS_eq_ok', Saves, refs, evBytes]
    constructor
    · rintro ⟨_, ⟨h1, rfl⟩, _, ⟨h2, rfl⟩, _, ⟨h3, rfl⟩, rfl⟩
      exact ⟨⟨h1, h2, h3⟩, by simp, rfl⟩
    · rintro ⟨⟨h1, h2, h3⟩, -, rfl⟩
      exact ⟨_, ⟨h1, rfl⟩, _, ⟨h2, rfl⟩, _, ⟨h3, rfl⟩, rfl⟩
  | fromVariable s v u =>
    simp only [Ev.save, Saves, refs, evBytes]
    by_cases hs : 0xB0 ≤ s ∧ s ≤ 0xBD
    · rw [if_pos hs, if_pos hs, if_pos hs]
      cases u with
      | none => simp
      | some u =>
        simp only [bind_eq_ok, pure_eq_ok, packByte_eq_ok, packS_eq_ok', Option.some.injEq]
        constructor
        · rintro ⟨_, ⟨h1, rfl⟩, _, ⟨h2, rfl⟩, _, ⟨h3, rfl⟩, rfl⟩
          exact ⟨⟨h1, ⟨u, rfl, h2⟩, h3⟩, by simp, rfl⟩
        · rintro ⟨⟨h1, ⟨_, rfl, h2⟩, h3⟩, -, rfl⟩
          exact ⟨_, ⟨h1, rfl⟩, _, ⟨h2, rfl⟩, _, ⟨h3, rfl⟩, rfl⟩
    · rw [if_neg hs, if_neg hs, if_neg hs]
      simp only [bind_eq_ok, pure_eq_ok, packByte_eq_ok, packS_eq_ok']
      constructor
      · rintro ⟨_, ⟨h1, rfl⟩, _, ⟨h2, rfl⟩, rfl⟩
        exact ⟨⟨h1, h2⟩, by simp, rfl⟩
      · rintro ⟨⟨h1, h2⟩, -, rfl⟩
        exact ⟨_, ⟨h1, rfl⟩, _, ⟨h2, rfl⟩, rfl⟩
  | arith op i v =>
    simp only [Ev.save, bind_eq_ok, pure_eq_ok, packByte_eq_ok, packS_eq_ok', Saves, refs, evBytes]
    constructor
    · rintro ⟨_, ⟨h1, rfl⟩, _, ⟨h2, rfl⟩, rfl⟩
      exact ⟨⟨h1, h2⟩, by simp, rfl⟩
    · rintro ⟨⟨h1, h2⟩, -, rfl⟩
      exact ⟨_, ⟨h1, rfl⟩, _, ⟨h2, rfl⟩, rfl⟩
  | tempo v =>
    simp only [Ev.save, bind_eq_ok, pure_eq_ok, packUInt_eq_ok, Saves, refs, evBytes]
    constructor
    · rintro ⟨_, ⟨h1, h2, rfl⟩, rfl⟩; exact ⟨by omega, by simp, rfl⟩
    · rintro ⟨h, -, rfl⟩; exact ⟨_, ⟨by omega, by omega, rfl⟩, rfl⟩
  | sweepPitch v =>
    simp only [Ev.save, bind_eq_ok, pure_eq_ok, packUInt_eq_ok, Saves, refs, evBytes]
    constructor
    · rintro ⟨_, ⟨h1, h2, rfl⟩, rfl⟩; exact ⟨by omega, by simp, rfl⟩
    · rintro ⟨h, -, rfl⟩; exact ⟨_, ⟨by omega, by omega, rfl⟩, rfl⟩
  | simple k v =>
    simp only [Ev.save, bind_eq_ok, pure_eq_ok, toBytes_eq_ok, Saves, refs, evBytes]
    constructor
    · rintro ⟨_, ⟨h1, rfl⟩, rfl⟩; exact ⟨by omega, by simp, rfl⟩
    · rintro ⟨h, -, rfl⟩; exact ⟨_, ⟨by omega, rfl⟩, rfl⟩
  | monoPoly v =>
    simp only [Ev.save, bind_eq_ok, pure_eq_ok, toBytes_eq_ok, Saves, refs, evBytes]
    constructor
    · rintro ⟨_, ⟨h1, rfl⟩, rfl⟩; exact ⟨by omega, by simp, rfl⟩
    · rintro ⟨h, -, rfl⟩; exact ⟨_, ⟨by omega, rfl⟩, rfl⟩
  | vibratoType v =>
    simp only [Ev.save, bind_eq_ok, pure_eq_ok, toBytes_eq_ok, Saves, refs, evBytes]
    constructor
    · rintro ⟨_, ⟨h1, rfl⟩, rfl⟩; exact ⟨by omega, by simp, rfl⟩
    · rintro ⟨h, -, rfl⟩; exact ⟨_, ⟨by omega, rfl⟩, rfl⟩
  | defineTracks l =>
    simp only [Ev.save, bind_eq_ok, pure_eq_ok, packU_eq_ok, Saves, refs, evBytes]
    constructor
    · rintro ⟨_, ⟨h1, rfl⟩, rfl⟩; exact ⟨trivial, by simp, rfl⟩
    · rintro ⟨h, -, rfl⟩; exact ⟨_, ⟨tracksBits_lt l, rfl⟩, rfl⟩
  | ifE => simp [Ev.save, Saves, refs, evBytes, eq_comm]
  | endLoop => simp [Ev.save, Saves, refs, evBytes, eq_comm]
  | ret => simp [Ev.save, Saves, refs, evBytes, eq_comm]
  | endTrack => simp [Ev.save, Saves, refs, evBytes, eq_comm]
  | raw b => simp [Ev.save, Saves, refs, evBytes, eq_comm]

/-! ## In-range events -/

theorem srange2 {z : Int} : SRange 2 z ↔ Signed16 z := by
  unfold SRange Signed16; simp only [Nat.reducePow]; omega

theorem srange1 {z : Int} : SRange 1 z ↔ Signed8 z := by
  unfold SRange Signed8; simp only [Nat.reducePow]; omega

theorem saves_of_inRange {e : Ev} (h : InRange e) : Saves e := by
  cases e with
  | note p v f dur => exact ⟨h.1, h.2.1, h.2.2.1⟩
  | rest dur => exact h.1
  | random s args lo hi =>
    refine ⟨?_, srange2.2 h.2.2.2.1, srange2.2 h.2.2.2.2⟩
    intro x hx
    rcases List.mem_cons.1 hx with rfl | hx
    · exact h.1
    · exact h.2.1 x hx
  | fromVariable s v u =>
    refine ⟨h.1, ?_⟩
    have h2 := h.2
    by_cases hs : 0xB0 ≤ s ∧ s ≤ 0xBD
    · rw [if_pos hs] at h2 ⊢
      obtain ⟨⟨x, hx, hx'⟩, hv⟩ := h2
      exact ⟨⟨x, hx, srange1.2 hx'⟩, srange1.2 hv⟩
    · rw [if_neg hs] at h2 ⊢
      exact srange2.2 h2.2
  | arith op i v => exact ⟨h.1, srange2.2 h.2⟩
  | simple k v => exact h
  | beginTrack t dest => exact h
  | monoPoly v => rcases h with rfl | rfl <;> exact ⟨by omega, by omega⟩
  | vibratoType v => rcases h with rfl | rfl | rfl <;> exact ⟨by omega, by omega⟩
  | tempo v => exact h
  | sweepPitch v => exact h
  | raw b => exact h.elim
  | _ => trivial

theorem instr_value {b i : Nat} (hi : i < 128) : (i &&& 0x7F) ||| (b <<< 7) = b <<< 7 ||| i := by
  rw [and7F, Nat.mod_eq_of_lt hi, Nat.or_comm]

theorem instr_value' {b i : Nat} (hi : i < 128) : (i &&& 0x7F) ||| (b <<< 7) = b * 128 + i := by
  rw [instr_value hi, or_shift7 hi]

@[simp] theorem sBytes_length (k : Nat) (z : Int) : (sBytes k z).length = k := by simp [sBytes]

@[simp] theorem intBytes_length (l : List Int) : (intBytes l).length = l.length := by simp [intBytes]

theorem lenVar_int {x : Int} (h : 0 ≤ x) : lenVar x = .ok (varBytes x.toNat).length := by
  obtain ⟨n, rfl⟩ := Int.eq_ofNat_of_zero_le h
  rw [Int.toNat_natCast]; exact lenVar_eq' n

/-- Every in-range event except a from-variable event saves to as many bytes as it declares. -/
theorem dataLength_eq (g : Nat → Nat) {e : Ev} (h : InRange e) (hf : isFromVariable e = false) :
    e.dataLength = .ok (evBytes g e).length := by
  cases e with
  | note p v f dur =>
    rw [Ev.dataLength, lenVar_int h.2.2.1, bind_ok, evBytes]
    simp only [List.length_append, leBytes_length]; rfl
  | rest dur =>
    rw [Ev.dataLength, lenVar_int h.1, bind_ok, evBytes]
    simp only [List.length_append, List.length_singleton]; rfl
  | instrumentSwitch b i =>
    rw [Ev.dataLength, lenVar_eq', bind_ok, evBytes, instr_value h.1]
    simp only [List.length_append, List.length_singleton]; rfl
  | random s args lo hi =>
    rw [Ev.dataLength, h.2.2.1, evBytes]
    simp only [List.length_append, intBytes_length, sBytes_length, List.length_cons, List.length_nil]
    congr 1; omega
  | fromVariable s v u => cases hf
  | raw b => exact h.elim
  | arith op i v => simp [Ev.dataLength, evBytes]
  | simple k v => simp [Ev.dataLength, evBytes]
  | beginTrack t dest => simp [Ev.dataLength, evBytes]
  | jump dest => simp [Ev.dataLength, evBytes]
  | call dest => simp [Ev.dataLength, evBytes]
  | monoPoly v => simp [Ev.dataLength, evBytes]
  | vibratoType v => simp [Ev.dataLength, evBytes]
  | tempo v => simp [Ev.dataLength, evBytes]
  | sweepPitch v => simp [Ev.dataLength, evBytes]
  | defineTracks l => simp [Ev.dataLength, evBytes]
  | ifE => rfl
  | endLoop => rfl
  | ret => rfl
  | endTrack => rfl

/-- From-variable events declare fewer bytes than they save. -/
theorem fromVariable_length (g : Nat → Nat) (s v : Int) (u : Option Int) :
    (0xB0 ≤ s ∧ s ≤ 0xBD → Ev.dataLength (.fromVariable s v u) = .ok 4 ∧
      (evBytes g (.fromVariable s v u)).length = 6) ∧
    (¬ (0xB0 ≤ s ∧ s ≤ 0xBD) → Ev.dataLength (.fromVariable s v u) = .ok 3 ∧
      (evBytes g (.fromVariable s v u)).length = 4) := by
  constructor
  · intro h
    rw [Ev.dataLength, evBytes, if_pos h, if_pos h]
    simp
  · intro h
    rw [Ev.dataLength, evBytes, if_neg h, if_neg h]
    simp

theorem readVar_ok {d : Bytes} {o : Nat} {x : Int} (h : At d o (varBytes x.toNat)) (h0 : 0 ≤ x) (hx : x < 2 ^ 35) :
    readVar d o = .ok x.toNat := by
  rw [readVar_at h, if_pos (by omega)]

theorem unpackS_at {d : Bytes} {o k : Nat} {z : Int} (h : At d o (sBytes k z)) (hz : SRange k z) :
    unpackS .little k d o = .ok z := At.unpackS h hz.1 hz.2

theorem mapE_idx : ∀ {l : List Int} {d : Bytes} {o : Nat}, At d o (intBytes l) →
    mapE (fun i => pyIdx d (o + i)) (List.range l.length) = .ok (intBytes l) := by
  intro l d o h
  have : intBytes l = (List.range l.length).map (fun i => (intBytes l).getD i 0) := by
    apply List.ext_getElem
    · simp
    · intro i h1 h2
      simp only [List.getElem_map, List.getElem_range, List.getD_eq_getElem?_getD, List.getElem?_eq_getElem h1,
        Option.getD_some]
  rw [this]
  apply mapE_ok_of_forall
  intro i hi
  have hi' : i < (intBytes l).length := by simpa using hi
  rw [pyIdx_eq_ok, h.getElem? hi', List.getD_eq_getElem?_getD, List.getElem?_eq_getElem hi', Option.getD_some]

theorem intBytes_back {l : List Int} (h : ∀ x ∈ l, UByte x) :
    (intBytes l).map (fun b => (b.toNat : Int)) = l := by
  unfold intBytes
  rw [List.map_map]
  conv => rhs; rw [← List.map_id l]
  apply List.map_congr_left
  intro x hx
  have := h x hx
  unfold UByte at this
  simp only [Function.comp_apply, id_eq]
  rw [toNat_ofNat (by omega)]
  omega

theorem random_at {d : Bytes} {o : Nat} {s : Int} {args : List Int} {lo hi : Int}
    (h : InRange (.random s args lo hi))
    (hat : At d o ([0xA0] ++ intBytes (s :: args) ++ (sBytes 2 lo ++ sBytes 2 hi))) :
    decode d o = .ok (.random s args lo hi) := by
  obtain ⟨hs, ha, hl, h1, h2⟩ := h
  have hs' := hs
  unfold UByte at hs'
  rw [show intBytes (s :: args) = [UInt8.ofNat s.toNat] ++ intBytes args from rfl] at hat
  simp only [At.split, List.length_append, List.length_singleton, intBytes_length, sBytes_length] at hat
  obtain ⟨⟨a1, a2, a3⟩, a4, a5⟩ := hat
  rw [decode_cls (c := .random) (At.head a1) (by decide) (by decide) (by decide) (by decide) rfl]
  unfold fromData randomFromData
  dsimp only
  rw [At.head a2, bind_ok, toNat_ofNat (by omega), Int.toNat_of_nonneg hs'.1, hl, bind_ok,
    show args.length + 6 - 6 = args.length by omega, mapE_idx (a3.cast rfl), bind_ok,
    unpackS_at (a4.cast (by omega)) (srange2.2 h1), bind_ok, unpackS_at (a5.cast (by omega)) (srange2.2 h2), bind_ok,
    intBytes_back ha]
  rfl

theorem fromVariable_at {d : Bytes} {o : Nat} {s v : Int} {u : Option Int}
    (h : InRange (.fromVariable s v u)) (g : Nat → Nat)
    (hat : At d o ((evBytes g (.fromVariable s v u)).take 4)) :
    decode d o = .ok (.fromVariable s v u) := by
  obtain ⟨hs, h⟩ := h
  have hs' := hs
  unfold UByte at hs'
  by_cases hb : 0xB0 ≤ s ∧ s ≤ 0xBD
  · rw [if_pos hb] at h
    obtain ⟨⟨x, rfl, hx⟩, hv⟩ := h
    rw [evBytes, if_pos hb] at hat
    have e : ([0xA1] ++ (leBytes 1 s.toNat ++ sBytes 1 ((some x).getD 0) ++ sBytes 1 v ++ [0, 0])).take 4 =
        [0xA1] ++ (leBytes 1 s.toNat ++ sBytes 1 x ++ sBytes 1 v) := by
      have : ([0xA1] ++ (leBytes 1 s.toNat ++ sBytes 1 x ++ sBytes 1 v)).length = 4 := by simp
      rw [← List.append_assoc [0xA1], List.take_append_of_le_length (by simp)]
      exact List.take_of_length_le (by simp)
    rw [e] at hat
    simp only [At.split, List.length_append, List.length_singleton, leBytes_length, sBytes_length] at hat
    obtain ⟨a1, ⟨a2, a3⟩, a4⟩ := hat
    rw [decode_cls (c := .fromVariable) (At.head a1) (by decide) (by decide) (by decide) (by decide) rfl]
    unfold fromData fromVariableFromData
    dsimp only
    rw [At.toByte' a2, bind_ok, toNat_ofNat (by omega), if_pos (by omega),
      unpackS_at (a3.cast (by omega)) (srange1.2 hx), bind_ok, unpackS_at (a4.cast (by omega)) (srange1.2 hv), bind_ok,
      Int.toNat_of_nonneg hs'.1]
    rfl
  · rw [if_neg hb] at h
    obtain ⟨rfl, hv⟩ := h
    rw [evBytes, if_neg hb, List.take_of_length_le (by simp)] at hat
    simp only [At.split, List.length_singleton, leBytes_length] at hat
    obtain ⟨a1, a2, a3⟩ := hat
    rw [decode_cls (c := .fromVariable) (At.head a1) (by decide) (by decide) (by decide) (by decide) rfl]
    unfold fromData fromVariableFromData
    dsimp only
    rw [At.toByte' a2, bind_ok, toNat_ofNat (by omega), if_neg (by omega),
      unpackS_at (a3.cast (by omega)) (srange2.2 hv), bind_ok, Int.toNat_of_nonneg hs'.1]
    rfl

theorem At.take {d s : Bytes} {o : Nat} (h : At d o s) (n : Nat) : At d o (s.take n) := by
  have := h
  rw [← List.take_append_drop n s, At.split] at this
  exact this.1

/-- Decoding the bytes of an in-range event gives the event, with its references replaced by the offsets stored in
it. -/
theorem decode_at {d : Bytes} {o : Nat} {e : Ev} (g : Nat → Nat) (h : InRange e) (hg : ∀ r ∈ refs e, g r < 2 ^ 24)
    (hat : At d o (evBytes g e)) : decode d o = .ok (mapRefs g e) := by
  cases e with
  | note p v f dur =>
    obtain ⟨hp, hv, h0, hd⟩ := h
    unfold evBytes at hat
    simp only [At.split, List.length_append, leBytes_length] at hat
    obtain ⟨⟨a1, a2⟩, a3⟩ := hat
    obtain ⟨f1, f2, f3⟩ := flag_bits (v := v.toNat) (by omega) f
    rw [decode_note (t := p.toNat) (At.toByte' a1) (by omega)]
    unfold noteFromData noteInit
    rw [At.toByte' a2, bind_ok, readVar_ok a3 h0 hd, bind_ok, toNat_ofNat f1, f2, f3, Int.toNat_of_nonneg hp.1,
      Int.toNat_of_nonneg hv.1, Int.toNat_of_nonneg h0]
    rfl
  | rest dur =>
    unfold evBytes at hat
    simp only [At.split, List.length_singleton] at hat
    rw [decode_cls (c := .rest) (At.head hat.1) (by decide) (by decide) (by decide) (by decide) rfl]
    unfold fromData
    dsimp only
    rw [readVar_ok hat.2 h.1 h.2, bind_ok, Int.toNat_of_nonneg h.1]
    rfl
  | instrumentSwitch b i =>
    simp only [evBytes] at hat
    rw [instr_value' h.1] at hat
    simp only [At.split, List.length_singleton] at hat
    have hb := h.2
    have hi := h.1
    rw [decode_cls (c := .instrumentSwitch) (At.head hat.1) (by decide) (by decide) (by decide) (by decide) rfl]
    unfold fromData
    dsimp only
    rw [readVar_at hat.2, if_pos (by omega), bind_ok, and7F, shr7, show (b * 128 + i) / 128 = b by omega,
      show (b * 128 + i) % 128 = i by omega]
    rfl
  | beginTrack t dest =>
    unfold evBytes at hat
    simp only [At.split, List.length_append, List.length_singleton, leBytes_length] at hat
    obtain ⟨⟨a1, a2⟩, a3⟩ := hat
    have ht : UByte t := h
    unfold UByte at ht
    have hd := hg dest (by simp [refs])
    unfold decode
    rw [At.head a1, bind_ok, if_pos (by decide), At.toByte' a2, bind_ok,
      show slice d (o + 2) (o + 5) = slice d (o + 2) (o + 2 + 3) from rfl, At.leVal_slice (a3.cast rfl) hd,
      toNat_ofNat (by omega), Int.toNat_of_nonneg ht.1]
    rfl
  | jump dest =>
    unfold evBytes at hat
    simp only [At.split, List.length_singleton] at hat
    have hd := hg dest (by simp [refs])
    unfold decode
    rw [At.head hat.1, bind_ok, if_neg (by decide), if_pos (by decide),
      show slice d (o + 1) (o + 4) = slice d (o + 1) (o + 1 + 3) from rfl, At.leVal_slice hat.2 hd]
    rfl
  | call dest =>
    unfold evBytes at hat
    simp only [At.split, List.length_singleton] at hat
    have hd := hg dest (by simp [refs])
    unfold decode
    rw [At.head hat.1, bind_ok, if_neg (by decide), if_neg (by decide), if_pos (by decide),
      show slice d (o + 1) (o + 4) = slice d (o + 1) (o + 1 + 3) from rfl, At.leVal_slice hat.2 hd]
    rfl
  | random s args lo hi => exact random_at h hat
  | fromVariable s v u => exact fromVariable_at h g (At.take hat 4)
  | ifE =>
    rw [decode_cls (c := .ifE) (At.head hat) (by decide) (by decide) (by decide) (by decide) rfl]; rfl
  | endLoop =>
    rw [decode_cls (c := .endLoop) (At.head hat) (by decide) (by decide) (by decide) (by decide) rfl]; rfl
  | ret =>
    rw [decode_cls (c := .ret) (At.head hat) (by decide) (by decide) (by decide) (by decide) rfl]; rfl
  | endTrack =>
    rw [decode_cls (c := .endTrack) (At.head hat) (by decide) (by decide) (by decide) (by decide) rfl]; rfl
  | arith op i v =>
    unfold evBytes at hat
    simp only [At.split, List.length_singleton, leBytes_length] at hat
    obtain ⟨a1, a2, a3⟩ := hat
    have hc := arith_code op
    have hi := h.1
    unfold UByte at hi
    rw [decode_cls (c := .arith op) (At.head a1) (by rw [toNat_ofNat hc.2]; omega) (by rw [toNat_ofNat hc.2]; omega)
      (by rw [toNat_ofNat hc.2]; omega) (by rw [toNat_ofNat hc.2]; omega)
      (by rw [toNat_ofNat hc.2]; exact clsOf_arith op)]
    unfold fromData
    dsimp only
    rw [At.unpackU (e := .little) (n := i.toNat) a2 (by omega), bind_ok,
      unpackS_at (a3.cast (by omega)) (srange2.2 h.2), bind_ok, Int.toNat_of_nonneg hi.1]
    rfl
  | simple k v =>
    unfold evBytes at hat
    simp only [At.split, List.length_singleton] at hat
    have hc := simple_code k
    have hv : UByte v := h
    unfold UByte at hv
    rw [decode_cls (c := .simple k) (At.head hat.1) (by rw [toNat_ofNat hc.2]; omega)
      (by rw [toNat_ofNat hc.2]; omega) (by rw [toNat_ofNat hc.2]; omega) (by rw [toNat_ofNat hc.2]; omega)
      (by rw [toNat_ofNat hc.2]; exact clsOf_simple k)]
    unfold fromData
    dsimp only
    rw [At.toByte' hat.2, bind_ok, toNat_ofNat (by omega), Int.toNat_of_nonneg hv.1]
    rfl
  | monoPoly v =>
    unfold evBytes at hat
    simp only [At.split, List.length_singleton] at hat
    rw [decode_cls (c := .monoPoly) (At.head hat.1) (by decide) (by decide) (by decide) (by decide) rfl]
    unfold fromData
    dsimp only
    rw [At.toByte' hat.2, bind_ok]
    rcases h with rfl | rfl <;> rfl
  | vibratoType v =>
    unfold evBytes at hat
    simp only [At.split, List.length_singleton] at hat
    rw [decode_cls (c := .vibratoType) (At.head hat.1) (by decide) (by decide) (by decide) (by decide) rfl]
    unfold fromData
    dsimp only
    rw [At.toByte' hat.2, bind_ok]
    rcases h with rfl | rfl | rfl <;> rfl
  | tempo v =>
    unfold evBytes at hat
    simp only [At.split, List.length_singleton] at hat
    have hv : 0 ≤ v ∧ v < 65536 := h
    rw [decode_cls (c := .tempo) (At.head hat.1) (by decide) (by decide) (by decide) (by decide) rfl]
    unfold fromData
    dsimp only
    rw [At.unpackU (e := .little) (n := v.toNat) hat.2 (by omega), bind_ok, Int.toNat_of_nonneg hv.1]
    rfl
  | sweepPitch v =>
    unfold evBytes at hat
    simp only [At.split, List.length_singleton] at hat
    have hv : 0 ≤ v ∧ v < 65536 := h
    rw [decode_cls (c := .sweepPitch) (At.head hat.1) (by decide) (by decide) (by decide) (by decide) rfl]
    unfold fromData
    dsimp only
    rw [At.unpackU (e := .little) (n := v.toNat) hat.2 (by omega), bind_ok, Int.toNat_of_nonneg hv.1]
    rfl
  | defineTracks l =>
    unfold evBytes at hat
    simp only [At.split, List.length_singleton] at hat
    rw [decode_cls (c := .defineTracks) (At.head hat.1) (by decide) (by decide) (by decide) (by decide) rfl]
    unfold fromData
    dsimp only
    rw [At.unpackU (e := .little) hat.2 (tracksBits_lt l), bind_ok, tracks_load l h.1 h.2]
    rfl
  | raw b => exact h.elim

end Verif.Proofs.SeqEvent
