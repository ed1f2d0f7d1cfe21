import Verif.Props.SoundStream
import Verif.Props.SoundWave
import Verif.Proofs.Float

/-!
# Properties of the times computed with floats (C124)

`Rounded` in `Spec/Float.lean` says what rounding means.
-/

namespace Verif.Props.Float

open Verif Verif.Model.Float Verif.Spec.Float
open Verif.Model.SoundStream (STRM)
open Verif.Model.SoundWave (SWAV)

/-! ## C124 -/

/-- The rounding of the model is the one of IEEE 754. -/
theorem round53_spec (x : Rat) (h : 0 < x) : Rounded x (round53 x) := Proofs.Float.round53_rounded h

/-- C124: the time of a wave is the exact integer quotient, in spite of the rounding. -/
theorem wave_time (sampleRate : Nat) (h : 0 < sampleRate) :
    waveTime sampleRate * sampleRate ≤ 16756991 ∧ 16756991 < (waveTime sampleRate + 1) * sampleRate := by
  rw [Proofs.Float.waveTime_eq h]
  exact ⟨Nat.div_mul_le_self .., Nat.lt_mul_of_div_lt (Nat.lt_succ_self _) h⟩

/-- C124: the time of a stream is the exact integer quotient, in spite of being rounded four times. -/
theorem stream_time (sampleRate : Nat) (h : 0 < sampleRate) :
    streamTime sampleRate * (32 * sampleRate) ≤ 16756991 ∧
    16756991 < (streamTime sampleRate + 1) * (32 * sampleRate) := by
  rw [Proofs.Float.streamTime_eq h]
  exact ⟨Nat.div_mul_le_self .., Nat.lt_mul_of_div_lt (Nat.lt_succ_self _) (by omega)⟩

/-- The time goes into a field of 16 bits. -/
theorem wave_time_fits (sampleRate : Nat) (h : 0 < sampleRate) : waveTime sampleRate < 2 ^ 16 ↔ 256 ≤ sampleRate := by
  obtain ⟨h1, h2⟩ := wave_time sampleRate h
  generalize waveTime sampleRate = t at *
  constructor
  · intro ht
    have : (t + 1) * sampleRate ≤ 2 ^ 16 * sampleRate := Nat.mul_le_mul_right _ ht
    omega
  · intro hs
    refine Nat.lt_of_not_le fun hge => ?_
    have := Nat.mul_le_mul hge hs
    omega

theorem stream_time_fits (sampleRate : Nat) (h : 0 < sampleRate) :
    streamTime sampleRate < 2 ^ 16 ↔ 8 ≤ sampleRate := by
  obtain ⟨h1, h2⟩ := stream_time sampleRate h
  generalize streamTime sampleRate = t at *
  constructor
  · intro ht
    have : (t + 1) * (32 * sampleRate) ≤ 2 ^ 16 * (32 * sampleRate) := Nat.mul_le_mul_right _ ht
    omega
  · intro hs
    refine Nat.lt_of_not_le fun hge => ?_
    have : 2 ^ 16 * (32 * 8) ≤ t * (32 * sampleRate) := Nat.mul_le_mul hge (by omega)
    omega

/-- C124: saving a wave and being told whether it worked is `SWAV.save`. -/
theorem saveSWAV_eq (w : SWAV) (updateTime updateTotalLength : Bool) :
    w.save updateTime updateTotalLength =
      (saveSWAV w updateTime updateTotalLength).1.map fun b => (b, (saveSWAV w updateTime updateTotalLength).2) := by
  unfold SWAV.save SWAV.update saveSWAV
  by_cases h0 : updateTime = true ∧ w.sampleRate = 0
  · rw [raiseIf, if_pos h0, if_pos h0]; rfl
  · rw [raiseIf, if_neg h0, if_neg h0]
    have key : ∀ v : SWAV, (v.saveBytes >>= fun b => (pure (b, v) : Py (Bytes × SWAV))) =
        (v.saveBytes, v).1.map fun b => (b, (v.saveBytes, v).2) := fun v => by cases v.saveBytes <;> rfl
    cases updateTime with
    | false => cases updateTotalLength <;> exact key _
    | true =>
      have hs : 0 < w.sampleRate := Nat.pos_of_ne_zero fun h => h0 ⟨rfl, h⟩
      simp only [if_true, Proofs.Float.waveTime_eq hs]
      cases updateTotalLength <;> exact key _

/-- C124: a wave that could be saved with the time 0 can be saved with `updateTime` exactly if its sample rate is at
least 256. -/
theorem swav_update_time_iff (w : SWAV) (h : ∃ b, { w with time := 0 }.saveBytes = .ok b) :
    (∃ b, (saveSWAV w true false).1 = .ok b) ↔ 256 ≤ w.sampleRate := by
  rw [Props.SoundWave.swav_save_iff] at h
  dsimp only at h
  unfold saveSWAV
  by_cases h0 : w.sampleRate = 0
  · rw [if_pos ⟨rfl, h0⟩]
    constructor
    · rintro ⟨b, hb⟩; cases hb
    · omega
  · rw [if_neg (fun hc => h0 hc.2)]
    simp only [if_true, Bool.false_eq_true, if_false]
    rw [Props.SoundWave.swav_save_iff, ← wave_time_fits _ (by omega)]
    dsimp only
    constructor
    · exact fun h' => h'.2.2.2.2.1
    · exact fun h' => ⟨h.1, h.2.1, h.2.2.1, h.2.2.2.1, h', h.2.2.2.2.2⟩

/-- C124: without `updateTime`, saving a stream changes nothing. -/
theorem strm_save_plain (s : STRM) : saveSTRM s false = (s.save, s) := by
  unfold saveSTRM
  split
  · rename_i e h
    unfold STRM.save
    simp only [bind_eq_error] at h
    rcases h with h | ⟨_, h1, h | ⟨_, _, h⟩⟩
    · rw [h]; rfl
    · rw [h1, bind_ok]; dsimp only; rw [h]; rfl
    · cases h
  · rfl

/-- C124: what saving a stream with `updateTime` leaves behind when it works: the file loads back as the changed
object, whose time is the exact quotient, and which is otherwise the old one. -/
theorem strm_update_time (s s' : STRM) (b extra : Bytes) (ht : s.waveType ≤ 2) (h : saveSTRM s true = (.ok b, s')) :
    STRM.load (b ++ extra) = .ok s' ∧ s' = { s with time := s'.time } ∧
    s'.time * (32 * s.sampleRate) ≤ 16756991 ∧ 16756991 < (s'.time + 1) * (32 * s.sampleRate) := by
  unfold saveSTRM at h
  split at h
  · cases h
  · rw [if_pos rfl] at h
    split at h
    · cases h
    · rename_i h0
      simp only [Prod.mk.injEq] at h
      obtain ⟨h1, rfl⟩ := h
      obtain ⟨h2, h3⟩ := stream_time s.sampleRate (by omega)
      exact ⟨Props.SoundStream.strm_roundtrip _ b extra ht h1, rfl, h2, h3⟩

/-- C124: a stream that could be saved with the time 0 can be saved with `updateTime` exactly if its sample rate is at
least 8.  If it is 0, ZeroDivisionError is raised and the stream is unchanged.  If it is less than 8 otherwise,
struct.error is raised, and the stream keeps a time that makes saving it impossible. -/
theorem strm_update_time_iff (s : STRM) (h : ∃ b, { s with time := 0 }.save = .ok b) :
    (8 ≤ s.sampleRate → ∃ b, (saveSTRM s true).1 = .ok b) ∧
    (s.sampleRate = 0 → saveSTRM s true = (.error .zeroDivisionError, s)) ∧
    (0 < s.sampleRate → s.sampleRate < 8 → (saveSTRM s true).1 = .error .structError ∧
      (saveSTRM s true).2 = { s with time := (saveSTRM s true).2.time } ∧ 2 ^ 16 ≤ (saveSTRM s true).2.time ∧
      saveSTRM (saveSTRM s true).2 false = (.error .structError, (saveSTRM s true).2)) := by
  obtain ⟨b, hb⟩ := h
  obtain ⟨n, bpb, last, h1, h2, h3, -⟩ := Proofs.SoundStream.save_ok.1 hb
  dsimp only at h1 h2 h3
  have hpre : ∃ u, (do
      let _ ← Model.SoundStream.blockShape s.channels
      let wave := Model.SoundStream.waveData (Model.SoundStream.zipAll s.channels)
      let _ ← Model.Common.packStdHeader ⟨Model.SoundStream.magicSTRM, 0xFEFF, 0x100, 0x68 + wave.length, 0x10, 2⟩
      return () : Py Unit) = .ok u := by
    unfold STRM.save at hb
    simp only [bind_eq_ok] at hb
    obtain ⟨_, h4, _, h5, -⟩ := hb
    refine ⟨(), ?_⟩
    dsimp only at h4 h5 ⊢
    rw [h4, bind_ok, h5]
    rfl
  obtain ⟨u, hpre⟩ := hpre
  have hsave : ∀ t, t < 2 ^ 16 → ∃ b, { s with time := t }.save = .ok b := by
    intro t ht
    exact ⟨_, Proofs.SoundStream.save_ok.2 ⟨n, bpb, last, h1, Proofs.Float.headOk_time h2 ht, h3, rfl⟩⟩
  have hfail : ∀ t, 2 ^ 16 ≤ t → { s with time := t }.save = .error .structError := by
    intro t ht
    cases hs : ({ s with time := t } : STRM).save with
    | ok b' =>
      obtain ⟨n', bpb', last', h1', h2', -⟩ := Proofs.SoundStream.save_ok.1 hs
      have := Proofs.Float.headOk_time_lt h2'
      dsimp only at this
      omega
    | error e =>
      unfold STRM.save at hs
      simp only [bind_eq_error] at hs
      rcases hs with hs | ⟨_, _, hs | ⟨_, _, hs | ⟨_, _, hs | ⟨_, _, hs⟩⟩⟩⟩
      · rw [h1] at hs; cases hs
      · rw [Model.Common.packStdHeader_err hs]
      · rw [packU_err hs]
      · unfold Model.SoundStream.packHead at hs
        simp only [bind_eq_error] at hs
        rcases hs with hs | ⟨_, _, hs | ⟨_, _, hs | ⟨_, _, hs⟩⟩⟩
        · rw [natOf_err hs]
        · rw [natOf_err hs]
        · rw [natOf_err hs]
        · rw [packUs_err hs]
      · rcases hs with hs | ⟨_, _, hs⟩
        · rw [packU_err hs]
        · cases hs
  refine ⟨fun h8 => ?_, fun h0 => ?_, fun h0 h8 => ?_⟩
  · unfold saveSTRM
    rw [hpre]
    dsimp only
    rw [if_pos rfl, if_neg (by omega)]
    exact hsave _ ((stream_time_fits _ (by omega)).2 h8)
  · unfold saveSTRM
    rw [hpre]
    dsimp only
    rw [if_pos rfl, if_pos h0]
  · have ht : 2 ^ 16 ≤ streamTime s.sampleRate :=
      Nat.le_of_not_lt fun hlt => by have := (stream_time_fits _ h0).1 hlt; omega
    have e : saveSTRM s true = (.error .structError, { s with time := streamTime s.sampleRate }) := by
      unfold saveSTRM
      rw [hpre]
      dsimp only
      rw [if_pos rfl, if_neg (by omega), hfail _ ht]
    rw [e]
    refine ⟨rfl, rfl, ht, ?_⟩
    rw [strm_save_plain, hfail _ ht]

/-- Rounding matters: the float nearest to a third is not a third, and the middle of two floats goes to the even one. -/
example : round53 (1 / 3) * 3 ≠ 1 ∧ round53 (2 ^ 53 + 1) = 2 ^ 53 ∧ round53 (2 ^ 53 + 3) = 2 ^ 53 + 4 := by
  decide +kernel
/-- The usual sample rate: 16756991 / 32728 is 512.0…, and a thirty-second of it is 16. -/
example : waveTime 32728 = 512 ∧ streamTime 32728 = 16 ∧ streamTime 7 = 74807 := by decide +kernel
example : ∃ b, saveSTRM { Props.SoundStream.exStream with time := 3 } true = (.ok b, Props.SoundStream.exStream) :=
  ⟨match Props.SoundStream.exStream.save with | .ok b => b | .error _ => [], by decide +kernel⟩
/-- A stream with a sample rate of 5 meets the hypotheses of the last part. -/
example : ∃ b, { Props.SoundStream.exStream with sampleRate := 5, time := 0 }.save = .ok b := ⟨_, rfl⟩

end Verif.Props.Float
