import Verif.Proofs.SoundWave

/-!
# Properties of waves and wave archives (C30, C31)
-/

namespace Verif.Props.SoundWave

open Verif Verif.Model.SoundWave

/-! ## C30 -/

/-- C30: the bytes a wave saves to load back as the wave object left behind by saving, whatever follows them.
Every wave type of the `WaveType` enumeration is at most 2. -/
theorem swav_roundtrip (w w' : SWAV) (b extra : Bytes) (updateTime updateTotalLength : Bool)
    (ht : w.waveType ≤ 2) (h : w.save updateTime updateTotalLength = .ok (b, w')) :
    SWAV.load (b ++ extra) = .ok w' := by
  unfold SWAV.save SWAV.update at h
  simp only [bind_eq_ok, pure_eq_ok, raiseIf_eq_ok, Proofs.SoundWave.saveBytes_ok, Prod.mk.injEq] at h
  obtain ⟨_, ⟨_, _, rfl⟩, _, ⟨h1, rfl⟩, rfl, rfl⟩ := h
  exact Proofs.SoundWave.swav_load h1 ht extra

/-- C30: saving changes the time field to the clock ticks per sample exactly if asked to, the total length to
the number of whole words of data exactly if asked to, and no other attribute. -/
theorem swav_save_updates (w w' : SWAV) (b : Bytes) (updateTime updateTotalLength : Bool)
    (h : w.save updateTime updateTotalLength = .ok (b, w')) :
    w'.waveType = w.waveType ∧ w'.isLooped = w.isLooped ∧ w'.sampleRate = w.sampleRate ∧
    w'.loopOffset = w.loopOffset ∧ w'.data = w.data ∧
    (if updateTime then w'.time * w.sampleRate ≤ 16756991 ∧ 16756991 < (w'.time + 1) * w.sampleRate
      else w'.time = w.time) ∧
    (if updateTotalLength then 4 * w'.totalLength ≤ w.data.length ∧ w.data.length < 4 * w'.totalLength + 4
      else w'.totalLength = w.totalLength) := by
  unfold SWAV.save SWAV.update at h
  simp only [bind_eq_ok, pure_eq_ok, raiseIf_eq_ok, Prod.mk.injEq] at h
  obtain ⟨_, ⟨_, h0, rfl⟩, _, _, rfl, rfl⟩ := h
  refine ⟨rfl, rfl, rfl, rfl, rfl, ?_, ?_⟩
  · cases updateTime
    · simp
    · have hr : 0 < w.sampleRate := by
        have : w.sampleRate ≠ 0 := fun hz => h0 ⟨rfl, hz⟩
        omega
      simp only [if_true]
      exact ⟨Nat.div_mul_le_self .., Nat.lt_mul_of_div_lt (Nat.lt_succ_self _) hr⟩
  · cases updateTotalLength
    · simp
    · simp only [if_true]
      omega

/-- C30: when saving succeeds (without updates): the loop may not start after the end and everything fits its
field.  A looped part that starts beyond the end raises ValueError, anything else that does not fit
struct.error. -/
theorem swav_save_iff (w : SWAV) :
    (∃ b, w.saveBytes = .ok b) ↔ w.loopOffset ≤ w.totalLength ∧ 0x24 + w.data.length < 2 ^ 32 ∧
      w.waveType < 256 ∧ w.sampleRate < 2 ^ 16 ∧ w.time < 2 ^ 16 ∧ w.loopOffset < 2 ^ 16 ∧
      w.totalLength - w.loopOffset < 2 ^ 32 := by
  constructor
  · rintro ⟨b, hb⟩
    exact (Proofs.SoundWave.saveBytes_ok.1 hb).1
  · intro h
    exact ⟨_, Proofs.SoundWave.saveBytes_ok.2 ⟨h, rfl⟩⟩

/-- C30, files first: any file that loads can be saved again, to a file of the length of the samples plus the
headers that loads to an equal wave. -/
theorem swav_file_resave (d : Bytes) (w : SWAV) (h : SWAV.load d = .ok w) :
    ∃ b, w.save false false = .ok (b, w) ∧ SWAV.load b = .ok w ∧ b.length = 0x24 + w.data.length := by
  have h' := h
  unfold SWAV.load at h'
  simp only [bind_eq_ok] at h'
  obtain ⟨_, _, hdr, hh, _, _, _, _, _, _, _, _, _, _, h'⟩ := h'
  obtain ⟨hi, ht, hl, hdata⟩ := Proofs.SoundWave.unpackInfo_inv h'
  have hlen : 0x24 + w.data.length < 2 ^ 32 := by
    rw [hdata, slice_length]
    have hf : hdr.fileSize < 2 ^ 32 := (Model.Common.unpackStdHeader_inv hh).1.2.2.1
    omega
  have hok : Proofs.SoundWave.SwavOk w := ⟨hl, hlen, hi⟩
  refine ⟨Proofs.SoundWave.swavBytes w, ?_, ?_, ?_⟩
  · unfold SWAV.save SWAV.update
    rw [raiseIf_false (by simp), bind_ok]
    simp only [bind_eq_ok, pure_eq_ok]
    exact ⟨_, rfl, _, Proofs.SoundWave.saveBytes_ok.2 ⟨hok, rfl⟩, rfl⟩
  · have := Proofs.SoundWave.swav_load hok ht []
    rwa [List.append_nil] at this
  · simp [Proofs.SoundWave.swavBytes, magicDATA]; omega

/-- A looped ADPCM wave of eight bytes. -/
def exWave : SWAV := ⟨2, true, 32728, 512, 1, 2, [1, 2, 3, 4, 5, 6, 7, 8]⟩

example : ∃ b, exWave.save true true = .ok (b, exWave) ∧ b.length = 44 := ⟨_, rfl, rfl⟩
example : (SWAV.load (Proofs.SoundWave.swavBytes exWave ++ [9])) = .ok exWave := by decide +kernel

/-! ## C31 -/

/-- C31: an archive that saves loads back as the same waves in the same order, whatever follows it. -/
theorem swar_roundtrip (ws : List SWAV) (b extra : Bytes) (ht : ∀ w ∈ ws, w.waveType ≤ 2)
    (h : saveSWAR ws = .ok b) : loadSWAR (b ++ extra) = .ok ws := by
  obtain ⟨h1, h2, rfl⟩ := Proofs.SoundWave.saveSWAR_ok.1 h
  exact Proofs.SoundWave.swar_load h1 h2 ht extra

/-- C31: an archive saves exactly when each of its waves does and it is less than 4 GiB long; its header states
its length. -/
theorem swar_save_iff (ws : List SWAV) :
    (∃ b, saveSWAR ws = .ok b) ↔
      (∀ w ∈ ws, ∃ b, w.saveBytes = .ok b) ∧ 0x3C + (ws.map fun w => 16 + w.data.length).sum < 2 ^ 32 := by
  constructor
  · rintro ⟨b, hb⟩
    obtain ⟨h1, h2, _⟩ := Proofs.SoundWave.saveSWAR_ok.1 hb
    exact ⟨fun w hw => ⟨_, Proofs.SoundWave.saveBytes_ok.2 ⟨h1 w hw, rfl⟩⟩, h2⟩
  · rintro ⟨h1, h2⟩
    refine ⟨_, Proofs.SoundWave.saveSWAR_ok.2 ⟨fun w hw => ?_, h2, rfl⟩⟩
    obtain ⟨b, hb⟩ := h1 w hw
    exact (Proofs.SoundWave.saveBytes_ok.1 hb).1

/-- C31: the length of the saved archive, which is also what its header says. -/
theorem swar_save_length (ws : List SWAV) (b : Bytes) (h : saveSWAR ws = .ok b) :
    b.length = 0x3C + (ws.map fun w => 16 + w.data.length).sum ∧ unpackU .little 4 b 8 = .ok b.length := by
  obtain ⟨_, h2, rfl⟩ := Proofs.SoundWave.saveSWAR_ok.1 h
  have hl : (Proofs.SoundWave.swarBytes ws).length = Proofs.SoundWave.fileLen ws := by
    rw [← Proofs.SoundWave.recs_length]
    simp only [Proofs.SoundWave.swarBytes, List.length_append, Model.Common.stdHeaderBytes_length, enBytes_length,
      zeros_length, Proofs.SoundWave.offsetTable_length, show magicDATA.length = 4 from rfl]
  refine ⟨hl, ?_⟩
  rw [hl]
  have hat : At (Proofs.SoundWave.swarBytes ws) 0 (Proofs.SoundWave.swarBytes ws) := At.refl _
  conv at hat => arg 3; unfold Proofs.SoundWave.swarBytes Model.Common.stdHeaderBytes
  simp only [At.split, enBytes_length, List.length_append, packStr_length] at hat
  exact (hat.1.1.1.1.1.2.cast (by decide)).unpackU (by simpa [Proofs.SoundWave.swarHeader] using h2)

/-- C31, files first: the waves of any file that loads can be saved again, unless the archive would exceed
4 GiB, and load back. -/
theorem swar_file_resave (d : Bytes) (ws : List SWAV) (h : loadSWAR d = .ok ws)
    (hs : 0x3C + (ws.map fun w => 16 + w.data.length).sum < 2 ^ 32) :
    ∃ b, saveSWAR ws = .ok b ∧ loadSWAR b = .ok ws := by
  unfold loadSWAR at h
  simp only [bind_eq_ok] at h
  obtain ⟨_, _, hdr, _, _, _, _, _, _, _, _, _, n, _, _, _, h⟩ := h
  have hall : ∀ w ∈ ws, (w.loopOffset ≤ w.totalLength ∧ Proofs.SoundWave.InfoOk w) ∧ w.waveType ≤ 2 := by
    refine mapE_forall (fun i w hw => ?_) h
    unfold loadWave at hw
    simp only [bind_eq_ok] at hw
    obtain ⟨o, ho, _, _, hw⟩ := hw
    obtain ⟨hi, ht, hl, _⟩ := Proofs.SoundWave.unpackInfo_inv hw
    exact ⟨⟨hl, hi⟩, ht⟩
  have hmem : ∀ w ∈ ws, 16 + w.data.length ≤ (ws.map fun w => 16 + w.data.length).sum := by
    intro w hw
    exact le_sum_of_mem (List.mem_map.2 ⟨w, hw, rfl⟩)
  have hok : ∀ w ∈ ws, Proofs.SoundWave.SwavOk w := fun w hw =>
    ⟨(hall w hw).1.1, by have := hmem w hw; omega, (hall w hw).1.2⟩
  refine ⟨_, Proofs.SoundWave.saveSWAR_ok.2 ⟨hok, hs, rfl⟩, ?_⟩
  have := Proofs.SoundWave.swar_load hok hs (fun w hw => (hall w hw).2) []
  rwa [List.append_nil] at this

/-- Two waves, the second one empty. -/
def exWaves : List SWAV := [exWave, ⟨0, false, 8000, 0, 0, 0, []⟩]

example : ∃ b, saveSWAR exWaves = .ok b ∧ loadSWAR (b ++ [7]) = .ok exWaves := ⟨_, rfl, by decide +kernel⟩
example : ∃ b, saveSWAR [] = .ok b ∧ loadSWAR b = .ok [] := ⟨_, rfl, by decide +kernel⟩

end Verif.Props.SoundWave
