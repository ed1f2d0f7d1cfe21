import Verif.Proofs.SoundStream

/-!
# Properties of streams (C32) and sound group entries (C33)
-/

namespace Verif.Props.SoundStream

open Verif Verif.Model.SoundStream

/-! ## C32 -/

/-- Consistent channels: equally many blocks, the last ones of one common size and the others of one common
size. -/
def Consistent (channels : List (List Bytes)) : Prop :=
  ∃ blocks size lastSize, ∀ c ∈ channels, c.length = blocks ∧
    ∀ i, (hi : i < c.length) → c[i].length = if i = blocks - 1 then lastSize else size

/-- C32: a stream that saves loads back equal, whatever follows it.  Every wave type of the `WaveType`
enumeration is at most 2. -/
theorem strm_roundtrip (s : STRM) (b extra : Bytes) (ht : s.waveType ≤ 2) (h : s.save = .ok b) :
    STRM.load (b ++ extra) = .ok s := by
  obtain ⟨n, bpb, last, h0, h1, h2, rfl⟩ := Proofs.SoundStream.save_ok.1 h
  exact Proofs.SoundStream.strm_load h0 h1 h2 ht extra

/-- C32: saving raises ValueError exactly for inconsistent channels. -/
theorem strm_inconsistent (s : STRM) : s.save = .error .valueError ↔ ¬ Consistent s.channels := by
  constructor
  · rintro h ⟨n, bpb, last, hc⟩
    obtain ⟨m, b, l, hs⟩ := Proofs.SoundStream.blockShape_of (n := n) (bpb := bpb) (last := last)
      ⟨fun c hc' => (hc c hc').1, fun c hc' => (hc c hc').2⟩
    unfold STRM.save at h
    rw [hs, bind_ok] at h
    simp only [bind_eq_error] at h
    rcases h with h | ⟨_, _, h | ⟨_, _, h | ⟨_, _, h | ⟨_, _, h⟩⟩⟩⟩
    · cases Model.Common.packStdHeader_err h
    · cases packU_err h
    · unfold packHead at h
      simp only [bind_eq_error] at h
      rcases h with h | ⟨_, _, h | ⟨_, _, h | ⟨_, _, h⟩⟩⟩
      · cases natOf_err h
      · cases natOf_err h
      · cases natOf_err h
      · cases packUs_err h
    · cases packU_err h
    · cases h
  · intro h
    unfold STRM.save
    cases hs : blockShape s.channels with
    | error e => rw [Proofs.SoundStream.blockShape_err hs]; rfl
    | ok r =>
      obtain ⟨hs, _⟩ := Proofs.SoundStream.blockShape_ok (n := r.1) (bpb := r.2.1) (last := r.2.2) hs
      exact absurd ⟨_, _, _, fun c hc => ⟨hs.1 c hc, hs.2 c hc⟩⟩ h

/-- `n` rounded up to a multiple of 4. -/
def roundUp4 (n : Nat) : Nat := (n + 3) / 4 * 4

/-- C32: where the blocks are.  Block `j` of channel `i` starts `j` rows after the headers and `i` blocks into
its row; a row is one block of each channel, rounded up to a multiple of 4 bytes. -/
theorem strm_block_position (s : STRM) (b : Bytes) (h : s.save = .ok b) (i j : Nat) (hi : i < s.channels.length)
    (hj : j < s.channels[i].length) :
    At b (0x68 + j * roundUp4 (s.channels.length * (s.channels[i][0]'(by omega)).length) +
      i * s.channels[i][j].length) s.channels[i][j] := by
  obtain ⟨n, bpb, last, h0, h1, h2, rfl⟩ := Proofs.SoundStream.save_ok.1 h
  obtain ⟨hs, _⟩ := Proofs.SoundStream.blockShape_ok h0
  have hat := Proofs.SoundStream.block_at hs hi hj
  have hw : At (Proofs.SoundStream.strmBytes s n bpb last (Proofs.SoundStream.wave s.channels n)) 0x68
      (Proofs.SoundStream.wave s.channels n) := by
    unfold Proofs.SoundStream.strmBytes
    refine At.last' ?_
    simp [magicHEAD, Model.SoundWave.magicDATA]
  have hsz := hs.2 _ (List.getElem_mem hi)
  have hn := hs.1 _ (List.getElem_mem hi)
  have hr : ∀ k, k + padLen k 4 = roundUp4 k := by intro k; unfold padLen roundUp4; omega
  refine (hw.sub hat).cast ?_
  rw [hsz j hj]
  by_cases hj0 : j = 0
  · subst hj0; simp
  · rw [hsz 0 (by omega), if_neg (show ¬ 0 = n - 1 by omega)]
    unfold Proofs.SoundStream.rowSize
    rw [hr, Nat.add_assoc]

/-- C32: consistent channels can still be impossible to save: a stream without blocks whose blocks are said
to hold more samples than the last one has a negative number of samples, and a single ADPCM block of fewer
than four bytes has a negative size. -/
theorem strm_unsavable (s : STRM) :
    (s.channels = [] → s.samplesInLastBlock < s.samplesPerBlock → s.save = .error .structError) ∧
    (∀ blk : Bytes, s.channels = [[blk]] → s.waveType = 2 → blk.length < 4 → s.save = .error .structError) := by
  constructor
  · intro hc hs
    unfold STRM.save
    have h0 : blockShape s.channels = .ok (0, 0, 0) := by rw [hc]; rfl
    have hz : waveData (zipAll s.channels) = [] := by rw [hc]; rfl
    rw [h0, bind_ok, hz]
    dsimp only
    rw [Model.Common.packStdHeader_eq_ok.2 ⟨Model.Common.StdHeader.ok_mk (by decide), rfl⟩, bind_ok,
      packU_of_lt (by decide), bind_ok]
    unfold packHead natOf
    dsimp only
    rw [if_neg (by omega)]
    rfl
  · intro blk hc hw hl
    have hs : blockShape s.channels = .ok (1, blk.length, blk.length) := by
      rw [hc]; simp [blockShape]
    unfold STRM.save
    rw [hs, bind_ok]
    have hz : waveData (zipAll s.channels) = padTo blk 4 0 := by
      rw [hc]; simp [waveData, zipAll]
    rw [hz]
    have hlen : (padTo blk 4 0).length ≤ 4 := by
      rw [padTo_length]; unfold padLen; omega
    dsimp only
    rw [Model.Common.packStdHeader_eq_ok.2 ⟨Model.Common.StdHeader.ok_mk (by omega), rfl⟩, bind_ok,
      packU_of_lt (by decide), bind_ok]
    unfold packHead
    dsimp only
    rw [if_pos ⟨hw, rfl⟩]
    have e1 : natOf ((((1 : Nat) : Int) - 1) * s.samplesPerBlock + s.samplesInLastBlock) = .ok s.samplesInLastBlock :=
      natOf_eq_ok.2 (by omega)
    rw [e1, bind_ok]
    have e2 : natOf ((blk.length : Int) - 4) = .error .structError := by
      unfold natOf; rw [if_neg (by omega)]
    rw [e2]
    rfl

/-- Two channels of three blocks of 3, 3 and 2 bytes. -/
def exStream : STRM :=
  ⟨1, true, [[[1, 2, 3], [4, 5, 6], [7, 8]], [[11, 12, 13], [14, 15, 16], [17, 18]]], 0, 32728, 16, 0, 3, 2,
    1, 2, 3, 4, 5, 6, 7, 8⟩

example : ∃ b, exStream.save = .ok b ∧ b.length = 0x68 + 8 + 8 + 4 ∧ STRM.load (b ++ [1]) = .ok exStream :=
  ⟨_, rfl, by decide +kernel, by decide +kernel⟩
example : ¬ Consistent [[[1]], []] := by
  rintro ⟨n, s, l, h⟩
  have h1 := (h [[1]] (by simp)).1
  have h2 := (h [] (by simp)).1
  simp at h1 h2; omega

/-! ## C33 -/

/-- C33: an entry with a valid type and load method survives being packed and unpacked: the tuple `save`
returns, passed to the constructor, gives the entry back. -/
theorem group_entry_roundtrip (e : GroupEntry) (ht : e.type ≤ 3) (hl : e.loadSBNKSWARsFrom ≤ 1) :
    GroupEntry.init e.save.1 e.save.2.1 e.save.2.2 = .ok e :=
  Proofs.SoundStream.init_save ht hl

/-- C33: the other direction keeps the type, the ID and exactly the low four bits of the options. -/
theorem group_entry_resave (type options id : Nat) (e : GroupEntry) (h : GroupEntry.init type options id = .ok e) :
    e.save = (type, options % 16, id) :=
  (Proofs.SoundStream.save_init h).1

/-- C33: each bit of the options stands for one attribute. -/
theorem group_entry_bits (type options id : Nat) (h : type ≤ 3) :
    ∃ e, GroupEntry.init type options id = .ok e ∧ e.loadSSEQ = options.testBit 0 ∧
      (e.loadSBNKSWARsFrom = 1 ↔ options.testBit 1 = true) ∧ e.loadSWAR = options.testBit 2 ∧
      e.loadSSAR = options.testBit 3 := by
  have hb : ∀ k, decide (options &&& 2 ^ k ≠ 0) = options.testBit k := by
    intro k
    rw [← Bits.and_two_pow_ne options k]
    by_cases h : options &&& 2 ^ k = 0 <;> simp [h]
  have h0 := hb 0; have h1 := hb 1; have h2 := hb 2; have h3 := hb 3
  simp only [Nat.reducePow] at h0 h1 h2 h3
  unfold GroupEntry.init
  rw [raiseIf_false (by omega), bind_ok]
  refine ⟨_, rfl, h0, ?_, h2, h3⟩
  dsimp only
  rw [← h1]
  by_cases hx : options &&& 2 ≠ 0 <;> simp [hx]

/-- C33: `fromFlags` sets the attributes it is given. -/
theorem group_entry_fromFlags (type id : Nat) (a : Bool) (m : Nat) (b c : Bool) (h : type ≤ 3) :
    GroupEntry.fromFlags type id a m b c = .ok ⟨type, id, a, m, b, c⟩ := by
  unfold GroupEntry.fromFlags GroupEntry.init
  rw [raiseIf_false (by omega)]
  rfl

/-- C33: a group written into a sound archive is read back, wherever it is. -/
theorem group_roundtrip (g : List GroupEntry) (b d : Bytes) (off : Nat) (h : packGroup g = .ok b)
    (hat : At d off b) (hv : ∀ e ∈ g, e.type ≤ 3 ∧ e.loadSBNKSWARsFrom ≤ 1) : unpackGroup d off = .ok g :=
  Proofs.SoundStream.unpackGroup_at h hat hv

/-- C33: a group that was read can be written, and what is written reads the same. -/
theorem group_resave (d : Bytes) (off : Nat) (g : List GroupEntry) (h : unpackGroup d off = .ok g) :
    ∃ b, packGroup g = .ok b ∧ b.length = 4 + 8 * g.length ∧ unpackGroup b 0 = .ok g := by
  have h' := h
  unfold unpackGroup at h'
  simp only [bind_eq_ok] at h'
  obtain ⟨n, hn, hg⟩ := h'
  have hall : ∀ e ∈ g, e.type ≤ 3 ∧ e.id < 2 ^ 32 ∧ e.loadSBNKSWARsFrom ≤ 1 := by
    refine mapE_forall (fun i e he => ?_) hg
    unfold unpackGroupEntry at he
    simp only [bind_eq_ok] at he
    obtain ⟨t, _, o, _, id, hid, he⟩ := he
    obtain ⟨h1, h2, h3⟩ := Proofs.SoundStream.save_init he
    have e1 : e.type = t := congrArg Prod.fst h1
    have e2 : e.id = id := congrArg (fun x => x.2.2) h1
    exact ⟨by omega, by have := unpackU_lt hid; omega, h3⟩
  have hlen : g.length = n := by
    have := mapE_length hg
    simpa using this
  have hok := Proofs.SoundStream.packGroup_ok (g := g).2
    ⟨⟨by have := unpackU_lt hn; omega, fun e he => ⟨by have := (hall e he).1; omega, (hall e he).2.1⟩⟩, rfl⟩
  refine ⟨_, hok, ?_, Proofs.SoundStream.unpackGroup_at hok (At.refl _) fun e he => ⟨(hall e he).1, (hall e he).2.2⟩⟩
  rw [List.length_append, enBytes_length, flatten_length_const (n := 8), List.length_map, Nat.mul_comm]
  intro p hp
  obtain ⟨e, _, rfl⟩ := List.mem_map.1 hp
  simp

/-- A group of three entries of different types. -/
def exGroup : List GroupEntry :=
  [⟨0, 5, true, 1, false, true⟩, ⟨3, 0xFFFFFFFF, false, 0, true, false⟩, ⟨2, 7, true, 0, true, true⟩]

example : ∃ b, packGroup exGroup = .ok b ∧ unpackGroup ([9, 9] ++ b ++ [8]) 2 = .ok exGroup :=
  ⟨_, rfl, by decide +kernel⟩

end Verif.Props.SoundStream
