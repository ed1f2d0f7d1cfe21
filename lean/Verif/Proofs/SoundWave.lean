import Verif.Model.SoundWave

/-!
# SWAV and SWAR: helper lemmas
-/

namespace Verif.Proofs.SoundWave

open Verif Verif.Model.SoundWave Verif.Model.Common

@[simp] theorem packBool_length (b : Bool) : (packBool b).length = 1 := rfl

theorem At.unpackBool {d : Bytes} {o : Nat} {b : Bool} (h : At d o (packBool b)) : unpackBool d o = .ok b := by
  have e : packBool b = enBytes .little 1 (if b then 1 else 0) := by cases b <;> rfl
  rw [e] at h
  unfold Model.SoundWave.unpackBool
  rw [h.unpackU (by cases b <;> decide), bind_ok]
  cases b <;> rfl

/-- The attributes fit the fields of the info struct. -/
def InfoOk (w : SWAV) : Prop :=
  w.waveType < 256 ∧ w.sampleRate < 2 ^ 16 ∧ w.time < 2 ^ 16 ∧ w.loopOffset < 2 ^ 16 ∧
  w.totalLength - w.loopOffset < 2 ^ 32

def infoBytes (w : SWAV) : Bytes :=
  enBytes .little 1 w.waveType ++ packBool w.isLooped ++ enBytes .little 2 w.sampleRate ++
  enBytes .little 2 w.time ++ enBytes .little 2 w.loopOffset ++ enBytes .little 4 (w.totalLength - w.loopOffset)

@[simp] theorem infoBytes_length (w : SWAV) : (infoBytes w).length = 12 := by simp [infoBytes]

theorem packInfo_ok {w : SWAV} {b : Bytes} : packInfo w = .ok b ↔ InfoOk w ∧ b = infoBytes w := by
  unfold packInfo InfoOk infoBytes
  simp only [bind_eq_ok, pure_eq_ok, packU_eq_ok]
  constructor
  · rintro ⟨_, ⟨h1, rfl⟩, _, ⟨h2, rfl⟩, _, ⟨h3, rfl⟩, _, ⟨h4, rfl⟩, _, ⟨h5, rfl⟩, rfl⟩
    exact ⟨⟨h1, h2, h3, h4, h5⟩, rfl⟩
  · rintro ⟨⟨h1, h2, h3, h4, h5⟩, rfl⟩
    exact ⟨_, ⟨h1, rfl⟩, _, ⟨h2, rfl⟩, _, ⟨h3, rfl⟩, _, ⟨h4, rfl⟩, _, ⟨h5, rfl⟩, rfl⟩

theorem unpackInfo_at {w : SWAV} {d : Bytes} {o : Nat} (hat : At d o (infoBytes w)) (hok : InfoOk w)
    (ht : w.waveType ≤ 2) (hl : w.loopOffset ≤ w.totalLength) : unpackInfo d o w.data = .ok w := by
  obtain ⟨h1, h2, h3, h4, h5⟩ := hok
  unfold infoBytes at hat
  simp only [At.split, packBool_length, enBytes_length, List.length_append] at hat
  obtain ⟨⟨⟨⟨⟨a1, a2⟩, a3⟩, a4⟩, a5⟩, a6⟩ := hat
  unfold unpackInfo
  rw [a1.unpackU (by omega), bind_ok, At.unpackBool a2, bind_ok, a3.unpackU (by omega), bind_ok,
    a4.unpackU (by omega), bind_ok, a5.unpackU (by omega), bind_ok, a6.unpackU (by omega), bind_ok]
  unfold waveTypeOf
  rw [if_pos ht, bind_ok]
  have e : w.loopOffset + (w.totalLength - w.loopOffset) = w.totalLength := by omega
  rw [e]
  rfl

/-- What comes out of the info struct can be put back. -/
theorem unpackInfo_inv {w : SWAV} {d data : Bytes} {o : Nat} (h : unpackInfo d o data = .ok w) :
    InfoOk w ∧ w.waveType ≤ 2 ∧ w.loopOffset ≤ w.totalLength ∧ w.data = data := by
  unfold unpackInfo unpackBool waveTypeOf at h
  simp only [bind_eq_ok, pure_eq_ok] at h
  obtain ⟨a, ha, _, ⟨b, hb, rfl⟩, c, hc, e, he, f, hf, g, hg, t, ht, rfl⟩ := h
  split at ht
  · cases ht
    have ka := unpackU_lt ha; have kc := unpackU_lt hc; have ke := unpackU_lt he; have kf := unpackU_lt hf
    have kg := unpackU_lt hg
    refine ⟨⟨by simpa using ka, ?_, ?_, ?_, ?_⟩, by assumption, by dsimp only; omega, rfl⟩ <;> dsimp only <;> omega
  · cases ht

/-! ## SWAV -/

def swavHeader (w : SWAV) : StdHeader := ⟨magicSWAV, 0xFEFF, 0x100, 0x24 + w.data.length, 0x10, 1⟩

def swavBytes (w : SWAV) : Bytes :=
  stdHeaderBytes (swavHeader w) ++ (magicDATA ++ enBytes .little 4 (0x14 + w.data.length)) ++ infoBytes w ++ w.data

/-- When a wave can be saved. -/
def SwavOk (w : SWAV) : Prop := w.loopOffset ≤ w.totalLength ∧ 0x24 + w.data.length < 2 ^ 32 ∧ InfoOk w

theorem saveBytes_ok {w : SWAV} {b : Bytes} : w.saveBytes = .ok b ↔ SwavOk w ∧ b = swavBytes w := by
  unfold SWAV.saveBytes SwavOk swavBytes swavHeader
  simp only [bind_eq_ok, pure_eq_ok, packU_eq_ok, packStdHeader_eq_ok, packInfo_ok, raiseIf_eq_ok]
  constructor
  · rintro ⟨_, h0, _, ⟨h1, rfl⟩, _, ⟨h2, rfl⟩, _, ⟨h3, rfl⟩, rfl⟩
    exact ⟨⟨by omega, h1.2.2.1, h3⟩, rfl⟩
  · rintro ⟨⟨h0, h1, h2⟩, rfl⟩
    refine ⟨(), by omega, _, ⟨?_, rfl⟩, _, ⟨by omega, rfl⟩, _, ⟨h2, rfl⟩, rfl⟩
    exact StdHeader.ok_mk h1

theorem swavBytes_drop (w : SWAV) : (swavBytes w).drop 0x18 = infoBytes w ++ w.data := by
  unfold swavBytes
  rw [List.append_assoc, List.drop_append_of_le_length (by simp [magicDATA]),
    List.drop_eq_nil_of_le (by simp [magicDATA]), List.nil_append]

theorem swav_load {w : SWAV} (h : SwavOk w) (ht : w.waveType ≤ 2) (extra : Bytes) :
    SWAV.load (swavBytes w ++ extra) = .ok w := by
  obtain ⟨h0, h1, h2⟩ := h
  have hat : At (swavBytes w ++ extra) 0 (swavBytes w) := At.first _ _
  conv at hat => arg 3; unfold swavBytes
  simp only [At.split, stdHeaderBytes_length, enBytes_length, List.length_append, infoBytes_length, Nat.zero_add,
    show magicDATA.length = 4 from rfl] at hat
  obtain ⟨⟨⟨a1, a2, a3⟩, a4⟩, a5⟩ := hat
  unfold SWAV.load
  have hm : (swavBytes w ++ extra).take 4 = magicSWAV := rfl
  rw [raiseIf_false (by simp [hm]), bind_ok, unpackStdHeader_at a1 (StdHeader.ok_mk h1) rfl,
    bind_ok, raiseIf_false (fun h => h rfl), bind_ok, pyAssert_true (by rfl), bind_ok, a2.unpackStr (n := 4) rfl, bind_ok,
    a3.unpackU (by omega), bind_ok, pyAssert_true rfl, bind_ok]
  have e : slice (swavBytes w ++ extra) 0x24 (swavHeader w).fileSize = w.data := a5.slice_eq rfl
  rw [e]
  exact unpackInfo_at a4 h2 ht h0

/-! ## SWAR -/

def waveRec (w : SWAV) : Bytes := infoBytes w ++ w.data

/-- Where the `i`-th wave starts. -/
def startOf (base : Nat) (ws : List SWAV) (i : Nat) : Nat := base + (((ws.take i).map waveRec).flatten).length

theorem saveWaves_ok {ws : List SWAV} : ∀ {pos : Nat} {r : List Nat × Bytes},
    saveWaves ws pos = .ok r ↔ (∀ w ∈ ws, SwavOk w) ∧
      r = ((List.range ws.length).map (startOf pos ws), (ws.map waveRec).flatten) := by
  induction ws with
  | nil => intro pos r; simp [saveWaves, eq_comm]
  | cons w ws ih =>
    intro pos r
    have hs : (List.range (w :: ws).length).map (startOf pos (w :: ws)) =
        pos :: (List.range ws.length).map (startOf (pos + (waveRec w).length) ws) := by
      rw [List.length_cons, List.range_succ_eq_map, List.map_cons, List.map_map]
      congr 1
      apply List.map_congr_left
      intro i _
      simp [startOf, Nat.add_assoc]
    rw [saveWaves]
    simp only [bind_eq_ok, pure_eq_ok, saveBytes_ok, ih]
    constructor
    · rintro ⟨_, ⟨h1, rfl⟩, _, ⟨h2, rfl⟩, rfl⟩
      rw [swavBytes_drop]
      refine ⟨?_, ?_⟩
      · intro x hx
        rcases List.mem_cons.1 hx with rfl | hx
        · exact h1
        · exact h2 x hx
      · rw [hs]; rfl
    · rintro ⟨h, rfl⟩
      refine ⟨_, ⟨h w (by simp), rfl⟩, _, ⟨fun x hx => h x (by simp [hx]), rfl⟩, ?_⟩
      rw [swavBytes_drop, hs]; rfl

def fileLen (ws : List SWAV) : Nat := 0x3C + (ws.map fun s => 4 + 0xC + s.data.length).sum

def swarHeader (ws : List SWAV) : StdHeader := ⟨magicSWAR, 0xFEFF, 0x100, fileLen ws, 0x10, 1⟩

def offsetTable (ws : List SWAV) : Bytes :=
  ((List.range ws.length).map fun i => enBytes .little 4 (startOf (0x3C + 4 * ws.length) ws i)).flatten

def swarBytes (ws : List SWAV) : Bytes :=
  stdHeaderBytes (swarHeader ws) ++
  (magicDATA ++ enBytes .little 4 (fileLen ws - 0x10) ++ zeros 32 ++ enBytes .little 4 ws.length) ++
  offsetTable ws ++ (ws.map waveRec).flatten

theorem recs_length (ws : List SWAV) :
    0x3C + 4 * ws.length + ((ws.map waveRec).flatten).length = fileLen ws := by
  unfold fileLen
  induction ws with
  | nil => rfl
  | cons w ws ih =>
    simp only [List.map_cons, List.flatten_cons, List.length_append, List.sum_cons, List.length_cons, waveRec,
      infoBytes_length] at ih ⊢
    omega

theorem startOf_le (base : Nat) (ws : List SWAV) (i : Nat) :
    startOf base ws i ≤ base + ((ws.map waveRec).flatten).length := by
  unfold startOf
  conv => rhs; rw [← List.take_append_drop i ws]
  rw [List.map_append, List.flatten_append, List.length_append]; omega

theorem startOf_succ (base : Nat) (ws : List SWAV) {i : Nat} (hi : i < ws.length) :
    startOf base ws (i + 1) = startOf base ws i + (waveRec ws[i]).length := by
  unfold startOf
  rw [List.take_add_one, List.getElem?_eq_getElem hi]
  simp only [Option.toList_some, List.map_append, List.flatten_append, List.length_append, List.map_cons, List.map_nil,
    List.flatten_cons, List.flatten_nil, List.append_nil]
  omega

theorem offsetTable_length (ws : List SWAV) : (offsetTable ws).length = 4 * ws.length := by
  unfold offsetTable
  rw [flatten_length_const (n := 4) (by intro p hp; obtain ⟨k, _, rfl⟩ := List.mem_map.1 hp; exact enBytes_length ..),
    List.length_map, List.length_range, Nat.mul_comm]

theorem saveSWAR_ok {ws : List SWAV} {b : Bytes} :
    saveSWAR ws = .ok b ↔ (∀ w ∈ ws, SwavOk w) ∧ fileLen ws < 2 ^ 32 ∧ b = swarBytes ws := by
  unfold saveSWAR
  have hm := mapE_eq_map (f := packU .little 4) (g := enBytes .little 4) (P := (· < 2 ^ 32))
    (fun a b => by rw [packU_eq_ok])
  have hlen : 4 * ws.length ≤ fileLen ws := by have := recs_length ws; omega
  dsimp only
  simp only [bind_eq_ok, pure_eq_ok, packU_eq_ok, packStdHeader_eq_ok, saveWaves_ok, hm]
  constructor
  · rintro ⟨_, ⟨h1, rfl⟩, _, ⟨h2, rfl⟩, _, ⟨h3, rfl⟩, _, ⟨h4, rfl⟩, _, ⟨h5, rfl⟩, rfl⟩
    refine ⟨h4, h1.2.2.1, ?_⟩
    unfold swarBytes offsetTable
    rw [List.map_map]
    rfl
  · rintro ⟨h4, h1, rfl⟩
    refine ⟨_, ⟨StdHeader.ok_mk h1, rfl⟩, _, ⟨?_, rfl⟩, _, ⟨by omega, rfl⟩, _, ⟨h4, rfl⟩, _,
      ⟨?_, rfl⟩, ?_⟩
    · change fileLen ws - 0x10 < 2 ^ 32
      omega
    · intro x hx
      obtain ⟨i, _, rfl⟩ := List.mem_map.1 hx
      have := startOf_le (0x3C + 4 * ws.length) ws i
      have := recs_length ws
      omega
    · unfold swarBytes offsetTable
      rw [List.map_map]
      rfl

theorem rec_at (ws : List SWAV) {i : Nat} (hi : i < ws.length) (base : Bytes) :
    At (base ++ (ws.map waveRec).flatten) (startOf base.length ws i) (waveRec ws[i]) := by
  unfold startOf
  conv => arg 1; arg 2; rw [← List.take_append_drop i ws, List.drop_eq_getElem_cons hi]
  rw [List.map_append, List.flatten_append, List.map_cons, List.flatten_cons, ← List.append_assoc, ← List.append_assoc]
  exact At.mk' (by rw [List.length_append])

theorem swar_load {ws : List SWAV} (h : ∀ w ∈ ws, SwavOk w) (hl : fileLen ws < 2 ^ 32)
    (ht : ∀ w ∈ ws, w.waveType ≤ 2) (extra : Bytes) : loadSWAR (swarBytes ws ++ extra) = .ok ws := by
  have hat : At (swarBytes ws ++ extra) 0 (swarBytes ws) := At.first _ _
  conv at hat => arg 3; unfold swarBytes
  simp only [At.split, stdHeaderBytes_length, enBytes_length, List.length_append, zeros_length, Nat.zero_add,
    show magicDATA.length = 4 from rfl] at hat
  obtain ⟨⟨⟨a1, ⟨⟨a2, a3⟩, a4⟩, a5⟩, a6⟩, a7⟩ := hat
  have hrl := recs_length ws
  have hbl : (stdHeaderBytes (swarHeader ws) ++
      (magicDATA ++ enBytes .little 4 (fileLen ws - 0x10) ++ zeros 32 ++ enBytes .little 4 ws.length) ++
      offsetTable ws).length = 0x3C + 4 * ws.length := by
    simp only [List.length_append, stdHeaderBytes_length, enBytes_length, zeros_length, offsetTable_length,
      show magicDATA.length = 4 from rfl]
  unfold loadSWAR
  have hm : (swarBytes ws ++ extra).take 4 = magicSWAR := rfl
  rw [raiseIf_false (by simp [hm]), bind_ok, unpackStdHeader_at a1 (StdHeader.ok_mk hl) rfl,
    bind_ok, raiseIf_false (fun h => h rfl), bind_ok, pyAssert_true (by rfl), bind_ok, a2.unpackStr (n := 4) rfl, bind_ok,
    a3.unpackU (by omega), bind_ok, (a5.cast (p := 0x38) rfl).unpackU (by omega), bind_ok, pyAssert_true rfl, bind_ok]
  refine mapE_range_eq rfl fun i hi => ?_
  have hrec : At (swarBytes ws ++ extra) (startOf (0x3C + 4 * ws.length) ws i) (waveRec ws[i]) := by
    have := (rec_at ws hi (stdHeaderBytes (swarHeader ws) ++
      (magicDATA ++ enBytes .little 4 (fileLen ws - 0x10) ++ zeros 32 ++ enBytes .little 4 ws.length) ++
      offsetTable ws)).append_right extra
    rwa [hbl] at this
  have hoff : ∀ j, j < ws.length →
      At (swarBytes ws ++ extra) (0x3C + 4 * j) (enBytes .little 4 (startOf (0x3C + 4 * ws.length) ws j)) := by
    intro j hj
    have := flatten_at (n := 4)
      (parts := (List.range ws.length).map fun i => enBytes .little 4 (startOf (0x3C + 4 * ws.length) ws i))
      (by intro p hp; obtain ⟨k, _, rfl⟩ := List.mem_map.1 hp; exact enBytes_length ..) (i := j) (by simpa using hj)
    simp only [List.getElem_map, List.getElem_range] at this
    exact (a6.sub this).cast (by omega)
  have hle := fun j => startOf_le (0x3C + 4 * ws.length) ws j
  have hsucc := startOf_succ (0x3C + 4 * ws.length) ws hi
  have hrlen : (waveRec ws[i]).length = 12 + ws[i].data.length := by simp [waveRec]
  have hle1 := hle (i + 1)
  have hbound := hrec.bound
  -- the word after the last offset lies in the first record
  have hnext : ∃ n, unpackU .little 4 (swarBytes ws ++ extra) (0x3C + 4 * i + 4) = .ok n ∧
      (if i = ws.length - 1 then (swarHeader ws).fileSize else n) = startOf (0x3C + 4 * ws.length) ws (i + 1) := by
    by_cases hlast : i = ws.length - 1
    · have hb : 0x3C + 4 * i + 4 + 4 ≤ (swarBytes ws ++ extra).length := by
        have h0 : startOf (0x3C + 4 * ws.length) ws i ≥ 0x3C + 4 * ws.length := Nat.le_add_right _ _
        omega
      refine ⟨_, unpackU_eq_ok.2 ⟨hb, rfl⟩, ?_⟩
      rw [if_pos hlast]
      change fileLen ws = _
      rw [← hrl, show i + 1 = ws.length by omega]
      unfold startOf
      rw [List.take_length]
    · refine ⟨_, (hoff (i + 1) (by omega)).unpackU ?_, ?_⟩
      · omega
      · rw [if_neg hlast]
  obtain ⟨n, hn, hne⟩ := hnext
  unfold loadWave
  rw [(hoff i hi).unpackU (by have := hle i; omega), bind_ok, hn, bind_ok]
  dsimp only
  rw [hne, hsucc, hrec.slice_eq rfl]
  have hd : (waveRec ws[i]).drop 0xC = ws[i].data := by
    unfold waveRec
    rw [List.drop_append_of_le_length (by simp), List.drop_eq_nil_of_le (by simp), List.nil_append]
  rw [hd]
  have hw := h ws[i] (List.getElem_mem hi)
  exact unpackInfo_at (At.first _ _) hw.2.2 (ht _ (List.getElem_mem hi)) hw.1

end Verif.Proofs.SoundWave
