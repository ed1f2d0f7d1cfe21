import Verif.Model.SoundStream
import Verif.Proofs.SoundWave
import Verif.Base.Bits

/-!
# STRM and group entries: helper lemmas
-/

namespace Verif.Proofs.SoundStream

open Verif Verif.Model.SoundStream Verif.Model.Common
open Verif.Model.SoundWave (waveTypeOf magicDATA)

/-! ## Rows of blocks -/

/-- The `i`-th row, for channels that have that many blocks. -/
def row (cs : List (List Bytes)) (i : Nat) : List Bytes := cs.map fun c => c.getD i []

/-- What has been written after `k` rows. -/
def wave (cs : List (List Bytes)) : Nat → Bytes
  | 0 => []
  | k + 1 => padTo (wave cs k ++ (row cs k).flatten) 4 0

theorem wave_succ_at (cs : List (List Bytes)) (k : Nat) :
    ∃ t, wave cs (k + 1) = wave cs k ++ ((row cs k).flatten ++ t) := by
  rw [wave, padTo, List.append_assoc]
  exact ⟨_, rfl⟩

theorem wave_prefix (cs : List (List Bytes)) (k : Nat) : ∀ n, k ≤ n → ∃ t, wave cs n = wave cs k ++ t
  | 0, h => ⟨[], by simp [Nat.le_zero.1 h]⟩
  | n + 1, h => by
    by_cases hk : k = n + 1
    · exact ⟨[], by simp [hk]⟩
    · obtain ⟨t, ht⟩ := wave_prefix cs k n (by omega)
      obtain ⟨u, hu⟩ := wave_succ_at cs n
      exact ⟨t ++ ((row cs n).flatten ++ u), by rw [hu, ht, List.append_assoc]⟩

theorem row_at (cs : List (List Bytes)) {k n : Nat} (h : k < n) :
    At (wave cs n) (wave cs k).length (row cs k).flatten := by
  obtain ⟨t, ht⟩ := wave_prefix cs (k + 1) n h
  obtain ⟨u, hu⟩ := wave_succ_at cs k
  rw [ht, hu, ← List.append_assoc]
  exact (At.mk' rfl).append_right t

theorem foldl_min {cs : List (List Bytes)} {n : Nat} (h : ∀ c ∈ cs, c.length = n) :
    cs.foldl (fun m l => min m l.length) n = n := by
  induction cs with
  | nil => rfl
  | cons c cs ih =>
    rw [List.foldl_cons, h c (by simp), Nat.min_self]
    exact ih fun c hc => h c (by simp [hc])

theorem zipAll_eq {cs : List (List Bytes)} {n : Nat} (h : ∀ c ∈ cs, c.length = n) (hne : cs ≠ []) :
    zipAll cs = (List.range n).map (row cs) := by
  cases cs with
  | nil => exact absurd rfl hne
  | cons c cs =>
    rw [zipAll, h c (by simp), foldl_min fun c hc => h c (by simp [hc])]
    apply List.map_congr_left
    intro i hi
    have hi := List.mem_range.1 hi
    unfold row
    generalize c :: cs = l at h ⊢
    induction l with
    | nil => rfl
    | cons x l ih =>
      have := h x (by simp)
      rw [List.filterMap_cons, List.getElem?_eq_getElem (show i < x.length by omega)]
      simp only [List.map_cons]
      rw [ih fun c hc => h c (by simp [hc])]
      simp [List.getElem?_eq_getElem (show i < x.length by omega)]

theorem waveData_range (cs : List (List Bytes)) (n : Nat) :
    waveData ((List.range n).map (row cs)) = wave cs n := by
  unfold waveData
  induction n with
  | zero => rfl
  | succ n ih => rw [List.range_succ, List.map_append, List.foldl_append, ih]; rfl

theorem readRow_eq {d : Bytes} {sz : Nat} : ∀ {r : List Bytes} {o : Nat}, At d o r.flatten →
    (∀ b ∈ r, b.length = sz) → readRow d sz r.length o = (r, o + r.flatten.length)
  | [], o, _, _ => rfl
  | b :: r, o, h, hl => by
    rw [List.flatten_cons, At.split, hl b (by simp)] at h
    rw [List.length_cons, readRow, readRow_eq h.2 fun x hx => hl x (by simp [hx])]
    rw [h.1.slice_eq (by rw [hl b (by simp)])]
    simp [hl b (by simp)]; omega

theorem zipWith_append_take {cs : List (List Bytes)} {k n : Nat} (h : ∀ c ∈ cs, c.length = n) (hk : k < n) :
    List.zipWith (fun ch b => ch ++ [b]) (cs.map (List.take k)) (row cs k) = cs.map (List.take (k + 1)) := by
  unfold row
  rw [List.zipWith_map, List.zipWith_self]
  apply List.map_congr_left
  intro c hc
  have := h c hc
  rw [List.take_add_one, List.getElem?_eq_getElem (by omega)]
  simp [List.getElem?_eq_getElem (show k < c.length by omega)]

/-- The block sizes of well-formed channels. -/
def Shaped (cs : List (List Bytes)) (n bpb last : Nat) : Prop :=
  (∀ c ∈ cs, c.length = n) ∧ ∀ c ∈ cs, ∀ i, (hi : i < c.length) → c[i].length = if i = n - 1 then last else bpb

theorem row_size {cs : List (List Bytes)} {n bpb last k : Nat} (h : Shaped cs n bpb last) (hk : k < n) :
    ∀ b ∈ row cs k, b.length = if k = n - 1 then last else bpb := by
  intro b hb
  obtain ⟨c, hc, rfl⟩ := List.mem_map.1 hb
  have hl := h.1 c hc
  have := h.2 c hc k (by omega)
  simpa [List.getElem?_eq_getElem (show k < c.length by omega)] using this

theorem wave_succ_length (cs : List (List Bytes)) (k : Nat) : (wave cs (k + 1)).length =
    (wave cs k).length + (row cs k).flatten.length +
      padLen ((wave cs k).length + (row cs k).flatten.length) 4 := by
  rw [wave, padTo_length, List.length_append]

theorem readRows_eq {cs : List (List Bytes)} {d : Bytes} {n bpb last bpb' last' extra : Nat}
    (h : Shaped cs n bpb last) (hd : d = wave cs n) (h1 : 1 < n → bpb' + extra = bpb) (h2 : 0 < n → last' + extra = last) :
    ∀ (j k : Nat), k + j = n →
    readRows d cs.length n bpb' last' extra j (wave cs k).length (cs.map (List.take k)) = cs := by
  intro j
  induction j with
  | zero =>
    intro k hk
    rw [readRows]
    conv => rhs; rw [← List.map_id cs]
    apply List.map_congr_left
    intro c hc
    have := h.1 c hc
    exact List.take_of_length_le (by omega)
  | succ j ih =>
    intro k hk
    have hkn : n - (j + 1) = k := by omega
    have hsz : (if k = n - 1 then last' else bpb') + extra = if k = n - 1 then last else bpb := by
      split
      · exact h2 (by omega)
      · exact h1 (by omega)
    rw [readRows, hkn, hsz]
    have hr := readRow_eq (d := d) (by rw [hd]; exact row_at cs (show k < n by omega)) (row_size h (by omega))
    have hrl : (row cs k).length = cs.length := by simp [row]
    rw [hrl] at hr
    rw [hr]
    dsimp only
    rw [zipWith_append_take h.1 (by omega), ← wave_succ_length]
    exact ih (k + 1) (by omega)

/-! ## The shape check -/

theorem blockShape_ok {cs : List (List Bytes)} {n bpb last : Nat} (h : blockShape cs = .ok (n, bpb, last)) :
    Shaped cs n bpb last ∧ (cs = [] → n = 0) := by
  unfold blockShape at h
  split at h
  · cases h
    exact ⟨⟨by simp, by simp⟩, fun _ => rfl⟩
  · rename_i c0 rest
    split at h
    · rename_i hall
      simp only [List.all_eq_true, decide_eq_true_eq] at hall
      split at h
      · cases h
        refine ⟨⟨hall, ?_⟩, by simp⟩
        intro c hc i hi
        have := hall c hc
        simp only [List.length_nil] at this
        omega
      · rename_i b0 bs
        split at h
        · rename_i hblk
          simp only [List.all_eq_true, decide_eq_true_eq, Bool.and_eq_true] at hblk
          cases h
          refine ⟨⟨hall, ?_⟩, by simp⟩
          intro c hc i hi
          have hl := hall c hc
          obtain ⟨h1, h2⟩ := hblk c hc
          by_cases hlast : i = (b0 :: bs).length - 1
          · rw [if_pos hlast]
            have : c.getLast? = some c[i] := by
              rw [List.getLast?_eq_getElem?, List.getElem?_eq_getElem (by omega)]
              simp only [hl, hlast]
            rw [this] at h2
            simpa using h2
          · rw [if_neg hlast]
            apply h1
            rw [List.mem_iff_getElem]
            exact ⟨i, by rw [List.length_dropLast]; omega, by simp⟩
        · cases h
    · cases h

theorem blockShape_err {cs : List (List Bytes)} {e : PyErr} (h : blockShape cs = .error e) : e = .valueError := by
  unfold blockShape at h
  split at h
  · cases h
  · split at h
    · split at h
      · cases h
      · split at h
        · cases h
        · cases h; rfl
    · cases h; rfl

/-- Consistent channels pass. -/
theorem blockShape_of {cs : List (List Bytes)} {n bpb last : Nat} (h : Shaped cs n bpb last) :
    ∃ m b l, blockShape cs = .ok (m, b, l) := by
  unfold blockShape
  split
  · exact ⟨0, 0, 0, rfl⟩
  · rename_i c0 rest
    have h0 := h.1 c0 (by simp)
    rw [if_pos (by simp only [List.all_eq_true, decide_eq_true_eq]; intro c hc; rw [h.1 c hc, h0])]
    split
    · exact ⟨0, 0, 0, rfl⟩
    · rename_i b0 bs
      have hs := h.2 (b0 :: bs) (by simp)
      rw [if_pos]
      · exact ⟨_, _, _, rfl⟩
      · simp only [List.all_eq_true, decide_eq_true_eq, Bool.and_eq_true]
        intro c hc
        have hl := h.1 c hc
        have hcs := h.2 c hc
        have hpos : 0 < n := by rw [← h0]; simp
        constructor
        · intro b hb
          obtain ⟨i, hi, rfl⟩ := List.mem_iff_getElem.1 hb
          rw [List.length_dropLast] at hi
          rw [List.getElem_dropLast, hcs i (by omega), if_neg (by omega)]
          have := hs 0 (by simp)
          rw [if_neg (by omega)] at this
          simpa using this.symm
        · rw [List.getLast?_eq_getElem?, List.getElem?_eq_getElem (by omega), Option.map_some, hcs _ (by omega),
            if_pos (by omega)]
          have := hs (n - 1) (by omega)
          rw [if_pos rfl] at this
          rw [← this, List.getLast_eq_getElem]
          simp only [h0]

/-! ## The file -/

def adjust (s : STRM) (n : Nat) : Nat := if s.waveType = 2 ∧ n = 1 then 4 else 0

def headFields (s : STRM) (n bpb last : Nat) : List (Nat × Nat) :=
  [(1, s.waveType), (1, boolNum s.isLooped), (1, s.channels.length), (1, s.unk03),
    (2, s.sampleRate), (2, s.time), (4, s.loopOffset),
    (4, (((n : Int) - 1) * s.samplesPerBlock + s.samplesInLastBlock).toNat), (4, 0x68), (4, n),
    (4, bpb - adjust s n), (4, s.samplesPerBlock), (4, last - adjust s n), (4, s.samplesInLastBlock), (4, s.unk28),
    (4, s.unk2C), (4, s.unk30), (4, s.unk34), (4, s.unk38), (4, s.unk3C), (4, s.unk40), (4, s.unk44)]

def headBytes (s : STRM) (n bpb last : Nat) : Bytes := structBytes .little (headFields s n bpb last)

@[simp] theorem headBytes_length (s : STRM) (n bpb last : Nat) : (headBytes s n bpb last).length = 0x48 := by
  rw [headBytes, structBytes_length]; simp [headFields]

/-- What must hold for the HEAD block to be packed. -/
structure HeadOk (s : STRM) (n bpb last : Nat) : Prop where
  samples : 0 ≤ ((n : Int) - 1) * s.samplesPerBlock + s.samplesInLastBlock
  bytes : adjust s n ≤ bpb
  lastBytes : adjust s n ≤ last
  fits : Fits (headFields s n bpb last)

theorem packHead_ok {s : STRM} {n bpb last : Nat} {b : Bytes} :
    packHead s n bpb last = .ok b ↔ HeadOk s n bpb last ∧ b = headBytes s n bpb last := by
  have hadj : (if s.waveType = 2 ∧ n = 1 then (4 : Int) else 0) = (adjust s n : Int) := by
    unfold adjust; split <;> rfl
  unfold packHead
  dsimp only
  rw [hadj]
  simp only [bind_eq_ok, packUs_eq_ok, natOf_eq_ok]
  constructor
  · rintro ⟨x, h1, y, h2, z, h3, h4, rfl⟩
    have e1 : (((n : Int) - 1) * s.samplesPerBlock + s.samplesInLastBlock).toNat = x := by omega
    have e2 : bpb - adjust s n = y := by omega
    have e3 : last - adjust s n = z := by omega
    subst e1 e2 e3
    exact ⟨⟨by omega, by omega, by omega, h4⟩, rfl⟩
  · rintro ⟨⟨h1, h2, h3, h4⟩, rfl⟩
    exact ⟨_, (Int.toNat_of_nonneg h1).symm, bpb - adjust s n, by omega, last - adjust s n, by omega, h4, rfl⟩

def strmHeader (len : Nat) : StdHeader := ⟨magicSTRM, 0xFEFF, 0x100, 0x68 + len, 0x10, 2⟩

def strmBytes (s : STRM) (n bpb last : Nat) (w : Bytes) : Bytes :=
  stdHeaderBytes (strmHeader w.length) ++ (magicHEAD ++ enBytes .little 4 0x50) ++ headBytes s n bpb last ++
    (magicDATA ++ enBytes .little 4 (8 + w.length)) ++ w

theorem zipAll_wave {cs : List (List Bytes)} {n bpb last : Nat} (h : Shaped cs n bpb last) (h0 : cs = [] → n = 0) :
    waveData (zipAll cs) = wave cs n := by
  by_cases hc : cs = []
  · rw [h0 hc]; subst hc; rfl
  · rw [zipAll_eq h.1 hc, waveData_range]

theorem save_ok {s : STRM} {b : Bytes} : s.save = .ok b ↔ ∃ n bpb last, blockShape s.channels = .ok (n, bpb, last) ∧
    HeadOk s n bpb last ∧ 0x68 + (wave s.channels n).length < 2 ^ 32 ∧
    b = strmBytes s n bpb last (wave s.channels n) := by
  unfold STRM.save
  simp only [bind_eq_ok, pure_eq_ok, packU_eq_ok, packStdHeader_eq_ok, packHead_ok]
  constructor
  · rintro ⟨⟨n, bpb, last⟩, h0, _, ⟨h1, rfl⟩, _, ⟨_, rfl⟩, _, ⟨h2, rfl⟩, _, ⟨_, rfl⟩, rfl⟩
    obtain ⟨hs, he⟩ := blockShape_ok h0
    have hw := zipAll_wave hs he
    rw [hw] at h1
    refine ⟨n, bpb, last, h0, h2, h1.2.2.1, ?_⟩
    rw [hw]; rfl
  · rintro ⟨n, bpb, last, h0, h2, h1, rfl⟩
    obtain ⟨hs, he⟩ := blockShape_ok h0
    have hw := zipAll_wave hs he
    rw [hw]
    exact ⟨(n, bpb, last), h0, _, ⟨StdHeader.ok_mk h1, rfl⟩, _, ⟨by decide, rfl⟩, _, ⟨h2, rfl⟩, _, ⟨by omega, rfl⟩, rfl⟩

theorem strm_load {s : STRM} {n bpb last : Nat} (h0 : blockShape s.channels = .ok (n, bpb, last))
    (h1 : HeadOk s n bpb last) (h2 : 0x68 + (wave s.channels n).length < 2 ^ 32) (ht : s.waveType ≤ 2)
    (extra : Bytes) : STRM.load (strmBytes s n bpb last (wave s.channels n) ++ extra) = .ok s := by
  generalize hw : wave s.channels n = w at h2 ⊢
  have hat : At (strmBytes s n bpb last w ++ extra) 0 (strmBytes s n bpb last w) := At.first _ _
  have hm : (strmBytes s n bpb last w ++ extra).take 4 = magicSTRM := rfl
  generalize strmBytes s n bpb last w ++ extra = d at hat hm ⊢
  unfold strmBytes at hat
  simp only [At.split, stdHeaderBytes_length, enBytes_length, List.length_append, headBytes_length, Nat.zero_add,
    show magicDATA.length = 4 from rfl, show magicHEAD.length = 4 from rfl] at hat
  obtain ⟨⟨⟨⟨z1, z2, z3⟩, z4⟩, z5, z6⟩, z7⟩ := hat
  have hf : unpackUs .little headFormat d 0x18 = .ok ((headFields s n bpb last).map Prod.snd) :=
    unpackUs_at (z4.cast (p := 0x18) rfl) h1.fits
  unfold STRM.load
  rw [raiseIf_false (by simp [hm]), bind_ok, unpackStdHeader_at z1 (StdHeader.ok_mk h2) rfl,
    bind_ok, raiseIf_false (fun h => h rfl), bind_ok, pyAssert_true (by rfl), bind_ok, z2.unpackStr (n := 4) rfl, bind_ok,
    z3.unpackU (by decide), bind_ok, pyAssert_true rfl, bind_ok, hf, bind_ok]
  unfold headFields STRM.loadBlocks
  dsimp only [List.map]
  rw [pyAssert_true rfl, bind_ok]
  unfold waveTypeOf
  rw [if_pos ht, bind_ok]
  rw [(z5.cast (p := 0x10 + 0x50) rfl).unpackStr (n := 4) rfl, bind_ok,
    (z6.cast (p := 0x10 + 0x50 + 4) rfl).unpackU (by omega), bind_ok, pyAssert_true rfl, bind_ok]
  rw [(z7.cast (p := 0x10 + 0x50 + 8) rfl).slice_eq (by omega)]
  obtain ⟨hs, _⟩ := blockShape_ok h0
  have hadj : (if n = 1 ∧ s.waveType = 2 then 4 else 0) = adjust s n := by
    unfold adjust
    simp only [and_comm]
  rw [hadj]
  have := readRows_eq (d := w) (bpb' := bpb - adjust s n) (last' := last - adjust s n) (extra := adjust s n) hs hw.symm
    (fun _ => by have := h1.bytes; omega) (fun _ => by have := h1.lastBytes; omega) n 0 (by omega)
  have hr : s.channels.map (List.take 0) = List.replicate s.channels.length [] := by
    rw [List.map_congr_left (g := fun _ => []) (by simp), List.map_const']
  rw [hr] at this
  rw [show (wave s.channels 0).length = 0 from rfl] at this
  rw [this, boolOf_boolNum]
  rfl

end Verif.Proofs.SoundStream

namespace Verif.Proofs.SoundStream

open Verif Verif.Model.SoundStream

/-! ## Where blocks are -/

/-- The room a row takes up. -/
def rowSize (channels bytes : Nat) : Nat := channels * bytes + padLen (channels * bytes) 4

theorem wave_length {cs : List (List Bytes)} {n bpb last : Nat} (h : Shaped cs n bpb last) :
    ∀ k, k < n → (wave cs k).length = k * rowSize cs.length bpb
  | 0, _ => by simp [wave]
  | k + 1, hk => by
    have ih := wave_length h k (by omega)
    have hr : (row cs k).flatten.length = cs.length * bpb := by
      rw [flatten_length_const (n := bpb) (by
        intro b hb
        have := row_size h (show k < n by omega) b hb
        rwa [if_neg (by omega)] at this)]
      simp [row]
    rw [wave_succ_length, hr, ih, Nat.succ_mul]
    have hp : padLen (k * rowSize cs.length bpb + cs.length * bpb) 4 = padLen (cs.length * bpb) 4 := by
      have : rowSize cs.length bpb % 4 = 0 := add_padLen_mod _ (by decide)
      unfold padLen
      rw [Nat.add_mod, Nat.mul_mod, this]
      simp
    rw [hp]
    unfold rowSize
    omega

theorem block_at {cs : List (List Bytes)} {n bpb last : Nat} (h : Shaped cs n bpb last) {i j : Nat} (hi : i < cs.length)
    (hj : j < cs[i].length) :
    At (wave cs n) (j * rowSize cs.length bpb + i * if j = n - 1 then last else bpb) cs[i][j] := by
  have hl := h.1 cs[i] (List.getElem_mem hi)
  have hrow := row_at cs (show j < n by omega)
  rw [wave_length h j (by omega)] at hrow
  have := flatten_at (row_size h (show j < n by omega)) (i := i) (by simpa [row] using hi)
  have e : (row cs j)[i]'(by simpa [row] using hi) = cs[i][j] := by
    simp only [row, List.getElem_map]
    simp [List.getElem?_eq_getElem hj]
  rw [e] at this
  exact hrow.sub this

/-! ## Group entries -/

theorem pack_ok {e : GroupEntry} {b : Bytes} : e.pack = .ok b ↔ (e.type < 256 ∧ e.id < 2 ^ 32) ∧
    b = enBytes .little 1 e.type ++ enBytes .little 2 e.save.2.1 ++ zeros 1 ++ enBytes .little 4 e.id := by
  have ho : e.save.2.1 < 256 ^ 2 := by
    unfold GroupEntry.save
    dsimp only
    split <;> split <;> split <;> split <;> decide
  unfold GroupEntry.pack
  simp only [bind_eq_ok, pure_eq_ok, packU_eq_ok]
  constructor
  · rintro ⟨_, ⟨h1, rfl⟩, _, ⟨h2, rfl⟩, _, ⟨h3, rfl⟩, rfl⟩
    exact ⟨⟨h1, h3⟩, rfl⟩
  · rintro ⟨⟨h1, h3⟩, rfl⟩
    exact ⟨_, ⟨h1, rfl⟩, _, ⟨ho, rfl⟩, _, ⟨h3, rfl⟩, rfl⟩

theorem init_save {e : GroupEntry} (ht : e.type ≤ 3) (hl : e.loadSBNKSWARsFrom ≤ 1) :
    GroupEntry.init e.save.1 e.save.2.1 e.save.2.2 = .ok e := by
  obtain ⟨t, i, a, b, c, d⟩ := e
  dsimp only at ht hl
  unfold GroupEntry.init GroupEntry.save
  rw [raiseIf_false (by dsimp only; omega), bind_ok]
  have hb : b = 0 ∨ b = 1 := by omega
  rcases hb with rfl | rfl <;> cases a <;> cases c <;> cases d <;> simp [pure, Except.pure]

theorem save_init {t o i : Nat} {e : GroupEntry} (h : GroupEntry.init t o i = .ok e) :
    e.save = (t, o % 16, i) ∧ t ≤ 3 ∧ e.loadSBNKSWARsFrom ≤ 1 := by
  unfold GroupEntry.init at h
  simp only [bind_eq_ok, pure_eq_ok, raiseIf_eq_ok] at h
  obtain ⟨_, ht, rfl⟩ := h
  have hbit : ∀ k, k < 4 → ((o &&& 2 ^ k ≠ 0) ↔ ((o % 16) &&& 2 ^ k ≠ 0)) := by
    intro k hk
    have h1 := Bits.and_two_pow_ne o k
    have h2 := Bits.and_two_pow_ne (o % 16) k
    have h3 : (o % 16).testBit k = o.testBit k := by
      rw [show 16 = 2 ^ 4 from rfl, Nat.testBit_mod_two_pow]; simp [hk]
    rw [h3, ← h1] at h2
    rw [← bne_iff_ne, ← bne_iff_ne, h2]
  have e1 := hbit 0 (by decide)
  have e2 := hbit 1 (by decide)
  have e3 := hbit 2 (by decide)
  have e4 := hbit 3 (by decide)
  simp only [Nat.reducePow] at e1 e2 e3 e4
  refine ⟨?_, by omega, by dsimp only; split <;> decide⟩
  have key : ∀ m, m < 16 → (GroupEntry.save ⟨0, 0, m &&& 1 ≠ 0, if m &&& 2 ≠ 0 then 1 else 0, m &&& 4 ≠ 0,
      m &&& 8 ≠ 0⟩).2.1 = m := by
    decide
  have := key (o % 16) (by omega)
  simp only [← e1, ← e2, ← e3, ← e4] at this
  exact Prod.ext rfl (Prod.ext this rfl)

theorem packGroup_ok {g : List GroupEntry} {b : Bytes} : packGroup g = .ok b ↔
    (g.length < 2 ^ 32 ∧ ∀ e ∈ g, e.type < 256 ∧ e.id < 2 ^ 32) ∧ b = enBytes .little 4 g.length ++
      (g.map fun e => enBytes .little 1 e.type ++ enBytes .little 2 e.save.2.1 ++ zeros 1 ++ enBytes .little 4 e.id).flatten := by
  unfold packGroup
  simp only [bind_eq_ok, pure_eq_ok, packU_eq_ok, mapE_eq_map (fun _ _ => pack_ok)]
  constructor
  · rintro ⟨_, ⟨h1, rfl⟩, _, ⟨h2, rfl⟩, rfl⟩
    exact ⟨⟨h1, h2⟩, rfl⟩
  · rintro ⟨⟨h1, h2⟩, rfl⟩
    exact ⟨_, ⟨h1, rfl⟩, _, ⟨h2, rfl⟩, rfl⟩

theorem unpackGroup_at {g : List GroupEntry} {b d : Bytes} {o : Nat} (h : packGroup g = .ok b) (hat : At d o b)
    (hv : ∀ e ∈ g, e.type ≤ 3 ∧ e.loadSBNKSWARsFrom ≤ 1) : unpackGroup d o = .ok g := by
  obtain ⟨⟨h1, h2⟩, rfl⟩ := packGroup_ok.1 h
  rw [At.split, enBytes_length] at hat
  unfold unpackGroup
  rw [hat.1.unpackU (by omega), bind_ok]
  refine mapE_range_eq rfl fun i hi => ?_
  have := flatten_at (n := 8) (parts := g.map fun e => enBytes .little 1 e.type ++ enBytes .little 2 e.save.2.1 ++ zeros 1 ++
    enBytes .little 4 e.id) (by intro p hp; obtain ⟨e, _, rfl⟩ := List.mem_map.1 hp; simp) (i := i) (by simpa using hi)
  have hrec := hat.2.sub this
  simp only [List.getElem_map, At.split, enBytes_length, List.length_append, zeros_length] at hrec
  obtain ⟨⟨⟨r1, r2⟩, r3⟩, r4⟩ := hrec
  have hm := List.getElem_mem hi
  obtain ⟨k1, k2⟩ := h2 _ hm
  have ho : g[i].save.2.1 < 256 ^ 2 := by
    unfold GroupEntry.save
    dsimp only
    split <;> split <;> split <;> split <;> decide
  unfold unpackGroupEntry
  rw [(r1.cast (p := o + 4 + 8 * i) (by omega)).unpackU (by omega), bind_ok,
    (r2.cast (p := o + 4 + 8 * i + 1) (by omega)).unpackU ho, bind_ok,
    (r4.cast (p := o + 4 + 8 * i + 4) (by omega)).unpackU (by omega), bind_ok]
  exact init_save (hv _ hm).1 (hv _ hm).2

end Verif.Proofs.SoundStream
