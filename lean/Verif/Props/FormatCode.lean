import Verif.Proofs.Reader
import Verif.Spec.FormatCode
import Verif.Props.Overlay

/-!
# What is loaded from any overlay table (C98)
-/

namespace Verif.Props.FormatCode

open Verif Verif.Model Verif.Model.Code Verif.Spec.Reader Verif.Spec.FormatCode Verif.Proofs.Reader

theorem flag_eq (n : Nat) : compressedFlag n = bit n 0 := by
  rw [← and_pow]
  unfold compressedFlag
  by_cases h : n &&& 1 = 0
  · rw [show (2 : Nat) ^ 0 = 1 from rfl, h]; rfl
  · rw [show (2 : Nat) ^ 0 = 1 from rfl, decide_eq_true h]
    exact bne_iff_ne.2 h

theorem word_low (d : Bytes) (o : Nat) : u32 d o &&& 0xFFFFFF = u24 d o := by
  have h : u32 d o &&& 0xFFFFFF = u32 d o % 2 ^ 24 := Nat.and_two_pow_sub_one_eq_mod _ 24
  rw [h]
  have := u8_lt d o; have := u8_lt d (o + 1); have := u8_lt d (o + 2)
  unfold u32 u24; omega

theorem word_high (d : Bytes) (o : Nat) : u32 d o >>> 24 = u8 d (o + 3) := by
  rw [Nat.shiftRight_eq_div_pow]
  have := u8_lt d o; have := u8_lt d (o + 1); have := u8_lt d (o + 2); have := u8_lt d (o + 3)
  unfold u32; omega

theorem all_selected (ids : Option (Nat → Bool)) (d : Bytes) (i : Nat) :
    ids.all (fun f => f (u32 d (32 * i))) = selected ids d i := by cases ids <;> rfl

theorem entry_iff {d : Bytes} {cb : Nat → Nat → Py Bytes} {ids : Option (Nat → Bool)} {i : Nat} {acc r : List (Nat × Overlay)} :
    loadOverlayEntry d cb ids (32 * i) acc = .ok r ↔ 32 * (i + 1) ≤ d.length ∧
      if selected ids d i then ∃ c, Opens cb d i c ∧ r = dictSet acc (overlayID d i) (overlayAt d i c) else r = acc := by
  unfold loadOverlayEntry
  simp only [bind_eq_ok, unpack4]
  have key : (∃ (raw : Bytes), cb (u32 d (32 * i)) (u32 d (32 * i + 24)) = .ok raw ∧ ∃ (ov : Overlay),
      Overlay.init raw (u32 d (32 * i + 4)) (u32 d (32 * i + 8)) (u32 d (32 * i + 12)) (u32 d (32 * i + 16))
        (u32 d (32 * i + 20)) (u32 d (32 * i + 24)) (u32 d (32 * i + 28) &&& 0xFFFFFF) (u32 d (32 * i + 28) >>> 24) = .ok ov ∧
      dictSet acc (u32 d (32 * i)) ov = r) ↔
      ∃ c, Opens cb d i c ∧ r = dictSet acc (overlayID d i) (overlayAt d i c) := by
    unfold Overlay.init Opens overlayFile overlayID
    rw [word_low, word_high, flag_eq]
    constructor
    · rintro ⟨raw, h1, ov, h2, rfl⟩
      split at h2
      · rename_i hb
        simp only [bind_eq_ok, pure_eq_ok] at h2
        obtain ⟨c, h3, rfl⟩ := h2
        exact ⟨c, ⟨raw, h1, by rw [if_pos hb]; exact h3⟩, rfl⟩
      · rename_i hb
        simp only [bind_eq_ok, pure_eq_ok] at h2
        obtain ⟨c, h3, rfl⟩ := h2
        exact ⟨c, ⟨raw, h1, by rw [if_neg hb]; exact h3.symm⟩, rfl⟩
    · rintro ⟨c, ⟨raw, h1, h2⟩, rfl⟩
      refine ⟨raw, h1, _, ?_, rfl⟩
      split
      · rename_i hb
        rw [if_pos hb] at h2
        simp only [bind_eq_ok, pure_eq_ok]
        exact ⟨c, h2, rfl⟩
      · rename_i hb
        rw [if_neg hb] at h2
        simp only [bind_eq_ok, pure_eq_ok]
        exact ⟨c, h2.symm, rfl⟩
  constructor
  · rintro ⟨_, ⟨_, rfl⟩, _, ⟨_, rfl⟩, _, ⟨_, rfl⟩, _, ⟨_, rfl⟩, _, ⟨_, rfl⟩, _, ⟨_, rfl⟩, _, ⟨_, rfl⟩, _, ⟨h, rfl⟩, h'⟩
    rw [all_selected] at h'
    refine ⟨by omega, ?_⟩
    split at h'
    · rename_i hs
      rw [if_pos hs]
      simp only [bind_eq_ok, pure_eq_ok] at h'
      exact key.1 h'
    · rename_i hs
      rw [if_neg hs]
      exact (pure_eq_ok.1 h').symm
  · rintro ⟨h, h'⟩
    refine ⟨_, ⟨by omega, rfl⟩, _, ⟨by omega, rfl⟩, _, ⟨by omega, rfl⟩, _, ⟨by omega, rfl⟩, _, ⟨by omega, rfl⟩, _,
      ⟨by omega, rfl⟩, _, ⟨by omega, rfl⟩, _, ⟨by omega, rfl⟩, ?_⟩
    rw [all_selected]
    split
    · rename_i hs
      rw [if_pos hs] at h'
      simp only [bind_eq_ok, pure_eq_ok]
      exact key.2 h'
    · rename_i hs
      rw [if_neg hs] at h'
      exact pure_eq_ok.2 h'.symm

/-- What is known of the table after the first `n` entries. -/
def Describes (cb : Nat → Nat → Py Bytes) (ids : Option (Nat → Bool)) (d : Bytes) (n : Nat) (t : List (Nat × Overlay)) : Prop :=
  t.map Prod.fst = (((List.range n).filter (selected ids d)).map (overlayID d)).eraseDups ∧
    ∀ k ov, t.lookup k = some ov ↔ ∃ i < n, selected ids d i ∧ overlayID d i = k ∧
      (∀ j < n, i < j → overlayID d j ≠ k) ∧ ∃ c, Opens cb d i c ∧ ov = overlayAt d i c

theorem dictSet_keys {ν : Type} (k : Nat) (v : ν) : ∀ (t : List (Nat × ν)), (dictSet t k v).map Prod.fst =
    if k ∈ t.map Prod.fst then t.map Prod.fst else t.map Prod.fst ++ [k]
  | [] => by simp [dictSet]
  | p :: t => by
    rw [dictSet]
    by_cases h : p.1 = k
    · rw [if_pos h, if_pos (by simp [h])]; simp [h]
    · rw [if_neg h, List.map_cons, dictSet_keys k v t, List.map_cons]
      by_cases h' : k ∈ t.map Prod.fst
      · rw [if_pos h', if_pos (List.mem_cons_of_mem _ h')]
      · rw [if_neg h', if_neg (by simp only [List.mem_cons, not_or]; exact ⟨fun e => h e.symm, h'⟩)]; rfl

theorem eraseDups_snoc (l : List Nat) (k : Nat) :
    (l ++ [k]).eraseDups = if k ∈ l.eraseDups then l.eraseDups else l.eraseDups ++ [k] := by
  rw [List.eraseDups_append]
  have hm : k ∈ l.eraseDups ↔ k ∈ l := List.mem_eraseDups
  by_cases h : k ∈ l
  · rw [if_pos (hm.2 h)]
    simp [List.removeAll, h]
  · rw [if_neg (fun e => h (hm.1 e))]
    simp [List.removeAll, h, List.eraseDups_cons]

theorem opens_same {cb : Nat → Nat → Py Bytes} {d : Bytes} {i : Nat} {c c' : Bytes} (h : Opens cb d i c) (h' : Opens cb d i c') :
    c = c' := by
  obtain ⟨f, h1, h2⟩ := h
  obtain ⟨f', h3, h4⟩ := h'
  rw [h1] at h3; cases h3
  split at h2
  · rename_i hb; rw [if_pos hb, h2] at h4; cases h4; rfl
  · rename_i hb; rw [if_neg hb] at h4; rw [h2, h4]

theorem describes_step {cb : Nat → Nat → Py Bytes} {ids : Option (Nat → Bool)} {d : Bytes} {n : Nat} {t r : List (Nat × Overlay)}
    (h : Describes cb ids d n t) (hr : loadOverlayEntry d cb ids (32 * n) t = .ok r) : Describes cb ids d (n + 1) r := by
  obtain ⟨_, hr⟩ := entry_iff.1 hr
  obtain ⟨h1, h2⟩ := h
  have hrange : (List.range (n + 1)).filter (selected ids d) =
      (List.range n).filter (selected ids d) ++ if selected ids d n then [n] else [] := by
    rw [List.range_succ, List.filter_append]
    congr 1
    cases hs : selected ids d n <;> simp [hs]
  by_cases hs : selected ids d n = true
  · rw [if_pos hs] at hr hrange
    obtain ⟨c, hc, rfl⟩ := hr
    refine ⟨?_, fun k ov => ?_⟩
    · rw [dictSet_keys, hrange, List.map_append, h1]
      exact (eraseDups_snoc _ _).symm
    · rw [dictSet_lookup]
      by_cases hk : k = overlayID d n
      · rw [if_pos hk]
        constructor
        · intro e
          cases e
          exact ⟨n, by omega, hs, hk.symm, fun j hj hj' => by omega, c, hc, rfl⟩
        · rintro ⟨i, hi, _, _, hlast, c', hc', rfl⟩
          have : i = n := by
            rcases Nat.lt_or_ge i n with hlt | hge
            · exact absurd hk.symm (hlast n (by omega) hlt)
            · omega
          subst this
          rw [opens_same hc hc']
      · rw [if_neg hk, h2]
        constructor
        · rintro ⟨i, hi, hsi, hid, hlast, hrest⟩
          refine ⟨i, by omega, hsi, hid, fun j hj hj' => ?_, hrest⟩
          rcases Nat.lt_or_ge j n with hlt | hge
          · exact hlast j hlt hj'
          · obtain rfl : j = n := by omega
            exact fun e => hk e.symm
        · rintro ⟨i, hi, hsi, hid, hlast, hrest⟩
          have hin : i ≠ n := by rintro rfl; exact hk hid.symm
          exact ⟨i, by omega, hsi, hid, fun j hj hj' => hlast j (by omega) hj', hrest⟩
  · rw [if_neg hs] at hr hrange
    subst hr
    refine ⟨by rw [hrange, List.append_nil]; exact h1, fun k ov => ?_⟩
    rw [h2]
    constructor
    · rintro ⟨i, hi, hsi, hid, hlast, hrest⟩
      refine ⟨i, by omega, hsi, hid, fun j hj hj' => ?_, hrest⟩
      rcases Nat.lt_or_ge j n with hlt | hge
      · exact hlast j hlt hj'
      · obtain rfl : j = n := by omega
        intro e
        apply hs
        unfold selected at hsi ⊢
        rw [e, ← hid]; exact hsi
    · rintro ⟨i, hi, hsi, hid, hlast, hrest⟩
      have hin : i ≠ n := by rintro rfl; exact hs hsi
      exact ⟨i, by omega, hsi, hid, fun j hj hj' => hlast j (by omega) hj', hrest⟩

theorem describes_loop {cb : Nat → Nat → Py Bytes} {ids : Option (Nat → Bool)} {d : Bytes} : ∀ {n k : Nat} {t r : List (Nat × Overlay)},
    Describes cb ids d k t → loadOverlays d cb ids n (32 * k) t = .ok r → Describes cb ids d (k + n) r ∧ (0 < n → 32 * (k + n) ≤ d.length) ∧
      ∀ i, k ≤ i → i < k + n → selected ids d i → ∃ c, Opens cb d i c
  | 0, k, t, r, h, hr => by
    cases hr
    exact ⟨h, fun h => absurd h (by omega), fun i _ _ => by omega⟩
  | n + 1, k, t, r, h, hr => by
    rw [loadOverlays, bind_eq_ok] at hr
    obtain ⟨t', h1, h2⟩ := hr
    obtain ⟨h3, h4, h5⟩ := describes_loop (describes_step h h1) (n := n) (k := k + 1) h2
    obtain ⟨h6, h7⟩ := entry_iff.1 h1
    rw [show k + (n + 1) = k + 1 + n by omega]
    refine ⟨h3, fun _ => ?_, fun i h8 h9 h10 => ?_⟩
    · cases n with
      | zero => exact h6
      | succ n => exact h4 (by omega)
    · rcases Nat.lt_or_ge k i with hlt | hge
      · exact h5 i hlt h9 h10
      · obtain rfl : i = k := by omega
        rw [if_pos h10] at h7
        obtain ⟨c, hc, _⟩ := h7
        exact ⟨c, hc⟩

theorem loads {cb : Nat → Nat → Py Bytes} {ids : Option (Nat → Bool)} {d : Bytes} : ∀ {n k : Nat} {t : List (Nat × Overlay)},
    (∀ i, k ≤ i → i < k + n → 32 * (i + 1) ≤ d.length ∧ (selected ids d i → ∃ c, Opens cb d i c)) →
    ∃ r, loadOverlays d cb ids n (32 * k) t = .ok r
  | 0, _, t, _ => ⟨t, rfl⟩
  | n + 1, k, t, h => by
    obtain ⟨h1, h2⟩ := h k (Nat.le_refl _) (by omega)
    have : ∃ r, loadOverlayEntry d cb ids (32 * k) t = .ok r := by
      by_cases hs : selected ids d k = true
      · obtain ⟨c, hc⟩ := h2 hs
        exact ⟨_, entry_iff.2 ⟨h1, by rw [if_pos hs]; exact ⟨c, hc, rfl⟩⟩⟩
      · exact ⟨t, entry_iff.2 ⟨h1, by rw [if_neg hs]⟩⟩
    obtain ⟨r, hr⟩ := this
    obtain ⟨r', hr'⟩ := loads (n := n) (k := k + 1) (t := r) fun i h3 h4 => h i (by omega) (by omega)
    exact ⟨r', by rw [loadOverlays, hr, bind_ok]; exact hr'⟩

/-- C98: a table loads exactly if it consists of whole entries and the files of the selected overlays can be opened. -/
theorem overlay_table_load_iff (d : Bytes) (cb : Nat → Nat → Py Bytes) (ids : Option (Nat → Bool)) :
    (∃ t, loadOverlayTable d cb ids = .ok t) ↔
      d.length % 32 = 0 ∧ ∀ i < d.length / 32, selected ids d i → ∃ c, Opens cb d i c := by
  unfold loadOverlayTable
  constructor
  · rintro ⟨t, h⟩
    obtain ⟨_, h2, h3⟩ := describes_loop (k := 0) (t := []) ⟨rfl, by simp⟩ h
    have : d.length % 32 = 0 := by
      by_cases h0 : d.length = 0
      · rw [h0]
      · have := h2 (by omega); omega
    exact ⟨this, fun i hi => h3 i (by omega) (by omega)⟩
  · rintro ⟨h1, h2⟩
    exact loads (k := 0) fun i _ hi => ⟨by omega, h2 i (by omega)⟩

/-- C98: the overlays that are loaded: one for each selected ID, in the order of the table; of several entries with the same ID
the last one counts.  All fields are read from their documented places, and the contents from the file that the callback
finds. -/
theorem overlay_table_load (d : Bytes) (cb : Nat → Nat → Py Bytes) (ids : Option (Nat → Bool)) (t : List (Nat × Overlay))
    (h : loadOverlayTable d cb ids = .ok t) :
    t.map Prod.fst = (((List.range (d.length / 32)).filter (selected ids d)).map (overlayID d)).eraseDups ∧
    ∀ k ov, t.lookup k = some ov ↔ ∃ i < d.length / 32, selected ids d i ∧ overlayID d i = k ∧
      (∀ j < d.length / 32, i < j → overlayID d j ≠ k) ∧ ∃ c, Opens cb d i c ∧ ov = overlayAt d i c := by
  have h' := ((overlay_table_load_iff d cb ids).1 ⟨t, h⟩).1
  obtain ⟨h1, _⟩ := describes_loop (k := 0) (t := []) ⟨rfl, by simp⟩ h
  rw [show 0 + (d.length + 31) / 32 = d.length / 32 by omega] at h1
  exact h1

/-- Two entries with the same ID, and one that is not selected. -/
def table : Bytes :=
  [1, 0, 0, 0, 1, 1, 0, 0, 1, 2, 0, 0, 1, 3, 0, 0, 1, 4, 0, 0, 1, 5, 0, 0, 7, 0, 0, 0, 1, 8, 0, 2] ++
  [2, 0, 0, 0, 1, 1, 0, 0, 1, 2, 0, 0, 1, 3, 0, 0, 1, 4, 0, 0, 1, 5, 0, 0, 8, 0, 0, 0, 1, 8, 0, 1] ++
  [1, 0, 0, 0, 2, 1, 0, 0, 2, 2, 0, 0, 2, 3, 0, 0, 2, 4, 0, 0, 2, 5, 0, 0, 9, 0, 0, 0, 2, 8, 0, 2]

example : loadOverlayTable table (fun _ f => .ok [UInt8.ofNat f]) (some (· = 1)) =
    .ok [(1, ⟨[9], 0x102, 0x202, 0x302, 0x402, 0x502, 9, 0x802, 2⟩)] := by decide +kernel
example : overlayAt table 2 [9] = ⟨[9], 0x102, 0x202, 0x302, 0x402, 0x502, 9, 0x802, 2⟩ := by decide +kernel

end Verif.Props.FormatCode
