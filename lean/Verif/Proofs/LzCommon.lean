import Verif.Model.LzCommon
import Verif.Spec.LZ

/-!
# Lemmas about the LZ compressor
-/

namespace Verif.Proofs.LzCommon

open Verif Verif.Model.LzCommon Verif.Spec.LZ

/-! ## Searching -/

theorem pyFind_some {data pat : Bytes} {start stop p : Nat} (h : pyFind data pat start stop = some p) :
    start ≤ p ∧ p + pat.length ≤ stop ∧ slice data p (p + pat.length) = pat := by
  unfold pyFind at h
  have h1 := List.find?_some h
  have h2 := List.mem_of_find?_eq_some h
  simp at h1
  rw [List.mem_range'_1] at h2
  exact ⟨h2.1, by omega, h1⟩

theorem pyRFind_some {data pat : Bytes} {start stop p : Nat} (h : pyRFind data pat start stop = some p) :
    start ≤ p ∧ p + pat.length ≤ stop ∧ slice data p (p + pat.length) = pat := by
  unfold pyRFind at h
  have h1 := List.find?_some h
  have h2 := List.mem_of_find?_eq_some h
  simp at h1
  rw [List.mem_reverse, List.mem_range'_1] at h2
  exact ⟨h2.1, by omega, h1⟩

theorem pyFind_none {data pat : Bytes} {start stop : Nat} (h : pyFind data pat start stop = none) (p : Nat)
    (h1 : start ≤ p) (h2 : p + pat.length ≤ stop) : slice data p (p + pat.length) ≠ pat := by
  unfold pyFind at h
  rw [List.find?_eq_none] at h
  have := h p (by rw [List.mem_range'_1]; omega)
  simpa using this

theorem pyRFind_none {data pat : Bytes} {start stop : Nat} (h : pyRFind data pat start stop = none) (p : Nat)
    (h1 : start ≤ p) (h2 : p + pat.length ≤ stop) : slice data p (p + pat.length) ≠ pat := by
  unfold pyRFind at h
  rw [List.find?_eq_none] at h
  have := h p (by rw [List.mem_reverse, List.mem_range'_1]; omega)
  simpa using this

theorem lookup_some {cfg : Cfg} {data : Bytes} {pos len p : Nat} (hl : pos + len ≤ data.length)
    (h : lookup cfg data pos len = some p) : IsMatch data (pos - cfg.maxMatchDiff) pos len p := by
  have hlen : (slice data pos (pos + len)).length = len := by rw [slice_length_of_le hl]; omega
  unfold lookup at h
  unfold IsMatch
  split at h
  · have := pyRFind_some h; rw [hlen] at this; exact this
  · have := pyFind_some h; rw [hlen] at this; exact this

theorem lookup_none {cfg : Cfg} {data : Bytes} {pos len : Nat} (hl : pos + len ≤ data.length)
    (h : lookup cfg data pos len = none) (p : Nat) : ¬ IsMatch data (pos - cfg.maxMatchDiff) pos len p := by
  have hlen : (slice data pos (pos + len)).length = len := by rw [slice_length_of_le hl]; omega
  unfold lookup at h
  rintro ⟨h1, h2, h3⟩
  split at h
  · have := pyRFind_none h p h1 (by rw [hlen]; exact h2); rw [hlen] at this; exact this h3
  · have := pyFind_none h p h1 (by rw [hlen]; exact h2); rw [hlen] at this; exact this h3

/-- A prefix of a match is a match. -/
theorem isMatch_mono {data : Bytes} {start pos len len' p : Nat} (h : IsMatch data start pos len p)
    (hl : len' ≤ len) : IsMatch data start pos len' p := by
  obtain ⟨h1, h2, h3⟩ := h
  refine ⟨h1, by omega, ?_⟩
  have e (q : Nat) : slice data q (q + len') = (slice data q (q + len)).take len' := by
    unfold slice
    rw [List.take_take]
    congr 1
    omega
  rw [e p, e pos, h3]

/-- The binary search returns the longest match. -/
theorem bsearch_spec (cfg : Cfg) (data : Bytes) (pos top : Nat) (hl : pos + top ≤ data.length) :
    ∀ (fuel lower hi : Nat) (record : Nat × Nat), hi ≤ lower + fuel → lower ≤ hi → hi ≤ top + 1 →
      (record.2 = 0 ∧ record.1 = 0 ∨ lookup cfg data pos record.2 = some record.1) →
      lower ≤ record.2 + 1 → record.2 ≤ top → record.2 < hi →
      (∀ len, hi ≤ len → len ≤ top → lookup cfg data pos len = none) →
      let r := bsearch cfg data pos fuel lower hi record
      r.2 ≤ top ∧ (r.2 = 0 ∧ r.1 = 0 ∨ lookup cfg data pos r.2 = some r.1) ∧
      ∀ len, len ≤ top → r.2 < len → lookup cfg data pos len = none
  | 0, lower, hi, record => by
    intro h1 h2 h3 h4 h5 h6 h7 h8
    simp only [bsearch]
    exact ⟨h6, h4, fun len hlen hlt => h8 len (by omega) hlen⟩
  | fuel + 1, lower, hi, record => by
    intro h1 h2 h3 h4 h5 h6 h7 h8
    simp only [bsearch]
    by_cases hc : lower < hi
    · rw [if_pos hc]
      generalize hm : (lower + (hi - 1)) / 2 = m
      have hm1 : lower ≤ m := by omega
      have hm2 : m < hi := by omega
      split
      · rename_i hnone
        have hrec : record.2 < m := by
          rcases Nat.lt_or_ge record.2 m with h | h
          · exact h
          · exfalso
            rcases h4 with ⟨h0, _⟩ | hs
            · have : m = 0 := by omega
              have hz := lookup_none (by omega) hnone pos
              apply hz
              rw [this]
              exact ⟨by omega, by omega, by simp⟩
            · have hm3 := isMatch_mono (lookup_some (by omega) hs) h
              exact lookup_none (by omega) hnone _ hm3
        apply bsearch_spec cfg data pos top hl fuel lower m record (by omega) hm1 (by omega) h4 h5 h6 hrec
        intro len hlen1 hlen2
        cases hx : lookup cfg data pos len with
        | none => rfl
        | some q =>
          exact absurd (isMatch_mono (lookup_some (by omega) hx) hlen1) (lookup_none (by omega) hnone q)
      · rename_i q hsome
        by_cases hgt : m > record.2
        · rw [if_pos hgt]
          exact bsearch_spec cfg data pos top hl fuel (m + 1) hi (q, m) (by omega) (by omega) h3
            (Or.inr hsome) (by simp) (by simp; omega) (by simp; omega) h8
        · rw [if_neg hgt]
          exact bsearch_spec cfg data pos top hl fuel (m + 1) hi record (by omega) (by omega) h3
            h4 (by omega) h6 h7 h8
    · rw [if_neg hc]
      exact ⟨h6, h4, fun len hlen hlt => h8 len (by omega) hlen⟩

theorem compressionSearch_lookup (cfg : Cfg) (data : Bytes) (pos : Nat) (hp : pos ≤ data.length) :
    let r := compressionSearch cfg data pos
    let top := min cfg.maxMatchLen (data.length - pos)
    r.2 ≤ top ∧ (r.2 = 0 ∧ r.1 = 0 ∨ lookup cfg data pos r.2 = some r.1) ∧
      ∀ len, len ≤ top → r.2 < len → lookup cfg data pos len = none := by
  intro r top
  apply bsearch_spec cfg data pos top (by omega) (top + 1) 0 (top + 1) (0, 0) (by omega) (by omega)
    (by omega) (Or.inl ⟨rfl, rfl⟩) (by omega) (by omega) (by simp)
  intro len h1 h2; omega

theorem search_isMatch {cfg : Cfg} {data : Bytes} {pos : Nat} (hp : pos ≤ data.length)
    (h : 0 < (compressionSearch cfg data pos).2) :
    IsMatch data (pos - cfg.maxMatchDiff) pos (compressionSearch cfg data pos).2
      (compressionSearch cfg data pos).1 := by
  obtain ⟨h1, h2, _⟩ := compressionSearch_lookup cfg data pos hp
  rcases h2 with ⟨h0, _⟩ | hs
  · omega
  · exact lookup_some (by omega) hs

theorem search_le {cfg : Cfg} {data : Bytes} {pos : Nat} (hp : pos ≤ data.length) :
    (compressionSearch cfg data pos).2 ≤ cfg.maxMatchLen ∧
    pos + (compressionSearch cfg data pos).2 ≤ data.length := by
  obtain ⟨h1, _, _⟩ := compressionSearch_lookup cfg data pos hp
  omega

/-! ## Copying -/

theorem copyBack_match {data : Bytes} {cur dist : Nat} (hd : 0 < dist) (hc : dist ≤ cur) :
    ∀ (n : Nat), cur + n ≤ data.length →
      slice data (cur - dist) (cur - dist + n) = slice data cur (cur + n) →
      copyBack n dist (data.take cur) = some (data.take (cur + n)) := by
  intro n
  induction n generalizing cur with
  | zero => intro _ _; simp [copyBack]
  | succ n ih =>
    intro hl hs
    have hlen : (data.take cur).length = cur := by simp; omega
    have hcl : cur < data.length := by omega
    have h0 : data[cur - dist]? = data[cur]? := by
      have := congrArg (·[0]?) hs
      simpa [getElem?_slice] using this
    simp only [copyBack, hlen]
    rw [if_neg (by omega), List.getElem?_take, if_pos (by omega), h0, List.getElem?_eq_getElem hcl]
    simp only
    rw [List.take_append_getElem hcl]
    have := ih (cur := cur + 1) (by omega) (by omega) (by
      apply List.ext_getElem?
      intro i
      have := congrArg (·[i + 1]?) hs
      simp only [getElem?_slice] at this
      simp only [getElem?_slice]
      rw [show cur + 1 - dist + i = cur - dist + (i + 1) by omega, show cur + 1 + i = cur + (i + 1) by omega]
      split at this <;> split at this <;> split <;> split <;> first | exact this | omega | rfl)
    rw [this]
    congr 2
    omega

/-! ## The main loop as a stream -/

/-- The configuration can express every match that the search finds. -/
structure CfgOk (cfg : Cfg) : Prop where
  len : cfg.maxMatchLen ≤ 18
  diff : cfg.maxMatchDiff ≤ 4095 + cfg.posSubtract
  pos : 0 < cfg.posSubtract
  sub : cfg.posSubtract ≤ 3

/-- Everything recorded about past positions: each dictionary entry is a point of the stream. -/
def DictOk (extra : Nat) (data R : Bytes) (dict : List (Int × (Nat × Nat))) : Prop :=
  ∀ e ∈ dict, e.1 = (e.2.1 : Int) - e.2.2 ∧ e.2.1 ≤ data.length ∧
    ∃ s, Reach extra R s ∧ s.pos = e.2.2 ∧ s.out = data.take e.2.1

theorem dictGet_mem {dict : List (Int × (Nat × Nat))} {key : Int} {v : Nat × Nat}
    (h : dictGet dict key = some v) : (key, v) ∈ dict := by
  unfold dictGet at h
  rw [Option.map_eq_some_iff] at h
  obtain ⟨e, he, rfl⟩ := h
  have h1 := List.find?_some he
  have h2 := List.mem_of_find?_eq_some he
  simp at h1
  subst h1
  exact h2

theorem noteSavings_cur (st : St) : (noteSavings st).cur = st.cur := by
  unfold noteSavings; dsimp only; split <;> rfl

theorem noteSavings_res (st : St) : (noteSavings st).res = st.res := by
  unfold noteSavings; dsimp only; split <;> rfl

theorem noteSavings_dict (st : St) (e : Int × (Nat × Nat)) (h : e ∈ (noteSavings st).dict) :
    e ∈ st.dict ∨ e = ((st.cur : Int) - st.res.length, (st.cur, st.res.length)) := by
  unfold noteSavings at h
  dsimp only at h
  split at h
  · dsimp only at h
    split at h
    · rw [List.mem_cons] at h; exact h.symm
    · exact Or.inl h
  · exact Or.inl h

theorem noteSavings_dictOk {extra : Nat} {data R : Bytes} {st : St} (h : DictOk extra data R st.dict)
    (hc : st.cur ≤ data.length)
    (hs : ∃ s, Reach extra R s ∧ s.pos = st.res.length ∧ s.out = data.take st.cur) :
    DictOk extra data R (noteSavings st).dict := by
  intro e he
  rcases noteSavings_dict st e he with h' | rfl
  · exact h e h'
  · exact ⟨rfl, hc, hs⟩

/-- Once everything is consumed, further items only append padding. -/
theorem items_done (cfg : Cfg) (data : Bytes) : ∀ (k : Nat) (st : St) (f : Nat), data.length ≤ st.cur →
    (items cfg data k st f).2 = f ∧ (items cfg data k st f).1.cur = st.cur ∧
    (items cfg data k st f).1.dict = st.dict ∧ (items cfg data k st f).1.best = st.best ∧
    ∃ body, (items cfg data k st f).1.res = st.res ++ body
  | 0, st, f, _ => ⟨rfl, rfl, rfl, rfl, [], by simp [items]⟩
  | k + 1, st, f, h => by
    simp only [items, item, if_pos h]
    obtain ⟨h1, h2, h3, h4, body, h5⟩ := items_done cfg data k
      (if cfg.zerosAtEnd = true then { st with res := st.res ++ [0] } else st) f (by split <;> exact h)
    refine ⟨h1, ?_, ?_, ?_, ?_⟩
    · rw [h2]; split <;> rfl
    · rw [h3]; split <;> rfl
    · rw [h4]; split <;> rfl
    · rw [h5]
      split
      · exact ⟨[0] ++ body, by simp⟩
      · exact ⟨body, rfl⟩

theorem flag_bit {f g k b : Nat} (hf : f % 2 ^ (k + 1) = 0) (hg : g < 2 ^ k) (hb : b < 2) :
    (f + b * 2 ^ k + g) / 2 ^ k % 2 = b := by
  obtain ⟨q, rfl⟩ := Nat.dvd_of_mod_eq_zero hf
  have hp : 0 < 2 ^ k := Nat.pow_pos (by decide)
  have e : 2 ^ (k + 1) * q + b * 2 ^ k + g = g + (2 * q + b) * 2 ^ k := by
    rw [Nat.pow_succ, Nat.add_mul, Nat.mul_right_comm, Nat.mul_comm (2 ^ k * q) 2, Nat.mul_assoc 2 q,
      Nat.mul_comm q]
    omega
  rw [e, Nat.add_mul_div_right _ _ hp, Nat.div_eq_of_lt hg]
  omega

theorem uint8_ofNat_toNat {n : Nat} (h : n < 256) : (UInt8.ofNat n).toNat = n := by
  rw [UInt8.toNat_ofNat']; exact Nat.mod_eq_of_lt h

theorem items_sim {cfg : Cfg} (hcfg : CfgOk cfg) (data : Bytes) : ∀ (k : Nat) (st : St) (f : Nat),
    st.cur ≤ data.length → f % 2 ^ k = 0 →
    ∃ body g, (items cfg data k st f).1.res = st.res ++ body ∧ (items cfg data k st f).2 = f + g ∧
      g < 2 ^ k ∧ st.cur ≤ (items cfg data k st f).1.cur ∧ (items cfg data k st f).1.cur ≤ data.length ∧
      ((items cfg data k st f).1.cur < data.length → st.cur + k ≤ (items cfg data k st f).1.cur) ∧
      ∀ R, At R st.res.length body → ∀ s, Reach cfg.posSubtract R s → s.pos = st.res.length → s.slots = k →
        s.flags = f + g → s.out = data.take st.cur → DictOk cfg.posSubtract data R st.dict →
        DictOk cfg.posSubtract data R (items cfg data k st f).1.dict ∧
        ∃ s', Reach cfg.posSubtract R s' ∧ s'.out = data.take (items cfg data k st f).1.cur ∧
          ((items cfg data k st f).1.cur < data.length →
            s'.pos = (items cfg data k st f).1.res.length ∧ s'.slots = 0)
  | 0, st, f => by
    intro hc _
    refine ⟨[], 0, by simp [items], rfl, by simp, by simp [items], by simpa [items] using hc, by simp [items], ?_⟩
    intro R _ s hs hp hk _ ho hd
    exact ⟨hd, s, hs, ho, fun _ => ⟨hp, hk⟩⟩
  | k + 1, st, f => by
    intro hc hf
    by_cases hdone : data.length ≤ st.cur
    · obtain ⟨h1, h2, h3, _, body, h5⟩ := items_done cfg data (k + 1) st f hdone
      refine ⟨body, 0, h5, h1, Nat.pow_pos (by decide), by omega, by omega, by omega, ?_⟩
      intro R _ s hs _ _ _ ho hd
      refine ⟨by rw [h3]; exact hd, s, hs, by rw [h2]; exact ho, ?_⟩
      intro; omega
    · have hcl : st.cur < data.length := by omega
      have hfk : f % 2 ^ k = 0 := by
        have : (2 : Nat) ^ k ∣ f := Nat.dvd_trans ⟨2, by rw [Nat.pow_succ]⟩ (Nat.dvd_of_mod_eq_zero hf)
        exact Nat.mod_eq_zero_of_dvd this
      simp only [items]
      by_cases hlen : (compressionSearch cfg data st.cur).2 > 2
      · -- a back reference
        have hmatch := search_isMatch (cfg := cfg) (data := data) hc (by omega)
        have hle := search_le (cfg := cfg) (data := data) hc
        generalize hsr : compressionSearch cfg data st.cur = sr at *
        obtain ⟨sp, sl⟩ := sr
        simp only at *
        obtain ⟨hm1, hm2, hm3⟩ := hmatch
        have hl18 := hcfg.len
        have hdiff := hcfg.diff
        have hps := hcfg.pos
        have hps3 := hcfg.sub
        obtain ⟨D, hD⟩ : ∃ D : Nat, (st.cur : Int) - sp - cfg.posSubtract = D := ⟨st.cur - sp - cfg.posSubtract, by omega⟩
        have hDlt : D ≤ 4095 := by omega
        let b1 := (sl - 3) % 16 * 16 + D / 256 % 16
        let b2 := D % 256
        let st1 : St := noteSavings { st with res := st.res ++ [UInt8.ofNat b1, UInt8.ofNat b2], cur := st.cur + sl }
        have hitem : item cfg data k st f = (st1, f + 2 ^ k) := by
          unfold item
          rw [if_neg hdone, hsr]
          dsimp only
          rw [if_pos hlen, hD]
          have e1 : ((D : Int) / 256 % 16).toNat = D / 256 % 16 := by omega
          have e2 : ((D : Int) % 256).toNat = D % 256 := by omega
          rw [e1, e2]
        rw [hitem]
        dsimp only
        have hst1c : st1.cur = st.cur + sl := noteSavings_cur _
        have hst1r : st1.res = st.res ++ [UInt8.ofNat b1, UInt8.ofNat b2] := noteSavings_res _
        have hf1 : (f + 2 ^ k) % 2 ^ k = 0 := by rw [Nat.add_mod_right, hfk]
        obtain ⟨body, g, i1, i2, i3, i4, i5, i6, i7⟩ := items_sim hcfg data k st1 (f + 2 ^ k) (by omega) hf1
        refine ⟨[UInt8.ofNat b1, UInt8.ofNat b2] ++ body, 2 ^ k + g, ?_, ?_, ?_, by omega, i5, ?_, ?_⟩
        · rw [i1, hst1r, List.append_assoc]
        · rw [i2]; omega
        · rw [Nat.pow_succ]; omega
        · intro h; have := i6 h; omega
        · intro R hR s hs hp hk hfl ho hd
          obtain ⟨hR1, hR2⟩ := At.split.1 hR
          have hb1 : b1 < 256 := by simp only [b1]; omega
          have hb2 : b2 < 256 := by simp only [b2]; omega
          obtain ⟨pos, slots, fl, out⟩ := s
          simp only at hp hk hfl ho
          subst hp hk hfl ho
          have hstep : Step cfg.posSubtract R ⟨st.res.length, k + 1, f + (2 ^ k + g), data.take st.cur⟩
              ⟨st.res.length + 2, k, f + (2 ^ k + g), data.take (st.cur + sl)⟩ := by
            refine Step.ref _ _ _ _ _ (UInt8.ofNat b1) (UInt8.ofNat b2) ?_ ?_ ?_ ?_
            · have := flag_bit (b := 1) hf i3 (by decide)
              rwa [Nat.one_mul, Nat.add_assoc] at this
            · have := hR1.getElem? (i := 0) (by simp); simpa using this
            · have := hR1.getElem? (i := 1) (by simp); simpa using this
            · rw [uint8_ofNat_toNat hb1, uint8_ofNat_toNat hb2]
              have e1 : b1 / 16 + 3 = sl := by simp only [b1]; omega
              have e2 : b1 % 16 * 256 + b2 + cfg.posSubtract = st.cur - sp := by simp only [b1, b2]; omega
              rw [e1, e2]
              refine copyBack_match (by omega) (by omega) sl (by omega) ?_
              have e3 : st.cur - (st.cur - sp) = sp := by omega
              rw [e3]; exact hm3
          have hreach := Reach.step hs hstep
          have hl1 : st1.res.length = st.res.length + 2 := by rw [hst1r]; simp
          exact i7 R (by rw [hl1]; exact hR2) _ hreach (by simp [hl1]) rfl (by simp; omega)
            (by simp [hst1c])
            (noteSavings_dictOk hd (by simp; omega) ⟨_, hreach, by simp, by simp⟩)
      · -- a literal
        let st1 : St := noteSavings { st with res := st.res ++ slice data st.cur (st.cur + 1), cur := st.cur + 1 }
        have hitem : item cfg data k st f = (st1, f) := by
          unfold item
          rw [if_neg hdone]
          dsimp only
          rw [if_neg hlen]
        rw [hitem]
        dsimp only
        have hslice : slice data st.cur (st.cur + 1) = [data[st.cur]] := by
          unfold slice
          rw [Nat.add_sub_cancel_left, List.drop_eq_getElem_cons hcl]; rfl
        have hst1c : st1.cur = st.cur + 1 := noteSavings_cur _
        have hst1r : st1.res = st.res ++ [data[st.cur]] := by rw [← hslice]; exact noteSavings_res _
        obtain ⟨body, g, i1, i2, i3, i4, i5, i6, i7⟩ := items_sim hcfg data k st1 f (by omega) hfk
        refine ⟨[data[st.cur]] ++ body, g, ?_, ?_, ?_, by omega, i5, ?_, ?_⟩
        · rw [i1, hst1r, List.append_assoc]
        · rw [i2]
        · rw [Nat.pow_succ]; omega
        · intro h; have := i6 h; omega
        · intro R hR s hs hp hk hfl ho hd
          obtain ⟨hR1, hR2⟩ := At.split.1 hR
          obtain ⟨pos, slots, fl, out⟩ := s
          simp only at hp hk hfl ho
          subst hp hk hfl ho
          have hstep : Step cfg.posSubtract R ⟨st.res.length, k + 1, f + g, data.take st.cur⟩
              ⟨st.res.length + 1, k, f + g, data.take (st.cur + 1)⟩ := by
            rw [← List.take_append_getElem hcl]
            refine Step.literal _ _ _ _ data[st.cur] ?_ ?_
            · have := flag_bit (b := 0) hf i3 (by decide)
              simpa using this
            · have := hR1.getElem? (i := 0) (by simp); simpa using this
          have hreach := Reach.step hs hstep
          have hl1 : st1.res.length = st.res.length + 1 := by rw [hst1r]; simp
          exact i7 R (by rw [hl1]; exact hR2) _ hreach (by simp [hl1]) rfl rfl
            (by simp [hst1c])
            (noteSavings_dictOk hd (by simp; omega) ⟨_, hreach, by simp [hslice], by simp⟩)

/-- A complete run of the main loop, seen as a stream. -/
theorem mainLoop_sim {cfg : Cfg} (hcfg : CfgOk cfg) (data : Bytes) : ∀ (fuel : Nat) (st : St),
    st.cur ≤ data.length → data.length ≤ st.cur + fuel →
    (mainLoop cfg data fuel st).cur = data.length ∧
    ∃ body, (mainLoop cfg data fuel st).res = st.res ++ body ∧
      ∀ R, At R st.res.length body → ∀ s, Reach cfg.posSubtract R s →
        (st.cur < data.length → s.pos = st.res.length ∧ s.slots = 0) →
        s.out = data.take st.cur → DictOk cfg.posSubtract data R st.dict →
        DictOk cfg.posSubtract data R (mainLoop cfg data fuel st).dict ∧
        ∃ s', Reach cfg.posSubtract R s' ∧ s'.out = data
  | 0, st => by
    intro h1 h2
    have hc : st.cur = data.length := by omega
    refine ⟨hc, [], by simp [mainLoop], ?_⟩
    intro R _ s hs _ ho hd
    exact ⟨hd, s, hs, by rw [ho, hc, List.take_length]⟩
  | fuel + 1, st => by
    intro h1 h2
    simp only [mainLoop]
    by_cases hc : st.cur < data.length
    · rw [if_pos hc]
      obtain ⟨body, g, i1, i2, i3, i4, i5, i6, i7⟩ :=
        items_sim hcfg data 8 { st with res := st.res ++ [0] } 0 (by omega) (by simp)
      have hres : (block cfg data st).res = st.res ++ [UInt8.ofNat g] ++ body := by
        unfold block
        dsimp only
        rw [i1, i2]
        simp only [List.append_assoc]
        rw [List.set_append_right _ _ (by omega)]
        simp
      have hcur : (block cfg data st).cur =
          (items cfg data 8 { st with res := st.res ++ [0] } 0).1.cur := rfl
      have hdict : (block cfg data st).dict =
          (items cfg data 8 { st with res := st.res ++ [0] } 0).1.dict := rfl
      rw [← hcur] at i4 i5 i6
      simp only at i4 i6
      obtain ⟨j1, body', j2, j3⟩ := mainLoop_sim hcfg data fuel (block cfg data st) i5 (by
        by_cases h : (block cfg data st).cur < data.length
        · have := i6 h; omega
        · omega)
      refine ⟨j1, [UInt8.ofNat g] ++ body ++ body', ?_, ?_⟩
      · rw [j2, hres]; simp
      · intro R hR s hs hp ho hd
        obtain ⟨hR1, hR2⟩ := At.split.1 hR
        obtain ⟨hR0, hR1⟩ := At.split.1 hR1
        obtain ⟨hp, hk⟩ := hp hc
        obtain ⟨pos, slots, fl, out⟩ := s
        simp only at hp hk ho
        subst hp hk ho
        have hstep : Step cfg.posSubtract R ⟨st.res.length, 0, fl, data.take st.cur⟩
            ⟨st.res.length + 1, 8, (UInt8.ofNat g).toNat, data.take st.cur⟩ := by
          refine Step.fetch _ _ _ _ ?_
          have := hR0.getElem? (i := 0) (by simp); simpa using this
        rw [uint8_ofNat_toNat (by simpa using i3)] at hstep
        have hreach := Reach.step hs hstep
        obtain ⟨hd', s', hs', ho', hp'⟩ := i7 R (by simpa using hR1) _ hreach (by simp) rfl (by simp) rfl hd
        have hlen : (items cfg data 8 { st with res := st.res ++ [0] } 0).1.res.length =
            (block cfg data st).res.length := by rw [hres, i1]; simp
        apply j3 R (by
          have : (block cfg data st).res.length = st.res.length + ([UInt8.ofNat g] ++ body).length := by
            rw [hres]; simp
          rw [this]; exact hR2) s' hs'
        · intro h; obtain ⟨h1, h2⟩ := hp' (by rw [← hcur]; exact h); exact ⟨by rw [h1, hlen], h2⟩
        · rw [ho', hcur]
        · rw [hdict]; exact hd'
    · rw [if_neg hc]
      have hc' : st.cur = data.length := by omega
      refine ⟨hc', [], by simp, ?_⟩
      intro R _ s hs _ ho hd
      exact ⟨hd, s, hs, by rw [ho, hc', List.take_length]⟩

/-- Reading never looks beyond the current position. -/
theorem reach_take {extra : Nat} {R : Bytes} {s : State} (h : Reach extra R s) :
    ∀ n, s.pos ≤ n → Reach extra (R.take n) s := by
  induction h with
  | start => intro n _; exact Reach.start
  | @step s s' _ hs ih =>
    intro n hn
    cases hs with
    | fetch pos fl out b hb =>
      exact Reach.step (ih n (by simp at hn ⊢; omega))
        (Step.fetch _ _ _ _ (by rw [List.getElem?_take]; simp at hn; rw [if_pos (by omega)]; exact hb))
    | literal pos k fl out b hf hb =>
      exact Reach.step (ih n (by simp at hn ⊢; omega))
        (Step.literal _ _ _ _ _ hf (by rw [List.getElem?_take]; simp at hn; rw [if_pos (by omega)]; exact hb))
    | ref pos k fl out out' b1 b2 hf hb1 hb2 hcp =>
      exact Reach.step (ih n (by simp at hn ⊢; omega))
        (Step.ref _ _ _ _ _ _ _ hf
          (by rw [List.getElem?_take]; simp at hn; rw [if_pos (by omega)]; exact hb1)
          (by rw [List.getElem?_take]; simp at hn; rw [if_pos (by omega)]; exact hb2) hcp)

theorem reach_pos_le {extra : Nat} {R : Bytes} {s : State} (h : Reach extra R s) : s.pos ≤ R.length := by
  induction h with
  | start => simp
  | @step s s' _ hs ih =>
    cases hs with
    | fetch pos fl out b hb =>
      have := (List.getElem?_eq_some_iff.1 hb).1; simp; omega
    | literal pos k fl out b hf hb =>
      have := (List.getElem?_eq_some_iff.1 hb).1; simp; omega
    | ref pos k fl out out' b1 b2 hf hb1 hb2 hcp =>
      have := (List.getElem?_eq_some_iff.1 hb2).1; simp; omega

/-! ## Savings bookkeeping -/

theorem mem_dictGet {dict : List (Int × (Nat × Nat))} {e : Int × (Nat × Nat)} (h : e ∈ dict) :
    ∃ v, dictGet dict e.1 = some v := by
  unfold dictGet
  have : (dict.find? fun e' => e'.1 == e.1).isSome := by
    rw [List.find?_isSome]; exact ⟨e, h, by simp⟩
  obtain ⟨v, hv⟩ := Option.isSome_iff_exists.1 this
  exact ⟨v.2, by rw [hv]; rfl⟩

/-- `bestSavingsSoFar` is always a key of `ignoreDict`. -/
def BestOk (st : St) : Prop := ∃ v, dictGet st.dict st.best = some v

theorem noteSavings_bestOk {st : St} (h : BestOk st) : BestOk (noteSavings st) := by
  unfold noteSavings
  dsimp only
  split
  · unfold BestOk
    dsimp only
    split
    · exact mem_dictGet (e := ((st.cur : Int) - st.res.length, (st.cur, st.res.length))) (by simp)
    · rename_i hn
      cases hx : dictGet st.dict ((st.cur : Int) - st.res.length) with
      | none => simp [hx] at hn
      | some v => exact ⟨v, rfl⟩
  · exact h

theorem item_bestOk {cfg : Cfg} {data : Bytes} {k : Nat} {st : St} {f : Nat} (h : BestOk st) :
    BestOk (item cfg data k st f).1 := by
  unfold item
  split
  · dsimp only; split <;> exact h
  · dsimp only
    split
    · exact noteSavings_bestOk h
    · exact noteSavings_bestOk h

theorem items_bestOk {cfg : Cfg} {data : Bytes} : ∀ {k : Nat} {st : St} {f : Nat}, BestOk st →
    BestOk (items cfg data k st f).1
  | 0, _, _, h => h
  | k + 1, st, f, h => by
    simp only [items]
    exact items_bestOk (item_bestOk h)

theorem mainLoop_bestOk {cfg : Cfg} {data : Bytes} : ∀ {fuel : Nat} {st : St}, BestOk st →
    BestOk (mainLoop cfg data fuel st)
  | 0, _, h => h
  | fuel + 1, st, h => by
    simp only [mainLoop]
    split
    · exact mainLoop_bestOk (items_bestOk (st := { st with res := st.res ++ [0] }) h)
    · exact h

theorem firstKey_some {dict : List (Int × (Nat × Nat))} : ∀ {fuel : Nat} {key best : Int},
    (∃ v, dictGet dict best = some v) → key ≤ best → best < key + fuel →
    ∃ k v, firstKey dict fuel key = some v ∧ key ≤ k ∧ dictGet dict k = some v
  | 0, key, best => by intro _ _ _; omega
  | fuel + 1, key, best => by
    intro hb h1 h2
    simp only [firstKey]
    cases hx : dictGet dict key with
    | some v => exact ⟨key, v, rfl, by omega, hx⟩
    | none =>
      have hne : key ≠ best := by
        rintro rfl
        obtain ⟨v, hv⟩ := hb
        rw [hv] at hx; cases hx
      obtain ⟨k, v, h3, h4, h5⟩ := firstKey_some (fuel := fuel) (key := key + 1) hb (by omega) (by omega)
      exact ⟨k, v, h3, by omega, h5⟩

/-- What `_lzCommon.compress` returns: a stream for the data, and a cut point of it. -/
theorem compress_spec {cfg : Cfg} (hcfg : CfgOk cfg) (data : Bytes) :
    ∃ R ignD ignC, compress cfg data = .ok (R, ignD, ignC) ∧ Decodes cfg.posSubtract R data ∧
      ignD ≤ data.length ∧ ignC ≤ R.length ∧
      Decodes cfg.posSubtract (R.take (R.length - ignC)) (data.take (data.length - ignD)) ∧
      (data.length : Int) - R.length ≤ (data.length - ignD : Int) - (R.length - ignC) := by
  obtain ⟨h1, body, h2, h3⟩ := mainLoop_sim hcfg data data.length initSt (by simp [initSt]) (by simp [initSt])
  have hb : BestOk (mainLoop cfg data data.length initSt) :=
    mainLoop_bestOk ⟨(0, 0), by simp [initSt, dictGet]⟩
  simp only [initSt, List.nil_append] at h2
  obtain ⟨h4, s', h5, h6⟩ := h3 body (by simpa [initSt] using At.refl body) ⟨0, 0, 0, []⟩ Reach.start
    (by simp [initSt]) (by simp [initSt]) (by
      intro e he
      simp only [initSt, List.mem_singleton] at he
      subst he
      exact ⟨by simp, by simp, ⟨0, 0, 0, []⟩, Reach.start, by simp, by simp⟩)
  change (mainLoop cfg data data.length initSt).res = body at h2
  unfold compress
  generalize hst : mainLoop cfg data data.length initSt = st at *
  dsimp only
  by_cases hlt : (st.cur : Int) - st.res.length < st.best
  · rw [if_pos hlt]
    obtain ⟨k, v, h7, h8, h9⟩ := firstKey_some (fuel := (st.best - ((st.cur : Int) - st.res.length)).toNat)
      (key := (st.cur : Int) - st.res.length + 1) hb (by omega) (by omega)
    rw [h7]
    dsimp only
    obtain ⟨h10, h11, s, h12, h13, h14⟩ := h4 _ (dictGet_mem h9)
    simp only at h10 h11 h13 h14
    have hpl := reach_pos_le h12
    rw [h2] at *
    refine ⟨body, _, _, rfl, ⟨s', h5, h6⟩, by omega, by omega, ⟨s, ?_, ?_⟩, ?_⟩
    · apply reach_take h12; omega
    · rw [h14]; congr 1; omega
    · omega
  · rw [if_neg hlt]
    rw [h2]
    refine ⟨body, 0, 0, rfl, ⟨s', h5, h6⟩, by omega, by omega, ⟨s', ?_, ?_⟩, by omega⟩
    · simpa using h5
    · simpa using h6

end Verif.Proofs.LzCommon
