import Verif.Proofs.Lz10
import Verif.Proofs.CodeCompression
import Verif.Spec.LzGreedy
import Verif.Props.Lz

/-!
# The compressors write greedy streams
-/

namespace Verif.Proofs.LzGreedy

open Verif Verif.Model.LzCommon Verif.Spec.LZ Verif.Spec.LzGreedy
open Verif.Proofs.LzCommon (CfgOk)

/-! ## The item at a position -/

/-- The item the compressor writes at `pos`. -/
def pick (cfg : Cfg) (data : Bytes) (pos : Nat) : Item :=
  if (compressionSearch cfg data pos).2 > 2 then
    .ref (compressionSearch cfg data pos).2 (pos - (compressionSearch cfg data pos).1)
  else .literal (data.getD pos 0)

/-- All items from `pos` on. -/
def parse (cfg : Cfg) (data : Bytes) : Nat → Nat → List Item
  | 0, _ => []
  | fuel + 1, pos =>
    if pos < data.length then pick cfg data pos :: parse cfg data fuel (pos + (pick cfg data pos).len) else []

theorem pick_len_pos (cfg : Cfg) (data : Bytes) (pos : Nat) : 0 < (pick cfg data pos).len := by
  unfold pick
  split
  · rename_i h; exact Nat.lt_trans (by decide) h
  · exact Nat.one_pos

theorem parse_fuel {cfg : Cfg} {data : Bytes} : ∀ {f g pos : Nat}, data.length - pos ≤ f → data.length - pos ≤ g →
    parse cfg data f pos = parse cfg data g pos
  | 0, 0, _, _, _ => rfl
  | 0, g + 1, pos, h, _ => by rw [parse, parse, if_neg (by omega)]
  | f + 1, 0, pos, _, h => by rw [parse, parse, if_neg (by omega)]
  | f + 1, g + 1, pos, h1, h2 => by
    rw [parse, parse]
    split
    · have := pick_len_pos cfg data pos
      rw [parse_fuel (f := f) (g := g) (by omega) (by omega)]
    · rfl

theorem parse_done {cfg : Cfg} {data : Bytes} {f pos : Nat} (h : data.length ≤ pos) : parse cfg data f pos = [] := by
  cases f with
  | zero => rfl
  | succ f => rw [parse, if_neg (by omega)]

theorem covered_cons (i : Item) (is : List Item) : covered (i :: is) = i.len + covered is := by
  simp [covered]

theorem parse_greedy {cfg : Cfg} (hcfg : cfg.maxMatchLen = 18) {data : Bytes} : ∀ {f pos : Nat}, pos ≤ data.length →
    data.length - pos ≤ f → Greedy cfg.maxMatchDiff cfg.searchReverse data pos (parse cfg data f pos)
  | 0, pos, h, hf => by
    rw [parse, show pos = data.length by omega]
    exact .done
  | f + 1, pos, h, hf => by
    rw [parse]
    split
    · rename_i hlt
      obtain ⟨h1, h2, h3, h4, h5⟩ := Props.Lz.search_longest cfg data pos h
      unfold pick
      split
      · rename_i hl
        rw [hcfg] at h1 h4
        refine .ref (p := (compressionSearch cfg data pos).1) ⟨hl, h1, h2, h3 (by omega)⟩ ?_ ?_ ?_
        · intro len' p' hc
          exact h4 len' p' hc.2.1 hc.2.2.1 hc.2.2.2
        · intro p' hc
          exact h5 (by omega) p' hc.2.2.2
        · exact parse_greedy hcfg h2 (by omega)
      · rename_i hl
        refine .literal (by simp [List.getD, List.getElem?_eq_getElem hlt]) ?_ ?_
        · intro len p hc
          rw [hcfg] at h4
          have := h4 len p hc.2.1 hc.2.2.1 hc.2.2.2
          have := hc.1
          omega
        · exact parse_greedy hcfg hlt (by omega)
    · rw [show pos = data.length by omega]
      exact .done

theorem greedy_le {w : Nat} {n : Bool} {data : Bytes} {pos : Nat} {is : List Item} (h : Greedy w n data pos is) :
    pos + covered is = data.length := by
  induction h with
  | done => simp [covered]
  | literal _ _ _ ih => rw [covered_cons]; simp only [Item.len]; omega
  | ref _ _ _ _ ih => rw [covered_cons]; simp only [Item.len]; omega

theorem greedy_unique {w : Nat} {n : Bool} {data : Bytes} {pos : Nat} {is js : List Item} (h : Greedy w n data pos is)
    (h' : Greedy w n data pos js) : is = js := by
  induction h generalizing js with
  | done =>
    cases h' with
    | done => rfl
    | literal hb _ _ => simp at hb
    | ref hc _ _ _ => have := hc.1; have := hc.2.2.1; omega
  | @literal q _ _ hb hn hg ih =>
    generalize hp : q = pos at h'
    cases h' with
    | done => subst hp; simp at hb
    | literal hb' _ hg' =>
      subst hp
      rw [hb] at hb'
      cases hb'
      rw [ih hg']
    | ref hc _ _ _ => subst hp; exact absurd hc (hn _ _)
  | @ref q _ _ _ hc hm hf hg ih =>
    generalize hp : q = pos at h'
    cases h' with
    | done => subst hp; have := hc.1; have := hc.2.2.1; omega
    | literal _ hn _ => subst hp; exact absurd hc (hn _ _)
    | ref hc' hm' hf' hg' =>
      subst hp
      have e := Nat.le_antisymm (hm' _ _ hc) (hm _ _ hc')
      subst e
      have h1 := hf _ hc'
      have h2 := hf' _ hc
      rename_i p1 _ p2 _
      have e2 : p1 = p2 := by
        split at h1
        · rename_i hb; rw [if_pos hb] at h2; exact Nat.le_antisymm h2 h1
        · rename_i hb; rw [if_neg hb] at h2; exact Nat.le_antisymm h1 h2
      rw [e2, ih hg']

/-! ## Records of savings -/

/-- What is saved at a point: bytes read less bytes written. -/
def saved (v : Nat × Nat) : Int := (v.1 : Int) - v.2

/-- The dictionary of the compressor finds the first point of those passed at which at least `key` bytes were saved. -/
structure Inv (st : St) (trail : List (Nat × Nat)) : Prop where
  keys : ∀ e ∈ st.dict, e.1 ≤ st.best
  hasBest : (dictGet st.dict st.best).isSome
  bound : ∀ v ∈ trail, saved v ≤ st.best
  finds : ∀ (key : Int) (fuel : Nat), key ≤ st.best → st.best - key < fuel →
    ∃ v, firstKey st.dict fuel key = some v ∧ trail.find? (fun v => decide (key ≤ saved v)) = some v

theorem dictGet_none {dict : List (Int × (Nat × Nat))} {b key : Int} (h : ∀ e ∈ dict, e.1 ≤ b) (hk : b < key) :
    dictGet dict key = none := by
  unfold dictGet
  rw [List.find?_eq_none.2 (fun e he => by have := h e he; simp; omega)]
  rfl

theorem dictGet_cons {dict : List (Int × (Nat × Nat))} {s key : Int} {v : Nat × Nat} :
    dictGet ((s, v) :: dict) key = if s = key then some v else dictGet dict key := by
  unfold dictGet
  rw [List.find?_cons]
  by_cases h : s = key
  · simp [h]
  · rw [if_neg h]
    have : (s == key) = false := by simpa using h
    dsimp only
    rw [this]

theorem firstKey_old {dict : List (Int × (Nat × Nat))} {s b : Int} {v : Nat × Nat} (hb : (dictGet dict b).isSome)
    (hs : b < s) : ∀ {fuel : Nat} {key : Int}, key ≤ b → firstKey ((s, v) :: dict) fuel key = firstKey dict fuel key
  | 0, _, _ => rfl
  | fuel + 1, key, h => by
    rw [firstKey, firstKey, dictGet_cons, if_neg (by omega)]
    cases hd : dictGet dict key with
    | some w => rfl
    | none =>
      dsimp only
      have : key ≠ b := by
        rintro rfl
        rw [hd] at hb
        cases hb
      exact firstKey_old hb hs (by omega)

theorem firstKey_new {dict : List (Int × (Nat × Nat))} {s b : Int} {v : Nat × Nat} (hk : ∀ e ∈ dict, e.1 ≤ b) :
    ∀ {fuel : Nat} {key : Int}, b < key → key ≤ s → s - key < fuel → firstKey ((s, v) :: dict) fuel key = some v
  | 0, _, _, _, h => by omega
  | fuel + 1, key, h1, h2, h3 => by
    rw [firstKey, dictGet_cons]
    by_cases hs : s = key
    · rw [if_pos hs]
    · rw [if_neg hs, dictGet_none hk h1]
      exact firstKey_new hk (by omega) (by omega) (by omega)

theorem noteSavings_inv {st : St} {trail : List (Nat × Nat)} (h : Inv st trail) :
    Inv (noteSavings st) (trail ++ [(st.cur, st.res.length)]) := by
  obtain ⟨h1, h2, h3, h4⟩ := h
  unfold noteSavings
  dsimp only
  split
  · rename_i hgt
    rw [dictGet_none h1 hgt]
    refine ⟨?_, ?_, ?_, ?_⟩
    · intro e he
      rcases List.mem_cons.1 he with rfl | he
      · exact Int.le_refl _
      · have := h1 e he
        show e.1 ≤ (st.cur : Int) - st.res.length
        omega
    · show (dictGet ((_, _) :: st.dict) _).isSome
      rw [dictGet_cons, if_pos rfl]
      rfl
    · intro v hv
      show saved v ≤ (st.cur : Int) - st.res.length
      rcases List.mem_append.1 hv with hv | hv
      · have := h3 v hv
        omega
      · rw [List.mem_singleton.1 hv]
        exact Int.le_refl _
    · intro key fuel hk hf
      dsimp only at hk hf
      show ∃ v, firstKey ((_, _) :: st.dict) fuel key = some v ∧ _
      by_cases hb : key ≤ st.best
      · obtain ⟨v, h5, h6⟩ := h4 key fuel hb (by omega)
        exact ⟨v, by rw [firstKey_old h2 hgt hb, h5], by rw [List.find?_append, h6]; rfl⟩
      · refine ⟨(st.cur, st.res.length), firstKey_new h1 (by omega) hk hf, ?_⟩
        rw [List.find?_append, List.find?_eq_none.2 (fun v hv => by have := h3 v hv; simp; omega)]
        rw [List.find?_cons, decide_eq_true (show key ≤ saved (st.cur, st.res.length) from hk)]
        rfl
  · rename_i hgt
    refine ⟨h1, h2, ?_, ?_⟩
    · intro v hv
      rcases List.mem_append.1 hv with hv | hv
      · exact h3 v hv
      · rw [List.mem_singleton.1 hv]
        show (st.cur : Int) - st.res.length ≤ _
        omega
    · intro key fuel hk hf
      obtain ⟨v, h5, h6⟩ := h4 key fuel hk hf
      exact ⟨v, h5, by rw [List.find?_append, h6]; rfl⟩

/-! ## The stream -/

theorem encode_take (extra : Nat) (pad : Bool) : ∀ (k : Nat) (is : List Item), encode extra pad k is =
    (is.take k).flatMap (Item.bytes extra) ++ (if pad then zeros (k - is.length) else []) ++ encode extra pad 0 (is.drop k)
  | k, [] => by cases pad <;> simp [encode, zeros]
  | 0, i :: is => by cases pad <;> simp [zeros]
  | k + 1, i :: is => by
    rw [encode, encode_take extra pad k is]
    simp

/-- What is appended for an item. -/
theorem item_bytes {cfg : Cfg} (hcfg : CfgOk cfg) {data : Bytes} {st : St} (hc : st.cur < data.length) (k f : Nat) :
    item cfg data k st f =
      (noteSavings { st with
        res := st.res ++ (pick cfg data st.cur).bytes cfg.posSubtract, cur := st.cur + (pick cfg data st.cur).len },
      f + match pick cfg data st.cur with | .literal _ => 0 | .ref _ _ => 2 ^ k) := by
  unfold item
  rw [if_neg (by omega)]
  unfold pick
  dsimp only
  by_cases hl : (compressionSearch cfg data st.cur).2 > 2
  · rw [if_pos hl, if_pos hl]
    dsimp only [Item.bytes, Item.len]
    have hm := Proofs.LzCommon.search_isMatch (cfg := cfg) (data := data) (pos := st.cur) (by omega) (by omega)
    have hle := Proofs.LzCommon.search_le (cfg := cfg) (data := data) (pos := st.cur) (by omega)
    obtain ⟨m1, m2, -⟩ := hm
    generalize (compressionSearch cfg data st.cur).1 = p at *
    generalize (compressionSearch cfg data st.cur).2 = n at *
    have c1 := hcfg.diff
    have c2 := hcfg.sub
    have c3 := hcfg.len
    have e1 : ((st.cur : Int) - p - cfg.posSubtract) = ((st.cur - p - cfg.posSubtract : Nat) : Int) := by omega
    rw [e1]
    have e2 : (((st.cur - p - cfg.posSubtract : Nat) : Int) / 256 % 16).toNat = (st.cur - p - cfg.posSubtract) / 256 := by
      omega
    have e3 : (((st.cur - p - cfg.posSubtract : Nat) : Int) % 256).toNat = (st.cur - p - cfg.posSubtract) % 256 := by
      omega
    rw [e2, e3, Nat.mod_eq_of_lt (show n - 3 < 16 by omega)]
  · rw [if_neg hl, if_neg hl]
    dsimp only [Item.bytes, Item.len]
    have e : slice data st.cur (st.cur + 1) = [data.getD st.cur 0] := by
      unfold slice
      rw [Nat.add_sub_cancel_left, List.take_one, List.head?_drop, List.getD, List.getElem?_eq_getElem hc]
      rfl
    rw [e]
    rfl

/-- The points after each of the items. -/
def points : Nat → Nat → List Item → List (Nat × Nat)
  | _, _, [] => []
  | c, w, i :: is => (c + i.len, w + (i.bytes 0).length) :: points (c + i.len) (w + (i.bytes 0).length) is

theorem bytes_length (extra : Nat) (i : Item) : (i.bytes extra).length = (i.bytes 0).length := by cases i <;> rfl

theorem covered_append (a b : List Item) : covered (a ++ b) = covered a + covered b := by simp [covered]

theorem items_greedy {cfg : Cfg} (hcfg : CfgOk cfg) (data : Bytes) : ∀ (k : Nat) (st : St) (f fuel : Nat)
    (trail : List (Nat × Nat)), st.cur ≤ data.length → data.length - st.cur ≤ fuel → Inv st trail →
    (items cfg data k st f).1.res = st.res ++ ((parse cfg data fuel st.cur).take k).flatMap (Item.bytes cfg.posSubtract) ++
      (if cfg.zerosAtEnd then zeros (k - (parse cfg data fuel st.cur).length) else []) ∧
    (items cfg data k st f).1.cur = st.cur + covered ((parse cfg data fuel st.cur).take k) ∧
    (items cfg data k st f).2 = f + flags k (parse cfg data fuel st.cur) ∧
    (items cfg data k st f).1.cur ≤ data.length ∧
    (parse cfg data fuel st.cur).drop k = parse cfg data fuel (items cfg data k st f).1.cur ∧
    Inv (items cfg data k st f).1 (trail ++ points st.cur st.res.length ((parse cfg data fuel st.cur).take k))
  | 0, st, f, fuel, trail, h1, h2, h3 => by
    refine ⟨?_, ?_, ?_, h1, ?_, ?_⟩
    · cases hz : cfg.zerosAtEnd <;> simp [items, zeros]
    · simp [items, covered]
    · simp [items, flags]
    · simp [items]
    · simpa [items, points] using h3
  | k + 1, st, f, fuel, trail, h1, h2, h3 => by
    by_cases hc : st.cur < data.length
    · obtain ⟨fuel, rfl⟩ : ∃ n, fuel = n + 1 := ⟨fuel - 1, by omega⟩
      have hb := item_bytes hcfg hc k f
      have hlen : st.cur + (pick cfg data st.cur).len ≤ data.length := by
        unfold pick
        split
        · exact (Proofs.LzCommon.search_le (cfg := cfg) (data := data) (pos := st.cur) (by omega)).2
        · exact hc
      have hpos := pick_len_pos cfg data st.cur
      have hi := noteSavings_inv (st := { st with
        res := st.res ++ (pick cfg data st.cur).bytes cfg.posSubtract, cur := st.cur + (pick cfg data st.cur).len })
        (trail := trail) ⟨h3.keys, h3.hasBest, h3.bound, h3.finds⟩
      rw [items, hb]
      dsimp only
      have hcur := Proofs.LzCommon.noteSavings_cur { st with
        res := st.res ++ (pick cfg data st.cur).bytes cfg.posSubtract, cur := st.cur + (pick cfg data st.cur).len }
      have hres := Proofs.LzCommon.noteSavings_res { st with
        res := st.res ++ (pick cfg data st.cur).bytes cfg.posSubtract, cur := st.cur + (pick cfg data st.cur).len }
      generalize noteSavings { st with
        res := st.res ++ (pick cfg data st.cur).bytes cfg.posSubtract, cur := st.cur + (pick cfg data st.cur).len } = st'
        at *
      dsimp only at hcur hres
      have ih := items_greedy hcfg data k st' (f + match pick cfg data st.cur with | .literal _ => 0 | .ref _ _ => 2 ^ k)
        fuel _ (by omega) (by omega) hi
      have hp : parse cfg data (fuel + 1) st.cur = pick cfg data st.cur :: parse cfg data fuel st'.cur := by
        rw [parse, if_pos hc, hcur]
      rw [hp]
      obtain ⟨i1, i2, i3, i4, i5, i6⟩ := ih
      refine ⟨?_, ?_, ?_, i4, ?_, ?_⟩
      · rw [i1, hres]
        simp
      · rw [i2, hcur, List.take_succ_cons, covered_cons]
        omega
      · rw [i3]
        cases pick cfg data st.cur <;> simp [flags] <;> omega
      · rw [List.drop_succ_cons, i5]
        exact parse_fuel (by omega) (by omega)
      · rw [List.take_succ_cons, points]
        rw [hcur, hres] at i6
        rw [List.length_append, bytes_length] at i6
        rw [hcur]
        simpa using i6
    · have hd := Proofs.LzCommon.items_done cfg data (k + 1) st f (by omega)
      have hp : parse cfg data fuel st.cur = [] := parse_done (by omega)
      obtain ⟨d1, d2, d3, d4, -⟩ := hd
      rw [hp]
      refine ⟨?_, ?_, ?_, by omega, ?_, ?_⟩
      · have : ∀ (k : Nat) (st : St) (f : Nat), data.length ≤ st.cur →
            (items cfg data k st f).1.res = st.res ++ (if cfg.zerosAtEnd then zeros k else []) := by
          intro k
          induction k with
          | zero => intro st f _; cases cfg.zerosAtEnd <;> simp [items, zeros]
          | succ k ih =>
            intro st f h
            rw [items, item, if_pos h]
            dsimp only
            rw [ih _ _ (by split <;> exact h)]
            cases cfg.zerosAtEnd
            · rfl
            · simp [zeros, List.replicate_succ]
        rw [this (k + 1) st f (by omega)]
        simp
      · rw [d2]; simp [covered]
      · rw [d1]; simp [flags]
      · rw [d2, hp]; simp
      · have : Inv (items cfg data (k + 1) st f).1 trail := by
          refine ⟨?_, ?_, ?_, ?_⟩
          · rw [d3, d4]; exact h3.keys
          · rw [d3, d4]; exact h3.hasBest
          · rw [d4]; exact h3.bound
          · rw [d3, d4]; exact h3.finds
        simpa [points] using this

/-- The points after each of the items, when there is place for `k` more in the current block. -/
def blockPoints : Nat → Nat → Nat → List Item → List (Nat × Nat)
  | _, _, _, [] => []
  | 0, c, w, i :: is =>
    (c + i.len, w + 1 + (i.bytes 0).length) :: blockPoints 7 (c + i.len) (w + 1 + (i.bytes 0).length) is
  | k + 1, c, w, i :: is => (c + i.len, w + (i.bytes 0).length) :: blockPoints k (c + i.len) (w + (i.bytes 0).length) is

theorem blockPoints_take : ∀ (k c w : Nat) (is : List Item), blockPoints k c w is =
    points c w (is.take k) ++ blockPoints 0 (c + covered (is.take k))
      (w + ((is.take k).map fun i => (i.bytes 0).length).sum) (is.drop k)
  | k, c, w, [] => by simp [blockPoints, points]
  | 0, c, w, i :: is => by simp [points, covered]
  | k + 1, c, w, i :: is => by
    rw [blockPoints, blockPoints_take k]
    simp [points, covered, Nat.add_assoc]

theorem flatMap_bytes_length (extra : Nat) (is : List Item) :
    (is.flatMap (Item.bytes extra)).length = (is.map fun i => (i.bytes 0).length).sum := by
  induction is with
  | nil => rfl
  | cons i is ih => rw [List.flatMap_cons, List.length_append, ih, bytes_length]; simp

theorem flags_lt : ∀ (k : Nat) (is : List Item), flags k is < 2 ^ k
  | 0, _ => by simp [flags]
  | k + 1, [] => by simp [flags]; exact Nat.pow_pos (by decide)
  | k + 1, .literal _ :: is => by
    have := flags_lt k is
    rw [flags, Nat.pow_succ]
    omega
  | k + 1, .ref _ _ :: is => by
    have := flags_lt k is
    rw [flags, Nat.pow_succ]
    omega

theorem mainLoop_greedy {cfg : Cfg} (hcfg : CfgOk cfg) (data : Bytes) : ∀ (n : Nat) (st : St)
    (trail : List (Nat × Nat)), st.cur ≤ data.length → data.length - st.cur ≤ n → Inv st trail →
    (mainLoop cfg data n st).res =
      st.res ++ encode cfg.posSubtract cfg.zerosAtEnd 0 (parse cfg data data.length st.cur) ∧
    (mainLoop cfg data n st).cur = data.length ∧
    Inv (mainLoop cfg data n st)
      (trail ++ blockPoints 0 st.cur st.res.length (parse cfg data data.length st.cur))
  | 0, st, trail, h1, h2, h3 => by
    rw [parse_done (by omega)]
    refine ⟨?_, ?_, ?_⟩
    · cases cfg.zerosAtEnd <;> simp [mainLoop, encode, zeros]
    · rw [mainLoop]; omega
    · simpa [mainLoop, blockPoints] using h3
  | n + 1, st, trail, h1, h2, h3 => by
    rw [mainLoop]
    split
    · rename_i hlt
      obtain ⟨i1, i2, i3, i4, i5, i6⟩ := items_greedy hcfg data 8 { st with res := st.res ++ [0] } 0 data.length trail h1
        (by dsimp only; omega) ⟨h3.keys, h3.hasBest, h3.bound, h3.finds⟩
      dsimp only at i1 i2 i5 i6
      have hL : ∃ i is, parse cfg data data.length st.cur = i :: is := by
        obtain ⟨m, hm⟩ : ∃ m, data.length = m + 1 := ⟨data.length - 1, by omega⟩
        rw [hm, parse, if_pos hlt]
        exact ⟨_, _, rfl⟩
      -- the state after the block
      have hcur : (block cfg data st).cur = (items cfg data 8 { st with res := st.res ++ [0] } 0).1.cur := rfl
      have hres : (block cfg data st).res = st.res ++ [UInt8.ofNat (flags 8 (parse cfg data data.length st.cur))] ++
          ((parse cfg data data.length st.cur).take 8).flatMap (Item.bytes cfg.posSubtract) ++
          (if cfg.zerosAtEnd then zeros (8 - (parse cfg data data.length st.cur).length) else []) := by
        show (items cfg data 8 { st with res := st.res ++ [0] } 0).1.res.set st.res.length (UInt8.ofNat _) = _
        rw [i1, i3]
        simp [List.set_append_right]
      have hinv : Inv (block cfg data st) (trail ++ points st.cur (st.res.length + 1)
          ((parse cfg data data.length st.cur).take 8)) := by
        rw [List.length_append] at i6
        exact ⟨i6.keys, i6.hasBest, i6.bound, i6.finds⟩
      have hgt : st.cur < (block cfg data st).cur := by
        rw [hcur, i2]
        obtain ⟨i, is, hi⟩ := hL
        have hp : parse cfg data data.length st.cur = pick cfg data st.cur :: is := by
          obtain ⟨m, hm⟩ : ∃ m, data.length = m + 1 := ⟨data.length - 1, by omega⟩
          rw [hm, parse, if_pos hlt] at hi ⊢
          rw [List.cons_eq_cons] at hi
          rw [hi.2]
        rw [hp, List.take_succ_cons, covered_cons]
        have := pick_len_pos cfg data st.cur
        omega
      obtain ⟨m1, m2, m3⟩ := mainLoop_greedy hcfg data n (block cfg data st) _ (by rw [hcur]; exact i4) (by omega) hinv
      have hdrop : parse cfg data data.length (block cfg data st).cur =
          (parse cfg data data.length st.cur).drop 8 := by rw [hcur, i5]
      have henc : encode cfg.posSubtract cfg.zerosAtEnd 0 (parse cfg data data.length st.cur) =
          UInt8.ofNat (flags 8 (parse cfg data data.length st.cur)) ::
            encode cfg.posSubtract cfg.zerosAtEnd 8 (parse cfg data data.length st.cur) := by
        obtain ⟨i, is, hi⟩ := hL
        rw [hi, encode, encode]
      refine ⟨?_, m2, ?_⟩
      · rw [m1, hdrop, hres, henc, encode_take _ _ 8]
        simp
      · rw [hdrop] at m3
        by_cases hlong : (parse cfg data data.length st.cur).length ≤ 8
        · rw [List.drop_eq_nil_of_le hlong] at m3
          have hb : blockPoints 0 st.cur st.res.length (parse cfg data data.length st.cur) =
              points st.cur (st.res.length + 1) ((parse cfg data data.length st.cur).take 8) := by
            have := blockPoints_take 8 st.cur (st.res.length + 1) (parse cfg data data.length st.cur)
            rw [List.drop_eq_nil_of_le hlong, blockPoints, List.append_nil] at this
            rw [← this]
            obtain ⟨i, is, hi⟩ := hL
            rw [hi, blockPoints, blockPoints]
          rw [hb]
          simpa [blockPoints] using m3
        · have hpad : (if cfg.zerosAtEnd then zeros (8 - (parse cfg data data.length st.cur).length) else []) = [] := by
            rw [Nat.sub_eq_zero_of_le (by omega)]
            cases cfg.zerosAtEnd <;> simp [zeros]
          rw [hpad, List.append_nil] at hres
          have hb : blockPoints 0 st.cur st.res.length (parse cfg data data.length st.cur) =
              blockPoints 8 st.cur (st.res.length + 1) (parse cfg data data.length st.cur) := by
            obtain ⟨i, is, hi⟩ := hL
            rw [hi, blockPoints, blockPoints]
          rw [hb, blockPoints_take 8]
          have hlen : (block cfg data st).res.length = st.res.length + 1 +
              (((parse cfg data data.length st.cur).take 8).map fun i => (i.bytes 0).length).sum := by
            rw [hres, List.length_append, flatMap_bytes_length, List.length_append]
            rfl
          rw [hlen, hcur, i2] at m3
          simpa using m3
    · rename_i hge
      rw [parse_done (by omega)]
      refine ⟨?_, by omega, ?_⟩
      · cases cfg.zerosAtEnd <;> simp [encode, zeros]
      · simpa [blockPoints] using h3

/-! ## The whole stream -/

theorem blockPoints_get : ∀ (k c w : Nat) (is : List Item), k ≤ 8 → ∀ (m : Nat), m < is.length →
    (blockPoints k c w is)[m]? = some (c + covered (is.take (m + 1)),
      w + ((m + 1 - k + 7) / 8 + ((is.take (m + 1)).map fun i => (i.bytes 0).length).sum))
  | _, _, _, [], _, _, h => by simp at h
  | 0, c, w, i :: is, hk, m, h => by
    rw [blockPoints]
    cases m with
    | zero => simp [covered, Nat.add_assoc]
    | succ m =>
      rw [List.getElem?_cons_succ, blockPoints_get 7 _ _ is (by decide) m (by simpa using h)]
      simp only [List.take_succ_cons, covered, List.map_cons, List.sum_cons]
      congr 2 <;> omega
  | k + 1, c, w, i :: is, hk, m, h => by
    rw [blockPoints]
    cases m with
    | zero => simp [covered, Nat.add_assoc]
    | succ m =>
      rw [List.getElem?_cons_succ, blockPoints_get k _ _ is (by omega) m (by simpa using h)]
      simp only [List.take_succ_cons, covered, List.map_cons, List.sum_cons]
      congr 2 <;> omega

theorem blockPoints_length : ∀ (k c w : Nat) (is : List Item), (blockPoints k c w is).length = is.length
  | _, _, _, [] => by simp [blockPoints]
  | 0, _, _, i :: is => by rw [blockPoints, List.length_cons, blockPoints_length, List.length_cons]
  | k + 1, _, _, i :: is => by rw [blockPoints, List.length_cons, blockPoints_length, List.length_cons]

theorem trail_get (is : List Item) (m : Nat) (h : m ≤ is.length) :
    ([(0, 0)] ++ blockPoints 0 0 0 is)[m]? = some (covered (is.take m), written (is.take m)) := by
  cases m with
  | zero => simp [covered, written]
  | succ m =>
    rw [List.singleton_append, List.getElem?_cons_succ, blockPoints_get 0 0 0 is (by decide) m (by omega)]
    simp only [written, List.length_take]
    congr 2
    · omega
    · rw [Nat.min_eq_left h]; omega

theorem kept_unique {is : List Item} {m m' : Nat} (h : Kept is m) (h' : Kept is m') : m = m' := by
  rcases Nat.lt_trichotomy m m' with hl | hl | hl
  · have h1 := h.more (Nat.lt_of_lt_of_le hl h'.le)
    have h2 := h'.first m hl
    omega
  · exact hl
  · have h1 := h'.more (Nat.lt_of_lt_of_le hl h.le)
    have h2 := h.first m' hl
    omega

/-- Some beginning is kept. -/
theorem kept_exists (is : List Item) : ∃ m, Kept is m := by
  have key : ∀ n, n ≤ is.length → (∃ m, Kept is m) ∨ ∀ j < n, savings (is.take j) ≤ savings is := by
    intro n
    induction n with
    | zero => intro _; right; intro j hj; omega
    | succ n ih =>
      intro hn
      rcases ih (by omega) with h | h
      · exact .inl h
      · by_cases hs : savings is < savings (is.take n)
        · exact .inl ⟨n, by omega, fun _ => hs, h⟩
        · right
          intro j hj
          by_cases hjn : j = n
          · subst hjn; omega
          · exact h j (by omega)
  rcases key is.length (Nat.le_refl _) with h | h
  · exact h
  · exact ⟨is.length, Nat.le_refl _, fun h => absurd h (Nat.lt_irrefl _), h⟩

theorem encode_length (extra : Nat) : ∀ (k : Nat) (is : List Item), k ≤ 8 → (encode extra false k is).length =
    (is.length - k + 7) / 8 + (is.map fun i => (i.bytes 0).length).sum
  | k, [], _ => by cases k <;> simp [encode]
  | 0, i :: is, _ => by
    rw [encode, List.length_cons, List.length_append, encode_length extra 7 is (by decide), bytes_length]
    simp only [List.map_cons, List.sum_cons, List.length_cons]
    omega
  | k + 1, i :: is, hk => by
    rw [encode, List.length_append, encode_length extra k is (by omega), bytes_length]
    simp only [List.map_cons, List.sum_cons, List.length_cons]
    omega

theorem encode_written (extra : Nat) (is : List Item) : (encode extra false 0 is).length = written is := by
  rw [encode_length extra 0 is (by decide)]; rfl

theorem take_written_mono {is : List Item} {m : Nat} : written (is.take m) ≤ written is := by
  unfold written
  have : ((is.take m).map fun i => (i.bytes 0).length).sum ≤ (is.map fun i => (i.bytes 0).length).sum := by
    conv => rhs; rw [← List.take_append_drop m is, List.map_append, List.sum_append]
    omega
  rw [List.length_take]
  omega

theorem initInv : Inv initSt [(0, 0)] := by
  refine ⟨?_, by decide, ?_, ?_⟩
  · intro e he
    simp [initSt] at he
    subst he
    decide
  · intro v hv
    simp at hv
    subst hv
    decide
  · intro key fuel h1' h2'
    have h1 : key ≤ 0 := h1'
    have h2 : (0 : Int) - key < fuel := h2'
    clear h1' h2'
    refine ⟨(0, 0), ?_, ?_⟩
    · show firstKey [(0, (0, 0))] fuel key = _
      obtain ⟨n, hn⟩ : ∃ n : Nat, key = -(n : Int) := ⟨(-key).toNat, by omega⟩
      subst hn
      induction n generalizing fuel with
      | zero =>
        obtain ⟨f, rfl⟩ : ∃ f, fuel = f + 1 := ⟨fuel - 1, by omega⟩
        rfl
      | succ n ih =>
        obtain ⟨f, rfl⟩ : ∃ f, fuel = f + 1 := ⟨fuel - 1, by omega⟩
        have hd : dictGet [(0, (0, 0))] (-((n + 1 : Nat) : Int)) = none := by
          unfold dictGet
          rw [List.find?_eq_none.2]
          · rfl
          · intro e he
            simp at he
            subst he
            simp
            omega
        rw [firstKey, hd]
        show firstKey _ f (-((n + 1 : Nat) : Int) + 1) = _
        rw [show -((n + 1 : Nat) : Int) + 1 = -(n : Int) by omega]
        exact ih f (by omega) (by omega)
    · rw [List.find?_cons, decide_eq_true (show key ≤ saved (0, 0) from by unfold saved; omega)]

/-- What the common part of the compressors returns. -/
theorem compress_greedy {cfg : Cfg} (hcfg : CfgOk cfg) (hlen : cfg.maxMatchLen = 18) (data : Bytes) {L : List Item}
    (hL : Greedy cfg.maxMatchDiff cfg.searchReverse data 0 L) :
    ∃ a b, Model.LzCommon.compress cfg data = .ok (encode cfg.posSubtract cfg.zerosAtEnd 0 L, a, b) ∧
      (cfg.zerosAtEnd = false → ∃ m, Kept L m ∧ a = data.length - covered (L.take m) ∧
        b = written L - written (L.take m)) := by
  have hp := parse_greedy hlen (f := data.length) (pos := 0) (Nat.zero_le _) (Nat.le_refl _)
  have hLp : parse cfg data data.length 0 = L := greedy_unique hp hL
  obtain ⟨m1, m2, m3⟩ := mainLoop_greedy hcfg data data.length initSt [(0, 0)] (Nat.zero_le _) (Nat.le_refl _) initInv
  have e1 : initSt.res = [] := rfl
  have e2 : initSt.cur = 0 := rfl
  rw [e2, hLp] at m1 m3
  rw [e1] at m1 m3
  rw [List.nil_append] at m1
  rw [List.length_nil] at m3
  unfold Model.LzCommon.compress
  dsimp only
  generalize hst : mainLoop cfg data data.length initSt = st at *
  rw [m1, m2]
  have hcov : covered L = data.length := by
    have := greedy_le hL; omega
  split
  · rename_i hlt
    obtain ⟨v, hv, hf⟩ := m3.finds ((data.length : Int) - (encode cfg.posSubtract cfg.zerosAtEnd 0 L).length + 1)
      (st.best - ((data.length : Int) - (encode cfg.posSubtract cfg.zerosAtEnd 0 L).length)).toNat (by omega) (by omega)
    rw [hv]
    refine ⟨_, _, rfl, ?_⟩
    intro hz
    rw [hz] at hf hlt ⊢
    rw [encode_written] at hf hlt ⊢
    obtain ⟨hp1, m, hm, hmv, hmin⟩ := List.find?_eq_some_iff_getElem.1 hf
    have hmL : m ≤ L.length := by
      rw [List.length_append, blockPoints_length] at hm
      simp at hm
      omega
    have hvm : v = (covered (L.take m), written (L.take m)) := by
      have h1 := trail_get L m hmL
      rw [List.getElem?_eq_getElem hm, hmv] at h1
      exact Option.some.inj h1
    subst hvm
    have hsav : savings L = (data.length : Int) - written L := by unfold savings; rw [hcov]
    refine ⟨m, ⟨hmL, ?_, ?_⟩, rfl, rfl⟩
    · intro _
      have := of_decide_eq_true hp1
      unfold saved at this
      rw [hsav]
      unfold savings
      dsimp only at this
      omega
    · intro j hj
      have h1 := hmin j hj
      have h2 := trail_get L j (by omega)
      rw [List.getElem?_eq_getElem (by omega)] at h2
      rw [Option.some.inj h2] at h1
      simp only [Bool.not_eq_true', decide_eq_false_iff_not] at h1
      unfold saved at h1
      rw [hsav]
      unfold savings
      dsimp only at h1
      omega
  · rename_i hge
    refine ⟨_, _, rfl, ?_⟩
    intro hz
    rw [hz, encode_written] at hge
    refine ⟨L.length, ⟨Nat.le_refl _, fun h => absurd h (Nat.lt_irrefl _), ?_⟩, ?_, ?_⟩
    · intro j hj
      have h2 := trail_get L j (by omega)
      have h3 := m3.bound _ (List.mem_of_getElem? h2)
      unfold saved at h3
      unfold savings
      rw [hcov]
      dsimp only at h3
      omega
    · rw [List.take_length, hcov]; omega
    · rw [List.take_length]; omega

/-! ## Code compression -/

theorem fill_eq (n : Nat) : fill n = padLen n 4 := rfl

theorem clearBit2_eq (x : Nat) : Model.CodeCompression.clearBit2 x = x - (if x / 4 % 2 = 1 then 4 else 0) := by
  unfold Model.CodeCompression.clearBit2
  have : x / 4 % 2 < 2 := Nat.mod_lt _ (by decide)
  split <;> omega

theorem written_pos {L : List Item} (h : L ≠ []) : 0 < written L := by
  unfold written
  have : 0 < L.length := List.length_pos_iff.2 h
  omega

theorem covered_pos {w : Nat} {n : Bool} {data : Bytes} {pos : Nat} {L : List Item} (h : Greedy w n data pos L)
    (hne : L ≠ []) : 0 < covered L := by
  cases h with
  | done => exact absurd rfl hne
  | literal _ _ _ => rw [covered_cons]; simp only [Item.len]; omega
  | ref h3 _ _ _ =>
    rw [covered_cons]
    have := h3.1
    simp only [Item.len]
    omega

theorem compressInner_greedy (data : Bytes) {L : List Item} {m : Nat}
    (hL : Greedy 0x1002 true data.reverse 0 L) (hm : Kept L m) :
    Model.CodeCompression.compressInner data =
      (let front := data.take (data.length - covered (L.take m))
       let stream := (encode 3 false 0 L).take (written (L.take m))
       let pad := fill (front.length + stream.length)
       if data = [] ∨ TooLong data.length (written L) then .ok (data ++ zeros (fill data.length) ++ [0, 0, 0, 0])
       else if front.length + stream.length + pad + 8 ≤ data.length ∧ stream.length + pad + 8 < 2 ^ 32 ∧
          data.length - (front.length + stream.length + pad + 8) < 2 ^ 32 then
         .ok (codeFile data.length front stream)
       else .error .structError) := by
  obtain ⟨a, b, h1, h2⟩ := compress_greedy CodeCompression.cfgOk rfl data.reverse hL
  obtain ⟨m', hm', ha, hb⟩ := h2 rfl
  have := kept_unique hm' hm
  subst this
  rw [List.length_reverse] at ha
  unfold Model.CodeCompression.compressInner
  rw [h1, bind_ok]
  dsimp only
  have hR : (encode Model.CodeCompression.cfg.posSubtract Model.CodeCompression.cfg.zerosAtEnd 0 L) = encode 3 false 0 L := rfl
  rw [hR]
  have hcov : covered L = data.length := by
    have := greedy_le hL; rw [List.length_reverse] at this; omega
  have hRl := encode_written 3 L
  have hnil : (encode 3 false 0 L).reverse = [] ↔ data = [] := by
    rw [List.reverse_eq_nil_iff, ← List.length_eq_zero_iff, hRl, ← List.length_eq_zero_iff, ← hcov]
    constructor
    · intro h
      by_cases hLn : L = []
      · rw [hLn]; rfl
      · have := written_pos hLn; omega
    · intro h
      by_cases hLn : L = []
      · rw [hLn]; rfl
      · have := covered_pos hL hLn; omega
  have hS : (encode 3 false 0 L).reverse.drop b = ((encode 3 false 0 L).take (written (L.take m'))).reverse := by
    rw [List.drop_reverse, hRl, hb]
    congr 2
    have := take_written_mono (is := L) (m := m')
    omega
  have hTL : data.length + 4 < Model.CodeCompression.clearBit2 ((encode 3 false 0 L).reverse.length + 3) + 8 ↔
      TooLong data.length (written L) := by
    rw [List.length_reverse, hRl, clearBit2_eq]
    rfl
  rw [hS, ← ha]
  have hb2 : (encode 3 false 0 L).reverse.length - b = ((encode 3 false 0 L).take (written (L.take m'))).length := by
    rw [List.length_reverse, List.length_take, hRl, hb]
    have := take_written_mono (is := L) (m := m')
    omega
  rw [hb2]
  have hdec : (((encode 3 false 0 L).reverse = [] ∨
      data.length + 4 < Model.CodeCompression.clearBit2 ((encode 3 false 0 L).reverse.length + 3) + 8)) ↔
      (data = [] ∨ TooLong data.length (written L)) := by rw [hnil, hTL]
  simp only [hdec]
  generalize hst : (encode 3 false 0 L).take (written (L.take m')) = stream
  generalize hfr : data.take a = front
  have hcl : (front ++ stream.reverse).length = front.length + stream.length := by simp
  rw [hcl]
  split
  · rfl
  · generalize hpd : padLen (front.length + stream.length) 4 = pad
    rw [fill_eq, hpd]
    have hpad : pad < 4 := by rw [← hpd]; exact padLen_lt (by decide)
    generalize hA : padTo (front ++ stream.reverse) 4 0xFF = A
    by_cases hw : stream.length + (8 + pad) < 2 ^ 32
    · rw [packU_of_lt (by omega), bind_ok, packInto_of_le (by simp), bind_ok]
      have hset : pySet (patch (A ++ zeros 8) A.length (enBytes .little 4 (stream.length + (8 + pad))))
          (A.length + 3) (UInt8.ofNat (8 + pad)) =
          .ok ((patch (A ++ zeros 8) A.length (enBytes .little 4 (stream.length + (8 + pad)))).set
            (A.length + 3) (UInt8.ofNat (8 + pad))) := by
        unfold pySet
        rw [if_pos (by rw [patch_length (by simp)]; simp)]
      rw [hset, bind_ok]
      generalize hz : (data.length : Int) - (front.length + stream.length : Nat) - (8 + pad : Nat) = z
      by_cases hz0 : 0 ≤ z ∧ z.toNat < 2 ^ 32
      · have hzp : packUInt .little 4 z = .ok (enBytes .little 4 z.toNat) := by
          rw [packUInt_eq_ok]; exact ⟨hz0.1, by omega, rfl⟩
        rw [hzp, bind_ok, packInto_of_le (by rw [List.length_set, patch_length (by simp)]; simp),
          CodeCompression.footer_write, if_pos ⟨by omega, by omega, by omega⟩]
        congr 1
        unfold codeFile
        dsimp only
        rw [fill_eq, hpd, ← hA]
        unfold padTo
        rw [hcl, hpd, show stream.length + pad + 8 = stream.length + (8 + pad) by omega,
          show pad + 8 = 8 + pad by omega,
          show data.length - (front.length + stream.length + pad + 8) = z.toNat by omega]
        simp [enBytes]
      · have hzp : packUInt .little 4 z = .error .structError := by
          cases h : packUInt .little 4 z with
          | error e => rw [packUInt_err h]
          | ok v =>
            obtain ⟨q1, q2, _⟩ := packUInt_eq_ok.1 h
            exact absurd ⟨q1, by omega⟩ hz0
        rw [hzp, bind_error, if_neg (by rintro ⟨q1, _, q3⟩; exact hz0 ⟨by omega, by omega⟩)]
    · rw [packU_error (by omega), bind_error, if_neg (by rintro ⟨_, q2, _⟩; omega)]

end Verif.Proofs.LzGreedy
