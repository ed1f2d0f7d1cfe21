import Verif.Model.Lz10
import Verif.Proofs.LzCommon

/-!
# Lemmas about the LZ10 decompressor
-/

namespace Verif.Proofs.Lz10

open Verif Verif.Model.Lz10 Verif.Spec.LZ

/-- The output buffer holds `out` and is `n` long. -/
def Buf (n : Nat) (out buf : Bytes) : Prop := buf.length = n ∧ out.length ≤ n ∧ buf.take out.length = out

theorem Buf.get {n : Nat} {out buf : Bytes} (h : Buf n out buf) {i : Nat} (hi : i < out.length) :
    buf[i]? = out[i]? := by
  obtain ⟨_, _, h3⟩ := h
  conv => rhs; rw [← h3]
  rw [List.getElem?_take, if_pos hi]

theorem Buf.set {n : Nat} {out buf : Bytes} (h : Buf n out buf) (hl : out.length < n) (b : UInt8) :
    Buf n (out ++ [b]) (buf.set out.length b) := by
  obtain ⟨h1, _, h3⟩ := h
  refine ⟨by simp [h1], by simp; omega, ?_⟩
  rw [List.length_append, List.length_singleton, List.take_add, List.take_set_of_le (by omega), h3]
  congr 1
  rw [List.drop_set]
  simp only [Nat.lt_irrefl, if_false, Nat.sub_self]
  cases hd : buf.drop out.length with
  | nil => have := congrArg List.length hd; simp at this; omega
  | cons x xs => simp

theorem Buf.full {n : Nat} {out buf : Bytes} (h : Buf n out buf) (hl : out.length = n) : buf = out := by
  obtain ⟨h1, _, h3⟩ := h
  rw [← h3, List.take_of_length_le (by omega)]

theorem copyBack_length : ∀ {n dist : Nat} {out out' : Bytes}, copyBack n dist out = some out' →
    out'.length = out.length + n
  | 0, _, out, out', h => by simp [copyBack] at h; subst h; rfl
  | n + 1, dist, out, out', h => by
    simp only [copyBack] at h
    split at h
    · cases h
    · split at h
      · have := copyBack_length h; simp at this; omega
      · cases h

theorem copyLoop_sim (n : Nat) : ∀ {m dist : Nat} {out out' : Bytes} {st : DSt},
    copyBack m dist out = some out' → Buf n out st.out → st.outPos = out.length →
    st.left = n - out.length → out'.length ≤ n →
    ∃ st', copyLoop m ((out.length : Int) - dist) st = .ok st' ∧ Buf n out' st'.out ∧
      st'.outPos = out'.length ∧ st'.left = n - out'.length ∧ st'.inPos = st.inPos
  | 0, dist, out, out', st => by
    intro h hb hp hl _
    simp [copyBack] at h
    subst h
    exact ⟨st, rfl, hb, hp, hl, rfl⟩
  | m + 1, dist, out, out', st => by
    intro h hb hp hl hle
    have hlen := copyBack_length h
    simp only [copyBack] at h
    split at h
    · cases h
    · rename_i hc
      split at h
      · rename_i b hx
        simp only [copyLoop]
        rw [if_neg (by omega)]
        have hi : pyIdxI st.out ((out.length : Int) - dist) = .ok b := by
          unfold pyIdxI
          rw [if_pos (by omega)]
          have e : ((out.length : Int) - dist).toNat = out.length - dist := by omega
          rw [e, pyIdx_eq_ok, hb.get (by omega)]
          exact hx
        rw [hi, bind_ok]
        have hs : pySet st.out st.outPos b = .ok (st.out.set out.length b) := by
          unfold pySet
          rw [if_pos (by rw [hb.1]; omega), hp]
        rw [hs, bind_ok]
        have hwin : (out.length : Int) - dist + 1 = ((out ++ [b]).length : Int) - dist := by simp; omega
        rw [hwin]
        exact copyLoop_sim n (out := out ++ [b]) h (hb.set (by omega) b) (by simp [hp]) (by simp; omega) hle
      · cases h

theorem literal_sim (n : Nat) {data out : Bytes} {b : UInt8} {st : DSt} (hx : data[st.inPos]? = some b)
    (hb : Buf n out st.out) (hp : st.outPos = out.length) (hl : st.left = n - out.length)
    (hlt : out.length < n) :
    ∃ st', literal data st = .ok st' ∧ Buf n (out ++ [b]) st'.out ∧ st'.outPos = (out ++ [b]).length ∧
      st'.left = n - (out ++ [b]).length ∧ st'.inPos = st.inPos + 1 := by
  have hs : pySet st.out st.outPos b = .ok (st.out.set out.length b) := by
    unfold pySet
    rw [if_pos (by rw [hb.1]; omega), hp]
  unfold literal
  rw [pyIdx_eq_ok.2 hx, bind_ok, hs, bind_ok]
  exact ⟨_, rfl, hb.set hlt b, by simp [hp], by simp; omega, rfl⟩

/-- How the decoder goes on from a point inside a block. -/
def cont (data : Bytes) (fuel k fl : Nat) (st : DSt) : Py DSt := do
  let st' ← if fl ≠ 0 then flagItems data k (fl * 2 ^ (8 - k)) st else rawItems data k st
  blocks data fuel st'

theorem blocks_done (data : Bytes) (fuel : Nat) {st : DSt} (h : st.left = 0) :
    blocks data fuel st = .ok st := by
  cases fuel <;> simp [blocks, h]

theorem flagItems_done (data : Bytes) (k d : Nat) {st : DSt} (h : st.left = 0) :
    flagItems data k d st = .ok st := by
  cases k <;> simp [flagItems, h]

theorem rawItems_done (data : Bytes) (k : Nat) {st : DSt} (h : st.left = 0) :
    rawItems data k st = .ok st := by
  cases k <;> simp [rawItems, h]

theorem cont_done (data : Bytes) (fuel k fl : Nat) {st : DSt} (h : st.left = 0) :
    cont data fuel k fl st = .ok st := by
  unfold cont
  split
  · rw [flagItems_done data _ _ h]; exact blocks_done data _ h
  · rw [rawItems_done data _ h]; exact blocks_done data _ h

theorem cont_zero (data : Bytes) (fuel fl : Nat) (st : DSt) : cont data fuel 0 fl st = blocks data fuel st := by
  unfold cont
  split <;> rfl

theorem test_bit {fl k : Nat} (hk : k ≤ 7) : fl * 2 ^ (8 - (k + 1)) / 128 % 2 = fl / 2 ^ k % 2 := by
  have : (128 : Nat) = 2 ^ k * 2 ^ (8 - (k + 1)) := by
    rw [← Nat.pow_add, show k + (8 - (k + 1)) = 7 by omega]
  rw [this, Nat.mul_div_mul_right _ _ (Nat.pow_pos (by decide))]

theorem reach_slots {extra : Nat} {R : Bytes} {s : State} (h : Reach extra R s) :
    s.slots ≤ 8 ∧ s.flags < 256 := by
  induction h with
  | start => simp
  | @step s s' _ hs ih =>
    cases hs with
    | fetch pos fl out b hb => exact ⟨by simp, b.toNat_lt⟩
    | literal pos k fl out b hf hb => exact ⟨by simp at ih ⊢; omega, ih.2⟩
    | ref pos k fl out out' b1 b2 hf hb1 hb2 hcp => exact ⟨by simp at ih ⊢; omega, ih.2⟩

/-- The decoder follows the stream. -/
theorem blocks_reach {header R : Bytes} (hh : header.length = 4) {n : Nat} {s : State} (h : Reach 1 R s) :
    s.out.length ≤ n →
    ∃ fuel st, Buf n s.out st.out ∧ st.outPos = s.out.length ∧ st.left = n - s.out.length ∧
      blocks (header ++ R) n { out := zeros n, inPos := 4, outPos := 0, left := n } =
        cont (header ++ R) fuel s.slots s.flags st ∧
      (s.out.length < n → st.inPos = 4 + s.pos ∧ n - s.out.length ≤ fuel + (if s.slots = 0 then 0 else 1)) := by
  have hget (i : Nat) : (header ++ R)[4 + i]? = R[i]? := by
    rw [List.getElem?_append_right (by omega)]; congr 1; omega
  induction h with
  | start =>
    intro _
    refine ⟨n, _, ⟨by simp, by simp, by simp⟩, rfl, by simp, (cont_zero _ _ _ _).symm, ?_⟩
    intro _; simp
  | @step s s' hr hs ih =>
    intro hle
    have hsl := reach_slots hr
    cases hs with
    | fetch pos fl out b hb =>
      simp only at *
      obtain ⟨fuel, st, h1, h2, h3, h4, h5⟩ := ih hle
      by_cases hlt : out.length < n
      · obtain ⟨h6, h7⟩ := h5 hlt
        simp at h7
        obtain ⟨fuel', rfl⟩ : ∃ f, fuel = f + 1 := ⟨fuel - 1, by omega⟩
        refine ⟨fuel', { st with inPos := st.inPos + 1 }, h1, h2, h3, ?_, ?_⟩
        · rw [h4, cont_zero]
          simp only [blocks]
          rw [if_neg (by omega), h6, pyIdx_eq_ok.2 (by rw [hget]; exact hb), bind_ok]
          unfold cont
          by_cases hz : b = 0
          · subst hz; simp
          · have : b.toNat ≠ 0 := by
              intro h; apply hz; apply UInt8.toNat_inj.1; simpa using h
            simp [hz, this]
        · intro _; exact ⟨by simp; omega, by simp; omega⟩
      · refine ⟨fuel, st, h1, h2, h3, ?_, fun h => absurd h hlt⟩
        rw [h4, cont_done _ _ _ _ (by omega), cont_done _ _ _ _ (by omega)]
    | literal pos k fl out b hf hb =>
      simp only [List.length_append, List.length_singleton] at *
      obtain ⟨fuel, st, h1, h2, h3, h4, h5⟩ := ih (by omega)
      obtain ⟨h6, h7⟩ := h5 (by omega)
      obtain ⟨st', e1, e2, e3, e4, e5⟩ :=
        literal_sim n (data := header ++ R) (by rw [h6, hget]; exact hb) h1 h2 h3 (by omega)
      have hcont : cont (header ++ R) fuel (k + 1) fl st = cont (header ++ R) fuel k fl st' := by
        unfold cont
        by_cases hz : fl = 0
        · simp only [hz, ne_eq, not_true_eq_false, if_false, rawItems]
          rw [if_neg (by omega), e1, bind_ok]
        · simp only [ne_eq, hz, not_false_eq_true, if_true, flagItems]
          rw [if_neg (by omega), test_bit (by omega), if_neg (by omega), e1, bind_ok]
          have : fl * 2 ^ (8 - (k + 1)) * 2 = fl * 2 ^ (8 - k) := by
            rw [Nat.mul_assoc, ← Nat.pow_succ]; congr 2; omega
          rw [this]
      refine ⟨fuel, st', e2, by simpa using e3, by simpa using e4, by rw [h4, hcont], ?_⟩
      intro _
      refine ⟨by omega, ?_⟩
      simp at h7; split <;> omega
    | ref pos k fl out out' b1 b2 hf hb1 hb2 hcp =>
      simp only at *
      have hlen := copyBack_length hcp
      obtain ⟨fuel, st, h1, h2, h3, h4, h5⟩ := ih (by omega)
      obtain ⟨h6, h7⟩ := h5 (by omega)
      have hu : unpackU .big 2 (header ++ R) st.inPos = .ok (b1.toNat * 256 + b2.toNat) := by
        have hl := (List.getElem?_eq_some_iff.1 hb2).1
        rw [unpackU_eq_ok]
        refine ⟨by simp; omega, ?_⟩
        have : slice (header ++ R) st.inPos (st.inPos + 2) = [b1, b2] := by
          apply List.ext_getElem?
          intro i
          rw [getElem?_slice]
          match i with
          | 0 => rw [if_pos (by omega), h6]; simpa [hget] using hb1
          | 1 => rw [if_pos (by omega), h6, Nat.add_assoc, hget]; simpa using hb2
          | i + 2 => rw [if_neg (by omega)]; simp
        rw [this]
        simp [enVal, leVal]; omega
      have hbt := b2.toNat_lt
      obtain ⟨st', e1, e2, e3, e4, e5⟩ :=
        copyLoop_sim n (st := { st with inPos := st.inPos + 2 }) hcp h1 h2 h3 hle
      have hcont : cont (header ++ R) fuel (k + 1) fl st = cont (header ++ R) fuel k fl st' := by
        unfold cont
        have hz : fl ≠ 0 := by rintro rfl; simp at hf
        simp only [ne_eq, hz, not_false_eq_true, if_true, flagItems]
        rw [if_neg (by omega), test_bit (by omega), if_pos hf, hu, bind_ok]
        have a1 : (b1.toNat * 256 + b2.toNat) / 4096 + 3 = b1.toNat / 16 + 3 := by omega
        have a2 : (st.outPos : Int) - ((b1.toNat * 256 + b2.toNat) % 4096 : Nat) - 1 =
            (out.length : Int) - ((b1.toNat % 16 * 256 + b2.toNat + 1 : Nat) : Int) := by omega
        rw [a1, a2, e1, bind_ok]
        have : fl * 2 ^ (8 - (k + 1)) * 2 = fl * 2 ^ (8 - k) := by
          rw [Nat.mul_assoc, ← Nat.pow_succ]; congr 2; omega
        rw [this]
      refine ⟨fuel, st', e2, e3, e4, by rw [h4, hcont], ?_⟩
      intro _
      refine ⟨by rw [e5]; simp; omega, ?_⟩
      simp at h7; split <;> omega

theorem blocks_decodes {header R out : Bytes} (hh : header.length = 4) (h : Decodes 1 R out) :
    ∃ st, blocks (header ++ R) out.length
      { out := zeros out.length, inPos := 4, outPos := 0, left := out.length } = .ok st ∧ st.out = out := by
  obtain ⟨s, hs, rfl⟩ := h
  obtain ⟨fuel, st, h1, h2, h3, h4, _⟩ := blocks_reach hh hs (Nat.le_refl _)
  rw [h4, cont_done _ _ _ _ (by omega)]
  exact ⟨st, rfl, h1.full rfl⟩

theorem cfgOk : LzCommon.CfgOk cfg := ⟨by decide, by decide, by decide, by decide⟩

/-- Any well-formed LZ10 file decompresses to what its stream describes. -/
theorem decompress_decodes {R out : Bytes} (hl : out.length < 2 ^ 24) (h : Decodes 1 R out) :
    decompress (enBytes .little 4 (out.length * 256 + 16) ++ R) = .ok out := by
  obtain ⟨st, h1, h2⟩ := blocks_decodes (header := enBytes .little 4 (out.length * 256 + 16)) (by simp) h
  unfold decompress
  have hu : unpackU .little 4 (enBytes .little 4 (out.length * 256 + 16) ++ R) 0 =
      .ok (out.length * 256 + 16) := (At.first _ _).unpackU (by omega)
  have hi : pyIdx (enBytes .little 4 (out.length * 256 + 16) ++ R) 0 = .ok 0x10 := by
    rw [pyIdx_eq_ok]
    simp only [enBytes, leBytes, List.cons_append, List.getElem?_cons_zero]
    congr 1
    apply UInt8.toNat_inj.1
    simp
  rw [hi, bind_ok, hu]
  simp only [raiseIf, bind_ok, ne_eq, not_true_eq_false, if_false]
  have e : (out.length * 256 + 16) / 256 = out.length := by omega
  rw [e, h1, bind_ok, h2]
  rfl

/-! ## Behaviour on arbitrary input -/

/-- Results of the inner loops: the buffer keeps its size, and time passes. -/
def Good (st : DSt) (r : Py DSt) : Prop :=
  match r with
  | .ok st' => st'.out.length = st.out.length ∧ st'.left ≤ st.left
  | .error e => e = .indexError ∨ e = .structError

theorem Good.bind {st : DSt} {r : Py DSt} {f : DSt → Py DSt} (h : Good st r)
    (hf : ∀ st', r = .ok st' → st'.out.length = st.out.length → st'.left ≤ st.left → Good st' (f st')) :
    Good st (r >>= f) := by
  cases r with
  | error e => exact h
  | ok st' =>
    obtain ⟨h1, h2⟩ := h
    have := hf st' rfl h1 h2
    rw [bind_ok]
    revert this
    cases f st' with
    | error e => exact id
    | ok st'' => exact fun ⟨a, b⟩ => ⟨by omega, by omega⟩

theorem pyIdx_error {α : Type _} {d : List α} {i : Nat} {e : PyErr} (h : pyIdx d i = .error e) :
    e = .indexError := by
  unfold pyIdx at h
  split at h <;> simp_all

theorem pyIdxI_error {α : Type _} {d : List α} {i : Int} {e : PyErr} (h : pyIdxI d i = .error e) :
    e = .indexError := by
  unfold pyIdxI at h
  split at h
  · exact pyIdx_error h
  · split at h
    · exact pyIdx_error h
    · cases h; rfl

theorem pySet_error {α : Type _} {d : List α} {i : Nat} {v : α} {e : PyErr} (h : pySet d i v = .error e) :
    e = .indexError := by
  unfold pySet at h
  split at h <;> cases h; rfl

theorem pySet_length {α : Type _} {d d' : List α} {i : Nat} {v : α} (h : pySet d i v = .ok d') :
    d'.length = d.length := by
  unfold pySet at h
  split at h
  · cases h; simp
  · cases h

theorem copyLoop_good : ∀ (n : Nat) (win : Int) (st : DSt), Good st (copyLoop n win st) ∧
    ∀ st', copyLoop n win st = .ok st' → 0 < n → 0 < st.left → st'.left < st.left
  | 0, win, st => ⟨⟨rfl, Nat.le_refl _⟩, by intro _ _ h; omega⟩
  | n + 1, win, st => by
    simp only [copyLoop]
    by_cases hl : st.left = 0
    · rw [if_pos hl]; exact ⟨⟨rfl, Nat.le_refl _⟩, by intros; omega⟩
    · rw [if_neg hl]
      cases h1 : pyIdxI st.out win with
      | error e => exact ⟨Or.inl (pyIdxI_error h1), by intro _ h; cases h⟩
      | ok v =>
        rw [bind_ok]
        cases h2 : pySet st.out st.outPos v with
        | error e => exact ⟨Or.inl (pySet_error h2), by intro _ h; cases h⟩
        | ok out =>
          rw [bind_ok]
          have hlen := pySet_length h2
          obtain ⟨g1, g2⟩ := copyLoop_good n (win + 1)
            { st with out := out, outPos := st.outPos + 1, left := st.left - 1 }
          revert g1 g2
          cases copyLoop n (win + 1) { st with out := out, outPos := st.outPos + 1, left := st.left - 1 } with
          | error e => intro g1 _; exact ⟨g1, by intro _ h; cases h⟩
          | ok st' =>
            rintro ⟨a, b⟩ _
            simp only at a b
            refine ⟨⟨by omega, by omega⟩, ?_⟩
            intro st'' h _ _
            cases h
            omega

theorem literal_good (data : Bytes) (st : DSt) : Good st (literal data st) ∧
    ∀ st', literal data st = .ok st' → 0 < st.left → st'.left < st.left := by
  unfold literal
  cases h1 : pyIdx data st.inPos with
  | error e => exact ⟨Or.inl (pyIdx_error h1), by intro _ h; cases h⟩
  | ok v =>
    rw [bind_ok]
    cases h2 : pySet st.out st.outPos v with
    | error e => exact ⟨Or.inl (pySet_error h2), by intro _ h; cases h⟩
    | ok out =>
      rw [bind_ok]
      have hlen := pySet_length h2
      refine ⟨⟨hlen, by simp⟩, ?_⟩
      intro st' h hl
      cases h
      simp; omega

/-- One item of a block with flags. -/
def flagItem (data : Bytes) (d : Nat) (st : DSt) : Py DSt :=
  if d / 128 % 2 = 1 then do
    let thing ← unpackU .big 2 data st.inPos
    copyLoop (thing / 4096 + 3) ((st.outPos : Int) - (thing % 4096 : Nat) - 1) { st with inPos := st.inPos + 2 }
  else literal data st

theorem flagItem_good (data : Bytes) (d : Nat) (st : DSt) : Good st (flagItem data d st) ∧
    ∀ st', flagItem data d st = .ok st' → 0 < st.left → st'.left < st.left := by
  unfold flagItem
  split
  · unfold unpackU
    split
    · rw [bind_ok]
      obtain ⟨g1, g2⟩ := copyLoop_good (enVal .big (slice data st.inPos (st.inPos + 2)) / 4096 + 3)
        ((st.outPos : Int) - (enVal .big (slice data st.inPos (st.inPos + 2)) % 4096 : Nat) - 1)
        { st with inPos := st.inPos + 2 }
      exact ⟨g1, fun st' h hl => g2 st' h (by omega) hl⟩
    · exact ⟨Or.inr rfl, by intro _ h; cases h⟩
  · exact literal_good data st

theorem flagItems_succ (data : Bytes) (k d : Nat) (st : DSt) : flagItems data (k + 1) d st =
    if st.left = 0 then .ok st else (flagItem data d st >>= flagItems data k (d * 2)) := by
  simp only [flagItems, flagItem]
  split
  · rfl
  · split
    · cases unpackU .big 2 data st.inPos <;> rfl
    · rfl

theorem flagItems_good (data : Bytes) : ∀ (k d : Nat) (st : DSt), Good st (flagItems data k d st) ∧
    ∀ st', flagItems data k d st = .ok st' → 0 < k → 0 < st.left → st'.left < st.left
  | 0, d, st => ⟨⟨rfl, Nat.le_refl _⟩, by intro _ _ h; omega⟩
  | k + 1, d, st => by
    rw [flagItems_succ]
    by_cases hl : st.left = 0
    · rw [if_pos hl]; exact ⟨⟨rfl, Nat.le_refl _⟩, by intros; omega⟩
    · rw [if_neg hl]
      obtain ⟨g1, g2⟩ := flagItem_good data d st
      refine ⟨g1.bind (fun st' _ _ _ => (flagItems_good data k (d * 2) st').1), ?_⟩
      intro st' h _ hpos
      rw [bind_eq_ok] at h
      obtain ⟨st1, h1, h2⟩ := h
      have a := g2 st1 h1 hpos
      have b := (flagItems_good data k (d * 2) st1).1
      rw [h2] at b
      exact Nat.lt_of_le_of_lt b.2 a

theorem rawItems_good (data : Bytes) : ∀ (k : Nat) (st : DSt), Good st (rawItems data k st) ∧
    ∀ st', rawItems data k st = .ok st' → 0 < k → 0 < st.left → st'.left < st.left
  | 0, st => ⟨⟨rfl, Nat.le_refl _⟩, by intro _ _ h; omega⟩
  | k + 1, st => by
    simp only [rawItems]
    by_cases hl : st.left = 0
    · rw [if_pos hl]; exact ⟨⟨rfl, Nat.le_refl _⟩, by intros; omega⟩
    · rw [if_neg hl]
      obtain ⟨g1, g2⟩ := literal_good data st
      refine ⟨g1.bind (fun st' _ _ _ => (rawItems_good data k st').1), ?_⟩
      intro st' h _ hpos
      rw [bind_eq_ok] at h
      obtain ⟨st1, h1, h2⟩ := h
      have a := g2 st1 h1 hpos
      have b := (rawItems_good data k st1).1
      rw [h2] at b
      exact Nat.lt_of_le_of_lt b.2 a

theorem blocks_good (data : Bytes) : ∀ (fuel : Nat) (st : DSt), st.left ≤ fuel → Good st (blocks data fuel st)
  | 0, st, h => by
    rw [blocks_done data 0 (by omega)]; exact ⟨rfl, Nat.le_refl _⟩
  | fuel + 1, st, h => by
    simp only [blocks]
    by_cases hl : st.left = 0
    · rw [if_pos hl]; exact ⟨rfl, Nat.le_refl _⟩
    · rw [if_neg hl]
      cases h1 : pyIdx data st.inPos with
      | error e => exact Or.inl (pyIdx_error h1)
      | ok v =>
        rw [bind_ok]
        have key : Good st (if v ≠ 0 then flagItems data 8 v.toNat { st with inPos := st.inPos + 1 }
            else rawItems data 8 { st with inPos := st.inPos + 1 }) ∧
            ∀ st', (if v ≠ 0 then flagItems data 8 v.toNat { st with inPos := st.inPos + 1 }
            else rawItems data 8 { st with inPos := st.inPos + 1 }) = .ok st' → st'.left < st.left := by
          split
          · obtain ⟨g1, g2⟩ := flagItems_good data 8 v.toNat { st with inPos := st.inPos + 1 }
            exact ⟨g1, fun st' h => g2 st' h (by omega) (by simp; omega)⟩
          · obtain ⟨g1, g2⟩ := rawItems_good data 8 { st with inPos := st.inPos + 1 }
            exact ⟨g1, fun st' h => g2 st' h (by omega) (by simp; omega)⟩
        have := key.1.bind (f := blocks data fuel) (by
          intro st' h _ _
          have := key.2 st' h
          exact blocks_good data fuel st' (by omega))
        split <;> simp_all

end Verif.Proofs.Lz10
