import Verif.Model.CodeCompression
import Verif.Proofs.Lz10

/-!
# Lemmas about code compression
-/

namespace Verif.Proofs.CodeCompression

open Verif Verif.Model.CodeCompression Verif.Spec.LZ
open Verif.Proofs.Lz10 (Buf copyBack_length reach_slots)

theorem copyLoop_sim (n : Nat) : ∀ {m dist : Nat} {out out' : Bytes} {st : DSt},
    copyBack m dist out = some out' → Buf n out st.out → st.cur = out.length → out'.length ≤ n →
    ∃ st', copyLoop m (out.length - dist) st = .ok st' ∧ Buf n out' st'.out ∧
      st'.cur = out'.length ∧ st'.readBytes = st.readBytes ∧ st'.flags = st.flags ∧ st'.mask = st.mask
  | 0, dist, out, out', st => by
    intro h hb hp _
    simp [copyBack] at h
    subst h
    exact ⟨st, rfl, hb, hp, rfl, rfl, rfl⟩
  | m + 1, dist, out, out', st => by
    intro h hb hp hle
    have hlen := copyBack_length h
    simp only [copyBack] at h
    split at h
    · cases h
    · rename_i hc
      split at h
      · rename_i b hx
        simp only [copyLoop]
        rw [pyIdx_eq_ok.2 (by rw [hb.get (by omega)]; exact hx), bind_ok]
        have hs : pySet st.out st.cur b = .ok (st.out.set out.length b) := by
          unfold pySet
          rw [if_pos (by rw [hb.1]; omega), hp]
        rw [hs, bind_ok]
        have hwin : out.length - dist + 1 = (out ++ [b]).length - dist := by simp; omega
        rw [hwin]
        exact copyLoop_sim n (out := out ++ [b]) h (hb.set (by omega) b) (by simp [hp]) hle
      · cases h

/-- How the decoder goes on: between two iterations, or just after a flag byte was fetched. -/
def cont (rev : Bytes) (cl dl fuel slots : Nat) (st : DSt) : Py DSt :=
  if slots = 8 then doItem rev dl st >>= decLoop rev cl dl fuel else decLoop rev cl dl (fuel + 1) st

/-- One item in the decoder. -/
theorem doItem_literal {rev : Bytes} {dl n k fl : Nat} {out : Bytes} {b : UInt8} {st : DSt}
    (hf : fl / 2 ^ k % 2 = 0) (hb : rev[st.readBytes]? = some b) (hdl : rev.length < dl)
    (hbuf : Buf n out st.out) (hc : st.cur = out.length) (hfl : st.flags = fl) (hm : st.mask = 2 ^ k)
    (hlt : out.length < n) :
    ∃ st', doItem rev dl st = .ok st' ∧ Buf n (out ++ [b]) st'.out ∧ st'.cur = (out ++ [b]).length ∧
      st'.readBytes = st.readBytes + 1 ∧ st'.flags = fl ∧ st'.mask = 2 ^ k := by
  have hs : pySet st.out st.cur b = .ok (st.out.set out.length b) := by
    unfold pySet
    rw [if_pos (by rw [hbuf.1]; omega), hc]
  have hrl := (List.getElem?_eq_some_iff.1 hb).1
  unfold doItem
  rw [hfl, hm, if_neg (by omega), raiseIf_false (by omega), bind_ok, pyIdx_eq_ok.2 hb, bind_ok, hs, bind_ok]
  exact ⟨_, rfl, hbuf.set hlt b, by simp [hc], rfl, by simp, by simp⟩

theorem doItem_ref {rev : Bytes} {dl n k fl : Nat} {out out' : Bytes} {b1 b2 : UInt8} {st : DSt}
    (hf : fl / 2 ^ k % 2 = 1) (hb1 : rev[st.readBytes]? = some b1) (hb2 : rev[st.readBytes + 1]? = some b2)
    (hdl : rev.length < dl) (hbuf : Buf n out st.out) (hc : st.cur = out.length) (hfl : st.flags = fl)
    (hm : st.mask = 2 ^ k) (hle : out'.length ≤ n)
    (hcp : copyBack (b1.toNat / 16 + 3) (b1.toNat % 16 * 256 + b2.toNat + 3) out = some out') :
    ∃ st', doItem rev dl st = .ok st' ∧ Buf n out' st'.out ∧ st'.cur = out'.length ∧
      st'.readBytes = st.readBytes + 2 ∧ st'.flags = fl ∧ st'.mask = 2 ^ k := by
  have hrl := (List.getElem?_eq_some_iff.1 hb2).1
  have hdist : b1.toNat % 16 * 256 + b2.toNat + 3 ≤ out.length := by
    simp only [copyBack] at hcp
    split at hcp
    · cases hcp
    · omega
  obtain ⟨st', e1, e2, e3, e4, e5, e6⟩ :=
    copyLoop_sim n (st := { st with readBytes := st.readBytes + 2 }) hcp hbuf hc hle
  refine ⟨st', ?_, e2, e3, e4, by rw [e5]; exact hfl, by rw [e6]; exact hm⟩
  unfold doItem
  rw [hfl, hm, if_pos hf, raiseIf_false (by omega), bind_ok, pyIdx_eq_ok.2 hb1, bind_ok,
    pyIdx_eq_ok.2 hb2, bind_ok]
  simp only
  rw [if_neg (by omega), hc, ← hfl, ← hm, ← hc]
  rw [← hc] at e1
  exact e1

/-- The decoder follows the stream. -/
theorem decLoop_reach {rev : Bytes} {cl dl n : Nat} (hcl : rev.length ≤ cl) (hdl : rev.length < dl)
    {s : State} (h : Reach 3 rev s) : s.out.length ≤ n →
    (s.out.length = n → ∃ st, decLoop rev cl dl n
        { out := zeros n, cur := 0, readBytes := 0, flags := 0, mask := 1 } = .ok st ∧ st.out = s.out) ∧
    (s.out.length < n → ∃ fuel st, Buf n s.out st.out ∧ st.cur = s.out.length ∧ st.readBytes = s.pos ∧
      st.flags = s.flags ∧ st.mask = (if s.slots = 8 then 128 else 2 ^ s.slots) ∧
      decLoop rev cl dl n { out := zeros n, cur := 0, readBytes := 0, flags := 0, mask := 1 } =
        cont rev cl dl fuel s.slots st ∧ n - s.out.length ≤ fuel + 1) := by
  induction h with
  | start =>
    intro _
    refine ⟨?_, ?_⟩
    · intro h
      simp at h
      subst h
      exact ⟨_, by simp [decLoop, zeros]; rfl, rfl⟩
    · intro h
      simp at h
      obtain ⟨m, rfl⟩ : ∃ m, n = m + 1 := ⟨n - 1, by omega⟩
      exact ⟨m, { out := zeros (m + 1), cur := 0, readBytes := 0, flags := 0, mask := 1 },
        ⟨by simp, by simp, by simp⟩, rfl, rfl, rfl, by simp, by simp [cont], by simp⟩
  | @step s s' hr hs ih =>
    intro hle
    have hsl := reach_slots hr
    -- what happens after an item has been executed from `st` with `k` slots left afterwards
    have finish : ∀ (k fl pos : Nat) (out : Bytes) (fuel : Nat) (st st' : DSt), k ≤ 7 → out.length ≤ n →
        doItem rev dl st = .ok st' → Buf n out st'.out → st'.cur = out.length → st'.readBytes = pos →
        st'.flags = fl → st'.mask = 2 ^ k → n - out.length ≤ fuel →
        (out.length = n → ∃ r, (doItem rev dl st >>= decLoop rev cl dl fuel) = .ok r ∧ r.out = out) ∧
        (out.length < n → ∃ fuel' r, Buf n out r.out ∧ r.cur = out.length ∧ r.readBytes = pos ∧
          r.flags = fl ∧ r.mask = (if k = 8 then 128 else 2 ^ k) ∧
          (doItem rev dl st >>= decLoop rev cl dl fuel) = cont rev cl dl fuel' k r ∧
          n - out.length ≤ fuel' + 1) := by
      intro k fl pos out fuel st st' hk hol hi hb hc hrb hf hm hfu
      refine ⟨?_, ?_⟩
      · intro hn
        refine ⟨st', ?_, hb.full hn⟩
        rw [hi, bind_ok]
        have : ¬ st'.cur < st'.out.length := by rw [hb.1]; omega
        cases fuel <;> simp [decLoop, this]
      · intro hn
        obtain ⟨m, rfl⟩ : ∃ m, fuel = m + 1 := ⟨fuel - 1, by omega⟩
        refine ⟨m, st', hb, hc, hrb, hf, by rw [hm, if_neg (by omega)], ?_, hfu⟩
        rw [hi, bind_ok]
        unfold cont
        rw [if_neg (by omega)]
    -- bring a state into the form "about to execute an item"
    have enter : ∀ (k fl : Nat) (out : Bytes) (fuel : Nat) (st : DSt), k + 1 ≤ 8 → out.length < n →
        Buf n out st.out → st.cur = out.length → st.mask = (if k + 1 = 8 then 128 else 2 ^ (k + 1)) →
        n - out.length ≤ fuel + 1 →
        ∃ st1 : DSt, st1.out = st.out ∧ st1.cur = st.cur ∧ st1.readBytes = st.readBytes ∧
          st1.flags = st.flags ∧ st1.mask = 2 ^ k ∧
          cont rev cl dl fuel (k + 1) st = (doItem rev dl st1 >>= decLoop rev cl dl fuel) := by
      intro k fl out fuel st hk hlt hb hc hm hfu
      by_cases h8 : k + 1 = 8
      · refine ⟨st, rfl, rfl, rfl, rfl, ?_, ?_⟩
        · rw [hm, if_pos h8]; have : k = 7 := by omega
          subst this; rfl
        · unfold cont; rw [if_pos h8]
      · rw [if_neg h8] at hm
        refine ⟨{ st with mask := st.mask / 2 }, rfl, rfl, rfl, rfl, ?_, ?_⟩
        · simp only [hm, Nat.pow_succ]; omega
        · unfold cont
          rw [if_neg h8]
          simp only [decLoop]
          rw [if_pos (by rw [hb.1]; omega)]
          unfold nextMask
          have : st.mask ≠ 1 := by
            rw [hm, Nat.pow_succ]
            have := Nat.pow_pos (a := 2) (n := k) (by decide)
            omega
          rw [if_neg this, bind_ok]
    cases hs with
    | fetch pos fl out b hb =>
      simp only at *
      obtain ⟨i1, i2⟩ := ih hle
      refine ⟨i1, ?_⟩
      intro hlt
      obtain ⟨fuel, st, h1, h2, h3, h4, h5, h6, h7⟩ := i2 hlt
      have hpl := (List.getElem?_eq_some_iff.1 hb).1
      refine ⟨fuel, { st with flags := b.toNat, readBytes := st.readBytes + 1, mask := 0x80 }, h1, h2,
        by simp [h3], rfl, by simp, ?_, h7⟩
      rw [h6]
      unfold cont
      simp only [decLoop]
      rw [if_neg (by decide), if_pos (by rw [h1.1]; omega), if_pos trivial]
      unfold nextMask
      rw [if_pos (by simpa using h5), raiseIf_false (by omega), bind_ok, h3, pyIdx_eq_ok.2 hb, bind_ok]
      rfl
    | literal pos k fl out b hf hb =>
      simp only [List.length_append, List.length_singleton] at *
      obtain ⟨i1, i2⟩ := ih (by omega)
      obtain ⟨fuel, st, h1, h2, h3, h4, h5, h6, h7⟩ := i2 (by omega)
      obtain ⟨st1, a1, a2, a3, a4, a5, a6⟩ := enter k fl out fuel st hsl.1 (by omega) h1 h2 h5 h7
      obtain ⟨st', e1, e2, e3, e4, e5, e6⟩ := doItem_literal (dl := dl) (n := n) (st := st1) hf
        (by rw [a3, h3]; exact hb) hdl (by rw [a1]; exact h1) (by rw [a2]; exact h2) (by rw [a4]; exact h4)
        a5 (by omega)
      have := finish k fl (pos + 1) (out ++ [b]) fuel st1 st' (by omega) (by simpa using hle) e1 e2 e3
        (by rw [e4, a3, h3]) e5 e6 (by simp; omega)
      rw [h6, a6]
      simpa using this
    | ref pos k fl out out' b1 b2 hf hb1 hb2 hcp =>
      simp only at *
      have hlen := copyBack_length hcp
      obtain ⟨i1, i2⟩ := ih (by omega)
      obtain ⟨fuel, st, h1, h2, h3, h4, h5, h6, h7⟩ := i2 (by omega)
      obtain ⟨st1, a1, a2, a3, a4, a5, a6⟩ := enter k fl out fuel st hsl.1 (by omega) h1 h2 h5 h7
      obtain ⟨st', e1, e2, e3, e4, e5, e6⟩ := doItem_ref (dl := dl) (n := n) (st := st1) hf
        (by rw [a3, h3]; exact hb1) (by rw [a3, h3]; exact hb2) hdl (by rw [a1]; exact h1)
        (by rw [a2]; exact h2) (by rw [a4]; exact h4) a5 hle hcp
      have := finish k fl (pos + 2) out' fuel st1 st' (by omega) hle e1 e2 e3
        (by rw [e4, a3, h3]) e5 e6 (by omega)
      rw [h6, a6]
      exact this

theorem decLoop_decodes {rev out : Bytes} {cl dl : Nat} (hcl : rev.length ≤ cl) (hdl : rev.length < dl)
    (h : Decodes 3 rev out) :
    ∃ st, decLoop rev cl dl out.length
      { out := zeros out.length, cur := 0, readBytes := 0, flags := 0, mask := 1 } = .ok st ∧ st.out = out := by
  obtain ⟨s, hs, rfl⟩ := h
  exact (decLoop_reach hcl hdl hs (Nat.le_refl _)).1 rfl

theorem cfgOk : LzCommon.CfgOk cfg := ⟨by decide, by decide, by decide, by decide⟩

/-! ## The footer -/

/-- The shape of a compressed file: literal start, stream stored backwards, padding and footer. -/
def compFile (lit S : Bytes) (x : Nat) : Bytes :=
  let pad := padLen (lit.length + S.length) 4
  lit ++ S.reverse ++ List.replicate pad 0xFF ++
    enBytes .little 4 (S.length + (8 + pad) + (8 + pad) * 2 ^ 24) ++ enBytes .little 4 x

theorem compFile_length (lit S : Bytes) (x : Nat) :
    (compFile lit S x).length = lit.length + S.length + padLen (lit.length + S.length) 4 + 8 := by
  simp [compFile]; omega

theorem unpackFooter_at {data : Bytes} {a b : Nat} {o : Nat} (h1 : At data o (enBytes .little 4 a))
    (h2 : At data (o + 4) (enBytes .little 4 b)) (ha : a < 2 ^ 32) (hb : b < 2 ^ 32) :
    unpackFooter data (o : Int) = .ok (a, b) := by
  unfold unpackFooter
  rw [if_pos (by omega)]
  simp only [Int.toNat_natCast]
  rw [h1.unpackU (by omega), bind_ok, h2.unpackU (by omega), bind_ok]
  rfl

/-- Decompressing a well-formed compressed file. -/
theorem decompress_compFile {P lit S out : Bytes} {x : Nat} (hS : Decodes 3 S out.reverse)
    (hx : 0 < x) (hx32 : x < 2 ^ 32) (hs24 : S.length + padLen (lit.length + S.length) 4 + 8 < 2 ^ 24)
    (hlen : (compFile lit S x).length + x = lit.length + out.length) :
    decompress (P ++ compFile lit S x) = .ok (P ++ lit ++ out) := by
  have hpad := padLen_lt (len := lit.length + S.length) (align := 4) (by decide)
  have hcl := compFile_length lit S x
  generalize hp : padLen (lit.length + S.length) 4 = pad at *
  generalize hD : P ++ compFile lit S x = D
  have hDl : D.length = P.length + (lit.length + S.length + pad + 8) := by
    rw [← hD, List.length_append, hcl]
  let w := S.length + (8 + pad) + (8 + pad) * 2 ^ 24
  have hD' : D = P ++ lit ++ S.reverse ++ List.replicate pad 0xFF ++ enBytes .little 4 w ++
      enBytes .little 4 x := by
    rw [← hD]; simp [compFile, hp, w]
  have hw32 : w < 2 ^ 32 := by simp only [w]; omega
  have hAt1 : At D (D.length - 8) (enBytes .little 4 w) := by
    conv => arg 1; rw [hD']
    refine At.mk' ?_
    simp; omega
  have hAt2 : At D (D.length - 8 + 4) (enBytes .little 4 x) := by
    conv => arg 1; rw [hD']
    refine At.last' ?_
    simp; omega
  have hfoot : unpackFooter D ((D.length : Int) - 8) = .ok (w, x) := by
    have : (D.length : Int) - 8 = ((D.length - 8 : Nat) : Int) := by omega
    rw [this]
    exact unpackFooter_at hAt1 hAt2 hw32 hx32
  have hwh : w / 2 ^ 24 = 8 + pad := by simp only [w]; omega
  have hwc : w % 2 ^ 24 = S.length + (8 + pad) := by simp only [w]; omega
  have hdet : detectAppendedData D = .ok (some 0) := by
    unfold detectAppendedData
    simp only [detectLoop]
    have hidx : ∃ v, pyIdxI D (-5 - ((0 : Nat) : Int)) = .ok v := by
      unfold pyIdxI
      rw [if_neg (by omega), if_pos (by omega)]
      refine ⟨D[D.length - 5]'(by omega), ?_⟩
      rw [pyIdx_eq_ok, List.getElem?_eq_some_iff]
      refine ⟨by omega, ?_⟩
      congr 1; omega
    obtain ⟨v, hv⟩ := hidx
    rw [hv]
    dsimp only
    have : (D.length : Int) - ((0 : Nat) : Int) - 8 = (D.length : Int) - 8 := by omega
    rw [this, hfoot, bind_ok]
    dsimp only
    rw [hwh, hwc, if_neg (by omega), if_neg (by omega)]
  unfold decompress
  rw [hdet, bind_ok]
  simp only [Nat.sub_zero, List.take_length, List.drop_length]
  unfold decompressCore
  have hlast : D.drop (D.length - 4) = enBytes .little 4 x := by
    have := hAt2
    rw [show D.length - 8 + 4 = D.length - 4 by omega] at this
    exact this.drop_eq (by simp; omega)
  have hne : enBytes .little 4 x ≠ [0, 0, 0, 0] := by
    intro h
    have h1 := enVal_enBytes (e := .little) (k := 4) (n := x) (by omega)
    rw [h] at h1
    simp [enVal, leVal] at h1
    omega
  rw [hlast, if_neg hne, hfoot, bind_ok]
  dsimp only
  rw [hwh, hwc, raiseIf_false (by omega), bind_ok, raiseIf_false (by omega), bind_ok]
  have hffs : slice D (D.length - (8 + pad)) (D.length - 8) = List.replicate pad 0xFF := by
    have : At D (D.length - (8 + pad)) (List.replicate pad 0xFF) := by
      conv => arg 1; rw [hD']
      refine At.append_right (At.mk' ?_) _
      simp; omega
    exact this.slice_eq (by simp; omega)
  rw [hffs, raiseIf_false (by simp), bind_ok]
  have hcomp : slice D (D.length - (S.length + (8 + pad))) (D.length - (8 + pad)) = S.reverse := by
    have : At D (D.length - (S.length + (8 + pad))) S.reverse := by
      conv => arg 1; rw [hD']
      refine At.append_right (At.append_right (At.mk' ?_) _) _
      simp; omega
    exact this.slice_eq (by simp; omega)
  have hpt : D.take (D.length - (S.length + (8 + pad))) = P ++ lit := by
    have : At D 0 (P ++ lit) := by
      rw [hD', List.append_assoc, List.append_assoc, List.append_assoc]
      exact At.first _ _
    have h2 := this.slice_eq (b := D.length - (S.length + (8 + pad))) (by simp; omega)
    rwa [slice_zero] at h2
  rw [hcomp, hpt, List.reverse_reverse]
  have hdl : D.length + x - (D.length - (S.length + (8 + pad))) = out.reverse.length := by
    simp; omega
  rw [hdl]
  obtain ⟨st, h1, h2⟩ := decLoop_decodes (cl := S.length + (8 + pad)) (dl := D.length) (by omega)
    (by omega) hS
  rw [h1, bind_ok, h2]
  simp [pure_def]

theorem footer_write (A : Bytes) (w h x : Nat) :
    patch ((patch (A ++ zeros 8) A.length (enBytes .little 4 w)).set (A.length + 3) (UInt8.ofNat h))
      (A.length + 4) (enBytes .little 4 x) =
    A ++ (enBytes .little 3 w ++ [UInt8.ofNat h]) ++ enBytes .little 4 x := by
  have := patch_append_left A (zeros 8) (enBytes .little 4 w) 0
  rw [Nat.add_zero] at this
  rw [this, List.set_append_right _ _ (by omega), patch_append_left, List.append_assoc]
  congr 1
  rw [show A.length + 3 - A.length = 3 by omega]
  simp [patch, zeros, enBytes, leBytes]

theorem footer_word {w h : Nat} (hw : w < 2 ^ 24) :
    enBytes .little 3 w ++ [UInt8.ofNat h] = enBytes .little 4 (w + h * 2 ^ 24) := by
  simp only [enBytes]
  rw [leBytes_append 3 1 (w + h * 2 ^ 24)]
  have e1 : (w + h * 2 ^ 24) / 256 ^ 3 = h := by omega
  have e2 : leBytes 3 (w + h * 2 ^ 24) = leBytes 3 w := by
    have h1 := leVal_leBytes 3 (w + h * 2 ^ 24)
    have h2 := leBytes_leVal (leBytes 3 (w + h * 2 ^ 24))
    rw [h1] at h2
    rw [← h2, leBytes_length]
    congr 1; omega
  rw [e1, e2]
  rfl

/-- What `_compress` returns when it makes the data smaller. -/
theorem compressInner_ok {data c : Bytes} (h : compressInner data = .ok c) (hlt : c.length < data.length)
    (h24 : c.length < 2 ^ 24) :
    ∃ lit S x, c = compFile lit S x ∧ Decodes 3 S (data.drop lit.length).reverse ∧
      data.take lit.length = lit ∧ x + c.length = data.length ∧ x < 2 ^ 32 := by
  obtain ⟨R, ignD, ignC, h1, h2, h3, h4, h5, h6⟩ := LzCommon.compress_spec cfgOk data.reverse
  unfold compressInner at h
  rw [h1, bind_ok] at h
  dsimp only at h
  split at h
  · exfalso
    rw [pure_eq_ok] at h
    subst h
    simp at hlt; omega
  · simp only [bind_eq_ok] at h
    obtain ⟨w, hw, c5, hc5, c6, hc6, e, he, hc⟩ := h
    rw [List.length_reverse] at *
    rw [packU_eq_ok] at hw
    obtain ⟨hw1, rfl⟩ := hw
    rw [packInto_eq_ok] at hc5 hc
    rw [packUInt_eq_ok] at he
    obtain ⟨he1, he2, rfl⟩ := he
    obtain ⟨_, rfl⟩ := hc5
    obtain ⟨_, rfl⟩ := hc
    unfold pySet at hc6
    split at hc6
    case isFalse => cases hc6
    simp only [Except.ok.injEq] at hc6
    subst hc6
    have hlit : (data.take ignD).length = ignD := by simp; omega
    have hS : R.reverse.drop ignC = (R.take (R.length - ignC)).reverse := by
      rw [List.drop_reverse]
    have hSl : (R.take (R.length - ignC)).length = R.length - ignC := by simp
    have hdrop : (data.drop ignD).reverse = data.reverse.take (data.length - ignD) := by
      rw [List.reverse_drop]
    rw [hS] at he1 he2 hlt h24 ⊢
    rw [footer_write] at hlt h24 ⊢
    refine ⟨data.take ignD, R.take (R.length - ignC),
      ((data.length : Int) - (data.take ignD ++ (R.take (R.length - ignC)).reverse).length -
        (8 + padLen (data.take ignD ++ (R.take (R.length - ignC)).reverse).length 4 : Nat)).toNat,
      ?_, ?_, ?_, ?_, ?_⟩
    · have hcl : (data.take ignD ++ (R.take (R.length - ignC)).reverse).length =
        (data.take ignD).length + (R.take (R.length - ignC)).length := by simp
      have hpad := padLen_lt (len := (data.take ignD).length + (R.take (R.length - ignC)).length)
        (align := 4) (by decide)
      rw [footer_word (by rw [hcl] at h24 ⊢; simp at h24; simp; omega)]
      unfold compFile padTo
      rw [hcl, hSl]
    · rw [hlit, hdrop]; exact h5
    · rw [hlit]
    · simp at he1 ⊢; omega
    · omega

/-! ## The outcomes of `_compress` -/

theorem clearBit2_ge (x : Nat) : x ≤ clearBit2 x + 4 := by
  unfold clearBit2
  have : x / 4 % 2 < 2 := Nat.mod_lt _ (by decide)
  omega

/-- `_compress` returns the padded data, raises `struct.error`, or returns something no longer than the
data. -/
theorem compressInner_cases (data : Bytes) (hl : data.length < 2 ^ 24) :
    compressInner data = .ok (padTo data 4 0 ++ [0, 0, 0, 0]) ∨
    compressInner data = .error .structError ∨
    ∃ lit S x, compressInner data = .ok (compFile lit S x) ∧
      Decodes 3 S (data.drop lit.length).reverse ∧ data.take lit.length = lit ∧
      x + (compFile lit S x).length = data.length := by
  obtain ⟨R, ignD, ignC, h1, h2, h3, h4, h5, h6⟩ := LzCommon.compress_spec cfgOk data.reverse
  unfold compressInner
  rw [h1, bind_ok]
  dsimp only
  split
  · left; rfl
  · right
    rename_i hcond
    rw [List.length_reverse] at *
    have hlit : (data.take ignD).length = ignD := by simp; omega
    have hS : R.reverse.drop ignC = (R.take (R.length - ignC)).reverse := by
      rw [List.drop_reverse]
    have hSl : (R.take (R.length - ignC)).length = R.length - ignC := by simp
    have hdrop : (data.drop ignD).reverse = data.reverse.take (data.length - ignD) := by
      rw [List.reverse_drop]
    have hcl : (data.take ignD ++ (R.take (R.length - ignC)).reverse).length =
        (data.take ignD).length + (R.take (R.length - ignC)).length := by simp
    have hc2 := clearBit2_ge (R.length + 3)
    rw [hS, hcl]
    have hpad := padLen_lt (len := (data.take ignD).length + (R.take (R.length - ignC)).length)
      (align := 4) (by decide)
    generalize hpd : padLen ((data.take ignD).length + (R.take (R.length - ignC)).length) 4 = pad at *
    have hRl : R.length ≤ data.length := by omega
    rw [packU_of_lt (by omega), bind_ok]
    generalize hA : padTo (data.take ignD ++ (R.take (R.length - ignC)).reverse) 4 0xFF = A
    rw [packInto_of_le (by simp), bind_ok]
    have hset : pySet (patch (A ++ zeros 8) A.length (enBytes .little 4 (R.length - ignC + (8 + pad))))
        (A.length + 3) (UInt8.ofNat (8 + pad)) =
        .ok ((patch (A ++ zeros 8) A.length (enBytes .little 4 (R.length - ignC + (8 + pad)))).set
          (A.length + 3) (UInt8.ofNat (8 + pad))) := by
      unfold pySet
      rw [if_pos (by rw [patch_length (by simp)]; simp)]
    rw [hset, bind_ok]
    generalize hz : (data.length : Int) - ((data.take ignD).length + (R.take (R.length - ignC)).length : Nat) -
      (8 + pad : Nat) = z
    by_cases hz0 : 0 ≤ z
    · right
      have hzp : packUInt .little 4 z = .ok (enBytes .little 4 z.toNat) := by
        rw [packUInt_eq_ok]; exact ⟨hz0, by omega, rfl⟩
      rw [hzp, bind_ok, packInto_of_le (by rw [List.length_set, patch_length (by simp)]; simp),
        footer_write]
      refine ⟨data.take ignD, R.take (R.length - ignC), z.toNat, ?_, ?_, ?_, ?_⟩
      · rw [footer_word (by omega)]
        congr 1
        unfold compFile
        rw [← hA]
        unfold padTo
        rw [hcl, hpd, hSl]
      · rw [hlit, hdrop]; exact h5
      · rw [hlit]
      · rw [compFile_length, hpd]; omega
    · left
      have hzp : packUInt .little 4 z = .error .structError := by
        unfold packUInt; rw [if_neg hz0]
      rw [hzp, bind_error]

/-- A file with zero extra size is taken for uncompressed data. -/
theorem decompress_compFile_zero {P lit S : Bytes} (hs24 : S.length + padLen (lit.length + S.length) 4 + 8 < 2 ^ 24) :
    decompress (P ++ compFile lit S 0) = .ok (P ++ compFile lit S 0) := by
  have hpad := padLen_lt (len := lit.length + S.length) (align := 4) (by decide)
  have hcl := compFile_length lit S 0
  generalize hp : padLen (lit.length + S.length) 4 = pad at *
  generalize hD : P ++ compFile lit S 0 = D
  have hDl : D.length = P.length + (lit.length + S.length + pad + 8) := by
    rw [← hD, List.length_append, hcl]
  let w := S.length + (8 + pad) + (8 + pad) * 2 ^ 24
  have hD' : D = P ++ lit ++ S.reverse ++ List.replicate pad 0xFF ++ enBytes .little 4 w ++
      enBytes .little 4 0 := by
    rw [← hD]; simp [compFile, hp, w]
  have hw32 : w < 2 ^ 32 := by simp only [w]; omega
  have hAt1 : At D (D.length - 8) (enBytes .little 4 w) := by
    conv => arg 1; rw [hD']
    refine At.mk' ?_
    simp; omega
  have hAt2 : At D (D.length - 8 + 4) (enBytes .little 4 0) := by
    conv => arg 1; rw [hD']
    refine At.last' ?_
    simp; omega
  have hfoot : unpackFooter D ((D.length : Int) - 8) = .ok (w, 0) := by
    have : (D.length : Int) - 8 = ((D.length - 8 : Nat) : Int) := by omega
    rw [this]
    exact unpackFooter_at hAt1 hAt2 hw32 (by decide)
  have hwh : w / 2 ^ 24 = 8 + pad := by simp only [w]; omega
  have hwc : w % 2 ^ 24 = S.length + (8 + pad) := by simp only [w]; omega
  have hdet : detectAppendedData D = .ok (some 0) := by
    unfold detectAppendedData
    simp only [detectLoop]
    have hidx : ∃ v, pyIdxI D (-5 - ((0 : Nat) : Int)) = .ok v := by
      unfold pyIdxI
      rw [if_neg (by omega), if_pos (by omega)]
      refine ⟨D[D.length - 5]'(by omega), ?_⟩
      rw [pyIdx_eq_ok, List.getElem?_eq_some_iff]
      refine ⟨by omega, ?_⟩
      congr 1; omega
    obtain ⟨v, hv⟩ := hidx
    rw [hv]
    dsimp only
    have : (D.length : Int) - ((0 : Nat) : Int) - 8 = (D.length : Int) - 8 := by omega
    rw [this, hfoot, bind_ok]
    dsimp only
    rw [hwh, hwc, if_neg (by omega), if_neg (by omega)]
  unfold decompress
  rw [hdet, bind_ok]
  simp only [Nat.sub_zero, List.take_length, List.drop_length]
  unfold decompressCore
  have hlast : D.drop (D.length - 4) = [0, 0, 0, 0] := by
    have := hAt2
    rw [show D.length - 8 + 4 = D.length - 4 by omega] at this
    exact this.drop_eq (by simp; omega)
  rw [hlast, if_pos rfl]

/-! ## Detection -/

/-- What the detection reads from a footer that ends `amt` bytes before the end. -/
theorem detectLoop_step (data : Bytes) (amt : Nat) (amts : List Nat) (h : amt + 8 ≤ data.length) :
    detectLoop data (amt :: amts) =
      (let w := leVal (slice data (data.length - amt - 8) (data.length - amt - 4))
       if w / 2 ^ 24 < 8 ∨ w % 2 ^ 24 > data.length then detectLoop data amts else .ok (some amt)) := by
  simp only [detectLoop]
  have hidx : ∃ v, pyIdxI data (-5 - (amt : Int)) = .ok v := by
    unfold pyIdxI
    rw [if_neg (by omega), if_pos (by omega)]
    refine ⟨data[data.length - 5 - amt]'(by omega), ?_⟩
    rw [pyIdx_eq_ok, List.getElem?_eq_some_iff]
    refine ⟨by omega, ?_⟩
    congr 1; omega
  obtain ⟨v, hv⟩ := hidx
  rw [hv]
  dsimp only
  unfold unpackFooter
  rw [if_pos (by omega)]
  have e : ((data.length : Int) - amt - 8).toNat = data.length - amt - 8 := by omega
  rw [e]
  unfold unpackU
  rw [if_pos (by omega), if_pos (by omega)]
  simp only [bind_ok, pure_def, enVal]
  rw [show data.length - amt - 8 + 4 = data.length - amt - 4 by omega]
  by_cases h1 : leVal (slice data (data.length - amt - 8) (data.length - amt - 4)) / 2 ^ 24 < 8
  · rw [if_pos h1, if_pos (Or.inl h1)]
  · rw [if_neg h1]
    by_cases h2 : leVal (slice data (data.length - amt - 8) (data.length - amt - 4)) % 2 ^ 24 > data.length
    · rw [if_pos h2, if_pos (Or.inr h2)]
    · rw [if_neg h2, if_neg (by omega)]

theorem detectLoop_short (data : Bytes) (amt : Nat) (amts : List Nat) (h : data.length < amt + 5) :
    detectLoop data (amt :: amts) = .ok none := by
  simp only [detectLoop]
  have : pyIdxI data (-5 - (amt : Int)) = .error .indexError := by
    unfold pyIdxI
    rw [if_neg (by omega), if_neg (by omega)]
  rw [this]

theorem detectLoop_bad (data : Bytes) (amt : Nat) (amts : List Nat) (h1 : amt + 5 ≤ data.length)
    (h2 : data.length < amt + 8) : detectLoop data (amt :: amts) = .error .structError := by
  simp only [detectLoop]
  have hidx : ∃ v, pyIdxI data (-5 - (amt : Int)) = .ok v := by
    unfold pyIdxI
    rw [if_neg (by omega), if_pos (by omega)]
    refine ⟨data[data.length - 5 - amt]'(by omega), ?_⟩
    rw [pyIdx_eq_ok, List.getElem?_eq_some_iff]
    refine ⟨by omega, ?_⟩
    congr 1; omega
  obtain ⟨v, hv⟩ := hidx
  rw [hv]
  dsimp only
  unfold unpackFooter
  rw [if_neg (by omega), if_pos (by omega), bind_error]

end Verif.Proofs.CodeCompression
