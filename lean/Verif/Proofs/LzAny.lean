import Verif.Spec.LzAny
import Verif.Proofs.CodeCompression
import Verif.Proofs.Reader

/-!
# Lemmas about decoding any stream
-/

namespace Verif.Proofs.LzAny

open Verif Verif.Model Verif.Spec.LZ Verif.Spec.Reader

theorem toOption_bind {α β : Type _} (x : Py α) (f : α → Py β) :
    (x >>= f).toOption = x.toOption.bind (fun a => (f a).toOption) := by
  cases x <;> rfl

theorem pyIdx_toOption {α : Type _} (d : List α) (i : Nat) : (pyIdx d i).toOption = d[i]? := by
  unfold pyIdx
  cases d[i]? <;> rfl

/-- The output buffer: what was written, then zeros. -/
theorem buf_set {n : Nat} {out : Bytes} (h : out.length < n) (b : UInt8) :
    (out ++ zeros (n - out.length)).set out.length b = out ++ [b] ++ zeros (n - (out ++ [b]).length) := by
  obtain ⟨m, hm⟩ : ∃ m, n - out.length = m + 1 := ⟨n - out.length - 1, by omega⟩
  rw [hm, List.set_append_right _ _ (by omega)]
  have : n - (out ++ [b]).length = m := by simp; omega
  rw [this]
  simp [zeros, List.replicate_succ]

theorem buf_pySet {n : Nat} {out : Bytes} (h : out.length < n) (b : UInt8) :
    pySet (out ++ zeros (n - out.length)) out.length b = .ok (out ++ [b] ++ zeros (n - (out ++ [b]).length)) := by
  unfold pySet
  rw [if_pos (by simp [zeros]; omega), buf_set h]

theorem buf_pySet_full {n : Nat} {out : Bytes} (h : n ≤ out.length) (b : UInt8) :
    pySet (out ++ zeros (n - out.length)) out.length b = .error .indexError := by
  unfold pySet
  rw [if_neg (by simp [zeros]; omega)]

theorem buf_get {n : Nat} {out : Bytes} {i : Nat} (h : i < n) (hl : out.length ≤ n) :
    (out ++ zeros (n - out.length))[i]? = some (out[i]?.getD 0) := by
  by_cases hi : i < out.length
  · rw [List.getElem?_append_left hi, List.getElem?_eq_getElem hi]; rfl
  · rw [List.getElem?_append_right (by omega), List.getElem?_eq_none (l := out) (by omega)]
    unfold zeros
    rw [List.getElem?_replicate, if_pos (by omega)]; rfl

/-! ## LZ10 -/

section lz10
open Verif.Model.Lz10

/-- The state of the decoder when `out` was written. -/
def stL (n : Nat) (out : Bytes) (p : Nat) : DSt :=
  { out := out ++ zeros (n - out.length), inPos := p, outPos := out.length, left := n - out.length }

theorem wrapBack_le {n : Nat} : ∀ {m dist : Nat} {out out' : Bytes}, out.length ≤ n → wrapBack n m dist out = some out' →
    out'.length ≤ n ∧ (0 < m → out.length < n → out.length < out'.length)
  | 0, _, out, out', hl, h => by
    simp only [wrapBack, Option.some.injEq] at h; subst h; exact ⟨hl, by intro h; omega⟩
  | m + 1, dist, out, out', hl, h => by
    simp only [wrapBack] at h
    split at h
    · cases h; exact ⟨hl, by intros; omega⟩
    · split at h
      · obtain ⟨a, b⟩ := wrapBack_le (by simp; omega) h
        refine ⟨a, fun _ _ => ?_⟩
        rcases Nat.eq_zero_or_pos m with rfl | hm
        · simp only [wrapBack, Option.some.injEq] at h; subst h; simp
        · by_cases hc : out.length + 1 < n
          · have := b hm (by simpa using hc); simp at this; omega
          · cases m with
            | zero => omega
            | succ m =>
              simp only [wrapBack] at h
              rw [if_pos (by simp; omega)] at h
              cases h; simp
      · split at h
        · obtain ⟨a, b⟩ := wrapBack_le (by simp; omega) h
          refine ⟨a, fun _ _ => ?_⟩
          rcases Nat.eq_zero_or_pos m with rfl | hm
          · simp only [wrapBack, Option.some.injEq] at h; subst h; simp
          · by_cases hc : out.length + 1 < n
            · have := b hm (by simpa using hc); simp at this; omega
            · cases m with
              | zero => omega
              | succ m =>
                simp only [wrapBack] at h
                rw [if_pos (by simp; omega)] at h
                cases h; simp
        · cases h

theorem copyLoop_wrap (n p : Nat) : ∀ (m dist : Nat) (out : Bytes), 0 < dist → out.length ≤ n →
    (copyLoop m ((out.length : Int) - dist) (stL n out p)).toOption = (wrapBack n m dist out).map (stL n · p)
  | 0, dist, out, _, _ => rfl
  | m + 1, dist, out, hd, hl => by
    simp only [copyLoop, wrapBack]
    by_cases hf : n ≤ out.length
    · rw [if_pos (by simp only [stL]; omega), if_pos hf]; rfl
    · rw [if_neg (by simp only [stL]; omega), if_neg hf]
      have hstep (v : UInt8) : (pySet (stL n out p).out (stL n out p).outPos v >>= fun out' =>
          copyLoop m ((out.length : Int) - dist + 1)
            (DSt.mk out' (stL n out p).inPos ((stL n out p).outPos + 1) ((stL n out p).left - 1))).toOption =
          (wrapBack n m dist (out ++ [v])).map (stL n · p) := by
        have e1 : pySet (stL n out p).out (stL n out p).outPos v = _ := buf_pySet (by omega) v
        rw [e1, bind_ok, ← copyLoop_wrap n p m dist (out ++ [v]) hd (by simp; omega)]
        have e2 : (out.length : Int) - dist + 1 = ((out ++ [v]).length : Int) - dist := by simp; omega
        have e3 : DSt.mk (out ++ [v] ++ zeros (n - (out ++ [v]).length)) (stL n out p).inPos
            ((stL n out p).outPos + 1) ((stL n out p).left - 1) = stL n (out ++ [v]) p := by
          simp only [stL, DSt.mk.injEq, List.length_append, List.length_singleton, true_and]; omega
        rw [e2, e3]
      by_cases h1 : dist ≤ out.length
      · rw [if_pos h1]
        have : pyIdxI (stL n out p).out ((out.length : Int) - dist) = .ok (out[out.length - dist]?.getD 0) := by
          unfold pyIdxI
          rw [if_pos (by omega), pyIdx_eq_ok]
          have : ((out.length : Int) - dist).toNat = out.length - dist := by omega
          rw [this]
          exact buf_get (by omega) (by omega)
        rw [this, bind_ok]
        exact hstep _
      · rw [if_neg h1]
        by_cases h2 : dist ≤ n + out.length
        · rw [if_pos h2]
          have : pyIdxI (stL n out p).out ((out.length : Int) - dist) = .ok (out[n + out.length - dist]?.getD 0) := by
            have hlen : (stL n out p).out.length = n := by simp [stL, zeros]; omega
            unfold pyIdxI
            rw [if_neg (by omega), if_pos (by rw [hlen]; omega), pyIdx_eq_ok]
            have : ((out.length : Int) - dist + (stL n out p).out.length).toNat = n + out.length - dist := by
              rw [hlen]; omega
            rw [this]
            exact buf_get (by omega) (by omega)
          rw [this, bind_ok]
          exact hstep _
        · rw [if_neg h2]
          have : pyIdxI (stL n out p).out ((out.length : Int) - dist) = .error .indexError := by
            have hlen : (stL n out p).out.length = n := by simp [stL, zeros]; omega
            unfold pyIdxI
            rw [if_neg (by omega), if_neg (by rw [hlen]; omega)]
          rw [this]; rfl

theorem drop_cons {data R : Bytes} {p : Nat} {b : UInt8} (h : data.drop p = b :: R) :
    data[p]? = some b ∧ data.drop (p + 1) = R := by
  have h1 : data[p]? = some b := by
    have := congrArg (·[0]?) h
    simpa using this
  refine ⟨h1, ?_⟩
  have := congrArg (·.drop 1) h
  simpa [List.drop_drop] using this

theorem drop_nil {data : Bytes} {p : Nat} (h : data.drop p = []) : data[p]? = none := by
  rw [List.getElem?_eq_none]
  simpa using h

theorem literal_stL {data : Bytes} {n p : Nat} {out : Bytes} {b : UInt8} (h : data[p]? = some b) (hl : out.length < n) :
    literal data (stL n out p) = .ok (stL n (out ++ [b]) (p + 1)) := by
  unfold literal
  have e0 : pyIdx data (stL n out p).inPos = .ok b := pyIdx_eq_ok.2 h
  have e1 : pySet (stL n out p).out (stL n out p).outPos b = _ := buf_pySet hl b
  rw [e0, bind_ok, e1, bind_ok]
  have e3 : DSt.mk (out ++ [b] ++ zeros (n - (out ++ [b]).length)) ((stL n out p).inPos + 1)
      ((stL n out p).outPos + 1) ((stL n out p).left - 1) = stL n (out ++ [b]) (p + 1) := by
    simp only [stL, DSt.mk.injEq, List.length_append, List.length_singleton, true_and]; omega
  rw [e3]; rfl

theorem cont_literal {data : Bytes} {n p fuel k fl : Nat} {out : Bytes} {b : UInt8} (h : data[p]? = some b)
    (hl : out.length < n) (hk : k + 1 ≤ 8) (hf : fl / 2 ^ k % 2 = 0) :
    Proofs.Lz10.cont data fuel (k + 1) fl (stL n out p) = Proofs.Lz10.cont data fuel k fl (stL n (out ++ [b]) (p + 1)) := by
  have hleft : ¬ (stL n out p).left = 0 := by simp only [stL]; omega
  unfold Proofs.Lz10.cont
  by_cases hz : fl = 0
  · simp only [hz, ne_eq, not_true_eq_false, if_false, rawItems]
    rw [if_neg hleft, literal_stL h hl, bind_ok]
  · simp only [ne_eq, hz, not_false_eq_true, if_true, flagItems]
    rw [if_neg hleft, Proofs.Lz10.test_bit (by omega), if_neg (by omega), literal_stL h hl, bind_ok]
    have : fl * 2 ^ (8 - (k + 1)) * 2 = fl * 2 ^ (8 - k) := by
      rw [Nat.mul_assoc, ← Nat.pow_succ]; congr 2; omega
    rw [this]

theorem cont_ref {data : Bytes} {n p fuel k fl : Nat} {out : Bytes}
    (hl : out.length < n) (hk : k + 1 ≤ 8) (hf : ¬ fl / 2 ^ k % 2 = 0) :
    Proofs.Lz10.cont data fuel (k + 1) fl (stL n out p) =
      (unpackU .big 2 data p >>= fun t =>
        copyLoop (t / 4096 + 3) ((out.length : Int) - (t % 4096 + 1 : Nat)) (stL n out (p + 2)) >>=
          Proofs.Lz10.cont data fuel k fl) := by
  have hleft : ¬ (stL n out p).left = 0 := by simp only [stL]; omega
  unfold Proofs.Lz10.cont
  have hz : fl ≠ 0 := by rintro rfl; simp at hf
  simp only [ne_eq, hz, not_false_eq_true, if_true, flagItems]
  rw [if_neg hleft, Proofs.Lz10.test_bit (by omega), if_pos (by omega)]
  have : fl * 2 ^ (8 - (k + 1)) * 2 = fl * 2 ^ (8 - k) := by
    rw [Nat.mul_assoc, ← Nat.pow_succ]; congr 2; omega
  rw [this]
  have e1 : (stL n out p).inPos = p := rfl
  rw [e1]
  cases hu : unpackU .big 2 data p with
  | error e => rfl
  | ok t =>
    simp only [bind_ok]
    have e2 : ((stL n out p).outPos : Int) - (t % 4096 : Nat) - 1 = (out.length : Int) - (t % 4096 + 1 : Nat) := by
      simp only [stL]; omega
    have e3 : ({ (stL n out p) with inPos := p + 2 } : DSt) = stL n out (p + 2) := rfl
    rw [e2, e3]
    cases copyLoop (t / 4096 + 3) ((out.length : Int) - (t % 4096 + 1 : Nat)) (stL n out (p + 2)) <;> rfl

theorem unpackBig {data R : Bytes} {p : Nat} {b b' : UInt8} (h : data.drop p = b :: b' :: R) :
    unpackU .big 2 data p = .ok (b.toNat * 256 + b'.toNat) := by
  rw [unpackU_eq_ok]
  have hl := congrArg List.length h
  simp at hl
  refine ⟨by omega, ?_⟩
  have : slice data p (p + 2) = [b, b'] := by
    unfold slice
    rw [h]; simp
  rw [this]
  simp [enVal, leVal]; omega

theorem unpackBig_short {data : Bytes} {p : Nat} {b : UInt8} (h : data.drop p = [b]) :
    unpackU .big 2 data p = .error .structError := by
  have hl := congrArg List.length h
  simp at hl
  unfold unpackU
  rw [if_neg (by omega)]

theorem decode_zero (n extra : Nat) (ref : Nat → Nat → Bytes → Option Bytes) (fl : Nat) (b : UInt8) (R out : Bytes) :
    decode n extra ref 0 fl (b :: R) out = if n ≤ out.length then some out else decode n extra ref 8 b.toNat R out := by
  rw [decode.eq_def]

theorem decode_succ (n extra : Nat) (ref : Nat → Nat → Bytes → Option Bytes) (k fl : Nat) (b : UInt8) (R out : Bytes) :
    decode n extra ref (k + 1) fl (b :: R) out =
      if n ≤ out.length then some out
      else if fl / 2 ^ k % 2 = 0 then decode n extra ref k fl R (out ++ [b])
      else match R with
        | [] => none
        | b' :: R =>
          match ref (b.toNat / 16 + 3) (b.toNat % 16 * 256 + b'.toNat + extra) out with
          | some out => decode n extra ref k fl R out
          | none => none := by
  cases R with
  | nil => rw [decode.eq_def]
  | cons b' R => rw [decode.eq_def]; rfl

theorem read_full {n extra : Nat} {ref : Nat → Nat → Bytes → Option Bytes} {k fl : Nat} {R out : Bytes}
    (hn : n ≤ out.length) : decode n extra ref k fl R out = some out := by
  cases R with
  | nil => simp [decode, hn]
  | cons b R => cases k <;> simp [decode_zero, decode_succ, hn]

theorem cont_read_full {data : Bytes} {n k fl p fuel : Nat} {R out : Bytes} (hn : n ≤ out.length) :
    (Proofs.Lz10.cont data fuel k fl (stL n out p)).toOption.map (·.out) = decode n 1 (wrapBack n) k fl R out := by
  rw [read_full hn, Proofs.Lz10.cont_done _ _ _ _ (by simp only [stL]; omega)]
  have : n - out.length = 0 := by omega
  simp [Except.toOption, stL, this, zeros]

theorem cont_read_nil {data : Bytes} {n k fl p fuel : Nat} {out : Bytes} (hp : data.drop p = []) (hk : k ≤ 8) (hfuel : n - out.length ≤ fuel + (if k = 0 then 0 else 1)) :
    (Proofs.Lz10.cont data fuel k fl (stL n out p)).toOption.map (·.out) = decode n 1 (wrapBack n) k fl [] out := by
  by_cases hn : n ≤ out.length
  · exact cont_read_full hn
  · have hi := drop_nil hp
    have e0 : pyIdx data p = .error .indexError := by unfold pyIdx; rw [hi]
    have hlen : data.length ≤ p := by simpa using hp
    have hr : decode n 1 (wrapBack n) k fl [] out = none := by simp [decode, hn]
    rw [hr]
    cases k with
    | zero =>
      obtain ⟨f, rfl⟩ : ∃ f, fuel = f + 1 := ⟨fuel - 1, by simp at hfuel; omega⟩
      rw [Proofs.Lz10.cont_zero]
      simp only [blocks]
      have : pyIdx data (stL n out p).inPos = .error .indexError := e0
      rw [if_neg (by simp only [stL]; omega), this]; rfl
    | succ k =>
      by_cases hf : fl / 2 ^ k % 2 = 0
      · have hlit : literal data (stL n out p) = .error .indexError := by
          unfold literal
          have : pyIdx data (stL n out p).inPos = .error .indexError := e0
          rw [this]; rfl
        have hleft : ¬ (stL n out p).left = 0 := by simp only [stL]; omega
        unfold Proofs.Lz10.cont
        by_cases hz : fl = 0
        · simp only [hz, ne_eq, not_true_eq_false, if_false, rawItems]
          rw [if_neg hleft, hlit]; rfl
        · simp only [ne_eq, hz, not_false_eq_true, if_true, flagItems]
          rw [if_neg hleft, Proofs.Lz10.test_bit (by omega), if_neg (by omega), hlit]; rfl
      · rw [cont_ref (by omega) hk hf]
        have hu : unpackU .big 2 data p = .error .structError := by
          unfold unpackU; rw [if_neg (by omega)]
        rw [hu]; rfl

/-- The decoder follows any stream. -/
theorem cont_read (data : Bytes) (n : Nat) : ∀ (l : Nat) (R : Bytes) (k fl p fuel : Nat) (out : Bytes), R.length ≤ l →
    data.drop p = R → out.length ≤ n → k ≤ 8 → n - out.length ≤ fuel + (if k = 0 then 0 else 1) →
    (Proofs.Lz10.cont data fuel k fl (stL n out p)).toOption.map (·.out) = decode n 1 (wrapBack n) k fl R out := by
  intro l
  induction l with
  | zero =>
    intro R k fl p fuel out hR hp hl hk hfuel
    have : R = [] := List.length_eq_zero_iff.1 (by omega)
    subst this
    exact cont_read_nil hp hk hfuel
  | succ l ih =>
    intro R k fl p fuel out hR hp hl hk hfuel
    by_cases hn : n ≤ out.length
    · exact cont_read_full hn
    · match R, k with
      | [], k => exact cont_read_nil hp hk hfuel
      | b :: R, 0 =>
        obtain ⟨h1, h2⟩ := drop_cons hp
        rw [decode_zero, if_neg hn, Proofs.Lz10.cont_zero]
        obtain ⟨f, rfl⟩ : ∃ f, fuel = f + 1 := ⟨fuel - 1, by simp at hfuel; omega⟩
        rw [← ih R 8 b.toNat (p + 1) f out (by simp at hR; omega) h2 hl (by omega) (by simp at hfuel ⊢; omega)]
        simp only [blocks]
        have e0 : pyIdx data (stL n out p).inPos = .ok b := pyIdx_eq_ok.2 h1
        rw [if_neg (by simp only [stL]; omega), e0, bind_ok]
        unfold Proofs.Lz10.cont
        by_cases hz : b = 0
        · subst hz; rfl
        · have : b.toNat ≠ 0 := by
            intro h; apply hz; apply UInt8.toNat_inj.1; simpa using h
          simp [hz, this, stL]
      | b :: R, k + 1 =>
        obtain ⟨h1, h2⟩ := drop_cons hp
        rw [decode_succ, if_neg hn]
        by_cases hf : fl / 2 ^ k % 2 = 0
        · rw [if_pos hf, cont_literal h1 (by omega) hk hf]
          apply ih R k fl (p + 1) fuel (out ++ [b]) (by simp at hR; omega) h2 (by simp; omega) (by omega)
          simp at hfuel ⊢; split <;> omega
        · rw [if_neg hf, cont_ref (by omega) hk hf]
          match R with
          | [] => rw [unpackBig_short hp]; rfl
          | b' :: R =>
            obtain ⟨h3, h4⟩ := drop_cons h2
            rw [unpackBig hp, bind_ok, toOption_bind]
            have := b'.toNat_lt
            have a1 : (b.toNat * 256 + b'.toNat) / 4096 + 3 = b.toNat / 16 + 3 := by omega
            have a2 : (b.toNat * 256 + b'.toNat) % 4096 + 1 = b.toNat % 16 * 256 + b'.toNat + 1 := by omega
            rw [a1, a2, copyLoop_wrap n (p + 2) _ _ out (by omega) hl]
            dsimp only
            cases hw : wrapBack n (b.toNat / 16 + 3) (b.toNat % 16 * 256 + b'.toNat + 1) out with
            | none => rfl
            | some out' =>
              obtain ⟨hle, hlt⟩ := wrapBack_le hl hw
              have hlt := hlt (by omega) (by omega)
              simp only [Option.map_some, Option.bind_some]
              apply ih R k fl (p + 2) fuel out' (by simp at hR; omega) h4 hle (by omega)
              simp at hfuel ⊢; split <;> omega

/-- LZ10 on any data. -/
theorem lz10_means (data out : Bytes) : decompress data = .ok out ↔ Lz10Means data out := by
  unfold decompress Lz10Means
  cases data with
  | nil => simp [pyIdx, bind_error]
  | cons b rest =>
    have h0 : pyIdx (b :: rest) 0 = .ok b := rfl
    rw [h0, bind_ok]
    by_cases hb : b = 0x10
    · rw [raiseIf_false (by simp [hb]), bind_ok]
      by_cases hl : 4 ≤ (b :: rest).length
      · have hu : unpackU .little 4 (b :: rest) 0 = .ok (u32 (b :: rest) 0) := Proofs.Reader.unpack4.2 ⟨by omega, rfl⟩
        rw [hu, bind_ok]
        have hw : u32 (b :: rest) 0 / 256 = u24 (b :: rest) 1 := by
          have := Proofs.Reader.u8_lt (b :: rest) 0
          simp only [u32, u24, Nat.zero_add, Nat.reduceAdd]; omega
        rw [hw]
        have hc := cont_read (b :: rest) (u24 (b :: rest) 1) _ _ 0 0 4 (u24 (b :: rest) 1) [] (Nat.le_refl _) rfl
          (by simp) (by omega) (by simp)
        rw [Proofs.Lz10.cont_zero] at hc
        rw [← hc]
        have e : stL (u24 (b :: rest) 1) [] 4 =
          { out := zeros (u24 (b :: rest) 1), inPos := 4, outPos := 0, left := u24 (b :: rest) 1 } := rfl
        rw [e]
        have h8 : u8 (b :: rest) 0 = 0x10 := by simp [u8, hb]
        simp only [hl, h8, true_and]
        cases blocks (b :: rest) (u24 (b :: rest) 1)
          { out := zeros (u24 (b :: rest) 1), inPos := 4, outPos := 0, left := u24 (b :: rest) 1 } with
        | error e => simp only [bind_error, Except.toOption, Option.map_none]; simp
        | ok st => simp only [bind_ok, pure_eq_ok, Except.toOption, Option.map_some, Option.some.injEq]
      · have hu : unpackU .little 4 (b :: rest) 0 = .error .structError := by
          unfold unpackU; rw [if_neg (by omega)]
        rw [hu, bind_error]
        constructor
        · intro h; cases h
        · rintro ⟨h, _⟩; exact absurd h hl
    · rw [raiseIf_true hb, bind_error]
      constructor
      · intro h; cases h
      · rintro ⟨_, h, _⟩
        exfalso
        apply hb
        apply UInt8.toNat_inj.1
        simpa [u8] using h

end lz10

/-! ## Code compression -/

section code
open Verif.Model.CodeCompression

/-- The state of the decoder when `out` was written. -/
def stC (n : Nat) (out : Bytes) (r fl mask : Nat) : DSt :=
  { out := out ++ zeros (n - out.length), cur := out.length, readBytes := r, flags := fl, mask := mask }

theorem copyBack_some : ∀ (m d : Nat) (out : Bytes), 0 < d → d ≤ out.length → ∃ out', copyBack m d out = some out'
  | 0, _, out, _, _ => ⟨out, rfl⟩
  | m + 1, d, out, h1, h2 => by
    simp only [copyBack]
    rw [if_neg (by omega)]
    have : out.length - d < out.length := by omega
    rw [List.getElem?_eq_getElem this]
    exact copyBack_some m d _ h1 (by simp; omega)

theorem copyLoop_back (n r fl mask : Nat) : ∀ (m d : Nat) (out : Bytes), 0 < d → d ≤ out.length → out.length ≤ n →
    (copyLoop m (out.length - d) (stC n out r fl mask)).toOption =
      (if n < out.length + m then none else copyBack m d out).map (stC n · r fl mask)
  | 0, d, out, _, _, hl => by rw [if_neg (by omega)]; rfl
  | m + 1, d, out, hd, hd', hl => by
    simp only [copyLoop, copyBack]
    have hlt : out.length - d < out.length := by omega
    have hi : pyIdx (stC n out r fl mask).out (out.length - d) = .ok out[out.length - d] := by
      rw [pyIdx_eq_ok]
      change (out ++ zeros (n - out.length))[out.length - d]? = _
      rw [List.getElem?_append_left hlt, List.getElem?_eq_getElem hlt]
    rw [hi, bind_ok]
    by_cases hf : n ≤ out.length
    · have e1 : pySet (stC n out r fl mask).out (stC n out r fl mask).cur out[out.length - d] = _ := buf_pySet_full hf _
      rw [e1, if_pos (by omega)]; rfl
    · have e1 : pySet (stC n out r fl mask).out (stC n out r fl mask).cur out[out.length - d] = _ := buf_pySet (by omega) _
      rw [e1, bind_ok]
      have e2 : out.length - d + 1 = (out ++ [out[out.length - d]]).length - d := by simp; omega
      have e3 : DSt.mk (out ++ [out[out.length - d]] ++ zeros (n - (out ++ [out[out.length - d]]).length))
          ((stC n out r fl mask).cur + 1) (stC n out r fl mask).readBytes (stC n out r fl mask).flags
          (stC n out r fl mask).mask = stC n (out ++ [out[out.length - d]]) r fl mask := by
        simp only [stC, List.length_append, List.length_singleton]
      rw [e2]
      refine Eq.trans (congrArg _ (congrArg _ e3)) ?_
      rw [copyLoop_back n r fl mask m d _ hd (by simp; omega) (by simp; omega)]
      have e4 : (n < (out ++ [out[out.length - d]]).length + m) ↔ n < out.length + (m + 1) := by simp; omega
      rw [if_neg (show ¬ (d = 0 ∨ out.length < d) by omega), List.getElem?_eq_getElem hlt]
      simp only [e4]

/-- What `decode` does with a reference. -/
theorem doItem_any (rev : Bytes) (dl n : Nat) (hdl : rev.length < dl) (r fl k : Nat) (out : Bytes) (hl : out.length < n) :
    (doItem rev dl (stC n out r fl (2 ^ k))).toOption =
      match rev.drop r with
      | [] => none
      | b :: R =>
        if fl / 2 ^ k % 2 = 0 then some (stC n (out ++ [b]) (r + 1) fl (2 ^ k))
        else match R with
          | [] => none
          | b' :: _ => (twoBack n (b.toNat / 16 + 3) (b.toNat % 16 * 256 + b'.toNat + 3) out).map (stC n · (r + 2) fl (2 ^ k)) := by
  unfold doItem
  have hflag : (stC n out r fl (2 ^ k)).flags / (stC n out r fl (2 ^ k)).mask % 2 = fl / 2 ^ k % 2 := rfl
  rw [hflag]
  by_cases hf : fl / 2 ^ k % 2 = 0
  · rw [if_neg (by omega)]
    have hrb : (stC n out r fl (2 ^ k)).readBytes = r := rfl
    rw [hrb]
    cases hR : rev.drop r with
    | nil =>
      have e0 : pyIdx rev r = .error .indexError := by unfold pyIdx; rw [drop_nil hR]
      rw [e0, toOption_bind]
      cases raiseIf (r > dl) PyErr.runtimeError <;> rfl
    | cons b R =>
      obtain ⟨h1, _⟩ := drop_cons hR
      have hlt : r < rev.length := (List.getElem?_eq_some_iff.1 h1).1
      have e1 : pySet (stC n out r fl (2 ^ k)).out (stC n out r fl (2 ^ k)).cur b = _ := buf_pySet hl b
      rw [raiseIf_false (by omega), bind_ok, pyIdx_eq_ok.2 h1, bind_ok, e1, bind_ok]
      dsimp only
      rw [if_pos hf]
      simp [stC, Except.toOption, pure_def]
  · rw [if_pos (by omega)]
    have hrb : (stC n out r fl (2 ^ k)).readBytes = r := rfl
    rw [hrb]
    cases hR : rev.drop r with
    | nil =>
      have e0 : pyIdx rev r = .error .indexError := by unfold pyIdx; rw [drop_nil hR]
      rw [e0, toOption_bind]
      cases raiseIf (r + 1 ≥ dl) PyErr.runtimeError <;> rfl
    | cons b R =>
      obtain ⟨h1, h2⟩ := drop_cons hR
      dsimp only
      rw [if_neg hf]
      cases R with
      | nil =>
        have e0 : pyIdx rev (r + 1) = .error .indexError := by unfold pyIdx; rw [drop_nil h2]
        rw [e0, toOption_bind]
        dsimp only
        cases raiseIf (r + 1 ≥ dl) PyErr.runtimeError with
        | error _ => rfl
        | ok _ => rw [pyIdx_eq_ok.2 h1]; rfl
      | cons b' R =>
        obtain ⟨h3, _⟩ := drop_cons h2
        have hlt : r + 1 < rev.length := (List.getElem?_eq_some_iff.1 h3).1
        rw [raiseIf_false (by omega), bind_ok, pyIdx_eq_ok.2 h1, bind_ok, pyIdx_eq_ok.2 h3, bind_ok]
        dsimp only
        have hcur : (stC n out r fl (2 ^ k)).cur = out.length := rfl
        have hst : DSt.mk (stC n out r fl (2 ^ k)).out out.length (r + 2) (stC n out r fl (2 ^ k)).flags
          (stC n out r fl (2 ^ k)).mask = stC n out (r + 2) fl (2 ^ k) := rfl
        rw [hcur, hst]
        unfold twoBack
        generalize hdd : b.toNat % 16 * 256 + b'.toNat + 3 = d
        generalize b.toNat / 16 + 3 = m
        by_cases hd : d > out.length
        · have hd' : ¬ d ≤ out.length := by omega
          rw [if_pos hd, if_neg hd']
          by_cases h2 : out.length < 2
          · have h2' : ¬ 2 ≤ out.length := by omega
            rw [raiseIf_true h2, bind_error, if_neg h2']
            split <;> rfl
          · have h2' : 2 ≤ out.length := by omega
            rw [raiseIf_false h2, bind_ok, copyLoop_back _ _ _ _ _ _ _ (by omega) (by omega) (by omega), if_pos h2']
        · have hd' : d ≤ out.length := by omega
          rw [if_neg hd, copyLoop_back _ _ _ _ _ _ _ (by omega) (by omega) (by omega), if_pos hd']

theorem twoBack_le {n m d : Nat} {out out' : Bytes} (h : twoBack n m d out = some out') :
    out'.length ≤ n ∧ out'.length = out.length + m := by
  unfold twoBack at h
  split at h
  · cases h
  · split at h
    · have := Proofs.Lz10.copyBack_length h; omega
    · split at h
      · have := Proofs.Lz10.copyBack_length h; omega
      · cases h

theorem decLoop_read (rev : Bytes) (cl dl n : Nat) (hcl : rev.length ≤ cl) (hdl : rev.length < dl) :
    ∀ (l : Nat) (R : Bytes) (k fl r fuel : Nat) (out : Bytes), R.length ≤ l →
    rev.drop r = R → out.length ≤ n → k ≤ 7 → n - out.length ≤ fuel →
    (decLoop rev cl dl fuel (stC n out r fl (2 ^ k))).toOption.map (·.out) = decode n 3 (twoBack n) k fl R out := by
  intro l
  induction l using Nat.strongRecOn with
  | ind l ih =>
  intro R k fl r fuel out hR hp hl hk hfuel
  have hlen : (stC n out r fl (2 ^ k)).out.length = n := by simp [stC, zeros]; omega
  by_cases hn : n ≤ out.length
  · rw [read_full hn]
    have hnot : ¬ (stC n out r fl (2 ^ k)).cur < (stC n out r fl (2 ^ k)).out.length := by
      rw [hlen]; simp only [stC]; omega
    have e : n - out.length = 0 := by omega
    cases fuel with
    | zero => simp only [decLoop]; rw [if_neg hnot]; simp [Except.toOption, stC, e, zeros]
    | succ f => simp only [decLoop]; rw [if_neg hnot]; simp [Except.toOption, stC, e, zeros]
  · obtain ⟨f, rfl⟩ : ∃ f, fuel = f + 1 := ⟨fuel - 1, by omega⟩
    have hlt : (stC n out r fl (2 ^ k)).cur < (stC n out r fl (2 ^ k)).out.length := by
      rw [hlen]; simp only [stC]; omega
    simp only [decLoop]
    rw [if_pos hlt]
    -- one item
    have item (k fl r : Nat) (R : Bytes) (hk : k ≤ 7) (hR : R.length ≤ l) (hp : rev.drop r = R) :
        (doItem rev dl (stC n out r fl (2 ^ k)) >>= decLoop rev cl dl f).toOption.map (·.out) =
          decode n 3 (twoBack n) (k + 1) fl R out := by
      rw [toOption_bind, doItem_any rev dl n hdl r fl k out (by omega), hp]
      match R with
      | [] => simp [decode, hn]
      | b :: R =>
        obtain ⟨h1, h2⟩ := drop_cons hp
        rw [decode_succ, if_neg hn]
        by_cases hf : fl / 2 ^ k % 2 = 0
        · dsimp only
          rw [if_pos hf, if_pos hf, Option.bind_some]
          simp only [List.length_cons] at hR
          exact ih (l - 1) (by omega) R k fl (r + 1) f (out ++ [b]) (by omega) h2 (by simp; omega) hk (by simp; omega)
        · dsimp only
          rw [if_neg hf, if_neg hf]
          match R with
          | [] => rfl
          | b' :: R =>
            obtain ⟨h3, h4⟩ := drop_cons h2
            dsimp only
            cases hw : twoBack n (b.toNat / 16 + 3) (b.toNat % 16 * 256 + b'.toNat + 3) out with
            | none => rfl
            | some out' =>
              obtain ⟨a1, a2⟩ := twoBack_le hw
              simp only [Option.map_some, Option.bind_some]
              simp only [List.length_cons] at hR
              exact ih (l - 2) (by omega) R k fl (r + 2) f out' (by omega) h4 a1 hk (by omega)
    cases k with
    | zero =>
      unfold nextMask
      rw [if_pos (show (stC n out r fl (2 ^ 0)).mask = 1 from rfl)]
      have hrb : (stC n out r fl (2 ^ 0)).readBytes = r := rfl
      rw [hrb]
      match R with
      | [] =>
        have e0 : pyIdx rev r = .error .indexError := by unfold pyIdx; rw [drop_nil hp]
        rw [e0]
        have : decode n 3 (twoBack n) 0 fl [] out = none := by simp [decode, hn]
        rw [this]
        cases raiseIf (r ≥ cl) PyErr.runtimeError <;> rfl
      | b :: R =>
        obtain ⟨h1, h2⟩ := drop_cons hp
        have hlt : r < rev.length := (List.getElem?_eq_some_iff.1 h1).1
        rw [raiseIf_false (by omega), bind_ok, pyIdx_eq_ok.2 h1, bind_ok, pure_def, bind_ok]
        have hst : DSt.mk (stC n out r fl (2 ^ 0)).out (stC n out r fl (2 ^ 0)).cur (r + 1) b.toNat 0x80 =
          stC n out (r + 1) b.toNat (2 ^ 7) := rfl
        rw [decode_zero, if_neg hn]
        simp only [List.length_cons] at hR
        exact item 7 b.toNat (r + 1) R (by omega) (by omega) h2
    | succ k =>
      have hm : nextMask rev cl (stC n out r fl (2 ^ (k + 1))) = .ok (stC n out r fl (2 ^ k)) := by
        unfold nextMask
        have : 1 < 2 ^ (k + 1) := by
          have := Nat.pow_le_pow_right (n := 2) (by omega) (show 1 ≤ k + 1 by omega)
          omega
        rw [if_neg (by simp only [stC]; omega)]
        simp only [stC, Nat.pow_succ]
        rw [Nat.mul_div_cancel _ (by omega)]
      rw [hm, bind_ok]
      exact item k fl r R (by omega) hR hp

end code

end Verif.Proofs.LzAny
