import Verif.Proofs.Texture

/-!
# Rendering textures
-/

namespace Verif.Spec.Texture

open Verif Verif.Model.Color

/-- A 15-bit colour with the given alpha. -/
def rgb (n alpha : Nat) : Color := ⟨n % 32, n / 32 % 32, n / 1024 % 32, alpha⟩

/-- Entry `i` of a palette of 16-bit numbers, with the given alpha. -/
def entry (pal : List Nat) (i alpha : Nat) : Option Color :=
  (pal[i]?).bind fun n => if n < 65536 then some (rgb n alpha) else none

/-- The mix of two neighbouring entries with weights `k0 : k1`, rounded down. -/
def blend (pal : List Nat) (base k0 k1 : Nat) : Option Color :=
  (pal[base]?).bind fun a => (pal[base + 1]?).bind fun b =>
    some ⟨(k0 * (a % 32) + k1 * (b % 32)) / (k0 + k1), (k0 * (a / 32 % 32) + k1 * (b / 32 % 32)) / (k0 + k1),
      (k0 * (a / 1024 % 32) + k1 * (b / 1024 % 32)) / (k0 + k1), 31⟩

/-- A texel of a compressed texture. -/
def texel (pal : List Nat) (base mode sub : Nat) : Option Color :=
  if sub = 3 ∧ mode < 2 then some ⟨0, 0, 0, 0⟩
  else if sub = 2 ∧ mode = 1 then blend pal base 1 1
  else if sub = 2 ∧ mode = 3 then blend pal base 5 3
  else if sub = 3 ∧ mode = 3 then blend pal base 3 5
  else entry pal (base + sub) 31

/-- Alpha of the indexed formats. -/
def alpha (transparent : Bool) (k : Nat) : Nat := if k = 0 ∧ transparent = true then 0 else 31

/-- The pixel number `i` (counting along the rows) of a texture that is `w` wide; `none` if the data or the palette are
too short for it. -/
def pixelAt (format : Nat) (pal : List Nat) (data1 data2 : Bytes) (transparent : Bool) (w i : Nat) : Option Color :=
  match format with
  | 1 => (data1[i]?).bind fun v => entry pal (v.toNat % 32) (v.toNat / 32 * 4 + v.toNat / 64)
  | 2 => (data1[i / 4]?).bind fun v =>
      entry pal (v.toNat / 4 ^ (i % 4) % 4) (alpha transparent (v.toNat / 4 ^ (i % 4) % 4))
  | 3 => (data1[i / 2]?).bind fun v =>
      entry pal (v.toNat / 16 ^ (i % 2) % 16) (alpha transparent (v.toNat / 16 ^ (i % 2) % 16))
  | 4 => (data1[i]?).bind fun v => entry pal v.toNat (alpha transparent v.toNat)
  | 5 =>
      let b := i / w / 4 * (w / 4) + i % w / 4
      (data2[2 * b]?).bind fun lo => (data2[2 * b + 1]?).bind fun hi => (data1[4 * b + i / w % 4]?).bind fun v =>
        texel pal (2 * ((lo.toNat + 256 * hi.toNat) % 16384)) ((lo.toNat + 256 * hi.toNat) / 16384)
          (v.toNat / 4 ^ (i % w % 4) % 4)
  | 6 => (data1[i]?).bind fun v => entry pal (v.toNat % 8) (v.toNat / 8)
  | _ => (data1[2 * i]?).bind fun lo => (data1[2 * i + 1]?).bind fun hi =>
      some (rgb (lo.toNat + 256 * hi.toNat) (if 128 ≤ hi.toNat then 31 else 0))

end Verif.Spec.Texture

namespace Verif.Proofs.Texture

open Verif Verif.Model.Color Verif.Model.Texture Verif.Spec.Texture

/-! ## Writing pixels -/

/-- A value that may be missing. -/
def ofOpt {α : Type} : Option α → Py α
  | some a => .ok a
  | none => .error .indexError

theorem ofOpt_eq_ok {α : Type} {o : Option α} {a : α} : ofOpt o = .ok a ↔ o = some a := by
  cases o <;> simp [ofOpt]

/-- Writing the wanted pixel at a position. -/
def putF (f : Nat → Option Color) (d : Dest) (p : Nat) : Py Dest := do
  let c ← ofOpt (f p)
  pySet d p (some c)

def putAll (f : Nat → Option Color) : Dest → List Nat → Py Dest
  | d, [] => .ok d
  | d, p :: ps => do
    let d ← putF f d p
    putAll f d ps

theorem putF_eq_ok {f : Nat → Option Color} {d d' : Dest} {p : Nat} :
    putF f d p = .ok d' ↔ (f p).isSome ∧ p < d.length ∧ d' = d.set p (f p) := by
  unfold putF pySet
  rw [bind_eq_ok]
  simp only [ofOpt_eq_ok]
  constructor
  · rintro ⟨c, hc, h⟩
    split at h
    · rename_i hp
      cases h
      exact ⟨by rw [hc]; rfl, hp, by rw [hc]⟩
    · exact nomatch h
  · rintro ⟨h1, h2, rfl⟩
    obtain ⟨c, hc⟩ := Option.isSome_iff_exists.1 h1
    exact ⟨c, hc, by rw [if_pos h2, hc]⟩

theorem putAll_append (f : Nat → Option Color) : ∀ (ps qs : List Nat) (d : Dest),
    putAll f d (ps ++ qs) = putAll f d ps >>= fun d => putAll f d qs
  | [], _, _ => rfl
  | p :: ps, qs, d => by
    rw [List.cons_append, putAll, putAll]
    cases putF f d p with
    | error e => rfl
    | ok d => rw [bind_ok, bind_ok, putAll_append f ps qs d]

theorem putAll_eq_ok {f : Nat → Option Color} : ∀ {ps : List Nat} {d d' : Dest}, putAll f d ps = .ok d' ↔
    (∀ p ∈ ps, (f p).isSome ∧ p < d.length) ∧ d'.length = d.length ∧
      ∀ q, q < d.length → d'[q]? = if q ∈ ps then some (f q) else d[q]?
  | [], d, d' => by
    rw [putAll]
    constructor
    · intro h; cases h
      exact ⟨(fun _ h => nomatch h), rfl, fun q _ => by simp⟩
    · rintro ⟨_, h2, h3⟩
      congr 1
      refine List.ext_getElem? fun q => ?_
      rcases Nat.lt_or_ge q d.length with hq | hq
      · rw [h3 q hq]; simp
      · rw [List.getElem?_eq_none hq, List.getElem?_eq_none (by omega)]
  | p :: ps, d, d' => by
    rw [putAll, bind_eq_ok]
    simp only [putF_eq_ok, putAll_eq_ok]
    constructor
    · rintro ⟨_, ⟨h1, h2, rfl⟩, h3, h4, h5⟩
      rw [List.length_set] at h3 h4 h5
      refine ⟨?_, h4, ?_⟩
      · intro q hq
        rcases List.mem_cons.1 hq with rfl | hq
        · exact ⟨h1, h2⟩
        · exact h3 q hq
      · intro q hq
        rw [h5 q hq]
        by_cases hm : q ∈ ps
        · rw [if_pos hm, if_pos (List.mem_cons_of_mem _ hm)]
        · rw [if_neg hm]
          by_cases hqp : q = p
          · subst hqp
            rw [if_pos (by simp), List.getElem?_set_self h2]
          · rw [List.getElem?_set_ne (fun e => hqp e.symm), if_neg (by simp [hqp, hm])]
    · rintro ⟨h1, h2, h3⟩
      obtain ⟨h4, h5⟩ := h1 p (by simp)
      refine ⟨_, ⟨h4, h5, rfl⟩, ?_, ?_, ?_⟩
      · intro q hq
        rw [List.length_set]; exact h1 q (by simp [hq])
      · rw [List.length_set]; exact h2
      · intro q hq
        rw [List.length_set] at hq
        rw [h3 q hq]
        by_cases hm : q ∈ ps
        · rw [if_pos hm, if_pos (List.mem_cons_of_mem _ hm)]
        · rw [if_neg hm]
          by_cases hqp : q = p
          · subst hqp
            rw [if_pos (by simp), List.getElem?_set_self h5]
          · rw [List.getElem?_set_ne (fun e => hqp e.symm), if_neg (by simp [hqp, hm])]

/-- Writing every pixel of an image. -/
theorem putAll_full {f : Nat → Option Color} {N : Nat} {ps : List Nat} {d' : Dest} (h : ∀ q, q ∈ ps ↔ q < N) :
    putAll f (List.replicate N none) ps = .ok d' ↔ (∀ i < N, (f i).isSome) ∧ d' = (List.range N).map f := by
  rw [putAll_eq_ok, List.length_replicate]
  constructor
  · rintro ⟨h1, h2, h3⟩
    refine ⟨fun i hi => (h1 i ((h i).2 hi)).1, List.ext_getElem? fun q => ?_⟩
    rcases Nat.lt_or_ge q N with hq | hq
    · rw [h3 q hq, if_pos ((h q).2 hq)]; simp [hq]
    · rw [List.getElem?_eq_none (by omega), List.getElem?_eq_none (by simpa using hq)]
  · rintro ⟨h1, rfl⟩
    refine ⟨fun p hp => ⟨h1 p ((h p).1 hp), (h p).1 hp⟩, by simp, fun q hq => ?_⟩
    rw [if_pos ((h q).2 hq)]; simp [hq]

/-- A loop whose body writes the wanted pixels at some positions. -/
theorem runCells_eq_ok {σ α : Type} {body : σ → α → Py σ} {st : Nat → Dest → σ} {f : Nat → Option Color}
    {pos : Nat → List Nat} : ∀ {L : List α} {k : Nat}
    (_ : ∀ (j : Nat) a, L[j]? = some a → ∀ d s', body (st (k + j) d) a = .ok s' ↔
      ∃ d', putAll f d (pos (k + j)) = .ok d' ∧ s' = st (k + j + 1) d')
    {d : Dest} {s' : σ}, runCells body (st k d) L = .ok s' ↔
      ∃ d', putAll f d ((List.range' k L.length).flatMap pos) = .ok d' ∧ s' = st (k + L.length) d'
  | [], k, _, d, s' => by
    rw [runCells]
    simp only [List.length_nil, List.range'_zero, List.flatMap_nil, putAll, Nat.add_zero]
    constructor
    · intro h; cases h; exact ⟨d, rfl, rfl⟩
    · rintro ⟨_, h, rfl⟩; cases h; rfl
  | a :: L, k, hb, d, s' => by
    rw [runCells, bind_eq_ok, List.length_cons, List.range'_succ, List.flatMap_cons, putAll_append]
    have h0 := hb 0 a rfl
    rw [Nat.add_zero] at h0
    have ih : ∀ d s', runCells body (st (k + 1) d) L = .ok s' ↔ _ := fun d s' =>
      runCells_eq_ok (body := body) (st := st) (f := f) (pos := pos) (L := L) (k := k + 1)
        (fun j a hj d s' => by
          have := hb (j + 1) a (by simpa using hj) d s'
          rw [show k + (j + 1) = k + 1 + j by omega] at this
          exact this) (d := d) (s' := s')
    constructor
    · rintro ⟨s1, h1, h2⟩
      obtain ⟨d1, h3, rfl⟩ := (h0 d s1).1 h1
      obtain ⟨d2, h4, rfl⟩ := (ih d1 s').1 h2
      exact ⟨d2, by rw [h3, bind_ok, h4], by congr 1; omega⟩
    · rintro ⟨d2, h1, rfl⟩
      obtain ⟨d1, h3, h4⟩ := bind_eq_ok.1 h1
      exact ⟨_, (h0 d _).2 ⟨d1, h3, rfl⟩, (ih d1 _).2 ⟨d2, h4, by congr 1; omega⟩⟩

/-! ## The cells -/

theorem cells_succ (h w sx sy : Nat) (hsy : 0 < sy) : cells (sy * (h + 1)) sy w sx = cells (sy * h) sy w sx ++
    (List.range ((w + sx - 1) / sx)).map fun x => (sy * h, sx * x) := by
  have e : ∀ n, (sy * n + sy - 1) / sy = n := by
    intro n
    rw [show sy * n + sy - 1 = (sy - 1) + sy * n by omega, Nat.add_mul_div_left _ _ hsy, Nat.div_eq_of_lt (by omega)]
    omega
  unfold cells
  rw [e, e, List.range_succ, List.flatMap_append]
  simp

theorem cells_length (w sx sy : Nat) (hsx : 0 < sx) (hsy : 0 < sy) : ∀ h, (cells (sy * h) sy (sx * w) sx).length = h * w
  | 0 => by
    unfold cells
    rw [show (sy * 0 + sy - 1) / sy = 0 from Nat.div_eq_of_lt (by omega)]
    simp
  | h + 1 => by
    have e : (sx * w + sx - 1) / sx = w := by
      rw [show sx * w + sx - 1 = (sx - 1) + sx * w by omega, Nat.add_mul_div_left _ _ hsx, Nat.div_eq_of_lt (by omega)]
      omega
    rw [cells_succ _ _ _ _ hsy, List.length_append, cells_length w sx sy hsx hsy h, List.length_map, List.length_range, e,
      Nat.add_mul, Nat.one_mul]

theorem cells_get (w sx sy : Nat) (hsx : 0 < sx) (hsy : 0 < sy) : ∀ (h k : Nat) c,
    (cells (sy * h) sy (sx * w) sx)[k]? = some c → c = (sy * (k / w), sx * (k % w))
  | 0, k, c, hk => by
    have := (List.getElem?_eq_some_iff.1 hk).1
    rw [cells_length w sx sy hsx hsy] at this
    omega
  | h + 1, k, c, hk => by
    have e : (sx * w + sx - 1) / sx = w := by
      rw [show sx * w + sx - 1 = (sx - 1) + sx * w by omega, Nat.add_mul_div_left _ _ hsx, Nat.div_eq_of_lt (by omega)]
      omega
    rw [cells_succ _ _ _ _ hsy, List.getElem?_append, cells_length w sx sy hsx hsy] at hk
    split at hk
    · exact cells_get w sx sy hsx hsy h k c hk
    · rename_i hge
      rw [e] at hk
      obtain ⟨hlt, hk⟩ := List.getElem?_eq_some_iff.1 hk
      rw [List.length_map, List.length_range] at hlt
      rw [List.getElem_map, List.getElem_range] at hk
      rw [← hk]
      have hd : k = w * h + (k - h * w) := by rw [Nat.mul_comm w h]; omega
      have e1 : k / w = h := by rw [hd, Nat.mul_add_div (by omega), Nat.div_eq_of_lt hlt]; omega
      have e2 : k % w = k - h * w := by
        conv => lhs; rw [hd]
        rw [Nat.mul_add_mod, Nat.mod_eq_of_lt hlt]
      rw [e1, e2]

/-! ## Colours -/

theorem lut_int (n : Nat) : lut (.int n) = ofOpt (if n < 65536 then some (rgb n (n / 32768 % 2)) else none) := by
  unfold lut pyIdx luts
  dsimp only
  by_cases h : n < 65536
  · rw [if_pos h]
    have : ((List.range 0x10000).map lutRow)[n]? = some (lutRow n) := by simp [h]
    rw [this]
    dsimp only
    rw [bind_ok]
    have := Proofs.Color.unpack_eq n
    unfold unpack at this
    unfold lutRow rgb
    dsimp only [ofOpt]
    rw [← this]
    rfl
  · rw [if_neg h]
    have : ((List.range 0x10000).map lutRow)[n]? = none := by simp; omega
    rw [this]
    rfl

theorem pixel_int (pal : List Nat) (i a : Nat) : pixel (some (pal.map .int)) i a = ofOpt (entry pal i a) := by
  unfold pixel colorAt pyIdx entry
  dsimp only
  rw [List.getElem?_map]
  cases pal[i]? with
  | none => rfl
  | some n =>
    dsimp only [Option.map_some, Option.bind_some]
    rw [bind_ok, lut_int]
    by_cases h : n < 65536
    · rw [if_pos h, if_pos h]; rfl
    · rw [if_neg h, if_neg h]; rfl

theorem alphaFor_eq (v : Nat) (tr : Bool) : alphaFor v tr = alpha tr v := by
  unfold alphaFor alpha
  by_cases h : v = 0 <;> cases tr <;> simp [h]

theorem putIndexed_eq (pal : List Nat) (tr : Bool) (d : Dest) (pos v : Nat) {f : Nat → Option Color}
    (h : f pos = entry pal v (alpha tr v)) : putIndexed (some (pal.map .int)) tr d pos v = putF f d pos := by
  unfold putIndexed putF
  rw [pixel_int, alphaFor_eq, h]

theorem drop_get {d : Bytes} {k : Nat} {v : UInt8} {it : Bytes} (h : d.drop k = v :: it) : d[k]? = some v ∧ it = d.drop (k + 1) := by
  constructor
  · rw [← List.head?_drop, h]; rfl
  · rw [← List.tail_drop, h]; rfl

theorem drop_nil {d : Bytes} {k : Nat} (h : d.drop k = []) : d[k]? = none := by
  rw [← List.head?_drop, h]; rfl

theorem putF_none {f : Nat → Option Color} {d d' : Dest} {p : Nat} (h : f p = none) : ¬ putF f d p = .ok d' := by
  rw [putF_eq_ok, h]; simp

theorem putAll_none {f : Nat → Option Color} {d d' : Dest} {p : Nat} {ps : List Nat} (h : f p = none) :
    ¬ putAll f d (p :: ps) = .ok d' := by
  rw [putAll, bind_eq_ok]
  rintro ⟨_, h1, _⟩
  exact putF_none h h1

theorem putAll_one (f : Nat → Option Color) (d : Dest) (p : Nat) : putAll f d [p] = putF f d p := by
  rw [putAll]
  cases putF f d p <;> rfl

theorem div_mod_one (k w : Nat) : 1 * (k / w) * w + 1 * (k % w) = k := by
  rw [Nat.one_mul, Nat.one_mul, Nat.mul_comm]; exact Nat.div_add_mod k w

/-- Row-major positions in blocks of `c`. -/
theorem block_positions {N c : Nat} (hc : 0 < c) (n : Nat) (hn : N = c * n) (pos : Nat → List Nat)
    (hp : ∀ k q, q ∈ pos k ↔ c * k ≤ q ∧ q < c * k + c) : ∀ q, q ∈ (List.range' 0 n).flatMap pos ↔ q < N := by
  intro q
  rw [List.mem_flatMap]
  simp only [List.mem_range'_1, hp, Nat.zero_le, true_and, Nat.zero_add]
  constructor
  · rintro ⟨k, h1, h2, h3⟩
    have := Nat.mul_le_mul_left c (Nat.succ_le_of_lt h1)
    rw [Nat.mul_succ] at this
    omega
  · intro h
    refine ⟨q / c, ?_, ?_, ?_⟩
    · rw [Nat.div_lt_iff_lt_mul hc, Nat.mul_comm]; omega
    · exact Nat.mul_div_le q c
    · have := Nat.lt_mul_div_succ q hc
      rw [Nat.mul_succ] at this
      exact this

/-! ## The formats -/

/-- Formats with one pixel in each cell and `c` bytes for it. -/
theorem run_single {body : Bytes × Dest → Nat × Nat → Py (Bytes × Dest)} {data : Bytes} {c w h : Nat}
    {f : Nat → Option Color} {d' : Dest}
    (hb : ∀ (k : Nat) (a : Nat × Nat), a.1 * w + a.2 = k → ∀ d s', body (data.drop (c * k), d) a = .ok s' ↔
      ∃ d', putF f d k = .ok d' ∧ s' = (data.drop (c * (k + 1)), d')) :
    (do
      let r ← runCells body (data, List.replicate (w * h) none) (cells h 1 w 1)
      return r.2 : Py Dest) = .ok d' ↔ (∀ i < w * h, (f i).isSome) ∧ d' = (List.range (w * h)).map f := by
  have hcl := cells_length w 1 1 (by decide) (by decide) h
  have hcg := cells_get w 1 1 (by decide) (by decide) h
  rw [Nat.one_mul, Nat.one_mul] at hcl
  simp only [Nat.one_mul] at hcg
  have hrun : ∀ d s', runCells body (data.drop (c * 0), d) (cells h 1 w 1) = .ok s' ↔ _ := fun d s' =>
    runCells_eq_ok (st := fun k d => (data.drop (c * k), d)) (f := f) (pos := fun k => [k]) (k := 0)
      (fun j a hj d s' => by
        rw [Nat.zero_add, putAll_one]
        refine hb j a ?_ d s'
        rw [hcg j a hj]
        have := div_mod_one j w
        simpa using this)
  have hpos : ∀ q, q ∈ (List.range' 0 (cells h 1 w 1).length).flatMap (fun k => [k]) ↔ q < w * h := by
    rw [hcl]
    exact block_positions (c := 1) (by decide) (h * w) (by rw [Nat.one_mul, Nat.mul_comm]) _ (by intro k q; simp; omega)
  rw [← putAll_full hpos, bind_eq_ok]
  rw [Nat.mul_zero, List.drop_zero] at hrun
  simp only [pure_eq_ok]
  constructor
  · rintro ⟨r, h1, rfl⟩
    obtain ⟨d1, h2, rfl⟩ := (hrun _ _).1 h1
    exact h2
  · intro h1
    exact ⟨_, (hrun _ _).2 ⟨d', h1, rfl⟩, rfl⟩

/-- Looking up the wanted colour and writing it. -/
theorem put_then {f : Nat → Option Color} {d : Dest} {p : Nat} {it : Bytes} {s' : Bytes × Dest} :
    (do
      let c ← ofOpt (f p)
      let d ← pySet d p (some c)
      return (it, d) : Py (Bytes × Dest)) = .ok s' ↔ ∃ d', putF f d p = .ok d' ∧ s' = (it, d') := by
  unfold putF
  simp only [bind_eq_ok, pure_eq_ok, eq_comm (a := s')]
  constructor
  · rintro ⟨c, h1, d1, h2, h3⟩
    exact ⟨d1, ⟨c, h1, h2⟩, h3⟩
  · rintro ⟨d1, ⟨c, h1, h2⟩, h3⟩
    exact ⟨c, h1, d1, h2, h3⟩

theorem render_A3I5 {pal : List Nat} {data1 data2 : Bytes} {tr : Bool} {w h : Nat} {d' : Dest} :
    renderTextureData true data1 data2 1 w h (some (pal.map .int)) tr = .ok d' ↔
      (∀ i < w * h, (pixelAt 1 pal data1 data2 tr w i).isSome) ∧
        d' = (List.range (w * h)).map (pixelAt 1 pal data1 data2 tr w) := by
  refine run_single (c := 1) (data := data1) (w := w) (h := h) (f := pixelAt 1 pal data1 data2 tr w) (d' := d') ?_
  intro k a hk d s'
  unfold cellA3I5
  rw [hk, Nat.one_mul, Nat.one_mul]
  dsimp only
  cases hd : data1.drop k with
  | nil =>
    constructor
    · intro h; exact nomatch h
    · rintro ⟨_, h, _⟩
      exact absurd h (putF_none (by rw [pixelAt, drop_nil hd]; rfl))
  | cons v it =>
    obtain ⟨h1, rfl⟩ := drop_get hd
    have hv := v.toNat_lt
    have hf : pixelAt 1 pal data1 data2 tr w k = entry pal (v.toNat &&& 0x1F) (((v.toNat >>> 5) <<< 2) ||| ((v.toNat >>> 5) >>> 1)) := by
      rw [Bits.and_mask _ 5 rfl, Bits.or_add' (by rw [Bits.shr, Bits.shr]; omega), Bits.shr, Bits.shr, Nat.div_div_eq_div_mul,
        pixelAt, h1]
      rfl
    dsimp only
    rw [pixel_int, ← hf]
    exact put_then

theorem render_A5I3 {pal : List Nat} {data1 data2 : Bytes} {tr : Bool} {w h : Nat} {d' : Dest} :
    renderTextureData true data1 data2 6 w h (some (pal.map .int)) tr = .ok d' ↔
      (∀ i < w * h, (pixelAt 6 pal data1 data2 tr w i).isSome) ∧
        d' = (List.range (w * h)).map (pixelAt 6 pal data1 data2 tr w) := by
  refine run_single (c := 1) (data := data1) (w := w) (h := h) (f := pixelAt 6 pal data1 data2 tr w) (d' := d') ?_
  intro k a hk d s'
  unfold cellA5I3
  rw [hk, Nat.one_mul, Nat.one_mul]
  dsimp only
  cases hd : data1.drop k with
  | nil =>
    constructor
    · intro h; exact nomatch h
    · rintro ⟨_, h, _⟩
      exact absurd h (putF_none (by rw [pixelAt, drop_nil hd]; rfl))
  | cons v it =>
    obtain ⟨h1, rfl⟩ := drop_get hd
    have hf : pixelAt 6 pal data1 data2 tr w k = entry pal (v.toNat &&& 0x7) (v.toNat >>> 3) := by
      rw [Bits.and_mask _ 3 rfl, Bits.shr, pixelAt, h1]
      rfl
    dsimp only
    rw [pixel_int, ← hf]
    exact put_then

theorem render_A1BGR5 {pal : List Nat} {data1 data2 : Bytes} {tr : Bool} {w h : Nat} {d' : Dest}
    {palette : Option (List PalColor)} :
    renderTextureData true data1 data2 7 w h palette tr = .ok d' ↔
      (∀ i < w * h, (pixelAt 7 pal data1 data2 tr w i).isSome) ∧
        d' = (List.range (w * h)).map (pixelAt 7 pal data1 data2 tr w) := by
  refine run_single (c := 2) (data := data1) (w := w) (h := h) (f := pixelAt 7 pal data1 data2 tr w) (d' := d') ?_
  intro k a hk d s'
  unfold cellA1BGR5
  rw [hk]
  dsimp only
  cases hd : data1.drop (2 * k) with
  | nil =>
    constructor
    · intro h; exact nomatch h
    · rintro ⟨_, h, _⟩
      exact absurd h (putF_none (by rw [pixelAt, drop_nil hd]; rfl; all_goals decide))
  | cons v1 it =>
    obtain ⟨h1, h1'⟩ := drop_get hd
    cases hd2 : it with
    | nil =>
      constructor
      · intro h; exact nomatch h
      · rintro ⟨_, h, _⟩
        refine absurd h (putF_none ?_)
        rw [h1'] at hd2
        rw [pixelAt, h1, drop_nil hd2]
        · rfl
        all_goals decide
    | cons v2 it2 =>
      rw [h1'] at hd2
      obtain ⟨h2, h2'⟩ := drop_get hd2
      subst h2'
      have hv1 := v1.toNat_lt
      have hv2 := v2.toNat_lt
      have hn : v1.toNat ||| (v2.toNat <<< 8) = v1.toNat + 256 * v2.toNat := by
        rw [Bits.or_add (by omega)]; omega
      have hf : pixelAt 7 pal data1 data2 tr w k =
          some ⟨(rgb (v1.toNat + 256 * v2.toNat) ((v1.toNat + 256 * v2.toNat) / 32768 % 2)).r,
            (rgb (v1.toNat + 256 * v2.toNat) ((v1.toNat + 256 * v2.toNat) / 32768 % 2)).g,
            (rgb (v1.toNat + 256 * v2.toNat) ((v1.toNat + 256 * v2.toNat) / 32768 % 2)).b,
            if (rgb (v1.toNat + 256 * v2.toNat) ((v1.toNat + 256 * v2.toNat) / 32768 % 2)).a ≠ 0 then 31 else 0⟩ := by
        rw [pixelAt, h1, h2]
        · simp only [Option.bind_some, rgb]
          congr 2
          by_cases h : 128 ≤ v2.toNat
          · rw [if_pos h]; exact (if_pos (show (v1.toNat + 256 * v2.toNat) / 32768 % 2 ≠ 0 by omega)).symm
          · rw [if_neg h]; exact (if_neg (show ¬ (v1.toNat + 256 * v2.toNat) / 32768 % 2 ≠ 0 by omega)).symm
        all_goals decide
      dsimp only
      rw [hn, lut_int, if_pos (by omega)]
      dsimp only [ofOpt]
      rw [bind_ok, ← hf, show 2 * (k + 1) = 2 * k + 1 + 1 by omega]
      rw [show (pySet d k (pixelAt 7 pal data1 data2 tr w k)) = putF (pixelAt 7 pal data1 data2 tr w) d k by
        rw [hf, putF, hf]; rfl]
      simp only [bind_eq_ok, pure_eq_ok, eq_comm (a := s')]

theorem render_I8 {pal : List Nat} {data1 data2 : Bytes} {tr : Bool} {w h : Nat} {d' : Dest} :
    renderTextureData true data1 data2 4 w h (some (pal.map .int)) tr = .ok d' ↔
      (∀ i < w * h, (pixelAt 4 pal data1 data2 tr w i).isSome) ∧
        d' = (List.range (w * h)).map (pixelAt 4 pal data1 data2 tr w) := by
  change runCells (cellI8 data1 (some (pal.map .int)) tr w) (List.replicate (w * h) none) (cells h 1 w 1) = _ ↔ _
  have hcl := cells_length w 1 1 (by decide) (by decide) h
  have hcg := cells_get w 1 1 (by decide) (by decide) h
  rw [Nat.one_mul, Nat.one_mul] at hcl
  simp only [Nat.one_mul] at hcg
  have hpos : ∀ q, q ∈ (List.range' 0 (cells h 1 w 1).length).flatMap (fun k => [k]) ↔ q < w * h := by
    rw [hcl]
    exact block_positions (c := 1) (by decide) (h * w) (by rw [Nat.one_mul, Nat.mul_comm]) _ (by intro k q; simp; omega)
  rw [← putAll_full hpos]
  have := runCells_eq_ok (body := cellI8 data1 (some (pal.map .int)) tr w) (st := fun _ d => d)
    (f := pixelAt 4 pal data1 data2 tr w) (pos := fun k => [k]) (L := cells h 1 w 1) (k := 0)
    (fun j a hj d s' => by
      rw [Nat.zero_add, putAll_one]
      have ha : a.1 * w + a.2 = j := by
        rw [hcg j a hj]
        simpa using div_mod_one j w
      unfold cellI8 pyIdx
      rw [ha]
      cases hd : data1[j]? with
      | none =>
        constructor
        · intro h; exact nomatch h
        · rintro ⟨_, h, _⟩
          exact absurd h (putF_none (by rw [pixelAt, hd]; rfl))
      | some v =>
        dsimp only
        rw [bind_ok, putIndexed_eq (f := pixelAt 4 pal data1 data2 tr w)]
        · simp only [eq_comm (a := s')]
          constructor
          · intro h; exact ⟨_, h, rfl⟩
          · rintro ⟨_, h, rfl⟩; exact h
        · rw [pixelAt, hd]; rfl)
    (d := List.replicate (w * h) none) (s' := d')
  rw [this]
  constructor
  · rintro ⟨_, h, rfl⟩; exact h
  · intro h; exact ⟨_, h, rfl⟩

/-- Formats with `c` pixels in each byte. -/
theorem run_packed {body : Bytes × Dest → Nat × Nat → Py (Bytes × Dest)} {data : Bytes} {c w h : Nat} (hc : 0 < c)
    {f : Nat → Option Color} {d' : Dest} {pos : Nat → List Nat}
    (hp : ∀ k q, q ∈ pos k ↔ c * k ≤ q ∧ q < c * k + c)
    (hb : ∀ (k : Nat) (a : Nat × Nat), a.1 * (c * w) + a.2 = c * k → ∀ d s', body (data.drop k, d) a = .ok s' ↔
      ∃ d', putAll f d (pos k) = .ok d' ∧ s' = (data.drop (k + 1), d')) :
    (do
      let r ← runCells body (data, List.replicate (c * w * h) none) (cells h 1 (c * w) c)
      return r.2 : Py Dest) = .ok d' ↔ (∀ i < c * w * h, (f i).isSome) ∧ d' = (List.range (c * w * h)).map f := by
  have hcl := cells_length w c 1 hc (by decide) h
  have hcg := cells_get w c 1 hc (by decide) h
  rw [Nat.one_mul] at hcl
  simp only [Nat.one_mul] at hcg
  have hrun : ∀ d s', runCells body (data.drop 0, d) (cells h 1 (c * w) c) = .ok s' ↔ _ := fun d s' =>
    runCells_eq_ok (st := fun k d => (data.drop k, d)) (f := f) (pos := pos) (k := 0)
      (fun j a hj d s' => by
        rw [Nat.zero_add]
        refine hb j a ?_ d s'
        rw [hcg j a hj]
        dsimp only
        rw [Nat.mul_comm c w, ← Nat.mul_assoc, Nat.mul_comm _ c, ← Nat.mul_add, Nat.mul_comm (j / w), Nat.div_add_mod])
  have hpos : ∀ q, q ∈ (List.range' 0 (cells h 1 (c * w) c).length).flatMap pos ↔ q < c * w * h := by
    rw [hcl]
    exact block_positions hc (h * w) (by rw [Nat.mul_assoc, Nat.mul_comm h w]) _ hp
  rw [← putAll_full hpos, bind_eq_ok]
  rw [List.drop_zero] at hrun
  simp only [pure_eq_ok]
  constructor
  · rintro ⟨r, h1, rfl⟩
    obtain ⟨d1, h2, rfl⟩ := (hrun _ _).1 h1
    exact h2
  · intro h1
    exact ⟨_, (hrun _ _).2 ⟨d', h1, rfl⟩, rfl⟩

theorem render_I4 {pal : List Nat} {data1 data2 : Bytes} {tr : Bool} {w h : Nat} {d' : Dest} :
    renderTextureData true data1 data2 3 (2 * w) h (some (pal.map .int)) tr = .ok d' ↔
      (∀ i < 2 * w * h, (pixelAt 3 pal data1 data2 tr (2 * w) i).isSome) ∧
        d' = (List.range (2 * w * h)).map (pixelAt 3 pal data1 data2 tr (2 * w)) := by
  refine run_packed (c := 2) (by decide) (data := data1) (w := w) (h := h) (f := pixelAt 3 pal data1 data2 tr (2 * w))
    (d' := d') (pos := fun k => [2 * k, 2 * k + 1]) (by intro k q; simp; omega) ?_
  intro k a hk d s'
  unfold cellI4
  rw [hk]
  dsimp only
  cases hd : data1.drop k with
  | nil =>
    constructor
    · intro h; exact nomatch h
    · rintro ⟨_, h, _⟩
      refine absurd h (putAll_none ?_)
      rw [pixelAt, show 2 * k / 2 = k by omega, drop_nil hd]; rfl
  | cons v it =>
    obtain ⟨h1, rfl⟩ := drop_get hd
    have hv := v.toNat_lt
    dsimp only
    rw [putIndexed_eq (f := pixelAt 3 pal data1 data2 tr (2 * w))]
    · have : ∀ d, putIndexed (some (pal.map .int)) tr d (2 * k + 1) (v.toNat >>> 4) =
          putF (pixelAt 3 pal data1 data2 tr (2 * w)) d (2 * k + 1) := by
        intro d
        refine putIndexed_eq _ _ _ _ _ ?_
        rw [pixelAt, show (2 * k + 1) / 2 = k by omega, show (2 * k + 1) % 2 = 1 by omega, h1, Bits.shr,
          Option.bind_some, show v.toNat / 16 ^ 1 % 16 = v.toNat / 2 ^ 4 by omega]
      simp only [this, putAll, bind_eq_ok, pure_eq_ok, eq_comm (a := s')]
      constructor
      · rintro ⟨d1, h1, d2, h2, h3⟩
        exact ⟨d2, ⟨d1, h1, d2, h2, rfl⟩, h3⟩
      · rintro ⟨d2, ⟨d1, h1, d3, h2, h3⟩, h4⟩
        cases h3
        exact ⟨d1, h1, d2, h2, h4⟩
    · rw [pixelAt, show 2 * k / 2 = k by omega, show 2 * k % 2 = 0 by omega, h1, Bits.and_mask _ 4 rfl, Option.bind_some]
      simp

theorem render_I2 {pal : List Nat} {data1 data2 : Bytes} {tr : Bool} {w h : Nat} {d' : Dest} :
    renderTextureData true data1 data2 2 (4 * w) h (some (pal.map .int)) tr = .ok d' ↔
      (∀ i < 4 * w * h, (pixelAt 2 pal data1 data2 tr (4 * w) i).isSome) ∧
        d' = (List.range (4 * w * h)).map (pixelAt 2 pal data1 data2 tr (4 * w)) := by
  refine run_packed (c := 4) (by decide) (data := data1) (w := w) (h := h) (f := pixelAt 2 pal data1 data2 tr (4 * w))
    (d' := d') (pos := fun k => [4 * k, 4 * k + 1, 4 * k + 2, 4 * k + 3]) (by intro k q; simp; omega) ?_
  intro k a hk d s'
  unfold cellI2
  rw [hk]
  dsimp only
  cases hd : data1.drop k with
  | nil =>
    constructor
    · intro h; exact nomatch h
    · rintro ⟨_, h, _⟩
      refine absurd h (putAll_none ?_)
      rw [pixelAt, show 4 * k / 4 = k by omega, drop_nil hd]; rfl
  | cons v it =>
    obtain ⟨h1, rfl⟩ := drop_get hd
    have hv := v.toNat_lt
    have hf : ∀ j, j < 4 → ∀ m, m = v.toNat / 4 ^ j % 4 → ∀ d,
        putIndexed (some (pal.map .int)) tr d (4 * k + j) m = putF (pixelAt 2 pal data1 data2 tr (4 * w)) d (4 * k + j) := by
      intro j hj m hm d
      refine putIndexed_eq _ _ _ _ _ ?_
      rw [pixelAt, show (4 * k + j) / 4 = k by omega, show (4 * k + j) % 4 = j by omega, h1, Option.bind_some, ← hm]
    have f0 := hf 0 (by decide) (v.toNat &&& 3) (by rw [Bits.and_mask _ 2 rfl]; simp)
    have f1 := hf 1 (by decide) ((v.toNat >>> 2) &&& 3) (by rw [Bits.and_mask _ 2 rfl, Bits.shr])
    have f2 := hf 2 (by decide) ((v.toNat >>> 4) &&& 3) (by rw [Bits.and_mask _ 2 rfl, Bits.shr])
    have f3 := hf 3 (by decide) (v.toNat >>> 6) (by rw [Bits.shr]; omega)
    simp only [Nat.add_zero] at f0
    dsimp only
    simp only [f0, f1, f2, f3, putAll, bind_eq_ok, pure_eq_ok, eq_comm (a := s')]
    constructor
    · rintro ⟨d1, h1, d2, h2, d3, h3, d4, h4, h5⟩
      exact ⟨d4, ⟨d1, h1, d2, h2, d3, h3, d4, h4, rfl⟩, h5⟩
    · rintro ⟨_, ⟨d1, h1, d2, h2, d3, h3, d4, h4, h5⟩, h6⟩
      injection h5 with h5
      subst h5
      exact ⟨d1, h1, d2, h2, d3, h3, d4, h4, h6⟩

/-! ## Compressed textures -/

theorem and_shifted (x k m : Nat) : x &&& ((2 ^ m - 1) <<< k) = (x / 2 ^ k % 2 ^ m) * 2 ^ k := by
  rw [← Nat.and_two_pow_sub_one_eq_mod, ← Nat.shiftRight_eq_div_pow, ← Nat.shiftLeft_eq]
  refine Nat.eq_of_testBit_eq fun i => ?_
  simp only [Nat.testBit_and, Nat.testBit_shiftLeft, Nat.testBit_shiftRight]
  by_cases h : k ≤ i
  · simp [h, show k + (i - k) = i by omega]
  · simp [h]

theorem and_green (x : Nat) : x &&& 0x3E0 = x / 32 % 32 * 32 := and_shifted x 5 5

theorem and_blue (x : Nat) : x &&& 0x7C00 = x / 1024 % 32 * 1024 := and_shifted x 10 5

theorem mix_eq (pal : List Nat) (off k0 k1 s : Nat) (hk : k0 + k1 = 2 ^ s) :
    (do
      let c ← mix (some (pal.map .int)) off k0 k1 s
      let p ← lut c
      return ⟨p.r, p.g, p.b, 31⟩ : Py Color) = ofOpt (blend pal off k0 k1) := by
  unfold mix blend colorAt pyIdx
  dsimp only
  rw [List.getElem?_map, List.getElem?_map]
  cases pal[off]? with
  | none => rfl
  | some a =>
    cases pal[off + 1]? with
    | none => rfl
    | some b =>
      dsimp only [Option.map_some, Option.bind_some, asInt]
      simp only [bind_ok]
      rw [Bits.and_mask a 5 rfl, Bits.and_mask b 5 rfl]
      simp only [and_green, and_blue, Bits.shr]
      have hs : 0 < 2 ^ s := Nat.two_pow_pos s
      have e : ∀ x y c, (x * c * k0 + y * c * k1) = (k0 * x + k1 * y) * c := by
        intro x y c
        rw [Nat.mul_right_comm, Nat.mul_right_comm y, ← Nat.add_mul, Nat.mul_comm x, Nat.mul_comm y]
      have e' : ∀ v c, 0 < c → v * c / 2 ^ s / c = v / 2 ^ s := by
        intro v c hc
        rw [Nat.div_div_eq_div_mul, Nat.mul_div_mul_right _ _ hc]
      have hb : ∀ x y, x < 32 → y < 32 → (k0 * x + k1 * y) / 2 ^ s < 32 := by
        intro x y hx hy
        rw [Nat.div_lt_iff_lt_mul hs, ← hk]
        have h1 := Nat.mul_le_mul_left k0 (Nat.le_pred_of_lt hx)
        have h2 := Nat.mul_le_mul_left k1 (Nat.le_pred_of_lt hy)
        have h3 : 0 < k0 + k1 := by omega
        simp only [Nat.pred_eq_sub_one] at h1 h2
        omega
      have er : a % 2 ^ 5 * k0 + b % 2 ^ 5 * k1 = k0 * (a % 32) + k1 * (b % 32) := by
        rw [Nat.mul_comm, Nat.mul_comm (b % 2 ^ 5)]
      rw [e, e, e' _ 32 (by decide), e' _ 1024 (by decide), er, hk]
      have hr := hb _ _ (Nat.mod_lt a (show 0 < 32 by decide)) (Nat.mod_lt b (show 0 < 32 by decide))
      have hg := hb _ _ (Nat.mod_lt (a / 32) (show 0 < 32 by decide)) (Nat.mod_lt (b / 32) (show 0 < 32 by decide))
      have hbl := hb _ _ (Nat.mod_lt (a / 1024) (show 0 < 32 by decide)) (Nat.mod_lt (b / 1024) (show 0 < 32 by decide))
      generalize (k0 * (a % 32) + k1 * (b % 32)) / 2 ^ s = R at *
      generalize (k0 * (a / 32 % 32) + k1 * (b / 32 % 32)) / 2 ^ s = G at *
      generalize (k0 * (a / 1024 % 32) + k1 * (b / 1024 % 32)) / 2 ^ s = B at *
      have hn : R ||| G % 32 * 32 ||| B % 32 * 1024 = R + 32 * G + 1024 * B := by
        rw [show G % 32 * 32 = G <<< 5 by rw [Bits.shl]; omega, Bits.or_add (by omega),
          show B % 32 * 1024 = B <<< 10 by rw [Bits.shl]; omega, Bits.or_add (by omega)]
        omega
      rw [hn]
      rw [pure_bind, lut_int, if_pos (by omega)]
      unfold rgb ofOpt
      rw [bind_ok]
      change Except.ok _ = Except.ok _
      congr 2 <;> (dsimp only; omega)

theorem entry_lut (pal : List Nat) (i : Nat) :
    (do
      let c ← colorAt (some (pal.map .int)) i
      let p ← lut c
      return ⟨p.r, p.g, p.b, 31⟩ : Py Color) = ofOpt (entry pal i 31) := pixel_int pal i 31

theorem putTexel_eq (pal : List Nat) (off mode sub : Nat) (d : Dest) (pos : Nat) (hs : sub < 4) (hm : mode < 4)
    {f : Nat → Option Color} (h : f pos = texel pal off mode sub) :
    putTexel (some (pal.map .int)) off mode sub d pos = putF f d pos := by
  unfold putF
  rw [h]
  unfold putTexel texelColor texel
  have key : ∀ {x : Py PalColor} {o : Option Color}, (do
      let c ← x
      let p ← lut c
      return ⟨p.r, p.g, p.b, 31⟩ : Py Color) = ofOpt o →
      (do
        let c ← (do let c ← x; return some c : Py (Option PalColor))
        match c with
        | some c => do
          let p ← lut c
          pySet d pos (some ⟨p.r, p.g, p.b, 31⟩)
        | none => pySet d pos (some ⟨0, 0, 0, 0⟩) : Py Dest) = (do
        let c ← ofOpt o
        pySet d pos (some c)) := by
    intro x o hx
    rw [← hx]
    cases x with
    | error e => rfl
    | ok c =>
      cases hl : lut c with
      | error e => simp only [bind_ok, pure_bind, hl]; rfl
      | ok p => simp only [bind_ok, pure_bind, hl]
  by_cases h2 : sub < 2
  · rw [if_pos h2, if_neg (show ¬ (sub = 3 ∧ mode < 2) by omega), if_neg (show ¬ (sub = 2 ∧ mode = 1) by omega),
      if_neg (show ¬ (sub = 2 ∧ mode = 3) by omega), if_neg (show ¬ (sub = 3 ∧ mode = 3) by omega)]
    exact key (entry_lut pal (off + sub))
  · rw [if_neg h2]
    by_cases h3 : sub = 2
    · subst h3
      rw [if_pos rfl, if_neg (show ¬ (2 = 3 ∧ mode < 2) by omega)]
      by_cases h4 : mode = 1
      · rw [if_pos h4, if_pos ⟨rfl, h4⟩]
        exact key (mix_eq pal off 1 1 1 rfl)
      · rw [if_neg h4, if_neg (show ¬ (2 = 2 ∧ mode = 1) by omega)]
        by_cases h5 : mode = 3
        · rw [if_pos h5, if_pos ⟨rfl, h5⟩]
          exact key (mix_eq pal off 5 3 3 rfl)
        · rw [if_neg h5, if_neg (show ¬ (2 = 2 ∧ mode = 3) by omega), if_neg (show ¬ (2 = 3 ∧ mode = 3) by omega)]
          exact key (entry_lut pal (off + 2))
    · rw [if_neg h3]
      have h4 : sub = 3 := by omega
      subst h4
      by_cases h5 : mode < 2
      · rw [if_pos h5, if_pos ⟨rfl, h5⟩]
        rfl
      · rw [if_neg h5, if_neg (show ¬ (3 = 3 ∧ mode < 2) by omega), if_neg (show ¬ (3 = 2 ∧ mode = 1) by omega),
          if_neg (show ¬ (3 = 2 ∧ mode = 3) by omega)]
        by_cases h6 : mode = 2
        · rw [if_pos h6, if_neg (show ¬ (3 = 3 ∧ mode = 3) by omega)]
          exact key (entry_lut pal (off + 3))
        · rw [if_neg h6, if_pos ⟨rfl, by omega⟩]
          exact key (mix_eq pal off 3 5 3 rfl)

/-- Where the texel `(x, y)` of a block is. -/
def texelPos (m k y x : Nat) : Nat := (4 * (k / m) + y) * (4 * m) + 4 * (k % m) + x

theorem texelPos_div {m k y x : Nat} (hm : 0 < m) (hx : x < 4) : texelPos m k y x / (4 * m) = 4 * (k / m) + y ∧
    texelPos m k y x % (4 * m) = 4 * (k % m) + x := by
  have h := Nat.mod_lt k hm
  unfold texelPos
  have e : (4 * (k / m) + y) * (4 * m) + 4 * (k % m) + x = (4 * m) * (4 * (k / m) + y) + (4 * (k % m) + x) := by
    rw [Nat.mul_comm (4 * m)]; omega
  constructor
  · rw [e, Nat.mul_add_div (by omega), Nat.div_eq_of_lt (show 4 * (k % m) + x < 4 * m by omega), Nat.add_zero]
  · rw [e, Nat.mul_add_mod, Nat.mod_eq_of_lt (by omega)]

theorem pixelAt_texel {pal : List Nat} {data1 data2 : Bytes} {tr : Bool} {m k y x : Nat} (hm : 0 < m) (hy : y < 4) (hx : x < 4) :
    pixelAt 5 pal data1 data2 tr (4 * m) (texelPos m k y x) =
      (data2[2 * k]?).bind fun lo => (data2[2 * k + 1]?).bind fun hi => (data1[4 * k + y]?).bind fun v =>
        texel pal (2 * ((lo.toNat + 256 * hi.toNat) % 16384)) ((lo.toNat + 256 * hi.toNat) / 16384) (v.toNat / 4 ^ x % 4) := by
  obtain ⟨h1, h2⟩ := texelPos_div (m := m) (k := k) (y := y) hm hx
  unfold pixelAt
  dsimp only
  rw [h1, h2, show 4 * m / 4 = m by omega, show (4 * (k / m) + y) / 4 = k / m by omega,
    show (4 * (k % m) + x) / 4 = k % m by omega, Nat.mul_comm (k / m), Nat.div_add_mod,
    show (4 * (k / m) + y) % 4 = y by omega, show (4 * (k % m) + x) % 4 = x by omega]
  rfl

theorem render_texeled {pal : List Nat} {data1 data2 : Bytes} {tr : Bool} {m n : Nat} {d' : Dest} :
    renderTextureData true data1 data2 5 (4 * m) (4 * n) (some (pal.map .int)) tr = .ok d' ↔
      (∀ i < 4 * m * (4 * n), (pixelAt 5 pal data1 data2 tr (4 * m) i).isSome) ∧
        d' = (List.range (4 * m * (4 * n))).map (pixelAt 5 pal data1 data2 tr (4 * m)) := by
  change (do
      let r ← runCells (cellTexeled (some (pal.map .int)) (4 * m)) (data1, data2, List.replicate (4 * m * (4 * n)) none)
        (cells (4 * n) 4 (4 * m) 4)
      return r.2.2 : Py Dest) = _ ↔ _
  have hcl := cells_length m 4 4 (by decide) (by decide) n
  have hcg := cells_get m 4 4 (by decide) (by decide) n
  generalize hf : pixelAt 5 pal data1 data2 tr (4 * m) = f
  generalize hL : cells (4 * n) 4 (4 * m) 4 = L at *
  have hpos : ∀ q, q ∈ (List.range' 0 L.length).flatMap (fun k => (List.range' 0 4).flatMap fun y =>
      [texelPos m k y 0, texelPos m k y 1, texelPos m k y 2, texelPos m k y 3]) ↔ q < 4 * m * (4 * n) := by
    intro q
    rw [List.mem_flatMap]
    simp only [List.mem_flatMap, List.mem_range'_1, Nat.zero_le, true_and, Nat.zero_add, hcl]
    constructor
    · rintro ⟨k, h1, y, h2, h3⟩
      have hm : 0 < m := by
        rcases Nat.eq_zero_or_pos m with h | h
        · subst h; omega
        · exact h
      have : ∃ x < 4, q = texelPos m k y x := by
        simp only [List.mem_cons, List.not_mem_nil, or_false] at h3
        rcases h3 with h | h | h | h
        · exact ⟨0, by decide, h⟩
        · exact ⟨1, by decide, h⟩
        · exact ⟨2, by decide, h⟩
        · exact ⟨3, by decide, h⟩
      obtain ⟨x, hx, rfl⟩ := this
      obtain ⟨h4, h5⟩ := texelPos_div (m := m) (k := k) (y := y) hm hx
      rw [Nat.mul_comm (4 * m), ← Nat.div_lt_iff_lt_mul (by omega), h4]
      have : k / m < n := by rw [Nat.div_lt_iff_lt_mul hm]; exact h1
      omega
    · intro hq
      have hm : 0 < m := by
        rcases Nat.eq_zero_or_pos m with h | h
        · subst h; simp at hq
        · exact h
      have hrow : q / (4 * m) < 4 * n := by
        rw [Nat.div_lt_iff_lt_mul (by omega), Nat.mul_comm]; exact hq
      have hcol : q % (4 * m) < 4 * m := Nat.mod_lt _ (by omega)
      have hk1 : (q / (4 * m) / 4 * m + q % (4 * m) / 4) / m = q / (4 * m) / 4 := by
        rw [Nat.mul_comm, Nat.mul_add_div hm, Nat.div_eq_of_lt (show q % (4 * m) / 4 < m by omega), Nat.add_zero]
      have hk2 : (q / (4 * m) / 4 * m + q % (4 * m) / 4) % m = q % (4 * m) / 4 := by
        rw [Nat.mul_comm, Nat.mul_add_mod, Nat.mod_eq_of_lt (by omega)]
      refine ⟨q / (4 * m) / 4 * m + q % (4 * m) / 4, ?_, q / (4 * m) % 4, by omega, ?_⟩
      · rw [← Nat.div_lt_iff_lt_mul hm, hk1]; omega
      · have : q = texelPos m (q / (4 * m) / 4 * m + q % (4 * m) / 4) (q / (4 * m) % 4) (q % (4 * m) % 4) := by
          unfold texelPos
          rw [hk1, hk2, Nat.div_add_mod, Nat.add_assoc, Nat.div_add_mod, Nat.mul_comm, Nat.div_add_mod]
        have hx : q % (4 * m) % 4 < 4 := Nat.mod_lt _ (by decide)
        generalize q % (4 * m) % 4 = x at *
        have : x = 0 ∨ x = 1 ∨ x = 2 ∨ x = 3 := by omega
        rcases this with h | h | h | h <;> subst h <;> simp only [List.mem_cons] <;> simp [← this]
  rw [← putAll_full hpos, bind_eq_ok]
  simp only [pure_eq_ok]
  have hrun : ∀ d s', runCells (cellTexeled (some (pal.map .int)) (4 * m)) (data1.drop (4 * 0), data2.drop (2 * 0), d) L = .ok s' ↔ _ :=
    fun d s' => runCells_eq_ok (st := fun k d => (data1.drop (4 * k), data2.drop (2 * k), d)) (f := f)
      (pos := fun k => (List.range' 0 4).flatMap fun y =>
        [texelPos m k y 0, texelPos m k y 1, texelPos m k y 2, texelPos m k y 3]) (k := 0)
      (fun k a hk d s' => by
        rw [Nat.zero_add]
        have hm : 0 < m := by
          have := (List.getElem?_eq_some_iff.1 hk).1
          rw [hcl] at this
          rcases Nat.eq_zero_or_pos m with h | h
          · subst h; omega
          · exact h
        have ha := hcg k a hk
        have hfp : ∀ y x, y < 4 → x < 4 → f (texelPos m k y x) = _ := fun y x hy hx =>
          (congrFun hf.symm _).trans (pixelAt_texel hm hy hx)
        unfold cellTexeled
        dsimp only
        have hnone : f (texelPos m k 0 0) = none → ∀ d' : Dest, ¬ putAll f d ((List.range' 0 4).flatMap fun y =>
            [texelPos m k y 0, texelPos m k y 1, texelPos m k y 2, texelPos m k y 3]) = .ok d' := by
          intro h d'
          exact putAll_none h
        cases hd : data2.drop (2 * k) with
        | nil =>
          constructor
          · intro h; exact nomatch h
          · rintro ⟨_, h, _⟩
            exact absurd h (hnone (by rw [hfp 0 0 (by decide) (by decide), drop_nil hd]; rfl) _)
        | cons lo it =>
          obtain ⟨h1, h1'⟩ := drop_get hd
          cases hd2 : it with
          | nil =>
            rw [h1'] at hd2
            constructor
            · intro h; exact nomatch h
            · rintro ⟨_, h, _⟩
              exact absurd h (hnone (by rw [hfp 0 0 (by decide) (by decide), h1, drop_nil hd2]; rfl) _)
          | cons hi it2 =>
            rw [h1'] at hd2
            obtain ⟨h2, h2'⟩ := drop_get hd2
            have hlo := lo.toNat_lt
            have hhi := hi.toNat_lt
            dsimp only
            have hw : lo.toNat ||| (hi.toNat <<< 8) = lo.toNat + 256 * hi.toNat := by
              rw [Bits.or_add (by omega)]; omega
            rw [hw, show (0x3FFF : Nat) = 2 ^ 14 - 1 from rfl, Bits.and_mask _ 14 rfl, Bits.shr]
            have hrows : ∀ d s', runCells (texelRow (some (pal.map .int)) ((lo.toNat + 256 * hi.toNat) % 2 ^ 14 * 2)
                ((lo.toNat + 256 * hi.toNat) / 2 ^ 14) (4 * m) a) (data1.drop (4 * k + 0), d) (List.range 4) = .ok s' ↔ _ :=
              fun d s' => runCells_eq_ok (st := fun y d => (data1.drop (4 * k + y), d)) (f := f)
                (pos := fun y => [texelPos m k y 0, texelPos m k y 1, texelPos m k y 2, texelPos m k y 3]) (k := 0)
                (fun y y' hy d s' => by
                  rw [Nat.zero_add]
                  obtain ⟨hy4, hyy⟩ := List.getElem?_eq_some_iff.1 hy
                  rw [List.length_range] at hy4
                  rw [List.getElem_range] at hyy
                  subst hyy
                  unfold texelRow
                  dsimp only
                  cases hd3 : data1.drop (4 * k + y) with
                  | nil =>
                    constructor
                    · intro h; exact nomatch h
                    · rintro ⟨_, h, _⟩
                      refine absurd h (putAll_none ?_)
                      rw [hfp y 0 hy4 (by decide), h1, h2, drop_nil hd3]; rfl
                  | cons v it3 =>
                    obtain ⟨h3, h3'⟩ := drop_get hd3
                    have hp : ∀ x, x < 4 → ∀ d, putTexel (some (pal.map .int)) ((lo.toNat + 256 * hi.toNat) % 2 ^ 14 * 2)
                        ((lo.toNat + 256 * hi.toNat) / 2 ^ 14) ((v.toNat >>> (2 * x)) &&& 3) d
                        ((a.1 + y) * (4 * m) + a.2 + x) = putF f d (texelPos m k y x) := by
                      intro x hx d
                      rw [show (a.1 + y) * (4 * m) + a.2 + x = texelPos m k y x by rw [ha]; rfl]
                      rw [Bits.and_mask _ 2 rfl, Bits.shr, Nat.pow_mul]
                      refine putTexel_eq _ _ _ _ _ _ (by omega) (by omega) ?_
                      rw [hfp y x hy4 hx, h1, h2, h3, Nat.mul_comm]
                      rfl
                    dsimp only
                    rw [show List.range 4 = [0, 1, 2, 3] from rfl]
                    simp only [runCells, hp 0 (by decide), hp 1 (by decide), hp 2 (by decide), hp 3 (by decide), putAll,
                      bind_eq_ok, pure_eq_ok, eq_comm (a := s'), h3']
                    rfl)
            have hz : (List.range 4).length = 4 := rfl
            simp only [hz, Nat.zero_add] at hrows
            rw [bind_eq_ok]
            simp only [pure_eq_ok]
            rw [show 2 * (k + 1) = 2 * k + 1 + 1 by omega, ← h2', show 4 * (k + 1) = 4 * k + 4 by omega]
            constructor
            · rintro ⟨r, h, rfl⟩
              obtain ⟨d2, h4, rfl⟩ := (hrows _ _).1 h
              exact ⟨d2, h4, rfl⟩
            · rintro ⟨d2, h4, rfl⟩
              exact ⟨_, (hrows _ _).2 ⟨d2, h4, rfl⟩, rfl⟩)
  rw [Nat.mul_zero, List.drop_zero, List.drop_zero] at hrun
  constructor
  · rintro ⟨r, h1, rfl⟩
    obtain ⟨d1, h2, rfl⟩ := (hrun _ _).1 h1
    exact h2
  · intro h1
    exact ⟨_, (hrun _ _).2 ⟨d', h1, rfl⟩, rfl⟩

end Verif.Proofs.Texture
