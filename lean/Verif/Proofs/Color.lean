import Verif.Spec.Color

/-!
# Lemmas about colours
-/

namespace Verif.Proofs.Color

open Verif Verif.Model.Color Verif.Spec.Color

/-! ## One channel (complete tables) -/

theorem expand5_table : ∀ x : Fin 32, expand5 x.val < 256 ∧ contract5 (expand5 x.val) = x.val ∧
    (16 ≤ x.val ↔ 128 ≤ expand5 x.val) := by decide +kernel

theorem contract5_table : ∀ x : Fin 256, contract5 x.val < 32 ∧ (16 ≤ contract5 x.val ↔ 128 ≤ x.val) := by
  decide +kernel

theorem closest_table : ∀ x : Fin 256, ∀ y : Fin 32,
    ((expand5 (contract5 x.val) : Int) - x.val).natAbs ≤ ((expand5 y.val : Int) - x.val).natAbs := by
  decide +kernel

theorem expand5_lt {x : Nat} (h : x < 32) : expand5 x < 256 := (expand5_table ⟨x, h⟩).1

theorem contract5_expand5 {x : Nat} (h : x < 32) : contract5 (expand5 x) = x := (expand5_table ⟨x, h⟩).2.1

theorem expand5_ge {x : Nat} (h : x < 32) : 16 ≤ x ↔ 128 ≤ expand5 x := (expand5_table ⟨x, h⟩).2.2

theorem contract5_lt {x : Nat} (h : x < 256) : contract5 x < 32 := (contract5_table ⟨x, h⟩).1

theorem contract5_ge {x : Nat} (h : x < 256) : 16 ≤ contract5 x ↔ 128 ≤ x := (contract5_table ⟨x, h⟩).2

/-! ## Packed values -/

theorem and_1f (n : Nat) : n &&& 0x1F = n % 32 := Nat.and_two_pow_sub_one_eq_mod n 5

theorem and_ff (n : Nat) : n &&& 0xFF = n % 256 := Nat.and_two_pow_sub_one_eq_mod n 8

theorem or_add {a b k : Nat} (h : a < 2 ^ k) : a ||| (b <<< k) = a + b * 2 ^ k := by
  rw [Nat.or_comm, ← Nat.shiftLeft_add_eq_or_of_lt h, Nat.shiftLeft_eq, Nat.add_comm]

theorem or_add' {a b k : Nat} (h : a < 2 ^ k) : (b <<< k) ||| a = b * 2 ^ k + a := by
  rw [← Nat.shiftLeft_add_eq_or_of_lt h, Nat.shiftLeft_eq]

/-- The packed word as a sum. -/
theorem word_eq {r g b : Nat} (a : Nat) (hr : r < 32) (hg : g < 32) (hb : b < 32) :
    (r ||| (g <<< 5) ||| (b <<< 10) ||| (a <<< 15)) = r + g * 32 + b * 1024 + a * 32768 := by
  rw [or_add (k := 5) (by omega), or_add (k := 10) (by omega), or_add (k := 15) (by omega)]

theorem pack_eq (r g b a : Nat) : pack r g b a = r % 32 + g % 32 * 32 + b % 32 * 1024 + a % 2 * 32768 := by
  unfold pack
  rw [and_1f, and_1f, and_1f, Nat.and_one_is_mod, word_eq _ (by omega) (by omega) (by omega)]

theorem pack_lt (r g b a : Nat) : pack r g b a < 65536 := by rw [pack_eq]; omega

theorem unpack_eq (v : Nat) : unpack v = ⟨v % 32, v / 32 % 32, v / 1024 % 32, v / 32768 % 2⟩ := by
  unfold unpack
  simp only [and_1f, Nat.and_one_is_mod, Nat.shiftRight_eq_div_pow]

theorem unpack_pack {r g b a : Nat} (hr : r < 32) (hg : g < 32) (hb : b < 32) (ha : a < 2) :
    unpack (pack r g b a) = ⟨r, g, b, a⟩ := by
  rw [pack_eq, unpack_eq]
  simp only [Color.mk.injEq]
  omega

theorem pack_unpack {v : Nat} (h : v < 65536) :
    pack (unpack v).r (unpack v).g (unpack v).b (unpack v).a = v := by
  rw [pack_eq, unpack_eq]
  simp only
  omega

theorem unpack_range (v : Nat) :
    (unpack v).r < 32 ∧ (unpack v).g < 32 ∧ (unpack v).b < 32 ∧ (unpack v).a < 2 := by
  rw [unpack_eq]
  simp only
  omega

/-! ## `convert` as decoding, channel conversion and encoding -/

/-- The three kinds of tuples. -/
inductive Kind where
  | a1
  | a5
  | a255
  deriving DecidableEq

def kind : Fmt → Kind
  | .int16 => .a1
  | .bytes2 => .a1
  | .rgb5a1 => .a1
  | .rgb5a5 => .a5
  | .rgba255 => .a255

def KOk : Kind → Color → Prop
  | .a1, c => c.r < 32 ∧ c.g < 32 ∧ c.b < 32 ∧ c.a < 2
  | .a5, c => c.r < 32 ∧ c.g < 32 ∧ c.b < 32 ∧ c.a < 32
  | .a255, c => c.r < 256 ∧ c.g < 256 ∧ c.b < 256 ∧ c.a < 256

/-- Channel conversion. -/
def conv : Kind → Kind → Color → Color
  | .a1, .a1, c => c
  | .a1, .a5, c => ⟨c.r, c.g, c.b, if c.a ≠ 0 then 31 else 0⟩
  | .a1, .a255, c => ⟨expand5 c.r, expand5 c.g, expand5 c.b, if c.a ≠ 0 then 255 else 0⟩
  | .a5, .a1, c => ⟨c.r, c.g, c.b, if c.a ≥ 16 then 1 else 0⟩
  | .a5, .a5, c => c
  | .a5, .a255, c => ⟨expand5 c.r, expand5 c.g, expand5 c.b, expand5 c.a⟩
  | .a255, .a1, c => ⟨contract5 c.r, contract5 c.g, contract5 c.b, if c.a ≥ 128 then 1 else 0⟩
  | .a255, .a5, c => ⟨contract5 c.r, contract5 c.g, contract5 c.b, contract5 c.a⟩
  | .a255, .a255, c => c

theorem conv_ok {j k : Kind} {c : Color} (h : KOk j c) : KOk k (conv j k c) := by
  cases j <;> cases k <;> simp only [KOk, conv] at h ⊢ <;>
    obtain ⟨h1, h2, h3, h4⟩ := h <;>
    first
    | exact ⟨h1, h2, h3, h4⟩
    | exact ⟨h1, h2, h3, by split <;> omega⟩
    | exact ⟨expand5_lt h1, expand5_lt h2, expand5_lt h3, by split <;> omega⟩
    | exact ⟨expand5_lt h1, expand5_lt h2, expand5_lt h3, expand5_lt h4⟩
    | exact ⟨contract5_lt h1, contract5_lt h2, contract5_lt h3, by split <;> omega⟩
    | exact ⟨contract5_lt h1, contract5_lt h2, contract5_lt h3, contract5_lt h4⟩

def klevel : Kind → Nat
  | .a1 => 0
  | .a5 => 1
  | .a255 => 2

theorem conv_conv {i j k : Kind} {c : Color} (h : KOk i c) (hl : min (klevel i) (klevel k) ≤ klevel j) :
    conv j k (conv i j c) = conv i k c := by
  have e255 : contract5 255 = 31 := by decide
  have e0 : contract5 0 = 0 := by decide
  have x31 : expand5 31 = 255 := by decide
  have x0 : expand5 0 = 0 := by decide
  obtain ⟨r, g, b, a⟩ := c
  cases i <;> cases j <;> cases k <;> simp only [klevel] at hl <;> first
    | omega
    | skip
  all_goals
    simp only [KOk, conv] at h ⊢
    try (
      obtain ⟨h1, h2, h3, h4⟩ := h
      simp only [Color.mk.injEq, true_and]
      first
      | (simp only [contract5_expand5 h1, contract5_expand5 h2, contract5_expand5 h3, true_and]
         first
         | rw [contract5_expand5 h4]
         | (simp only [ge_iff_le, ← expand5_ge h4])
         | (split <;> simp_all <;> omega))
      | (simp only [ge_iff_le, contract5_ge h4])
      | (split <;> simp_all <;> omega))

/-- The tuple a value stands for. -/
def dec : Fmt → Val → Color
  | .int16, .int n => unpack n
  | .bytes2, .bytes b => unpack (leVal b)
  | _, .tup c => c
  | _, _ => ⟨0, 0, 0, 0⟩

/-- The value of a format that stands for a tuple. -/
def enc : Fmt → Color → Val
  | .int16, c => .int (pack c.r c.g c.b c.a)
  | .bytes2, c => .bytes (leBytes 2 (pack c.r c.g c.b c.a))
  | _, c => .tup c

theorem dec_ok {f : Fmt} {x : Val} (h : Valid f x) : KOk (kind f) (dec f x) := by
  cases f <;> cases x <;> simp only [Valid] at h <;> simp only [kind, dec, KOk]
  · exact unpack_range _
  · exact unpack_range _
  · exact h
  · exact h
  · exact h

theorem enc_dec {f : Fmt} {x : Val} (h : Valid f x) : enc f (dec f x) = x := by
  cases f <;> cases x <;> simp only [Valid] at h <;> simp only [enc, dec]
  · rw [pack_unpack (by omega)]
  · rename_i b
    have hl := leVal_lt b
    rw [h] at hl
    rw [pack_unpack (by omega), ← h, leBytes_leVal]

theorem enc_valid {f : Fmt} {c : Color} (h : KOk (kind f) c) : Valid f (enc f c) := by
  cases f <;> simp only [kind, KOk] at h <;> simp only [enc, Valid]
  · exact pack_lt _ _ _ _
  · simp
  · exact h
  · exact h
  · exact h

theorem dec_enc {f : Fmt} {c : Color} (h : KOk (kind f) c) : dec f (enc f c) = c := by
  cases f <;> simp only [kind, KOk] at h <;> simp only [enc, dec]
  · exact unpack_pack h.1 h.2.1 h.2.2.1 h.2.2.2
  · have := pack_lt c.r c.g c.b c.a
    rw [leVal_leBytes_of_lt (by omega)]
    exact unpack_pack h.1 h.2.1 h.2.2.1 h.2.2.2

theorem bytes2_of_lt {v : Nat} (h : v < 65536) : bytes2 v = .ok (leBytes 2 v) := by
  unfold bytes2 byteOf
  rw [and_ff, Nat.shiftRight_eq_div_pow, if_pos (by omega), if_pos (by omega)]
  simp only [bind_ok, leBytes, pure_eq_ok]
  congr 1
  apply UInt8.toNat_inj.1
  simp

theorem shr15 {v : Nat} (h : v < 65536) : v >>> 15 = v / 32768 % 2 := by
  rw [Nat.shiftRight_eq_div_pow]; omega

theorem convertInt_eq {n : Nat} (h : n < 65536) (t : Fmt) :
    convertInt n t = .ok (enc t (conv .a1 (kind t) (unpack n))) := by
  have hp := pack_unpack h
  unfold convertInt
  cases t
  · simp only [kind, conv, enc, hp]
  · simp only [kind, conv, enc, hp, bytes2_of_lt h, bind_ok, pure_def]
  all_goals
    simp only [kind, conv, enc, shr15 h, and_1f, Nat.shiftRight_eq_div_pow, unpack_eq]

theorem word_pack (r g b : Nat) {a : Nat} (ha : a < 2) :
    ((r &&& 0x1F) ||| ((g &&& 0x1F) <<< 5) ||| ((b &&& 0x1F) <<< 10) ||| (a <<< 15)) = pack r g b a := by
  unfold pack
  rw [Nat.and_one_is_mod, Nat.mod_eq_of_lt ha]

theorem convertEnd_eq {c : Color} {v : Nat} {t : Fmt} (hv : v = pack c.r c.g c.b c.a)
    (ht : t = .int16 ∨ t = .bytes2) : convertEnd v t = .ok (enc t c) := by
  subst hv
  unfold convertEnd
  rcases ht with rfl | rfl
  · simp [enc]
  · rw [if_neg (by decide), bytes2_of_lt (pack_lt _ _ _ _), bind_ok]; rfl

/-- `convert` on valid values. -/
theorem convert_eq {f t : Fmt} {x : Val} (h : Valid f x) :
    convert x f t = .ok (enc t (conv (kind f) (kind t) (dec f x))) := by
  cases f <;> cases x <;> simp only [Valid] at h <;> unfold convert <;> simp only [dec, kind]
  · exact convertInt_eq h t
  · rename_i b
    match b, h with
    | [b0, b1], _ =>
      have h0 := b0.toNat_lt
      have h1 := b1.toNat_lt
      have e : b1.toNat <<< 8 ||| b0.toNat = leVal [b0, b1] := by
        rw [or_add' (k := 8) (by omega)]
        simp [leVal]; omega
      have : pyIdx [b0, b1] 1 = .ok b1 := rfl
      rw [this, bind_ok]
      have : pyIdx [b0, b1] 0 = .ok b0 := rfl
      rw [this, bind_ok, e]
      refine convertInt_eq ?_ t
      simp only [leVal]
      omega
  · obtain ⟨h1, h2, h3, h4⟩ := h
    unfold convertA1
    cases t
    · exact convertEnd_eq (word_pack _ _ _ h4) (by simp)
    · exact convertEnd_eq (word_pack _ _ _ h4) (by simp)
    all_goals rfl
  · obtain ⟨h1, h2, h3, h4⟩ := h
    unfold convertA5
    cases t
    · exact convertEnd_eq (word_pack _ _ _ (by split <;> omega)) (by simp)
    · exact convertEnd_eq (word_pack _ _ _ (by split <;> omega)) (by simp)
    all_goals rfl
  · obtain ⟨h1, h2, h3, h4⟩ := h
    unfold convert255
    have g1 := contract5_lt h1
    have g2 := contract5_lt h2
    have g3 := contract5_lt h3
    cases t
    · exact convertEnd_eq (word_pack _ _ _ (by split <;> omega)) (by simp)
    · exact convertEnd_eq (word_pack _ _ _ (by split <;> omega)) (by simp)
    all_goals rfl

theorem klevel_kind (f : Fmt) : klevel (kind f) = level f := by cases f <;> rfl

/-! ## Palettes -/

theorem savePalette_eq (colors : List Color) : savePalette colors =
    .ok ((colors.map fun c => leBytes 2 (pack c.r c.g c.b c.a)).flatten) := by
  unfold savePalette
  rw [mapE_ok_of_forall (g := fun c => leBytes 2 (pack c.r c.g c.b c.a)), bind_ok]
  · rfl
  · intro c _
    have := pack_lt c.r c.g c.b c.a
    exact packU_of_lt (by omega)

theorem flatten_len {α : Type _} (f : α → Bytes) {n : Nat} (hf : ∀ a, (f a).length = n) (l : List α) :
    ((l.map f).flatten).length = n * l.length := by
  induction l with
  | nil => rfl
  | cons a l ih =>
    simp only [List.map_cons, List.flatten_cons, List.length_append, ih, hf, List.length_cons, Nat.mul_add]; omega

theorem load_save_palette {colors : List Color}
    (h : ∀ c ∈ colors, c.r < 32 ∧ c.g < 32 ∧ c.b < 32 ∧ c.a < 2) :
    loadPalette ((colors.map fun c => leBytes 2 (pack c.r c.g c.b c.a)).flatten) = .ok colors := by
  unfold loadPalette
  have hl := flatten_len (fun c : Color => leBytes 2 (pack c.r c.g c.b c.a)) (n := 2) (by simp) colors
  have : mapE (fun i => unpackU .little 2
      ((colors.map fun c => leBytes 2 (pack c.r c.g c.b c.a)).flatten) (2 * i))
      (List.range (((colors.map fun c => leBytes 2 (pack c.r c.g c.b c.a)).flatten).length / 2)) =
      .ok (colors.map fun c => pack c.r c.g c.b c.a) := by
    apply mapE_range_eq
    · rw [hl, List.length_map]; omega
    · intro i hi
      rw [List.length_map] at hi
      have := flatten_at (n := 2) (parts := colors.map fun c => leBytes 2 (pack c.r c.g c.b c.a))
        (by intro p hp; rw [List.mem_map] at hp; obtain ⟨t, _, rfl⟩ := hp; simp) (i := i) (by simpa using hi)
      rw [List.getElem_map] at this ⊢
      have hb := pack_lt colors[i].r colors[i].g colors[i].b colors[i].a
      exact (this.cast (Nat.mul_comm _ _)).unpackU (e := .little) (by omega)
  rw [this, bind_ok, pure_eq_ok, List.map_map]
  conv => rhs; rw [← List.map_id colors]
  apply List.map_congr_left
  intro c hc
  obtain ⟨h1, h2, h3, h4⟩ := h c hc
  exact unpack_pack h1 h2 h3 h4

/-- The bytes of a string, two by two. -/
def pairs : Bytes → List (UInt8 × UInt8)
  | a :: b :: rest => (a, b) :: pairs rest
  | _ => []

theorem pairs_length : ∀ d : Bytes, (pairs d).length = d.length / 2
  | [] => rfl
  | [_] => by simp [pairs]
  | a :: b :: rest => by simp [pairs, pairs_length rest]; omega

theorem pairs_flatten : ∀ d : Bytes, ((pairs d).map fun p => [p.1, p.2]).flatten = d.take (2 * (d.length / 2))
  | [] => rfl
  | [a] => by simp [pairs]
  | a :: b :: rest => by
    have := pairs_flatten rest
    simp only [pairs, List.map_cons, List.flatten_cons, this, List.length_cons]
    rw [show 2 * ((rest.length + 1 + 1) / 2) = 2 * (rest.length / 2) + 1 + 1 by omega]
    rfl

theorem loadPalette_eq (d : Bytes) :
    loadPalette d = .ok ((pairs d).map fun p => unpack (leVal [p.1, p.2])) := by
  unfold loadPalette
  have : mapE (fun i => unpackU .little 2 d (2 * i)) (List.range (d.length / 2)) =
      .ok ((pairs d).map fun p => leVal [p.1, p.2]) := by
    apply mapE_range_eq
    · rw [List.length_map, pairs_length]
    · intro i hi
      rw [List.length_map] at hi
      have hf := flatten_at (n := 2) (parts := (pairs d).map fun p => [p.1, p.2])
        (by intro p hp; rw [List.mem_map] at hp; obtain ⟨t, _, rfl⟩ := hp; rfl) (i := i) (by simpa using hi)
      rw [pairs_flatten] at hf
      have hf2 := hf.append_right (d.drop (2 * (d.length / 2)))
      rw [List.take_append_drop, List.getElem_map] at hf2
      rw [List.getElem_map]
      have hb := hf2.bound
      simp only [List.length_cons, List.length_nil] at hb
      apply unpackU_eq_ok.2
      refine ⟨by omega, ?_⟩
      rw [Nat.mul_comm 2 i, hf2.slice_eq (by simp)]
      rfl
  rw [this, bind_ok, pure_eq_ok, List.map_map]
  rfl

end Verif.Proofs.Color
