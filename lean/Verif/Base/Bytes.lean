import Verif.Base.Py

/-!
# Bytes, slices and `struct` fields

`bytes` and `bytearray` values are lists of `UInt8`.  The functions below model the parts of Python's
sequence protocol and of the `struct` module that ndspy uses, with the same failure conditions.
-/

namespace Verif

/-- A Python `bytes`/`bytearray` value. -/
abbrev Bytes := List UInt8

/-- Byte orders, `'<'` and `'>'` in `struct` format strings. -/
inductive Endian where
  | little
  | big
  deriving DecidableEq, Repr

/-- The `k` low-order bytes of `n`, least significant first. -/
def leBytes : Nat → Nat → Bytes
  | 0, _ => []
  | k + 1, n => UInt8.ofNat n :: leBytes k (n / 256)

/-- The number whose little-endian representation is the given byte string. -/
def leVal : Bytes → Nat
  | [] => 0
  | b :: bs => b.toNat + 256 * leVal bs

/-- The `k` low-order bytes of `n`, in the given byte order. -/
def enBytes (e : Endian) (k n : Nat) : Bytes :=
  match e with
  | .little => leBytes k n
  | .big => (leBytes k n).reverse

/-- The number represented by a byte string in the given byte order. -/
def enVal (e : Endian) (bs : Bytes) : Nat :=
  match e with
  | .little => leVal bs
  | .big => leVal bs.reverse

/-- `data[a:b]` for non-negative `a`, `b`. -/
def slice {α : Type _} (d : List α) (a b : Nat) : List α := (d.drop a).take (b - a)

/-- `data[i]` for non-negative `i`. -/
def pyIdx {α : Type _} (d : List α) (i : Nat) : Py α :=
  match d[i]? with
  | some x => .ok x
  | none => .error .indexError

/-- `data[i]` for any integer `i`; negative indices count from the end. -/
def pyIdxI {α : Type _} (d : List α) (i : Int) : Py α :=
  if 0 ≤ i then pyIdx d i.toNat
  else if 0 ≤ i + d.length then pyIdx d (i + d.length).toNat
  else .error .indexError

/-- `data[i] = v` for non-negative `i`. -/
def pySet {α : Type _} (d : List α) (i : Nat) (v : α) : Py (List α) :=
  if i < d.length then .ok (d.set i v) else .error .indexError

/-- The position that Python's index `i` denotes in a list of length `n`, if any. -/
def pyPos (n : Nat) (i : Int) : Option Nat :=
  if 0 ≤ i then (if i.toNat < n then some i.toNat else none)
  else if 0 ≤ i + n then some (i + n).toNat else none

/-- `data[i] = v` for any integer `i`; negative indices count from the end. -/
def pySetI {α : Type _} (d : List α) (i : Int) (v : α) : Py (List α) :=
  match pyPos d.length i with
  | some k => .ok (d.set k v)
  | none => .error .indexError

/-- `data.append(v)` on a `bytearray`, for a non-negative int. -/
def byteOf (n : Nat) : Py UInt8 := if n < 256 then .ok (UInt8.ofNat n) else .error .valueError

/-- `struct.pack` of one unsigned field of `k` bytes (`B`, `H`, `I`). -/
def packU (e : Endian) (k n : Nat) : Py Bytes :=
  if n < 256 ^ k then .ok (enBytes e k n) else .error .structError

/-- `struct.unpack_from` of one unsigned field of `k` bytes at a non-negative offset. -/
def unpackU (e : Endian) (k : Nat) (d : Bytes) (off : Nat) : Py Nat :=
  if off + k ≤ d.length then .ok (enVal e (slice d off (off + k))) else .error .structError

/-- Two's complement encoding of `z` in `k` bytes. -/
def signedRep (k : Nat) (z : Int) : Nat := (z % (256 ^ k : Nat)).toNat

/-- Two's complement decoding of a `k`-byte number. -/
def signedVal (k n : Nat) : Int := if 2 * n < 256 ^ k then (n : Int) else (n : Int) - (256 ^ k : Nat)

/-- `struct.pack` of one signed field of `k` bytes (`b`, `h`, `i`). -/
def packS (e : Endian) (k : Nat) (z : Int) : Py Bytes :=
  if -(256 ^ k : Nat) ≤ 2 * z ∧ 2 * z < (256 ^ k : Nat) then .ok (enBytes e k (signedRep k z))
  else .error .structError

/-- `struct.unpack_from` of one signed field of `k` bytes. -/
def unpackS (e : Endian) (k : Nat) (d : Bytes) (off : Nat) : Py Int := do
  let n ← unpackU e k d off
  return signedVal k n

/-- `struct.pack` of one unsigned field whose value may be negative. -/
def packUInt (e : Endian) (k : Nat) (z : Int) : Py Bytes :=
  if 0 ≤ z then packU e k z.toNat else .error .structError

/-- `struct.unpack_from('{n}s', data, off)`: exactly `n` bytes or `struct.error`. -/
def unpackStr (n : Nat) (d : Bytes) (off : Nat) : Py Bytes :=
  if off + n ≤ d.length then .ok (slice d off (off + n)) else .error .structError

/-- `struct.pack('{n}s', s)`: truncates or pads with null bytes. -/
def packStr (n : Nat) (s : Bytes) : Bytes := s.take n ++ List.replicate (n - s.length) 0

/-- Overwrite the bytes of `d` from `off` on with `bs`. -/
def patch {α : Type _} (d : List α) (off : Nat) (bs : List α) : List α :=
  d.take off ++ bs ++ d.drop (off + bs.length)

/-- `struct.pack_into` of already packed fields at a non-negative offset. -/
def packInto (d : Bytes) (off : Nat) (bs : Bytes) : Py Bytes :=
  if off + bs.length ≤ d.length then .ok (patch d off bs) else .error .structError

/-- How many bytes `while len(data) % align: data.append(...)` appends. -/
def padLen (len align : Nat) : Nat := (align - len % align) % align

/-- `while len(data) % align: data.append(fill)`. -/
def padTo (d : Bytes) (align : Nat) (fill : UInt8) : Bytes :=
  d ++ List.replicate (padLen d.length align) fill

/-- A run of null bytes, `b'\0' * n`. -/
def zeros (n : Nat) : Bytes := List.replicate n 0

/-! ## Encoding lemmas -/

@[simp] theorem leBytes_length (k n : Nat) : (leBytes k n).length = k := by
  induction k generalizing n with
  | zero => rfl
  | succ k ih => simp [leBytes, ih]

@[simp] theorem enBytes_length (e : Endian) (k n : Nat) : (enBytes e k n).length = k := by
  cases e <;> simp [enBytes]

theorem leVal_lt (bs : Bytes) : leVal bs < 256 ^ bs.length := by
  induction bs with
  | nil => simp [leVal]
  | cons b bs ih =>
    have := b.toNat_lt
    simp only [leVal, List.length_cons, Nat.pow_succ]
    omega

theorem leVal_leBytes (k n : Nat) : leVal (leBytes k n) = n % 256 ^ k := by
  induction k generalizing n with
  | zero => simp [leBytes, leVal, Nat.mod_one]
  | succ k ih =>
    simp only [leBytes, leVal, ih, UInt8.toNat_ofNat']
    rw [Nat.pow_succ (n := 256), Nat.mul_comm (256 ^ k) 256, Nat.mod_mul]

theorem leBytes_leVal (bs : Bytes) : leBytes bs.length (leVal bs) = bs := by
  induction bs with
  | nil => rfl
  | cons b bs ih =>
    have hb := b.toNat_lt
    simp only [List.length_cons, leBytes, leVal]
    have h1 : (b.toNat + 256 * leVal bs) / 256 = leVal bs := by omega
    have h2 : UInt8.ofNat (b.toNat + 256 * leVal bs) = b := by
      apply UInt8.toNat_inj.1
      rw [UInt8.toNat_ofNat']
      omega
    rw [h1, h2, ih]

theorem leVal_leBytes_of_lt {k n : Nat} (h : n < 256 ^ k) : leVal (leBytes k n) = n := by
  rw [leVal_leBytes, Nat.mod_eq_of_lt h]

theorem enVal_enBytes {e : Endian} {k n : Nat} (h : n < 256 ^ k) : enVal e (enBytes e k n) = n := by
  cases e <;> simp [enVal, enBytes, leVal_leBytes_of_lt h]

theorem enVal_lt (e : Endian) (bs : Bytes) : enVal e bs < 256 ^ bs.length := by
  cases e
  · exact leVal_lt bs
  · simpa [enVal] using leVal_lt bs.reverse

theorem enBytes_enVal (e : Endian) (bs : Bytes) : enBytes e bs.length (enVal e bs) = bs := by
  cases e
  · exact leBytes_leVal bs
  · have := leBytes_leVal bs.reverse
    simp only [List.length_reverse] at this
    simp [enBytes, enVal, this]

theorem leBytes_append (j k n : Nat) : leBytes (j + k) n = leBytes j n ++ leBytes k (n / 256 ^ j) := by
  induction j generalizing n with
  | zero => simp [leBytes]
  | succ j ih =>
    rw [Nat.add_right_comm, leBytes, ih, leBytes, List.cons_append, Nat.div_div_eq_div_mul, Nat.pow_succ,
      Nat.mul_comm (256 ^ j) 256]

theorem leBytes_zero (k : Nat) : leBytes k 0 = List.replicate k 0 := by
  induction k with
  | zero => rfl
  | succ k ih => simp [leBytes, ih, List.replicate_succ]

/-! ## `struct` lemmas -/

theorem packU_eq_ok {e : Endian} {k n : Nat} {bs : Bytes} :
    packU e k n = .ok bs ↔ n < 256 ^ k ∧ bs = enBytes e k n := by
  unfold packU
  split
  · simp [*]; exact eq_comm
  · simp [*]

theorem packU_of_lt {e : Endian} {k n : Nat} (h : n < 256 ^ k) : packU e k n = .ok (enBytes e k n) := by
  unfold packU; simp [h]

theorem packU_error {e : Endian} {k n : Nat} (h : 256 ^ k ≤ n) : packU e k n = .error .structError := by
  unfold packU; simp [Nat.not_lt.2 h]

theorem signedRep_lt (k : Nat) (z : Int) : signedRep k z < 256 ^ k := by
  unfold signedRep
  have hp : 0 < 256 ^ k := Nat.pow_pos (by decide)
  have hp' : (0 : Int) < (256 ^ k : Nat) := by exact_mod_cast hp
  have h1 := Int.emod_nonneg z (Int.ne_of_gt hp')
  have h2 := Int.emod_lt_of_pos z hp'
  omega

theorem signedVal_signedRep {k : Nat} {z : Int} (h1 : -(256 ^ k : Nat) ≤ 2 * z)
    (h2 : 2 * z < (256 ^ k : Nat)) : signedVal k (signedRep k z) = z := by
  unfold signedVal signedRep
  have hp : 0 < 256 ^ k := Nat.pow_pos (by decide)
  generalize 256 ^ k = m at *
  by_cases hz : 0 ≤ z
  · have : z % (m : Int) = z := Int.emod_eq_of_lt hz (by omega)
    rw [this]
    split <;> omega
  · have : z % (m : Int) = z + m := by
      rw [← Int.add_emod_right]
      exact Int.emod_eq_of_lt (by omega) (by omega)
    rw [this]
    split <;> omega

theorem signedRep_signedVal {k n : Nat} (h : n < 256 ^ k) : signedRep k (signedVal k n) = n := by
  unfold signedVal signedRep
  generalize 256 ^ k = m at *
  split
  · rw [Int.emod_eq_of_lt (by omega) (by omega)]; omega
  · rw [← Int.add_emod_right, Int.emod_eq_of_lt (by omega) (by omega)]; omega

theorem packS_eq_ok {e : Endian} {k : Nat} {z : Int} {bs : Bytes} :
    packS e k z = .ok bs ↔
      (-(256 ^ k : Nat) ≤ 2 * z ∧ 2 * z < (256 ^ k : Nat)) ∧ bs = enBytes e k (signedRep k z) := by
  unfold packS
  split
  · rename_i h
    simp only [Except.ok.injEq, h]; simp; exact eq_comm
  · rename_i h
    simp only [reduceCtorEq, false_iff]
    exact fun h' => h h'.1

theorem packUInt_eq_ok {e : Endian} {k : Nat} {z : Int} {bs : Bytes} :
    packUInt e k z = .ok bs ↔ 0 ≤ z ∧ z.toNat < 256 ^ k ∧ bs = enBytes e k z.toNat := by
  unfold packUInt
  split
  · rename_i h; simp [packU_eq_ok, h]
  · rename_i h; simp [h]

theorem packU_err {e : Endian} {k n : Nat} {err : PyErr} (h : packU e k n = .error err) :
    err = .structError := by
  unfold packU at h; split at h <;> cases h; rfl

theorem packUInt_err {e : Endian} {k : Nat} {z : Int} {err : PyErr} (h : packUInt e k z = .error err) :
    err = .structError := by
  unfold packUInt at h
  split at h
  · exact packU_err h
  · cases h; rfl

theorem packS_err {e : Endian} {k : Nat} {z : Int} {err : PyErr} (h : packS e k z = .error err) :
    err = .structError := by
  unfold packS at h; split at h <;> cases h; rfl

theorem packInto_err {d bs : Bytes} {off : Nat} {err : PyErr} (h : packInto d off bs = .error err) :
    err = .structError := by
  unfold packInto at h; split at h <;> cases h; rfl

theorem unpackU_err {e : Endian} {k : Nat} {d : Bytes} {off : Nat} {err : PyErr}
    (h : unpackU e k d off = .error err) : err = .structError := by
  unfold unpackU at h; split at h <;> cases h; rfl

theorem packUInt_of {e : Endian} {k : Nat} {z : Int} (h0 : 0 ≤ z) (h : z.toNat < 256 ^ k) :
    packUInt e k z = .ok (enBytes e k z.toNat) := packUInt_eq_ok.2 ⟨h0, h, rfl⟩

@[simp] theorem packStr_length (n : Nat) (s : Bytes) : (packStr n s).length = n := by
  simp [packStr]; omega

theorem packStr_of_length {n : Nat} {s : Bytes} (h : s.length = n) : packStr n s = s := by
  subst h; simp [packStr]

theorem byteOf_eq_ok {n : Nat} {b : UInt8} : byteOf n = .ok b ↔ n < 256 ∧ b = UInt8.ofNat n := by
  unfold byteOf
  split
  · simp [*]; exact eq_comm
  · simp [*]

/-! ## Slices -/

theorem slice_length {α : Type _} (d : List α) (a b : Nat) :
    (slice d a b).length = min (b - a) (d.length - a) := by
  simp [slice]

theorem slice_length_of_le {α : Type _} {d : List α} {a b : Nat} (h : b ≤ d.length) :
    (slice d a b).length = b - a := by
  rw [slice_length]; omega

@[simp] theorem slice_zero {α : Type _} (d : List α) (b : Nat) : slice d 0 b = d.take b := by
  simp [slice]

theorem slice_all {α : Type _} {d : List α} {a b : Nat} (h : d.length ≤ b) : slice d a b = d.drop a := by
  unfold slice
  apply List.take_of_length_le
  simp; omega

@[simp] theorem slice_self {α : Type _} (d : List α) (a : Nat) : slice d a a = [] := by
  simp [slice]

theorem slice_nil_of_le {α : Type _} {d : List α} {a b : Nat} (h : b ≤ a) : slice d a b = [] := by
  simp [slice, Nat.sub_eq_zero_of_le h]

theorem slice_append_slice {α : Type _} (d : List α) {a b c : Nat} (h1 : a ≤ b) (h2 : b ≤ c) :
    slice d a b ++ slice d b c = slice d a c := by
  unfold slice
  have e1 : d.drop b = (d.drop a).drop (b - a) := by rw [List.drop_drop]; congr 1; omega
  have e2 : c - a = (b - a) + (c - b) := by omega
  rw [e1, e2, List.take_add]

theorem slice_slice {α : Type _} (d : List α) {a b i j : Nat} (h : a + j ≤ b) :
    slice (slice d a b) i j = slice d (a + i) (a + j) := by
  unfold slice
  rw [List.drop_take, List.take_take, List.drop_drop]
  congr 1
  omega

theorem getElem?_slice {α : Type _} (d : List α) (a b i : Nat) :
    (slice d a b)[i]? = if a + i < b then d[a + i]? else none := by
  unfold slice
  rw [List.getElem?_take]
  by_cases h : a + i < b
  · have : i < b - a := by omega
    simp [h, this, List.getElem?_drop]
  · have : ¬ i < b - a := by omega
    simp [h, this]

/-! ## Segments

`At d o s` says that `s` occurs in `d` at offset `o`.  All file layouts are reasoned about with it. -/

/-- The segment `s` lies in `d` at offset `o`. -/
def At {α : Type _} (d : List α) (o : Nat) (s : List α) : Prop :=
  ∃ a b, d = a ++ s ++ b ∧ a.length = o

namespace At

variable {α : Type _} {d s t : List α} {o p : Nat}

theorem mk' {a b : List α} (h : a.length = o) : At (a ++ s ++ b) o s := ⟨a, b, rfl, h⟩

theorem mid (a s b : List α) : At (a ++ s ++ b) a.length s := ⟨a, b, rfl, rfl⟩

theorem last (a s : List α) : At (a ++ s) a.length s := ⟨a, [], by simp, rfl⟩

theorem last' {a s : List α} (h : a.length = o) : At (a ++ s) o s := ⟨a, [], by simp, h⟩

theorem first (s b : List α) : At (s ++ b) 0 s := ⟨[], b, by simp, rfl⟩

theorem refl (s : List α) : At s 0 s := ⟨[], [], by simp, rfl⟩

theorem bound (h : At d o s) : o + s.length ≤ d.length := by
  obtain ⟨a, b, rfl, rfl⟩ := h; simp

theorem append_right (h : At d o s) (e : List α) : At (d ++ e) o s := by
  obtain ⟨a, b, rfl, rfl⟩ := h
  exact ⟨a, b ++ e, by simp, rfl⟩

theorem append_left (h : At d o s) (e : List α) : At (e ++ d) (e.length + o) s := by
  obtain ⟨a, b, rfl, rfl⟩ := h
  exact ⟨e ++ a, b, by simp, by simp⟩

theorem append_left' (h : At d o s) {e : List α} (hp : p = e.length + o) : At (e ++ d) p s := by
  subst hp; exact h.append_left e

theorem sub (h : At d o s) (h' : At s p t) : At d (o + p) t := by
  obtain ⟨a, b, rfl, rfl⟩ := h
  obtain ⟨a', b', rfl, rfl⟩ := h'
  exact ⟨a ++ a', b' ++ b, by simp, by simp⟩

theorem split : At d o (s ++ t) ↔ At d o s ∧ At d (o + s.length) t := by
  constructor
  · intro h
    refine ⟨?_, ?_⟩
    · simpa using h.sub (At.first s t)
    · exact h.sub (At.last s t)
  · rintro ⟨⟨a, b, h, rfl⟩, ⟨a', b', h', hl⟩⟩
    refine ⟨a, b', ?_, rfl⟩
    have : a' = a ++ s := by
      have e : a' ++ (t ++ b') = (a ++ s) ++ b := by rw [← List.append_assoc, ← h', h]
      exact (List.append_inj e (by simp [hl])).1
    rw [h', this]; simp

theorem cast (h : At d o s) (e : o = p) : At d p s := e ▸ h

theorem nil (h : o ≤ d.length) : At d o [] := ⟨d.take o, d.drop o, by simp, by simp [h]⟩

theorem slice_eq (h : At d o s) {b : Nat} (hb : b = o + s.length) : slice d o b = s := by
  subst hb
  obtain ⟨a, b, rfl, rfl⟩ := h
  simp [slice]

theorem of_slice {b : Nat} (hb : b ≤ d.length) (hab : o ≤ b) (h : slice d o b = s) : At d o s := by
  refine ⟨d.take o, d.drop b, ?_, by simp; omega⟩
  subst h
  have : d = d.take o ++ (slice d o b ++ d.drop b) := by
    unfold slice
    have e : d.drop b = (d.drop o).drop (b - o) := by rw [List.drop_drop]; congr 1; omega
    rw [e, List.take_append_drop, List.take_append_drop]
  rw [List.append_assoc]; exact this

theorem iff_slice : At d o s ↔ o + s.length ≤ d.length ∧ slice d o (o + s.length) = s :=
  ⟨fun h => ⟨h.bound, h.slice_eq rfl⟩, fun ⟨h1, h2⟩ => of_slice h1 (by omega) h2⟩

theorem unique (h : At d o s) (h' : At d o t) (hl : s.length = t.length) : s = t := by
  rw [← h.slice_eq rfl, ← h'.slice_eq rfl, hl]

theorem getElem? (h : At d o s) {i : Nat} (hi : i < s.length) : d[o + i]? = s[i]? := by
  obtain ⟨a, b, rfl, rfl⟩ := h
  rw [List.append_assoc, List.getElem?_append_right (by omega), List.getElem?_append_left (by omega)]
  congr 1; omega

theorem drop_eq (h : At d o s) (he : d.length = o + s.length) : d.drop o = s := by
  rw [← h.slice_eq rfl, slice_all (by omega)]

end At

/-- A segment survives overwriting a disjoint part. -/
theorem At.patch_disjoint {α : Type _} {d s bs : List α} {o p : Nat} (h : At d o s)
    (hd : p + bs.length ≤ o ∨ o + s.length ≤ p) (hp : p + bs.length ≤ d.length) :
    At (patch d p bs) o s := by
  rw [At.iff_slice] at h ⊢
  obtain ⟨hb, hs⟩ := h
  refine ⟨by simp [patch]; omega, ?_⟩
  conv => rhs; rw [← hs]
  apply List.ext_getElem?
  intro i
  rw [getElem?_slice, getElem?_slice]
  split
  · rename_i hi
    unfold patch
    rcases hd with hd | hd
    · rw [List.getElem?_append_right (by simp; omega), List.getElem?_drop]
      congr 1; simp; omega
    · rw [List.append_assoc, List.getElem?_append_left (by simp; omega), List.getElem?_take]
      simp; omega
  · rfl

/-- What has been written is there. -/
theorem At.patch_self {α : Type _} {d bs : List α} {p : Nat} (hp : p ≤ d.length) :
    At (patch d p bs) p bs := At.mk' (by simp [hp])

@[simp] theorem patch_length {α : Type _} {d bs : List α} {p : Nat} (hp : p + bs.length ≤ d.length) :
    (patch d p bs).length = d.length := by
  simp [patch]; omega

theorem patch_append_left {α : Type _} (a d bs : List α) (p : Nat) :
    patch (a ++ d) (a.length + p) bs = a ++ patch d p bs := by
  unfold patch
  simp [List.take_append, List.drop_append]
  rw [Nat.add_assoc, Nat.add_sub_cancel_left, List.take_of_length_le (by omega),
    List.drop_eq_nil_of_le (by omega)]
  rfl

theorem packInto_eq_ok {d bs r : Bytes} {p : Nat} :
    packInto d p bs = .ok r ↔ p + bs.length ≤ d.length ∧ r = patch d p bs := by
  unfold packInto
  split
  · simp [*]; exact eq_comm
  · simp [*]

theorem packInto_of_le {d bs : Bytes} {p : Nat} (h : p + bs.length ≤ d.length) :
    packInto d p bs = .ok (patch d p bs) := by
  simp [packInto, h]

theorem At.unpackU {e : Endian} {k n : Nat} {d : Bytes} {o : Nat} (h : At d o (enBytes e k n))
    (hn : n < 256 ^ k) : unpackU e k d o = .ok n := by
  have hb := h.bound
  rw [enBytes_length] at hb
  unfold Verif.unpackU
  rw [if_pos hb, h.slice_eq (by simp), enVal_enBytes hn]

theorem unpackU_error {e : Endian} {k : Nat} {d : Bytes} {o : Nat} (h : d.length < o + k) :
    unpackU e k d o = .error .structError := by
  unfold unpackU; rw [if_neg (by omega)]

theorem unpackU_eq_ok {e : Endian} {k n : Nat} {d : Bytes} {o : Nat} :
    unpackU e k d o = .ok n ↔ o + k ≤ d.length ∧ n = enVal e (slice d o (o + k)) := by
  unfold unpackU
  split
  · simp [*]; exact eq_comm
  · simp [*]

theorem unpackU_lt {e : Endian} {k n : Nat} {d : Bytes} {o : Nat} (h : unpackU e k d o = .ok n) :
    n < 256 ^ k := by
  obtain ⟨h1, rfl⟩ := unpackU_eq_ok.1 h
  have := enVal_lt e (slice d o (o + k))
  rwa [slice_length_of_le h1, Nat.add_sub_cancel_left] at this

/-- The bytes that were read, in terms of the value. -/
theorem At.of_unpackU {e : Endian} {k n : Nat} {d : Bytes} {o : Nat} (h : Verif.unpackU e k d o = .ok n) :
    At d o (enBytes e k n) := by
  obtain ⟨h1, rfl⟩ := unpackU_eq_ok.1 h
  apply At.of_slice h1 (by omega)
  have hl : (slice d o (o + k)).length = k := by rw [slice_length_of_le h1]; omega
  have := enBytes_enVal e (slice d o (o + k))
  rw [hl] at this
  exact this.symm

theorem At.unpackS {e : Endian} {k : Nat} {z : Int} {d : Bytes} {o : Nat}
    (h : At d o (enBytes e k (signedRep k z))) (h1 : -(256 ^ k : Nat) ≤ 2 * z)
    (h2 : 2 * z < (256 ^ k : Nat)) : unpackS e k d o = .ok z := by
  unfold Verif.unpackS
  rw [h.unpackU (signedRep_lt k z)]
  simp only [bind_ok, signedVal_signedRep h1 h2]
  rfl

theorem At.unpackStr {n : Nat} {d s : Bytes} {o : Nat} (h : At d o s) (hn : s.length = n) :
    unpackStr n d o = .ok s := by
  have hb := h.bound
  unfold Verif.unpackStr
  rw [if_pos (by omega), h.slice_eq (by omega)]

theorem unpackStr_eq_ok {n : Nat} {d s : Bytes} {o : Nat} :
    Verif.unpackStr n d o = .ok s ↔ At d o s ∧ s.length = n := by
  refine ⟨fun h => ?_, fun h => h.1.unpackStr h.2⟩
  unfold Verif.unpackStr at h
  split at h
  · rename_i hb
    cases h
    exact ⟨At.of_slice hb (by omega) rfl, by rw [slice_length_of_le hb]; omega⟩
  · cases h

theorem At.pyIdx {α : Type _} {d : List α} {x : α} {o : Nat} (h : At d o [x]) : pyIdx d o = .ok x := by
  have := h.getElem? (i := 0) (by simp)
  unfold Verif.pyIdx
  rw [Nat.add_zero] at this
  rw [this]; rfl

theorem pyIdx_eq_ok {α : Type _} {d : List α} {x : α} {o : Nat} : pyIdx d o = .ok x ↔ d[o]? = some x := by
  unfold pyIdx
  split <;> simp_all

/-! ## Padding -/

theorem padLen_lt {len align : Nat} (h : 0 < align) : padLen len align < align := Nat.mod_lt _ h

theorem add_padLen_mod {align : Nat} (len : Nat) (h : 0 < align) :
    (len + padLen len align) % align = 0 := by
  unfold padLen
  have h1 := Nat.mod_lt len h
  by_cases h0 : len % align = 0
  · simp [h0]
  · rw [Nat.mod_eq_of_lt (a := align - len % align) (by omega)]
    rw [Nat.add_mod, Nat.mod_eq_of_lt (a := align - len % align) (by omega)]
    rw [Nat.add_sub_cancel' (by omega)]; simp

theorem padLen_of_dvd {len align : Nat} (h : len % align = 0) : padLen len align = 0 := by
  unfold padLen; simp [h]

@[simp] theorem padTo_length (d : Bytes) (a : Nat) (f : UInt8) :
    (padTo d a f).length = d.length + padLen d.length a := by
  simp [padTo]

theorem padTo_mod (d : Bytes) {a : Nat} (f : UInt8) (h : 0 < a) : (padTo d a f).length % a = 0 := by
  rw [padTo_length]; exact add_padLen_mod _ h

theorem At.padTo {d s : Bytes} {o : Nat} (h : At d o s) (a : Nat) (f : UInt8) : At (padTo d a f) o s :=
  h.append_right _

@[simp] theorem zeros_length (n : Nat) : (zeros n).length = n := by simp [zeros]

theorem pyPos_lt {n : Nat} {i : Int} {k : Nat} (h : pyPos n i = some k) : k < n := by
  unfold pyPos at h
  split at h
  · split at h <;> cases h; assumption
  · split at h <;> cases h; omega

/-- Reading at any Python index. -/
theorem pyIdxI_eq {α : Type _} (d : List α) (i : Int) :
    pyIdxI d i = match pyPos d.length i with
      | some k => pyIdx d k
      | none => .error .indexError := by
  unfold pyIdxI pyPos
  by_cases h1 : 0 ≤ i
  · by_cases h2 : i.toNat < d.length
    · simp [h1, h2]
    · simp only [h1, h2, if_true, if_false]
      unfold pyIdx; rw [List.getElem?_eq_none (by omega)]
  · by_cases h2 : 0 ≤ i + d.length
    · simp [h1, h2]
    · simp [h1, h2]

theorem le_sum_of_mem {a : Nat} : ∀ {l : List Nat}, a ∈ l → a ≤ l.sum
  | b :: l, h => by
    rw [List.sum_cons]
    rcases List.mem_cons.1 h with rfl | h
    · omega
    · have := le_sum_of_mem h; omega

/-- Records of a fixed size, one after the other. -/
theorem flatten_length_const {n : Nat} : ∀ {parts : List Bytes} (_ : ∀ p ∈ parts, p.length = n),
    parts.flatten.length = parts.length * n
  | [], _ => by simp
  | p :: parts, h => by
    rw [List.flatten_cons, List.length_append, h p (by simp),
      flatten_length_const (parts := parts) (fun q hq => h q (by simp [hq])), List.length_cons, Nat.succ_mul, Nat.add_comm]

theorem flatten_at {n : Nat} : ∀ {parts : List Bytes} (_ : ∀ p ∈ parts, p.length = n) {i : Nat}
    (hi : i < parts.length), At parts.flatten (i * n) parts[i]
  | [], _, _, hi => by simp at hi
  | p :: parts, _, 0, _ => by
    simp only [List.flatten_cons, Nat.zero_mul, List.getElem_cons_zero]; exact At.first _ _
  | p :: parts, h, i + 1, hi => by
    have ih := flatten_at (parts := parts) (fun q hq => h q (by simp [hq])) (i := i) (by simpa using hi)
    simp only [List.flatten_cons, List.getElem_cons_succ]
    exact ih.append_left' (by rw [h p (by simp)]; rw [Nat.add_mul]; omega)

end Verif
