import Verif.Base.Bytes

/-!
# `struct` formats made of several unsigned fields

A format without padding or signed fields is the list of the widths of its fields.
-/

namespace Verif

/-- `struct.pack` of unsigned fields, given as pairs of width and value. -/
def packUs (e : Endian) : List (Nat × Nat) → Py Bytes
  | [] => .ok []
  | f :: fs => do
    let a ← packU e f.1 f.2
    let b ← packUs e fs
    return a ++ b

/-- `struct.unpack_from` of unsigned fields of the given widths. -/
def unpackUs (e : Endian) : List Nat → Bytes → Nat → Py (List Nat)
  | [], _, _ => .ok []
  | k :: ks, d, off => do
    let v ← unpackU e k d off
    let vs ← unpackUs e ks d (off + k)
    return v :: vs

/-- A value that may be negative as the value of an unsigned field: `struct.error` if it is. -/
def natOf (z : Int) : Py Nat := if 0 ≤ z then .ok z.toNat else .error .structError

/-- Python's truth value of the byte of a `?` field. -/
def boolOf (n : Nat) : Bool := n != 0

/-- `struct.pack` of a truth value. -/
def boolNum (b : Bool) : Nat := if b then 1 else 0

@[simp] theorem boolOf_boolNum (b : Bool) : boolOf (boolNum b) = b := by cases b <;> rfl

theorem boolNum_lt (b : Bool) : boolNum b < 256 := by cases b <;> decide

theorem natOf_eq_ok {z : Int} {n : Nat} : natOf z = .ok n ↔ z = n := by
  unfold natOf
  split
  · simp only [Except.ok.injEq]; omega
  · constructor
    · intro h; cases h
    · intro h; omega

theorem natOf_err {z : Int} {err : PyErr} (h : natOf z = .error err) : err = .structError := by
  unfold natOf at h
  by_cases hz : 0 ≤ z
  · rw [if_pos hz] at h; cases h
  · rw [if_neg hz] at h; cases h; rfl

/-- The fields fit their widths. -/
def Fits : List (Nat × Nat) → Prop
  | [] => True
  | f :: fs => f.2 < 256 ^ f.1 ∧ Fits fs

/-- The bytes of a struct. -/
def structBytes (e : Endian) : List (Nat × Nat) → Bytes
  | [] => []
  | f :: fs => enBytes e f.1 f.2 ++ structBytes e fs

theorem structBytes_length (e : Endian) : ∀ fs, (structBytes e fs).length = (fs.map Prod.fst).sum
  | [] => rfl
  | f :: fs => by rw [structBytes, List.length_append, structBytes_length e fs]; simp

theorem packUs_eq_ok {e : Endian} : ∀ {fs : List (Nat × Nat)} {b : Bytes},
    packUs e fs = .ok b ↔ Fits fs ∧ b = structBytes e fs
  | [], b => by simp [packUs, Fits, structBytes, eq_comm]
  | f :: fs, b => by
    rw [packUs, Fits, structBytes]
    simp only [bind_eq_ok, pure_eq_ok, packU_eq_ok, packUs_eq_ok]
    constructor
    · rintro ⟨_, ⟨h1, rfl⟩, _, ⟨h2, rfl⟩, rfl⟩
      exact ⟨⟨h1, h2⟩, rfl⟩
    · rintro ⟨⟨h1, h2⟩, rfl⟩
      exact ⟨_, ⟨h1, rfl⟩, _, ⟨h2, rfl⟩, rfl⟩

theorem packUs_err {e : Endian} : ∀ {fs : List (Nat × Nat)} {err : PyErr},
    packUs e fs = .error err → err = .structError
  | [], _, h => by cases h
  | f :: fs, _, h => by
    rw [packUs] at h
    simp only [bind_eq_error] at h
    rcases h with h | ⟨_, _, h | ⟨_, _, h⟩⟩
    · exact packU_err h
    · exact packUs_err h
    · cases h

theorem unpackUs_at {e : Endian} : ∀ {fs : List (Nat × Nat)} {d : Bytes} {o : Nat}, At d o (structBytes e fs) →
    Fits fs → unpackUs e (fs.map Prod.fst) d o = .ok (fs.map Prod.snd)
  | [], _, _, _, _ => rfl
  | f :: fs, d, o, h, hf => by
    rw [structBytes, At.split, enBytes_length] at h
    rw [List.map_cons, unpackUs, h.1.unpackU hf.1, bind_ok, unpackUs_at h.2 hf.2, bind_ok]
    rfl

/-- What was read, read off the bytes. -/
theorem unpackUs_inv {e : Endian} : ∀ {ks : List Nat} {d : Bytes} {o : Nat} {vs : List Nat},
    unpackUs e ks d o = .ok vs →
      vs.length = ks.length ∧ Fits (ks.zip vs) ∧ At d o (structBytes e (ks.zip vs)) ∨ (ks = [] ∧ vs = [])
  | [], _, _, vs, h => by cases h; exact .inr ⟨rfl, rfl⟩
  | k :: ks, d, o, vs, h => by
    rw [unpackUs] at h
    simp only [bind_eq_ok, pure_eq_ok] at h
    obtain ⟨v, hv, vs, hvs, rfl⟩ := h
    left
    rcases unpackUs_inv hvs with ⟨h1, h2, h3⟩ | ⟨rfl, rfl⟩
    · refine ⟨by simp [h1], ⟨unpackU_lt hv, h2⟩, ?_⟩
      rw [List.zip_cons_cons, structBytes, At.split, enBytes_length]
      exact ⟨At.of_unpackU hv, h3⟩
    · refine ⟨rfl, ⟨unpackU_lt hv, trivial⟩, ?_⟩
      have := At.of_unpackU hv
      simpa [structBytes] using this

end Verif
