import Verif.Base.Bytes

/-!
# Python strings

A `str` is the list of its code points.
-/

namespace Verif

/-- Python `str`, as a list of code points. -/
abbrev Str := List Nat

/-- `s.encode('latin-1')`. -/
def latin1Encode (s : Str) : Py Bytes :=
  if s.all (· < 256) then .ok (s.map UInt8.ofNat) else .error .unicodeError

/-- `b.decode('latin-1')`. -/
def latin1Decode (b : Bytes) : Str := b.map UInt8.toNat

/-- `s.encode('ascii')`. -/
def asciiEncode (s : Str) : Py Bytes :=
  if s.all (· < 128) then .ok (s.map UInt8.ofNat) else .error .unicodeError

/-- `b.decode('ascii')`. -/
def asciiDecode (b : Bytes) : Py Str :=
  if b.all (·.toNat < 128) then .ok (b.map UInt8.toNat) else .error .unicodeError

/-- `s.split(sep)` for a separator of one character.  The result is never empty. -/
def pySplit (sep : Nat) : Str → List Str
  | [] => [[]]
  | c :: cs =>
    if c = sep then [] :: pySplit sep cs
    else
      match pySplit sep cs with
      | [] => [[c]]
      | w :: ws => (c :: w) :: ws

/-- `sep.join(words)` for a separator of one character. -/
def pyJoin (sep : Nat) : List Str → Str
  | [] => []
  | [w] => w
  | w :: w' :: ws => w ++ sep :: pyJoin sep (w' :: ws)

theorem latin1Encode_eq_ok {s : Str} {b : Bytes} :
    latin1Encode s = .ok b ↔ (∀ c ∈ s, c < 256) ∧ b = s.map UInt8.ofNat := by
  unfold latin1Encode
  split <;> rename_i h <;> simp at h ⊢
  · constructor
    · intro e; exact ⟨h, e.symm⟩
    · intro e; exact e.2.symm
  · intro h'
    obtain ⟨x, hx, hx'⟩ := h
    have := h' x hx
    omega

theorem latin1Decode_map_ofNat {s : Str} (h : ∀ c ∈ s, c < 256) : latin1Decode (s.map UInt8.ofNat) = s := by
  unfold latin1Decode
  rw [List.map_map]
  conv => rhs; rw [← List.map_id s]
  apply List.map_congr_left
  intro c hc
  have := h c hc
  simp [UInt8.toNat_ofNat']
  omega

theorem latin1_roundtrip {s : Str} {b : Bytes} (h : latin1Encode s = .ok b) : latin1Decode b = s := by
  obtain ⟨h1, rfl⟩ := latin1Encode_eq_ok.1 h
  exact latin1Decode_map_ofNat h1

theorem latin1Encode_length {s : Str} {b : Bytes} (h : latin1Encode s = .ok b) : b.length = s.length := by
  obtain ⟨_, rfl⟩ := latin1Encode_eq_ok.1 h; simp

theorem latin1Encode_latin1Decode (b : Bytes) : latin1Encode (latin1Decode b) = .ok b := by
  rw [latin1Encode_eq_ok]
  refine ⟨?_, ?_⟩
  · intro c hc
    simp only [latin1Decode, List.mem_map] at hc
    obtain ⟨x, _, rfl⟩ := hc
    exact x.toNat_lt
  · simp only [latin1Decode, List.map_map]
    conv => lhs; rw [← List.map_id b]
    apply List.map_congr_left
    intro c _
    simp

theorem asciiEncode_eq_ok {s : Str} {b : Bytes} :
    asciiEncode s = .ok b ↔ (∀ c ∈ s, c < 128) ∧ b = s.map UInt8.ofNat := by
  unfold asciiEncode
  split <;> rename_i h <;> simp at h ⊢
  · constructor
    · intro e; exact ⟨h, e.symm⟩
    · intro e; exact e.2.symm
  · intro h'
    obtain ⟨x, hx, hx'⟩ := h
    have := h' x hx
    omega

theorem ascii_roundtrip {s : Str} {b : Bytes} (h : asciiEncode s = .ok b) : asciiDecode b = .ok s := by
  obtain ⟨h1, rfl⟩ := asciiEncode_eq_ok.1 h
  unfold asciiDecode
  rw [if_pos]
  · congr 1
    exact latin1Decode_map_ofNat (fun c hc => by have := h1 c hc; omega)
  · simp only [List.all_map, List.all_eq_true, Function.comp, decide_eq_true_eq, UInt8.toNat_ofNat']
    intro c hc
    have := h1 c hc
    omega

theorem pySplit_ne_nil (sep : Nat) (s : Str) : pySplit sep s ≠ [] := by
  cases s with
  | nil => simp [pySplit]
  | cons c cs =>
    unfold pySplit
    split
    · simp
    · split <;> simp

/-- Text without separators splits into itself. -/
theorem pySplit_of_not_mem {sep : Nat} : ∀ {w : Str}, sep ∉ w → pySplit sep w = [w]
  | [], _ => rfl
  | c :: cs, h => by
    simp only [List.mem_cons, not_or] at h
    unfold pySplit
    rw [if_neg (Ne.symm h.1), pySplit_of_not_mem h.2]

theorem pySplit_append {sep : Nat} : ∀ {w : Str} (s : Str), sep ∉ w →
    pySplit sep (w ++ sep :: s) = w :: pySplit sep s
  | [], s, _ => by simp [pySplit]
  | c :: cs, s, h => by
    simp only [List.mem_cons, not_or] at h
    rw [List.cons_append, pySplit, if_neg (Ne.symm h.1), pySplit_append s h.2]

/-- Splitting undoes joining when no word contains the separator. -/
theorem pySplit_pyJoin {sep : Nat} : ∀ {ws : List Str}, ws ≠ [] → (∀ w ∈ ws, sep ∉ w) →
    pySplit sep (pyJoin sep ws) = ws
  | [], h, _ => absurd rfl h
  | [w], _, h => by rw [pyJoin]; exact pySplit_of_not_mem (h w (by simp))
  | w :: w' :: ws, _, h => by
    rw [pyJoin, pySplit_append _ (h w (by simp)), pySplit_pyJoin (by simp) (fun x hx => h x (by simp [hx]))]

/-- Joining undoes splitting. -/
theorem pyJoin_pySplit (sep : Nat) : ∀ (s : Str), pyJoin sep (pySplit sep s) = s
  | [] => rfl
  | c :: cs => by
    have ih := pyJoin_pySplit sep cs
    unfold pySplit
    split
    · rename_i h
      subst h
      have hne := pySplit_ne_nil c cs
      generalize pySplit c cs = l at ih hne ⊢
      cases l with
      | nil => exact absurd rfl hne
      | cons w ws => simp [pyJoin, ih]
    · split
      · rename_i h; exact absurd h (pySplit_ne_nil _ _)
      · rename_i w ws h
        rw [h] at ih
        cases ws with
        | nil => simp [pyJoin] at ih ⊢; exact ih
        | cons w' ws => simp [pyJoin] at ih ⊢; exact ih

theorem not_mem_of_mem_pySplit {sep : Nat} : ∀ {s w : Str}, w ∈ pySplit sep s → sep ∉ w
  | [], w, h => by simp [pySplit] at h; simp [h]
  | c :: cs, w, h => by
    unfold pySplit at h
    split at h
    · rcases List.mem_cons.1 h with rfl | h
      · simp
      · exact not_mem_of_mem_pySplit h
    · rename_i hc
      split at h
      · rename_i h'; exact absurd h' (pySplit_ne_nil _ _)
      · rename_i w' ws h'
        rcases List.mem_cons.1 h with rfl | h
        · intro hm
          rcases List.mem_cons.1 hm with rfl | hm
          · exact hc rfl
          · exact not_mem_of_mem_pySplit (by rw [h']; simp) hm
        · exact not_mem_of_mem_pySplit (by rw [h']; simp [h])

end Verif
