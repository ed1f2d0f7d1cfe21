import Verif.Proofs.Crc
import Verif.Proofs.Util

/-!
# Properties of the small helpers (C19, C22, C48, C49)
-/

namespace Verif.Props.Util

open Verif Verif.Model.Util Verif.Spec.Util

/-! ## CRC-16 -/

/-- C19: two byte strings of the same length that differ, but only within two adjacent positions, have
different CRCs. -/
theorem crc16_detects (a b : Bytes) (hl : a.length = b.length) (hne : a ≠ b) (k : Nat)
    (hk : ∀ i, i ≠ k → i ≠ k + 1 → a[i]? = b[i]?) : crc16 a ≠ crc16 b := by
  intro h
  apply hne
  have hpre : a.take k = b.take k := by
    apply List.ext_getElem?
    intro i
    rw [List.getElem?_take, List.getElem?_take]
    split
    · exact hk i (by omega) (by omega)
    · rfl
  have hsuf : a.drop (k + 2) = b.drop (k + 2) := by
    apply List.ext_getElem?
    intro i
    rw [List.getElem?_drop, List.getElem?_drop]
    exact hk _ (by omega) (by omega)
  by_cases h2 : k + 1 < a.length
  · have ea : a = a.take k ++ a[k] :: a[k + 1] :: a.drop (k + 2) := by
      rw [List.getElem_cons_drop, List.getElem_cons_drop, List.take_append_drop]
    have eb : b = a.take k ++ b[k] :: b[k + 1] :: a.drop (k + 2) := by
      rw [hpre, hsuf, List.getElem_cons_drop, List.getElem_cons_drop, List.take_append_drop]
    obtain ⟨h3, h4⟩ := Proofs.Crc.crc16_two (a.take k) (a.drop (k + 2)) a[k] a[k + 1] b[k] b[k + 1]
      ((congrArg crc16 ea).symm.trans (h.trans (congrArg crc16 eb)))
    exact ea.trans (by rw [h3, h4]; exact eb.symm)
  · by_cases h1 : k < a.length
    · have ea : a = a.take k ++ a[k] :: a.drop (k + 1) := by
        rw [List.getElem_cons_drop, List.take_append_drop]
      have eb : b = a.take k ++ b[k] :: a.drop (k + 1) := by
        have : a.drop (k + 1) = b.drop (k + 1) := by
          rw [List.drop_eq_nil_of_le (by omega), List.drop_eq_nil_of_le (by omega)]
        rw [hpre, this, List.getElem_cons_drop, List.take_append_drop]
      have h3 := Proofs.Crc.crc16_one (a.take k) (a.drop (k + 1)) a[k] b[k] ((congrArg crc16 ea).symm.trans (h.trans (congrArg crc16 eb)))
      exact ea.trans (by rw [h3]; exact eb.symm)
    · rw [List.take_of_length_le (by omega), List.take_of_length_le (by omega)] at hpre
      exact hpre

/-- C19: the CRC fits 16 bits. -/
theorem crc16_lt (d : Bytes) : crc16 d < 65536 := by
  rw [Proofs.Crc.crc16_eq]; exact Proofs.Crc.crcFrom_lt d (by decide)

/-- Bytewise exclusive or. -/
def xorBytes (a b : Bytes) : Bytes := List.zipWith (fun x y => UInt8.ofNat (x.toNat ^^^ y.toNat)) a b

/-- C19: the CRC is affine over exclusive or. -/
theorem crc16_xor (a b c : Bytes) (h : a.length = b.length) (h' : b.length = c.length) :
    crc16 (xorBytes (xorBytes a b) c) = crc16 a ^^^ crc16 b ^^^ crc16 c := by
  simp only [Proofs.Crc.crc16_eq]
  have h1 := Proofs.Crc.crcFrom_xor a b 0xFFFF 0xFFFF h
  have h2 := Proofs.Crc.crcFrom_xor (xorBytes a b) c 0 0xFFFF (by simp [xorBytes]; omega)
  rw [Nat.xor_self] at h1
  rw [Nat.zero_xor] at h2
  rw [show xorBytes (xorBytes a b) c = List.zipWith (fun x y => UInt8.ofNat (x.toNat ^^^ y.toNat))
    (xorBytes a b) c from rfl, h2, ← h1]
  rfl

/-- The check value of CRC-16/MODBUS, and a corrupted copy. -/
example : crc16 [0x31, 0x32, 0x33, 0x34, 0x35, 0x36, 0x37, 0x38, 0x39] = 0x4B37 := by decide +kernel
example : crc16 [0x31, 0x32, 0x43, 0x35, 0x35, 0x36, 0x37, 0x38, 0x39] ≠ 0x4B37 := by decide +kernel
example : crc16 [] = 0xFFFF := by decide +kernel

/-! ## Alignment -/

/-- C22: packing and unpacking a position. -/
theorem alignment_roundtrip (x y : Int) (a : Nat) (hx : 0 ≤ x ∧ x < 4096) (hy : 0 ≤ y ∧ y < 4096)
    (ha : ProperAlignment a) :
    let r := packAlignment x y a
    r.1 < 65536 ∧ r.2 < 65536 ∧ unpackAlignment r.1 r.2 = (x.toNat, y.toNat, a) := by
  have h := Proofs.Util.pack_lt x y a
  exact ⟨by omega, by omega, Proofs.Util.pack_unpack hx hy ha⟩

/-- C22: unpacking any position words gives coordinates and an alignment which pack into words that unpack the
same. -/
theorem alignment_unpack_proper (xp yp : Nat) :
    let r := unpackAlignment xp yp
    r.1 < 4096 ∧ r.2.1 < 4096 ∧ ProperAlignment r.2.2 := Proofs.Util.unpack_ok xp yp

/-- C22: the rectangle placed at the computed corner contains its anchor point; the anchor is on the left or
right (top or bottom) edge, or at most half a pixel beside the middle. -/
theorem topLeft_contains_anchor (x y w h : Int) (hor ver : Nat) (hw : 0 ≤ w) (hh : 0 ≤ h)
    (hhor : hor = 1 ∨ hor = 2 ∨ hor = 4) (hver : ver = 16 ∨ ver = 32 ∨ ver = 64) :
    let r := topLeft x y w h (hor + ver)
    (r.1 ≤ x ∧ x ≤ r.1 + w) ∧ (r.2 ≤ y ∧ y ≤ r.2 + h) ∧
    (hor = 1 → r.1 = x) ∧ (hor = 2 → r.1 + w = x) ∧ (hor = 4 → 2 * x = 2 * r.1 + w ∨ 2 * x = 2 * r.1 + w + 1) ∧
    (ver = 16 → r.2 = y) ∧ (ver = 32 → r.2 + h = y) ∧
    (ver = 64 → 2 * y = 2 * r.2 + h ∨ 2 * y = 2 * r.2 + h + 1) := by
  rcases hhor with rfl | rfl | rfl <;> rcases hver with rfl | rfl | rfl <;>
    simp [topLeft, H_CENTER, RIGHT, V_CENTER, BOTTOM] <;> omega

example : ProperAlignment 0x42 := ⟨2, 64, by decide, by decide, rfl⟩
example : packAlignment 100 4095 0x42 = (0x2064, 0x1FFF) ∧ unpackAlignment 0x2064 0x1FFF = (100, 4095, 0x42) := by
  decide +kernel
example : topLeft 100 50 15 7 0x44 = (92, 46) := by decide +kernel

/-! ## Named lists -/

/-- C48: what the helpers do when the name occurs. -/
theorem named_list_hit {κ α : Type} [DecidableEq κ] (pre suf : List (κ × α)) (name : κ) (v w : α)
    (hpre : ∀ e ∈ pre, e.1 ≠ name) :
    let L := pre ++ (name, v) :: suf
    indexInNamedList L name = .ok pre.length ∧ findInNamedList L name = .ok v ∧
    setInNamedList L name w = .ok (pre ++ (name, w) :: suf) := by
  have h : indexInNamedList (pre ++ (name, v) :: suf) name = .ok pre.length := by
    unfold indexInNamedList
    exact Proofs.Util.go_ok.2 ⟨pre, v, suf, rfl, hpre, by simp⟩
  refine ⟨h, ?_, ?_⟩
  · unfold findInNamedList
    rw [h, bind_ok, (pyIdx_eq_ok (x := (name, v))).2 (by simp), bind_ok]; rfl
  · unfold setInNamedList
    rw [h, bind_ok]
    unfold pySet
    rw [if_pos (by simp)]
    simp

/-- C48: otherwise they raise `KeyError`; and those are the only two cases. -/
theorem named_list_miss {κ α : Type} [DecidableEq κ] (L : List (κ × α)) (name : κ) (w : α) :
    ((∀ e ∈ L, e.1 ≠ name) ∧ indexInNamedList L name = .error .keyError ∧
      findInNamedList L name = .error .keyError ∧ setInNamedList L name w = .error .keyError) ∨
    ∃ pre v suf, L = pre ++ (name, v) :: suf ∧ ∀ e ∈ pre, e.1 ≠ name := by
  cases h : indexInNamedList L name with
  | ok i =>
    right
    obtain ⟨pre, v, suf, h1, h2, _⟩ := Proofs.Util.go_ok.1 h
    exact ⟨pre, v, suf, h1, h2⟩
  | error e =>
    left
    obtain ⟨rfl, h2⟩ := Proofs.Util.go_err h
    refine ⟨h2, rfl, ?_, ?_⟩
    · unfold findInNamedList; rw [h]; rfl
    · unfold setInNamedList; rw [h]; rfl

example : setInNamedList [(1, 10), (2, 20), (2, 30)] 2 99 = .ok [(1, 10), (2, 99), (2, 30)] ∧
    findInNamedList [(1, 10), (2, 20), (2, 30)] 3 = .error .keyError := by decide +kernel

/-! ## Short byte representation -/

/-- C49, for data without the quote character among the printed bytes: the text is a bytes literal for the
printed part, followed by three dots exactly when something was left out.  The full statement, without the
hypothesis on the quote character, is false: see `short_repr_quote`. -/
theorem short_repr_partial (data : Bytes) (maxLen : Nat) (h : 0x27 ∉ data.take maxLen) :
    ∃ t, shortBytesRepr data maxLen = t ++ (if maxLen < data.length then [46, 46, 46] else []) ∧
      literal t = some (data.take maxLen) := by
  refine ⟨[98, 39] ++ shortLoop maxLen data ++ [39], ?_, ?_⟩
  · unfold shortBytesRepr
    simp only
    split <;> simp
  · have := Proofs.Util.steps_loop maxLen data h
    simp only [List.cons_append, List.nil_append, literal, this]

/-- C49 is false for the quote character: the result is not a literal. -/
theorem short_repr_quote : shortBytesRepr [0x27] = [98, 39, 39, 39] ∧ literal (shortBytesRepr [0x27]) = none := by
  decide +kernel

/-- C49: for data within the limit, the text is a bytes literal for the data exactly if the data has no quote character;
otherwise it is no literal at all. -/
theorem short_repr_iff (data : Bytes) (maxLen : Nat) (h : data.length ≤ maxLen) :
    (literal (shortBytesRepr data maxLen) = some data ↔ 0x27 ∉ data) ∧
      (0x27 ∈ data → literal (shortBytesRepr data maxLen) = none) := by
  have e : data.take maxLen = data := List.take_of_length_le h
  have hq : 0x27 ∈ data → literal (shortBytesRepr data maxLen) = none := by
    intro hm
    have := Proofs.Util.steps_quote maxLen data (by rw [e]; exact hm)
    unfold shortBytesRepr
    simp only [if_neg (show ¬ maxLen < data.length by omega), List.cons_append, List.nil_append, literal, this]
  refine ⟨⟨fun hl hm => ?_, fun hn => ?_⟩, hq⟩
  · rw [hq hm] at hl; cases hl
  · obtain ⟨t, h1, h2⟩ := short_repr_partial data maxLen (by rw [e]; exact hn)
    rw [if_neg (show ¬ maxLen < data.length by omega), List.append_nil] at h1
    rw [h1, h2, e]

theorem reprByte_printable (b : UInt8) : ∀ c ∈ reprByte b.toNat, 32 ≤ c ∧ c < 127 := by
  have hb := b.toNat_lt
  intro c hc
  unfold reprByte hexDigit at hc
  split at hc
  · simp at hc; omega
  split at hc
  · simp at hc; omega
  split at hc
  · simp at hc; omega
  split at hc
  · simp at hc; omega
  split at hc
  · simp only [List.mem_cons, List.not_mem_nil, or_false] at hc
    rcases hc with rfl | rfl | rfl | rfl
    · decide
    · decide
    · split <;> omega
    · split <;> omega
  · simp at hc; omega

/-- C49: whatever the data is, the text is of printable ASCII characters only, so it stays on one line. -/
theorem short_repr_printable (data : Bytes) (maxLen : Nat) : ∀ c ∈ shortBytesRepr data maxLen, 32 ≤ c ∧ c < 127 := by
  have key : ∀ (n : Nat) (d : Bytes), ∀ c ∈ shortLoop n d, 32 ≤ c ∧ c < 127 := by
    intro n
    induction n with
    | zero => intro d c hc; rw [shortLoop] at hc; cases hc
    | succ n ih =>
      intro d c hc
      cases d with
      | nil => rw [shortLoop] at hc; cases hc; exact nofun
      | cons b rest =>
        rw [shortLoop, List.mem_append] at hc
        rcases hc with hc | hc
        · split at hc
          · rename_i h
            simp only [List.mem_cons, List.not_mem_nil, or_false] at hc
            omega
          · exact reprByte_printable b c hc
        · exact ih rest c hc
  intro c hc
  have : c ∈ shortLoop maxLen data ∨ c = 98 ∨ c = 39 ∨ c = 46 := by
    unfold shortBytesRepr at hc
    dsimp only at hc
    by_cases h : c ∈ shortLoop maxLen data
    · exact .inl h
    · refine .inr ?_
      split at hc <;> simp only [List.mem_append, List.mem_cons, List.not_mem_nil, or_false, h] at hc <;> omega
  rcases this with h | h | h | h
  · exact key _ _ c h
  all_goals omega

example : shortBytesRepr [0x7F, 0x0A] = [98, 39, 92, 120, 55, 102, 92, 110, 39] := by decide

/-- `b'\1a\x011\\\0'`. -/
example : shortBytesRepr [1, 97, 1, 0x31, 0x5C, 0] =
    [98, 39, 92, 49, 97, 92, 120, 48, 49, 49, 92, 92, 92, 48, 39] ∧
    literal (shortBytesRepr [1, 97, 1, 0x31, 0x5C, 0]) = some [1, 97, 1, 0x31, 0x5C, 0] := by decide +kernel

end Verif.Props.Util
