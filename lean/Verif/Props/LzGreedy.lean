import Verif.Proofs.LzGreedy

/-!
# What compressing writes (C125)
-/

namespace Verif.Props.LzGreedy

open Verif Verif.Model Verif.Spec.LZ Verif.Spec.LzGreedy

/-- C125: there is exactly one sequence of items that takes the longest back reference everywhere. -/
theorem greedy_exists_unique (window : Nat) (nearest : Bool) (data : Bytes) :
    ∃ L, Greedy window nearest data 0 L ∧ ∀ L', Greedy window nearest data 0 L' → L' = L := by
  let cfg : LzCommon.Cfg :=
    { posSubtract := 1, maxMatchDiff := window, maxMatchLen := 18, zerosAtEnd := false, searchReverse := nearest }
  have h := Proofs.LzGreedy.parse_greedy (cfg := cfg) rfl (data := data) (f := data.length) (pos := 0) (Nat.zero_le _)
    (Nat.le_refl _)
  exact ⟨_, h, fun L' h' => Proofs.LzGreedy.greedy_unique h' h⟩

/-- C125: exactly one beginning of the items is kept by code compression. -/
theorem kept_exists_unique (L : List Item) : ∃ m, Kept L m ∧ ∀ m', Kept L m' → m' = m := by
  obtain ⟨m, h⟩ := Proofs.LzGreedy.kept_exists L
  exact ⟨m, h, fun m' h' => Proofs.LzGreedy.kept_unique h' h⟩

/-- C125: what `lz10.compress` returns, byte by byte: the header and the items that take the longest back reference
everywhere, the farthest one, at most 0x1000 bytes back. -/
theorem lz10_compress_bytes (data c : Bytes) : Lz10.compress data = .ok c ↔ data.length < 2 ^ 24 ∧
    ∃ L, Greedy 0x1000 false data 0 L ∧ c = [0x10] ++ leBytes 3 data.length ++ encode 1 true 0 L := by
  obtain ⟨L, hL, huniq⟩ := greedy_exists_unique 0x1000 false data
  obtain ⟨a, b, h1, _⟩ := Proofs.LzGreedy.compress_greedy Proofs.Lz10.cfgOk rfl data hL
  have henc : encode Lz10.cfg.posSubtract Lz10.cfg.zerosAtEnd 0 L = encode 1 true 0 L := rfl
  rw [henc] at h1
  unfold Lz10.compress
  rw [h1, bind_ok]
  have hhead : enBytes .little 4 (data.length * 256 + 0x10) = [0x10] ++ leBytes 3 data.length := by
    simp only [enBytes]
    rw [leBytes_append 1 3, show (data.length * 256 + 0x10) / 256 ^ 1 = data.length by omega]
    congr 1
    simp only [leBytes]
    congr 1
    apply UInt8.toNat_inj.1
    simp
  simp only [bind_eq_ok, pure_eq_ok, packU_eq_ok]
  constructor
  · rintro ⟨w, ⟨hw, rfl⟩, rfl⟩
    exact ⟨by omega, L, hL, by rw [hhead]⟩
  · rintro ⟨hlt, L', hL', rfl⟩
    rw [huniq L' hL']
    exact ⟨_, ⟨by omega, rfl⟩, by rw [hhead]⟩

/-- Three bytes, the same three again, and one more. -/
example : Greedy 0x1000 false [1, 2, 3, 1, 2, 3, 9] 0
    [.literal 1, .literal 2, .literal 3, .ref 3 3, .literal 9] := by
  have h := Proofs.LzGreedy.parse_greedy (cfg := Lz10.cfg) rfl (data := [1, 2, 3, 1, 2, 3, 9]) (f := 7) (pos := 0)
    (Nat.zero_le _) (by decide)
  exact h

example : Lz10.compress [1, 2, 3, 1, 2, 3, 9] = .ok ([0x10] ++ leBytes 3 7 ++
    encode 1 true 0 [.literal 1, .literal 2, .literal 3, .ref 3 3, .literal 9]) := by decide +kernel

example : encode 1 true 0 [.literal 1, .literal 2, .literal 3, .ref 3 3, .literal 9] =
    [0x10, 1, 2, 3, 0, 2, 9, 0, 0, 0] := by decide +kernel

/-- The number of back references. -/
def refs (L : List Item) : Nat := (L.filter fun i => match i with | .ref _ _ => true | _ => false).length

theorem encode_pad_length (extra : Nat) : ∀ (k : Nat) (is : List Item), k ≤ 8 → (encode extra true k is).length =
    k + 9 * ((is.length - k + 7) / 8) + refs is
  | k, [], _ => by cases k <;> simp [encode, refs, zeros]
  | 0, .literal b :: is, _ => by
    rw [encode, List.length_cons, List.length_append, encode_pad_length extra 7 is (by decide)]
    simp [refs, Item.bytes]
    omega
  | 0, .ref n d :: is, _ => by
    rw [encode, List.length_cons, List.length_append, encode_pad_length extra 7 is (by decide)]
    simp [refs, Item.bytes]
    omega
  | k + 1, .literal b :: is, hk => by
    rw [encode, List.length_append, encode_pad_length extra k is (by omega)]
    simp [refs, Item.bytes]
    omega
  | k + 1, .ref n d :: is, hk => by
    rw [encode, List.length_append, encode_pad_length extra k is (by omega)]
    simp [refs, Item.bytes]
    omega

theorem greedy_sizes {w : Nat} {nearest : Bool} {data : Bytes} {pos : Nat} {L : List Item}
    (h : Greedy w nearest data pos L) : L.length + 2 * refs L ≤ covered L ∧ covered L ≤ L.length + 17 * refs L ∧
      refs L ≤ L.length := by
  induction h with
  | done => simp [refs, covered]
  | literal _ _ _ ih =>
    rw [Proofs.LzGreedy.covered_cons]
    simp only [refs, List.filter_cons, Item.len, List.length_cons] at ih ⊢
    simp only [Bool.false_eq_true, if_false]
    omega
  | ref hc _ _ _ ih =>
    rw [Proofs.LzGreedy.covered_cons]
    have h1 := hc.1
    have h2 := hc.2.1
    simp only [refs, List.filter_cons, Item.len, List.length_cons] at ih ⊢
    simp only [if_true, List.length_cons]
    omega

/-- C125: how long the result of `lz10.compress` is: nine bytes for each eight items or part of it, one more for each
back reference, and the header. -/
theorem lz10_compress_length (data c : Bytes) (h : Lz10.compress data = .ok c) (L : List Item)
    (hL : Greedy 0x1000 false data 0 L) : c.length = 4 + 9 * ((L.length + 7) / 8) + refs L := by
  obtain ⟨_, L', hL', rfl⟩ := (lz10_compress_bytes data c).1 h
  rw [Proofs.LzGreedy.greedy_unique hL' hL]
  simp only [List.length_append, encode_pad_length 1 0 L (by decide), leBytes_length, List.length_cons, List.length_nil]
  omega

/-- C125: compressing never adds more than one byte in eight (and the header and an incomplete block), and never makes
data more than 144/17 times smaller. -/
theorem lz10_compress_bounds (data c : Bytes) (h : Lz10.compress data = .ok c) :
    8 * c.length ≤ 9 * data.length + 95 ∧ 17 * data.length + 576 ≤ 144 * c.length := by
  obtain ⟨L, hL, _⟩ := greedy_exists_unique 0x1000 false data
  rw [lz10_compress_length data c h L hL]
  obtain ⟨h1, h2, h3⟩ := greedy_sizes hL
  have := Proofs.LzGreedy.greedy_le hL
  omega

/-- Both bounds come close: three different bytes take up 13 bytes, and 200 equal bytes take up 35. -/
example : (Lz10.compress [1, 2, 3]).toOption.map List.length = some 13 := by decide +kernel
example : (Lz10.compress (List.replicate 200 7)).toOption.map List.length = some 35 := by decide +kernel

/-- C125: what `codeCompression.compress` returns, byte by byte, or that it raises.  The data is gone through from its
end; the longest back reference is taken everywhere, the nearest one.  Of the items those are kept that `Kept` says; the
data of the others stays at the front as it is.  If the whole stream is too long, the data is stored uncompressed. -/
theorem code_compress_bytes (data : Bytes) (L : List Item) (m : Nat)
    (hL : Greedy 0x1002 true data.reverse 0 L) (hm : Kept L m) :
    CodeCompression.compress data false =
      (let front := data.take (data.length - covered (L.take m))
       let stream := (encode 3 false 0 L).take (written (L.take m))
       let size := front.length + stream.length + fill (front.length + stream.length) + 8
       if data = [] ∨ TooLong data.length (written L) then .ok (data ++ zeros (fill data.length) ++ [0, 0, 0, 0])
       else if size ≤ data.length ∧ size - front.length < 2 ^ 32 ∧ data.length - size < 2 ^ 32 then
         .ok (codeFile data.length front stream)
       else .error .structError) := by
  unfold CodeCompression.compress
  simp only [Bool.false_eq_true, if_false]
  rw [Proofs.LzGreedy.compressInner_greedy data hL hm]
  dsimp only
  generalize (data.take (data.length - covered (L.take m))) = front
  generalize (encode 3 false 0 L).take (written (L.take m)) = stream
  rw [show front.length + stream.length + fill (front.length + stream.length) + 8 - front.length =
    stream.length + fill (front.length + stream.length) + 8 by omega]
  split
  · rfl
  · split <;> rfl

/-- C125: with `isArm9`, the first 0x4000 bytes stay as they are and the rest is compressed as if it were alone. -/
theorem code_compress_arm9 (data : Bytes) : CodeCompression.compress data true =
    (CodeCompression.compress (data.drop 0x4000) false).map (data.take 0x4000 ++ ·) := by
  unfold CodeCompression.compress
  simp only [if_true, Bool.false_eq_true, if_false]
  cases CodeCompression.compressInner (data.drop 0x4000) with
  | error e => rfl
  | ok c => rfl

/-- C125: wherever the cut is, what is kept and what stays at the front make up the data. -/
theorem code_compress_stream (data : Bytes) (L : List Item) (m : Nat) (hL : Greedy 0x1002 true data.reverse 0 L) :
    covered (L.take m) ≤ data.length ∧
      ((encode 3 false 0 L).take (written (L.take m))).length = written (L.take m) ∧
      (data.take (data.length - covered (L.take m))).length + covered (L.take m) = data.length := by
  have h1 := Proofs.LzGreedy.greedy_le hL
  rw [List.length_reverse] at h1
  have h2 : covered (L.take m) ≤ covered L := by
    conv => rhs; rw [← List.take_append_drop m L, Proofs.LzGreedy.covered_append]
    omega
  have h3 := Proofs.LzGreedy.take_written_mono (is := L) (m := m)
  refine ⟨by omega, ?_, ?_⟩
  · rw [List.length_take, Proofs.LzGreedy.encode_written]; omega
  · rw [List.length_take]; omega

/-- C125: the result of code compression is never longer than the data rounded up to a multiple of four and four
bytes. -/
theorem code_compress_length (data c : Bytes) (h : CodeCompression.compress data false = .ok c) :
    c.length ≤ data.length + fill data.length + 4 := by
  obtain ⟨L, hL, _⟩ := greedy_exists_unique 0x1002 true data.reverse
  obtain ⟨m, hm, _⟩ := kept_exists_unique L
  rw [code_compress_bytes data L m hL hm] at h
  dsimp only at h
  split at h
  · cases h
    simp [zeros]
    omega
  · split at h
    · rename_i h1
      cases h
      unfold codeFile
      simp only [List.length_append, List.length_reverse, List.length_replicate, leBytes_length, List.length_cons,
        List.length_nil]
      omega
    · cases h

/-- 40 equal bytes: three literals and back references; nothing is cut. -/
example : CodeCompression.compress (List.replicate 40 65) false =
    .ok (codeFile 40 [] [30, 65, 65, 65, 0, 0, 48, 3, 144, 9, 208, 13]) := by decide +kernel

/-- 12 equal bytes: back references to the nearest place. -/
example : Greedy 0x1002 true (List.replicate 12 65 : Bytes).reverse 0
    [.literal 65, .literal 65, .literal 65, .ref 3 3, .ref 6 6] := by
  have h := Proofs.LzGreedy.parse_greedy (cfg := CodeCompression.cfg) rfl (data := (List.replicate 12 65 : Bytes).reverse)
    (f := 12) (pos := 0) (Nat.zero_le _) (by decide)
  exact h

/-- Literals at the end of the stream, which is the front of the data, are cut: the first item that saves as much is
the last one kept. -/
example : Kept [.literal 65, .literal 65, .literal 65, .ref 3 3, .ref 6 6, .ref 12 12, .literal 1, .literal 2, .literal 3] 6 := by
  refine ⟨by decide, by decide, by decide⟩

end Verif.Props.LzGreedy
