import Verif.Spec.Summary
import Verif.Proofs.BnText

/-!
# Lemmas for `Props/Summary.lean`
-/

namespace Verif.Proofs.Summary

open Verif Verif.Model Verif.Model.Util Verif.Model.Repr Verif.Model.ReprClasses Verif.Model.NoteName Verif.Model.Summary
open Verif.Spec.PyExpr Verif.Spec.EventText Verif.Spec.BnText Verif.Spec.Summary
open Verif.Model.BnText (enumerated enumeratedFrom)
open Verif.Proofs.EventText Verif.Proofs.PyExpr
open Verif.Props.NoteName (readName)
open Verif.Proofs.BnText (takeWhile_ne dropWhile_ne drop_spaces pad_chars int_not join_not)

/-! ## Words -/

theorem before_append (w e : Str) : before e (w ++ e) = some w := by
  unfold before
  rw [List.length_append, Nat.add_sub_cancel, List.drop_left, if_pos rfl, List.take_left]

theorem inside_text (p e : String) (w : Str) : inside p e (chars p ++ (w ++ chars e)) = some w := by
  unfold inside
  rw [after_append, Option.bind_some, before_append]

theorem words_text (ws : List Str) (h : ws ≠ []) (hs : ∀ w ∈ ws, 32 ∉ w) : words (60 :: (join [32] ws ++ [62])) = some ws := by
  have := inside_text "<" ">" (join [32] ws)
  unfold words
  rw [show (60 :: (join [32] ws ++ [62])) = chars "<" ++ (join [32] ws ++ chars ">") from rfl, this, Option.map_some,
    split_join 32 ws h hs]

theorem nat_not (v : Nat) {c : Nat} (h : c < 48 ∨ 57 < c) : c ∉ reprNat v := fun hc => by have := nat_chars v c hc; omega

theorem natField_text (name : String) (v : Nat) : natField name (chars name ++ 61 :: reprNat v) = some v := by
  have : chars name ++ 61 :: reprNat v = (chars name ++ [61]) ++ reprNat v := by simp
  rw [natField, this, after_append]
  exact nat_repr v

theorem natField_hex (name : String) (v : Nat) : natField name (chars name ++ 61 :: reprHex v) = some v := by
  have : chars name ++ 61 :: reprHex v = (chars name ++ [61]) ++ reprHex v := by simp
  rw [natField, this, after_append]
  exact nat_hex v

theorem natIn_text (p e : String) (v : Nat) : natIn p e (chars p ++ (reprNat v ++ chars e)) = some v := by
  rw [natIn, inside_text]
  exact nat_repr v

theorem digitsF_length {b : Nat} {digit : Nat → Nat} (hb : 2 ≤ b) : ∀ (f n k : Nat), n < b ^ (k + 1) → (digitsF b digit f n).length ≤ k + 1
  | 0, n, k, _ => by simp [digitsF]
  | f + 1, n, k, h => by
    rw [digitsF]
    split
    · simp
    · rename_i hn
      cases k with
      | zero => simp at h; omega
      | succ k =>
        have := digitsF_length (digit := digit) hb f (n / b) k (by
          rw [Nat.div_lt_iff_lt_mul (by omega)]
          rwa [Nat.pow_succ] at h)
        simp
        omega

theorem hex8_chars (n : Nat) : ∀ c ∈ reprHex8 n, 48 ≤ c ∧ c ≠ 58 := by
  intro c hc
  unfold reprHex8 at hc
  simp only [List.mem_append, List.mem_replicate] at hc
  rcases hc with (hc | ⟨_, rfl⟩) | hc
  · have : c = 48 ∨ c = 120 := by simpa [lit] using hc
    omega
  · omega
  · exact digitsF_all (b := 16) (digit := hexDigitUpper) (p := fun c => 48 ≤ c ∧ c ≠ 58) (by omega) (fun d hd => by
      show 48 ≤ hexDigitUpper d ∧ hexDigitUpper d ≠ 58
      unfold hexDigitUpper
      split <;> omega) _ _ c hc

theorem address_text (n : Nat) : address (reprHex8 n) = some n := by
  have h := number_hex8 n (rest := []) (by simp [Ends])
  rw [List.append_nil] at h
  have h : nat? (reprHex8 n) = some n := by simp [nat?, h]
  rw [address, h, Option.bind_some, if_pos]
  by_cases hn : 2 ^ 32 ≤ n
  · exact .inr hn
  · left
    have hl := digitsF_length (digit := hexDigitUpper) (b := 16) (by omega) (n + 1) n 7 (by omega)
    have h2 : (lit "0x").length = 2 := rfl
    unfold reprHex8
    simp only [List.length_append, List.length_replicate, h2]
    unfold digits
    omega

theorem all_of {α β γ : Type} {f : α → β} {g : β → Option γ} {k : α → γ} : ∀ (l : List α), (∀ x ∈ l, g (f x) = some (k x)) →
    all? g (l.map f) = some (l.map k)
  | [], _ => rfl
  | x :: l, h => by rw [List.map_cons, all?, h x (by simp), all_of l (fun y hy => h y (by simp [hy]))]; rfl

theorem dropWhile_head {w : Str} (h : w.head? ≠ some 32) : w.dropWhile (· = 32) = w := by
  cases w with
  | nil => rfl
  | cons c t =>
    have : c ≠ 32 := by simpa using h
    rw [List.dropWhile_cons, if_neg (by simpa using this)]

/-- The items of a list after the first comma. -/
theorem list_items {α β : Type} {f : α → Str} {read : Str → Option β} {k : α → β} : ∀ (l : List α), l ≠ [] →
    (∀ x ∈ l, read (f x) = some (k x) ∧ 44 ∉ f x ∧ (f x).head? ≠ some 32) →
    all? (fun w => read (w.dropWhile (· = 32))) (splitOn 44 (join (lit ", ") (l.map f))) = some (l.map k) ∧
    all? (fun w => read (w.dropWhile (· = 32))) (splitOn 44 (32 :: join (lit ", ") (l.map f))) = some (l.map k)
  | [], h, _ => absurd rfl h
  | [x], _, h => by
    obtain ⟨h1, h2, h3⟩ := h x (by simp)
    have h4 : 44 ∉ 32 :: f x := by simp [h2]
    have e : (32 :: f x).dropWhile (· = 32) = f x := by rw [List.dropWhile_cons, if_pos (by decide), dropWhile_head h3]
    simp only [List.map_cons, List.map_nil, join]
    rw [split_one _ _ h2, split_one _ _ h4]
    simp only [all?, e, dropWhile_head h3, h1, Option.bind_some, Option.map_some, and_self]
  | x :: y :: l, _, h => by
    obtain ⟨h1, h2, h3⟩ := h x (by simp)
    have h4 : 44 ∉ 32 :: f x := by simp [h2]
    have e : (32 :: f x).dropWhile (· = 32) = f x := by rw [List.dropWhile_cons, if_pos (by decide), dropWhile_head h3]
    have ih := (list_items (y :: l) (by simp) (fun z hz => h z (by simp [hz]))).2
    have e1 : join (lit ", ") ((x :: y :: l).map f) = f x ++ 44 :: (32 :: join (lit ", ") ((y :: l).map f)) := by
      simp [join, lit]
    rw [e1, split_cons _ _ _ h2, ← List.cons_append, split_cons _ _ _ h4]
    rw [List.map_cons] at ih ⊢
    simp only [all?, ih, e, dropWhile_head h3, h1, Option.bind_some, Option.map_some, List.map_cons, and_self]

theorem join_ne {sep : Str} (hs : sep ≠ []) : ∀ (l : List Str), l ≠ [] → (∀ w ∈ l, w ≠ []) → join sep l ≠ []
  | [], h, _ => absurd rfl h
  | [w], _, h => h w (by simp)
  | w :: v :: l, _, h => by simp [join, hs]

theorem listOf_text {α β : Type} {f : α → Str} {read : Str → Option β} {k : α → β} (l : List α)
    (h : ∀ x ∈ l, read (f x) = some (k x) ∧ 44 ∉ f x ∧ (f x).head? ≠ some 32 ∧ f x ≠ []) :
    listOf read (91 :: (join (lit ", ") (l.map f) ++ [93])) = some (l.map k) := by
  have e := inside_text "[" "]" (join (lit ", ") (l.map f))
  rw [show chars "[" ++ (join (lit ", ") (l.map f) ++ chars "]") = 91 :: (join (lit ", ") (l.map f) ++ [93]) from rfl] at e
  rw [listOf, e, Option.bind_some]
  cases l with
  | nil => rfl
  | cons x l =>
    rw [if_neg]
    · exact (list_items (x :: l) (by simp) (fun y hy => ⟨(h y hy).1, (h y hy).2.1, (h y hy).2.2.1⟩)).1
    · refine join_ne (by decide) _ (by simp) ?_
      intro w hw
      obtain ⟨y, hy, rfl⟩ := List.mem_map.1 hw
      exact (h y hy).2.2.2

theorem nat_ne (n : Nat) : reprNat n ≠ [] := by
  obtain ⟨c, t, h, _⟩ := reprNat_head n
  rw [h]; simp

theorem nat_head (n : Nat) {d : Nat} (h : d < 48 ∨ 57 < d) : (reprNat n).head? ≠ some d := by
  intro e
  cases hr : reprNat n with
  | nil => rw [hr] at e; cases e
  | cons c t =>
    rw [hr] at e
    cases e
    exact nat_not n h (by rw [hr]; simp)

theorem listOf_nats (l : List Nat) : listOf nat? (reprList reprNat l) = some l := by
  have := listOf_text (f := reprNat) (read := nat?) (k := id) l (fun x _ => ⟨nat_repr x, nat_not x (by omega), nat_head x (by omega), nat_ne x⟩)
  rw [List.map_id] at this
  exact this

/-! ## Lines -/

theorem numbered_line {α : Type} {read : Str → Option α} {t : Str} {v : α} (h : read t = some v) (n i : Nat) :
    item read (List.replicate 4 32 ++ lit "[" ++ EventText.padLeft n i ++ lit "] " ++ t) = some (i, v) := by
  have e : List.replicate 4 32 ++ lit "[" ++ EventText.padLeft n i ++ lit "] " ++ t =
      chars "    [" ++ (EventText.padLeft n i ++ 93 :: (32 :: t)) := by
    have h2 : lit "[" = [91] := rfl
    have h3 : lit "] " = [93, 32] := rfl
    have h4 : chars "    [" = [32, 32, 32, 32, 91] := rfl
    rw [h2, h3, h4]
    simp [List.replicate]
  have hp : 93 ∉ EventText.padLeft n i := fun h => by have := pad_chars n i _ h; omega
  rw [item, e, after_append, Option.bind_some, takeWhile_ne 93 _ _ hp, dropWhile_ne 93 _ _ hp, EventText.padLeft, drop_spaces, nat_repr,
    Option.bind_some, show 93 :: 32 :: t = chars "] " ++ t from rfl, after_append, Option.bind_some, h]
  rfl

theorem numbered_lines {α β : Type} {text : β → Str} {read : Str → Option α} {k : β → α} (n : Nat) : ∀ (l : List β) (i : Nat),
    (∀ x ∈ l, read (text x) = some (k x)) →
    all? (item read) (enumeratedFrom n 4 i (l.map text)) = some (numberedFrom i (l.map k))
  | [], _, _ => rfl
  | x :: l, i, h => by
    rw [List.map_cons, enumeratedFrom, all?, numbered_line (h x (by simp)), Option.bind_some,
      numbered_lines n l (i + 1) (fun y hy => h y (by simp [hy]))]
    rfl

theorem numbered_nl (n : Nat) : ∀ (l : List Str) (i : Nat), (∀ x ∈ l, 10 ∉ x) → ∀ s ∈ enumeratedFrom n 4 i l, 10 ∉ s
  | [], _, _, s, hs => by simp [enumeratedFrom] at hs
  | x :: l, i, h, s, hs => by
    rw [enumeratedFrom, List.mem_cons] at hs
    rcases hs with rfl | hs
    · simp only [List.mem_append, not_or]
      refine ⟨⟨⟨⟨by decide, by decide⟩, fun hc => ?_⟩, by decide⟩, h x (by simp)⟩
      have := pad_chars n i _ hc
      omega
    · exact numbered_nl n l (i + 1) (fun y hy => h y (by simp [hy])) s hs

theorem block_text {α β : Type} {first : Str → Option α} {line : Str → Option β} {f : Str} {ls : List Str} {x : α} {ys : List β}
    (hf : first f = some x) (hl : all? line ls = some ys) (h1 : 10 ∉ f) (h2 : ∀ l ∈ ls, 10 ∉ l) :
    block first line (join [10] (f :: ls ++ [lit ">"])) = some (x, ys) := by
  rw [block, split_join 10 _ (by simp) (by
    intro w hw
    simp only [List.mem_append, List.mem_cons, List.mem_singleton, List.not_mem_nil, or_false] at hw
    rcases hw with (rfl | hw) | rfl
    · exact h1
    · exact h2 w hw
    · decide)]
  simp only [List.cons_append]
  rw [if_pos (by rw [last_word']; rfl), hf, Option.bind_some, List.dropLast_concat, hl]
  rfl

/-! ## Code -/

theorem before_some {e w v : Str} (h : before e w = some v) : w = v ++ e := by
  unfold before at h
  split at h
  · rename_i he
    cases h
    conv => lhs; rw [← List.take_append_drop (w.length - e.length) w]
    rw [he]
  · cases h

theorem short_chars (d : Bytes) : 10 ∉ shortBytesRepr d ∧ (shortBytesRepr d).getLast? ≠ some 116 := by
  have hb : ∀ b : Nat, 10 ∉ reprByte b := by
    intro b h
    unfold reprByte at h
    repeat' split at h
    all_goals simp at h
    · have h1 : ∀ n, hexDigit n ≠ 10 := by intro n; unfold hexDigit; split <;> omega
      rcases h with h | h <;> exact h1 _ h.symm
    · omega
  have hl : ∀ (n : Nat) (d : Bytes), 10 ∉ shortLoop n d := by
    intro n
    induction n with
    | zero => intro d; simp [shortLoop]
    | succ n ih =>
      intro d
      cases d with
      | nil => simp [shortLoop]
      | cons b d =>
        rw [shortLoop, List.mem_append, not_or]
        refine ⟨?_, ih d⟩
        split
        · simp; omega
        · exact hb _
  unfold shortBytesRepr
  dsimp only
  split
  · exact ⟨by simp [hl], by rw [List.getLast?_append]; simp⟩
  · exact ⟨by simp [hl], by rw [List.getLast?_append]; simp⟩

theorem section_text (s : Code.Section) : strSection s = chars "<code-section at " ++ ((reprHex8 s.ramAddress ++
    58 :: (32 :: (shortBytesRepr s.data ++ if s.implicit then chars " implicit" else []))) ++ chars ">") := by
  have e1 : lit "<code-section at " = chars "<code-section at " := rfl
  have e2 : lit ": " = [58, 32] := rfl
  have e3 : lit " implicit" = chars " implicit" := rfl
  have e4 : lit ">" = chars ">" := rfl
  rw [strSection, e1, e2, e3, e4]
  simp only [List.append_assoc, List.cons_append, List.nil_append]

theorem read_section (s : Code.Section) : readSection (strSection s) = some (s.ramAddress, shortBytesRepr s.data, s.implicit) := by
  have hc : 58 ∉ reprHex8 s.ramAddress := fun h => (hex8_chars _ _ h).2 rfl
  rw [section_text, readSection, inside_text, Option.bind_some, takeWhile_ne 58 _ _ hc, dropWhile_ne 58 _ _ hc, address_text,
    Option.bind_some]
  have e : ∀ t : Str, (58 :: 32 :: t) = chars ": " ++ t := fun _ => rfl
  rw [e, after_append, Option.map_some]
  cases hi : s.implicit with
  | true => rw [if_pos rfl, before_append]
  | false =>
    rw [if_neg (by simp), List.append_nil]
    cases hb : before (chars " implicit") (shortBytesRepr s.data) with
    | none => rfl
    | some v =>
      exfalso
      refine (short_chars s.data).2 ?_
      rw [before_some hb]
      show (v ++ ([32, 105, 109, 112, 108, 105, 99, 105] ++ [116])).getLast? = some 116
      rw [← List.append_assoc, last_word]

theorem section_nl (s : Code.Section) : 10 ∉ strSection s := by
  have h1 : 10 ∉ reprHex8 s.ramAddress := fun h => by have := hex8_chars _ _ h; omega
  have h2 := (short_chars s.data).1
  have h3 : 10 ∉ (if s.implicit then lit " implicit" else []) := by cases s.implicit <;> decide
  unfold strSection
  simp only [List.mem_append, not_or]
  exact ⟨⟨⟨⟨⟨by decide, h1⟩, by decide⟩, h2⟩, h3⟩, by decide⟩

theorem read_mainCode (m : Code.MainCodeFile) : readMainCode (strMainCode m) =
    some (m.ramAddress, m.sections.map fun s => (s.ramAddress, shortBytesRepr s.data, s.implicit)) := by
  unfold readMainCode strMainCode
  refine block_text ?_ ?_ ?_ ?_
  · rw [show lit "<main-code at " = chars "<main-code at " from rfl, after_append, Option.bind_some, address_text]
  · refine all_of _ fun s _ => ?_
    rw [show lit "    " = chars "    " from rfl, after_append, Option.bind_some, read_section]
  · simp only [List.mem_append, not_or]
    exact ⟨by decide, fun h => by have := hex8_chars _ _ h; omega⟩
  · intro l hl
    obtain ⟨s, _, rfl⟩ := List.mem_map.1 hl
    simp only [List.mem_append, not_or]
    exact ⟨by decide, section_nl s⟩

theorem overlay_text (o : Code.Overlay) : strOverlay o = 60 :: (join [32] (chars "overlay" :: chars "at" :: reprHex8 o.ramAddress ::
    (chars "file" ++ 61 :: reprNat o.fileID) :: ((if Code.compressedFlag o.flags then [chars "compressed"] else []) ++
      if Code.verifyHashFlag o.flags then [chars "verify-hash"] else [])) ++ [62]) := by
  have e1 : lit "<overlay " = [60] ++ chars "overlay" ++ [32] := rfl
  have e2 : lit "at " = chars "at" ++ [32] := rfl
  have e3 : lit "file=" = chars "file" ++ [61] := rfl
  have e4 : lit " " = [32] := rfl
  have e5 : lit ">" = [62] := rfl
  have e6 : lit "compressed" = chars "compressed" := rfl
  have e7 : lit "verify-hash" = chars "verify-hash" := rfl
  unfold strOverlay
  rw [e1, e2, e3, e4, e5, e6, e7]
  cases Code.compressedFlag o.flags <;> cases Code.verifyHashFlag o.flags <;> simp [join]

theorem read_overlay (o : Code.Overlay) : readOverlay (strOverlay o) =
    some (o.ramAddress, o.fileID, [Code.compressedFlag o.flags, Code.verifyHashFlag o.flags]) := by
  have h1 : 32 ∉ reprHex8 o.ramAddress := fun h => by have := hex8_chars _ _ h; omega
  have h2 : 32 ∉ chars "file" ++ 61 :: reprNat o.fileID := by
    have := sp_nat o.fileID
    simp [chars, this]
  rw [overlay_text, readOverlay, words_text _ (by simp) (by
    simp only [List.forall_mem_cons]
    refine ⟨by decide, by decide, h1, h2, ?_⟩
    cases Code.compressedFlag o.flags <;> cases Code.verifyHashFlag o.flags <;> decide)]
  simp only [Option.bind_some, and_self, if_true, address_text, natField_text]
  cases Code.compressedFlag o.flags <;> cases Code.verifyHashFlag o.flags <;> rfl

/-! ## Messages and textures -/

theorem bmg_text (b : Bmg.BMG) : strBMG b = 60 :: (join [32] [chars "bmg", chars "id" ++ 61 :: reprNat b.id,
    chars "(" ++ (reprNat b.messages.length ++ chars ""), chars "messages,", reprNat b.scripts.length, chars "scripts)"] ++ [62]) := by
  have e1 : lit "<bmg id=" = [60] ++ chars "bmg" ++ [32] ++ chars "id" ++ [61] := rfl
  have e2 : lit " (" = [32] ++ chars "(" := rfl
  have e3 : lit " messages, " = [32] ++ chars "messages," ++ [32] := rfl
  have e4 : lit " scripts)>" = [32] ++ chars "scripts)" ++ [62] := rfl
  have e5 : chars "" = [] := rfl
  rw [strBMG, e1, e2, e3, e4, e5]
  simp [join]

theorem read_bmg (b : Bmg.BMG) : readBMG (strBMG b) = some (b.id, b.messages.length, b.scripts.length) := by
  have h := sp_nat
  rw [bmg_text, readBMG, words_text _ (by simp) (by
    simp only [List.forall_mem_cons]
    exact ⟨by decide, by simp [chars, h], by simp [chars, h], by decide, h _, by decide, by simp⟩)]
  simp only [Option.bind_some, and_self, if_true, natField_text, natIn_text, nat_repr, Option.map_some]

theorem format_text (f : Nat) : 32 ∉ lit (formatName f) ∧ formatOf (lit (formatName f)) = some (if f ≤ 7 then some f else none) := by
  by_cases h : f ≤ 7
  · rw [if_pos h]
    have : f = 0 ∨ f = 1 ∨ f = 2 ∨ f = 3 ∨ f = 4 ∨ f = 5 ∨ f = 6 ∨ f = 7 := by omega
    rcases this with rfl | rfl | rfl | rfl | rfl | rfl | rfl | rfl <;> decide +kernel
  · have : formatName f = "invalid" := by
      unfold formatName
      split <;> first | omega | rfl
    rw [if_neg h, this]
    decide +kernel

theorem texture_text (t : Texture.Texture) : strTexture t = 60 :: (join [32] [chars "texture", lit (formatName t.format),
    reprNat t.width ++ 120 :: reprNat t.height] ++ [62]) := by
  have e1 : lit "<texture " = [60] ++ chars "texture" ++ [32] := rfl
  have e2 : lit " " = [32] := rfl
  have e3 : lit "x" = [120] := rfl
  have e4 : lit ">" = [62] := rfl
  rw [strTexture, e1, e2, e3, e4]
  simp [join]

theorem read_texture (t : Texture.Texture) : readTexture (strTexture t) =
    some (if t.format ≤ 7 then some t.format else none, t.width, t.height) := by
  have h := sp_nat
  have hf := format_text t.format
  have hs : splitOn 120 (reprNat t.width ++ 120 :: reprNat t.height) = [reprNat t.width, reprNat t.height] := by
    rw [split_cons _ _ _ (nat_not _ (by omega)), split_one _ _ (nat_not _ (by omega))]
  rw [texture_text, readTexture, words_text _ (by simp) (by
    simp only [List.forall_mem_cons]
    exact ⟨by decide, hf.1, by simp [h], by simp⟩)]
  simp only [Option.bind_some, if_true, hf.2, hs, nat_repr, Option.map_some]

/-! ## Waves and streams -/

theorem waveType_text (t : Nat) : 32 ∉ waveTypeText t ∧ 10 ∉ waveTypeText t ∧ waveTypeOf (waveTypeText t) = some t := by
  unfold waveTypeText
  by_cases h : t ≤ 2
  · rw [if_pos h]
    have : t = 0 ∨ t = 1 ∨ t = 2 := by omega
    rcases this with rfl | rfl | rfl <;> decide +kernel
  · rw [if_neg h]
    have hx : ∀ c ∈ reprHex t, 48 ≤ c := by
      intro c hc
      have := hex_chars (t : Int) c
      rw [reprHexInt, if_neg (by omega), Int.natAbs_natCast] at this
      rcases this hc with rfl | h
      · exfalso
        unfold reprHex at hc
        rcases List.mem_append.1 hc with hc | hc
        · revert hc; decide
        · have := digitsF_all (b := 16) (digit := Model.Util.hexDigit) (p := fun c => 48 ≤ c) (by omega) (fun d hd => by
            show 48 ≤ Model.Util.hexDigit d
            unfold Model.Util.hexDigit
            split <;> omega) _ _ _ hc
          omega
      · exact h
    have e : lit "waveType=" ++ reprHex t = chars "waveType" ++ 61 :: reprHex t := rfl
    refine ⟨?_, ?_, ?_⟩
    · simp only [List.mem_append, not_or]
      exact ⟨by decide, fun hc => by have := hx _ hc; omega⟩
    · simp only [List.mem_append, not_or]
      exact ⟨by decide, fun hc => by have := hx _ hc; omega⟩
    · rw [e, waveTypeOf, if_neg, if_neg, if_neg, natField_hex]
      · intro h; cases congrArg List.head? h
      · intro h; cases congrArg List.head? h
      · intro h; cases congrArg List.head? h

theorem swav_text (w : SoundWave.SWAV) : strSWAV w = 60 :: (join [32] (chars "swav" :: waveTypeText w.waveType ::
    (chars "" ++ (reprNat w.sampleRate ++ chars "Hz")) :: if w.isLooped then [chars "looped"] else []) ++ [62]) := by
  have e1 : lit "<swav " = [60] ++ chars "swav" ++ [32] := rfl
  have e2 : lit " " = [32] := rfl
  have e3 : lit "Hz" = chars "Hz" := rfl
  have e4 : lit ">" = [62] := rfl
  have e5 : lit " looped" = [32] ++ chars "looped" := rfl
  have e6 : chars "" = [] := rfl
  rw [strSWAV, e1, e2, e3, e4, e5, e6]
  cases w.isLooped <;> simp [join]

theorem swav_words (w : SoundWave.SWAV) {c : Nat} (hc : c = 32 ∨ c = 10) : ∀ x ∈ (chars "swav" :: waveTypeText w.waveType ::
    (chars "" ++ (reprNat w.sampleRate ++ chars "Hz")) :: if w.isLooped then [chars "looped"] else []), c ∉ x := by
  have h : c ∉ reprNat w.sampleRate := nat_not _ (by omega)
  have ht : c ∉ waveTypeText w.waveType := by
    rcases hc with rfl | rfl
    · exact (waveType_text _).1
    · exact (waveType_text _).2.1
  simp only [List.forall_mem_cons]
  rcases hc with rfl | rfl
  all_goals
    refine ⟨by decide, ht, ?_, ?_⟩
    · simp only [List.mem_append, not_or]; exact ⟨by decide, h, by decide⟩
    · cases w.isLooped <;> decide

theorem read_swav (w : SoundWave.SWAV) : readSWAV (strSWAV w) = some (w.waveType, w.sampleRate, [w.isLooped]) := by
  rw [swav_text, readSWAV, words_text _ (by simp) (swav_words w (.inl rfl))]
  simp only [Option.bind_some, if_true, (waveType_text _).2.2, natIn_text]
  cases w.isLooped <;> rfl

theorem swav_nl (w : SoundWave.SWAV) : 10 ∉ strSWAV w := by
  have := join_not (d := 32) (by decide) _ (swav_words w (.inr rfl))
  rw [swav_text]
  simp only [List.mem_cons, List.mem_append, not_or]
  exact ⟨by decide, this, by simp⟩

theorem read_swar (ws : List SoundWave.SWAV) : readSWAR (strSWAR ws) =
    some (numberedFrom 0 (ws.map fun w => (w.waveType, w.sampleRate, [w.isLooped]))) := by
  unfold readSWAR strSWAR enumerated
  rw [block_text (x := ()) (by rfl) (numbered_lines _ ws 0 fun w _ => read_swav w) (by decide) (numbered_nl _ _ 0 (by
    intro x hx
    obtain ⟨w, _, rfl⟩ := List.mem_map.1 hx
    exact swav_nl w))]
  rfl

/-- The words about channels. -/
def channelWords (channels : List (List Bytes)) : List Str :=
  match channels with
  | [] => [chars "[" ++ (reprNat 0 ++ chars ""), chars "channels]"]
  | c0 :: _ =>
    [chars "[" ++ (reprNat channels.length ++ chars ""), if channels.length = 1 then chars "channel" else chars "channels"] ++
      if channels.all (fun c => c.length = c0.length) then
        [chars "of", reprNat c0.length, if c0.length = 1 then chars "block" else chars "blocks", chars "each]"]
      else [chars "of", chars "differing", chars "numbers", chars "of", chars "blocks", chars "each]"]

theorem channel_text (channels : List (List Bytes)) : channelsInfo channels = join [32] (channelWords channels) := by
  cases channels with
  | nil => rfl
  | cons c cs =>
    have e1 : lit "[" = chars "[" := rfl
    have e2 : lit " " = [32] := rfl
    have e3 : lit "of " = chars "of" ++ [32] := rfl
    have e4 : lit " each" = [32] ++ chars "each" := rfl
    have e5 : lit "]" = [93] := rfl
    have e6 : chars "each]" = chars "each" ++ [93] := rfl
    have e7 : chars "" = [] := rfl
    have e8 : lit "of differing numbers of blocks each" = chars "of" ++ [32] ++ chars "differing" ++ [32] ++ chars "numbers" ++ [32] ++
      chars "of" ++ [32] ++ chars "blocks" ++ [32] ++ chars "each" := rfl
    have e9 : lit "channel" = chars "channel" := rfl
    have e10 : lit "channels" = chars "channels" := rfl
    have e11 : lit "block" = chars "block" := rfl
    have e12 : lit "blocks" = chars "blocks" := rfl
    unfold channelsInfo channelWords
    dsimp only
    rw [e1, e2, e3, e4, e5, e6, e7, e8, e9, e10, e11, e12]
    by_cases h : (c :: cs).all (fun d => d.length = c.length) = true
    · rw [if_pos h, if_pos h]; simp [join]
    · rw [if_neg h, if_neg h]; simp [join]

theorem channel_words (channels : List (List Bytes)) : ∀ w ∈ channelWords channels, 32 ∉ w := by
  have h := sp_nat
  unfold channelWords
  split
  · decide
  · rename_i c cs
    intro w hw
    simp only [List.mem_append, List.mem_cons, List.not_mem_nil, or_false] at hw
    rcases hw with (rfl | rfl) | hw
    · simp [chars, h]
    · split <;> decide
    · split at hw
      · simp only [List.mem_cons, List.not_mem_nil, or_false] at hw
        rcases hw with rfl | rfl | rfl | rfl
        · decide
        · exact h _
        · split <;> decide
        · decide
      · revert w
        decide

theorem read_channels (channels : List (List Bytes)) (rest : List Str) : readChannels (channelWords channels ++ rest) =
    some (channels.length, commonBlocks channels, rest) := by
  unfold channelWords
  split
  · rfl
  · rename_i c cs
    have h1 : ((if (c :: cs).length = 1 then chars "channel" else chars "channels") = chars "channels]") = False := by
      split <;> simp (decide := true)
    have hall : (c :: cs).all (fun d => decide (d.length = c.length)) = decide (∀ d ∈ cs, d.length = c.length) := by
      rw [Bool.eq_iff_iff]
      simp
    have h2 : (chars "of" = chars "each]") = False := by decide
    simp only [hall, commonBlocks]
    by_cases h : ∀ d ∈ cs, d.length = c.length
    · rw [if_pos (decide_eq_true h)]
      simp only [List.cons_append, List.nil_append, readChannels, natIn_text, Option.bind_some, h1, if_false, if_true, and_self, nat_repr,
        if_pos h]
    · rw [if_neg (c := decide (∀ d ∈ cs, d.length = c.length) = true) (by simpa only [decide_eq_true_eq] using h)]
      simp only [List.cons_append, List.nil_append, readChannels, natIn_text, Option.bind_some, h1, h2, if_false, if_true, and_self,
        and_false, if_neg h]

theorem strm_text (s : SoundArchiveObject.Strm) : strSTRM s = 60 :: (join [32] (chars "strm" :: waveTypeText s.obj.waveType ::
    (chars "" ++ (reprNat s.obj.sampleRate ++ chars "Hz")) :: (channelWords s.obj.channels ++ (chars "volume" ++ 61 :: reprNat s.volume) ::
      if s.obj.isLooped then [chars "looped"] else [])) ++ [62]) := by
  have hj : ∀ (a b : List Str), a ≠ [] → b ≠ [] → join [32] (a ++ b) = join [32] a ++ 32 :: join [32] b := by
    intro a b ha hb
    induction a with
    | nil => exact absurd rfl ha
    | cons x a ih =>
      cases a with
      | nil =>
        cases b with
        | nil => exact absurd rfl hb
        | cons y b => simp [join]
      | cons y a =>
        rw [List.cons_append, List.cons_append, join, ← List.cons_append, ih (by simp), join]
        simp
  have e1 : lit "<strm " = [60] ++ chars "strm" ++ [32] := rfl
  have e2 : lit " " = [32] := rfl
  have e3 : lit "Hz " = chars "Hz" ++ [32] := rfl
  have e4 : lit ">" = [62] := rfl
  have e5 : lit " looped" = [32] ++ chars "looped" := rfl
  have e6 : lit " volume=" = [32] ++ chars "volume" ++ [61] := rfl
  have e7 : chars "" = [] := rfl
  have hw : channelWords s.obj.channels ≠ [] := by
    unfold channelWords
    split <;> simp
  rw [strSTRM, e1, e2, e3, e4, e5, e6, e7, channel_text]
  rw [show ∀ a b c : Str, ∀ l : List Str, a :: b :: c :: l = [a, b, c] ++ l from fun _ _ _ _ => rfl,
    hj [_, _, _] _ (by simp) (by simp), hj _ _ hw (by simp)]
  cases s.obj.isLooped <;> simp [join]

theorem read_strm (s : SoundArchiveObject.Strm) : readSTRM (strSTRM s) = some (s.obj.waveType, s.obj.sampleRate, s.obj.channels.length,
    commonBlocks s.obj.channels, s.volume, [s.obj.isLooped]) := by
  have h := sp_nat
  rw [strm_text, readSTRM, words_text _ (by simp) (by
    simp only [List.forall_mem_cons, List.forall_mem_append]
    refine ⟨by decide, (waveType_text _).1, by simp [chars, h], channel_words _, by simp [chars, h], ?_⟩
    cases s.obj.isLooped <;> decide)]
  simp only [Option.bind_some, if_true, (waveType_text _).2.2, natIn_text, read_channels, natField_text]
  cases s.obj.isLooped <;> rfl

/-! ## Players, groups and archives -/

theorem read_seqPlayer (p : SoundArchive.SeqPlayer) : readSeqPlayer (strSeqPlayer p) =
    some (p.maxSequences, sortBy id p.channels, p.heapSize) := by
  have e : strSeqPlayer p = chars "<sequence-player maxSequences=" ++ ((reprNat p.maxSequences ++ 32 :: (chars "channels=" ++
      (91 :: join (lit ", ") ((sortBy id p.channels).map reprNat)) ++ 93 :: (chars " heapSize=" ++ reprNat p.heapSize))) ++ chars ">") := by
    have e1 : lit "<sequence-player maxSequences=" = chars "<sequence-player maxSequences=" := rfl
    have e2 : lit " channels=" = [32] ++ chars "channels=" := rfl
    have e3 : lit " heapSize=" = chars " heapSize=" := rfl
    have e4 : lit ">" = chars ">" := rfl
    have e5 : lit "[" = [91] := rfl
    have e6 : lit "]" = [93] := rfl
    rw [strSeqPlayer, reprList, e1, e2, e3, e4, e5, e6]
    simp only [List.append_assoc, List.cons_append, List.nil_append]
  have h93 : ∀ l : List Nat, 93 ∉ join (lit ", ") (l.map reprNat) := by
    intro l
    induction l with
    | nil => decide
    | cons x l ih =>
      cases l with
      | nil => exact nat_not x (by omega)
      | cons y l =>
        simp only [List.map_cons, join, List.mem_append, not_or]
        exact ⟨⟨nat_not x (by omega), by decide⟩, ih⟩
  have h2 : 93 ∉ 91 :: join (lit ", ") ((sortBy id p.channels).map reprNat) := by simp [h93]
  have e7 : ∀ x : Str, 32 :: (chars "channels=" ++ (91 :: join (lit ", ") ((sortBy id p.channels).map reprNat)) ++ x) =
      chars " channels=" ++ ((91 :: join (lit ", ") ((sortBy id p.channels).map reprNat)) ++ x) := fun _ => rfl
  have e8 : ∀ x : Str, 93 :: (chars " heapSize=" ++ x) = chars "] heapSize=" ++ x := fun _ => rfl
  rw [e, readSeqPlayer, inside_text, Option.bind_some, takeWhile_ne 32 _ _ (sp_nat _), dropWhile_ne 32 _ _ (sp_nat _), nat_repr,
    Option.bind_some, e7, after_append, Option.bind_some, takeWhile_ne 93 _ _ h2, dropWhile_ne 93 _ _ h2, e8, after_append,
    show (91 :: join (lit ", ") ((sortBy id p.channels).map reprNat)) ++ [93] = reprList reprNat (sortBy id p.channels) from rfl,
    listOf_nats, Option.bind_some, Option.bind_some, nat_repr]
  rfl

theorem read_streamPlayer (l : List Nat) : readStreamPlayer (strStreamPlayer l) = some l := by
  have e : strStreamPlayer l = chars "<stream-player " ++ (reprList reprNat l ++ chars ">") := by
    rw [strStreamPlayer, List.append_assoc]; rfl
  rw [e, readStreamPlayer, inside_text, Option.bind_some, listOf_nats]

theorem groupType_text (t : Nat) : 32 ∉ groupTypeText t ∧ groupTypeOf (groupTypeText t) = some t := by
  unfold groupTypeText
  split
  · decide +kernel
  · decide +kernel
  · decide +kernel
  · decide +kernel
  · refine ⟨sp_nat _, ?_⟩
    have hn : ∀ w : Str, (∃ c ∈ w, 57 < c) → reprNat t ≠ w := by
      rintro w ⟨c, hc, h⟩ rfl
      have := nat_chars t c hc
      omega
    rw [groupTypeOf, if_neg (hn _ ⟨115, by decide, by decide⟩), if_neg (hn _ ⟨115, by decide, by decide⟩),
      if_neg (hn _ ⟨115, by decide, by decide⟩), if_neg (hn _ ⟨115, by decide, by decide⟩), nat_repr]

theorem read_groupEntry (g : SoundStream.GroupEntry) (h : g.loadSBNKSWARsFrom ≤ 1) : ∃ s, strGroupEntry g = .ok s ∧
    readGroupEntry s = some (g.type, g.id, [g.loadSSEQ, decide (g.loadSBNKSWARsFrom = 1), g.loadSWAR, g.loadSSAR]) := by
  obtain ⟨t, i, a, b, c, d⟩ := g
  dsimp only at h ⊢
  have e1 : lit "<group-entry-" = [60] ++ chars "group-entry-" := rfl
  have e2 : lit " " = [32] := rfl
  have e3 : lit ">" = [62] := rfl
  have key : ∀ opts : List Str, (∀ w ∈ opts, 32 ∉ w) → ∀ o : Str, o = (if opts = [] then [] else 32 :: join [32] opts) →
      ∀ r, flags ["load-sseq", "load-swars-by-swar-id", "load-swar", "load-ssar"] opts = some r →
      readGroupEntry (lit "<group-entry-" ++ groupTypeText t ++ lit " " ++ reprNat i ++ o ++ lit ">") = some (t, i, r) := by
    intro opts hw o ho r hr
    have e : lit "<group-entry-" ++ groupTypeText t ++ lit " " ++ reprNat i ++ o ++ lit ">" =
        60 :: (join [32] ((chars "group-entry-" ++ groupTypeText t) :: reprNat i :: opts) ++ [62]) := by
      rw [e1, e2, e3, ho]
      cases opts <;> simp [join]
    rw [e, readGroupEntry, words_text _ (by simp) (by
      simp only [List.forall_mem_cons]
      refine ⟨?_, sp_nat _, hw⟩
      simp only [List.mem_append, not_or]
      exact ⟨by decide, (groupType_text t).1⟩)]
    simp only [Option.bind_some, after_append, (groupType_text t).2, nat_repr, hr, Option.map_some]
  have hb : b = 0 ∨ b = 1 := by omega
  rcases hb with rfl | rfl
  · refine ⟨_, rfl, ?_⟩
    rw [List.append_assoc (lit "<group-entry-" ++ groupTypeText t ++ lit " " ++ reprNat i)]
    refine key ((if a then [lit "load-sseq"] else []) ++ [] ++
      (if c then [lit "load-swar"] else []) ++ (if d then [lit "load-ssar"] else [])) ?_ _ ?_ _ ?_
    all_goals cases a <;> cases c <;> cases d <;> first | decide +kernel | rfl
  · refine ⟨_, rfl, ?_⟩
    rw [List.append_assoc (lit "<group-entry-" ++ groupTypeText t ++ lit " " ++ reprNat i)]
    refine key ((if a then [lit "load-sseq"] else []) ++ [lit "load-swars-by-swar-id"] ++
      (if c then [lit "load-swar"] else []) ++ (if d then [lit "load-ssar"] else [])) ?_ _ ?_ _ ?_
    all_goals cases a <;> cases c <;> cases d <;> first | decide +kernel | rfl

theorem ssarSequence_text (s : SoundSequenceArchive.Sequence) (u : List Str)
    (hu : u = match s.first with | .unparsed _ => [chars "unparsed"] | .parsed _ => []) :
    strSSARSequence s = 60 :: (join [32] (chars "ssar-sequence" :: (u ++ [chars "bank" ++ 61 :: reprNat s.bankID,
      chars "volume" ++ 61 :: reprNat s.volume, chars "playerID" ++ 61 :: reprNat s.playerID])) ++ [62]) := by
  have e1 : lit "<ssar-sequence" = [60] ++ chars "ssar-sequence" := rfl
  have e2 : lit " bank=" = [32] ++ chars "bank" ++ [61] := rfl
  have e3 : lit " volume=" = [32] ++ chars "volume" ++ [61] := rfl
  have e4 : lit " playerID=" = [32] ++ chars "playerID" ++ [61] := rfl
  have e5 : lit ">" = [62] := rfl
  have e6 : lit " unparsed" = [32] ++ chars "unparsed" := rfl
  rw [strSSARSequence, e1, e2, e3, e4, e5, e6, hu]
  cases s.first <;> simp [join]

theorem read_ssarSequence (s : SoundSequenceArchive.Sequence) : readSSARSequence (strSSARSequence s) =
    some (match s.first with | .unparsed _ => true | .parsed _ => false, s.bankID, s.volume, s.playerID) := by
  have h := sp_nat
  rw [ssarSequence_text s _ rfl, readSSARSequence, words_text _ (by simp) (by
    simp only [List.forall_mem_cons, List.forall_mem_append]
    refine ⟨by decide, ?_, by simp [chars, h], by simp [chars, h], by simp [chars, h], by simp⟩
    cases s.first
    · intro w hw
      rw [List.mem_singleton.1 hw]
      decide
    · simp)]
  cases s.first <;>
  simp only [Option.bind_some, List.nil_append, List.cons_append, and_self, if_true, natField_text, Option.map_some]

theorem sdat_text (a : SoundArchiveObject.Archive) : strSDAT a = 60 :: (join [32] [chars "sdat",
    reprNat a.sequences.length, chars "sequences", reprNat a.sequenceArchives.length, chars "sequence", chars "archives",
    reprNat a.banks.length, chars "banks", reprNat a.waveArchives.length, chars "wave", chars "archives",
    reprNat a.sequencePlayers.length, chars "sequence", chars "players", reprNat a.groups.length, chars "groups",
    reprNat a.streamPlayers.length, chars "stream", chars "players", reprNat a.streams.length, chars "streams"] ++ [62]) := by
  have e1 : lit "<sdat " = [60] ++ chars "sdat" ++ [32] := rfl
  have e2 : lit " sequences " = [32] ++ chars "sequences" ++ [32] := rfl
  have e3 : lit " sequence archives " = [32] ++ chars "sequence" ++ [32] ++ chars "archives" ++ [32] := rfl
  have e4 : lit " banks " = [32] ++ chars "banks" ++ [32] := rfl
  have e5 : lit " wave archives " = [32] ++ chars "wave" ++ [32] ++ chars "archives" ++ [32] := rfl
  have e6 : lit " sequence players " = [32] ++ chars "sequence" ++ [32] ++ chars "players" ++ [32] := rfl
  have e7 : lit " groups " = [32] ++ chars "groups" ++ [32] := rfl
  have e8 : lit " stream players " = [32] ++ chars "stream" ++ [32] ++ chars "players" ++ [32] := rfl
  have e9 : lit " streams>" = [32] ++ chars "streams" ++ [62] := rfl
  rw [strSDAT, e1, e2, e3, e4, e5, e6, e7, e8, e9]
  simp [join]

theorem read_sdat (a : SoundArchiveObject.Archive) : readSDAT (strSDAT a) = some [a.sequences.length, a.sequenceArchives.length,
    a.banks.length, a.waveArchives.length, a.sequencePlayers.length, a.groups.length, a.streamPlayers.length, a.streams.length] := by
  have h := sp_nat
  rw [sdat_text, readSDAT, words_text _ (by simp) (by
    simp only [List.forall_mem_cons]
    exact ⟨by decide, h _, by decide, h _, by decide, by decide, h _, by decide, h _, by decide, by decide, h _, by decide, by decide,
      h _, by decide, h _, by decide, by decide, h _, by decide, by simp⟩)]
  simp only [Option.bind_some, if_true, counts, List.length_cons, List.length_nil, List.take_succ_cons, List.take_zero, List.map_cons,
    List.map_nil, List.drop_succ_cons, List.drop_zero, nat_repr, Option.map_some]

theorem read_music (tracks : List Nat) : readMusic (strMusic tracks) = some (sortBy id tracks) := by
  have e : strMusic tracks = chars "<sseq music [tracks: " ++ ((join (lit ", ") ((sortBy id tracks).map reprNat) ++ [93]) ++ chars ">") := by
    have e2 : lit "]>" = [93] ++ chars ">" := rfl
    rw [strMusic, e2]
    simp only [List.append_assoc]
    rfl
  rw [e, readMusic, inside_text, Option.bind_some]
  exact listOf_nats _

/-! ## Palettes -/

theorem split_prefix {c : Nat} {s t h : Str} {ps : List Str} (hs : c ∉ s) (ht : splitOn c t = h :: ps) : splitOn c (s ++ t) = (s ++ h) :: ps := by
  induction s with
  | nil => exact ht
  | cons d s ih =>
    rw [List.cons_append, splitOn, if_neg (by rintro rfl; simp at hs), ih (by intro hm; exact hs (by simp [hm]))]
    rfl

/-- A color without its opening parenthesis. -/
def colorInner (c : Color.Color) : Str := join [44] [reprNat c.r, reprNat c.g, reprNat c.b, reprNat c.a]

theorem color_text (c : Color.Color) : reprColor c = 40 :: (colorInner c ++ [41]) := rfl

theorem color_not (c : Color.Color) {x : Nat} (h : x = 40 ∨ x = 41) : x ∉ colorInner c :=
  join_not (by omega) _ (by
    have := fun v => nat_not v (c := x) (by omega)
    simp [this])

theorem read_color (c : Color.Color) (rest : Str) : readColor (colorInner c ++ 41 :: rest) = some (c.r, c.g, c.b, c.a) := by
  have h : splitOn 44 (colorInner c) = [reprNat c.r, reprNat c.g, reprNat c.b, reprNat c.a] := by
    refine split_join 44 _ (by simp) ?_
    have := fun v => nat_not v (c := 44) (by omega)
    simp [this]
  rw [readColor, takeWhile_ne 41 _ _ (color_not c (.inr rfl)), h]
  simp only [nat_repr, Option.bind_some, Option.map_some]

theorem colors_split (e : Str) (he : 40 ∉ e) : ∀ (cs : List Color.Color), cs ≠ [] → ∃ ps : List Str,
    splitOn 40 (join (lit ", ") (cs.map reprColor) ++ e) = [] :: ps ∧
    all? readColor ps = some (cs.map fun c => (c.r, c.g, c.b, c.a))
  | [], h => absurd rfl h
  | [c], _ => by
    refine ⟨[colorInner c ++ 41 :: e], ?_, ?_⟩
    · have h : 40 ∉ colorInner c ++ 41 :: e := by
        have := color_not c (x := 40) (.inl rfl)
        simp [this, he]
      have e1 : join (lit ", ") ([c].map reprColor) ++ e = [] ++ 40 :: (colorInner c ++ 41 :: e) := by
        simp [join, color_text]
      rw [e1, split_cons 40 _ _ (by simp), split_one 40 _ h]
    · simp only [all?, read_color, Option.bind_some, Option.map_some, List.map_cons, List.map_nil]
  | c :: d :: cs, _ => by
    obtain ⟨ps, h1, h2⟩ := colors_split e he (d :: cs) (by simp)
    refine ⟨(colorInner c ++ 41 :: [44, 32]) :: ps, ?_, ?_⟩
    · have h : 40 ∉ colorInner c ++ 41 :: [44, 32] := by
        have := color_not c (x := 40) (.inl rfl)
        simp [this]
      have e1 : join (lit ", ") ((c :: d :: cs).map reprColor) ++ e =
          [] ++ 40 :: ((colorInner c ++ 41 :: [44, 32]) ++ (join (lit ", ") ((d :: cs).map reprColor) ++ e)) := by
        simp [join, color_text, lit]
      rw [e1, split_cons 40 _ _ (by simp), split_prefix h h1, List.append_nil]
    · rw [all?, read_color, Option.bind_some, h2]
      rfl

theorem colors_last : ∀ (cs : List Color.Color), (join (lit ", ") (cs.map reprColor)).getLast? ≠ some 46
  | [] => by simp [join]
  | [c] => by
    rw [List.map_cons, List.map_nil, join, color_text, ← List.cons_append, last_word]
    decide
  | c :: d :: cs => by
    have := colors_last (d :: cs)
    rw [List.map_cons] at this ⊢
    rw [List.map_cons, join, List.getLast?_append]
    cases h : (join (lit ", ") (reprColor d :: cs.map reprColor)).getLast? with
    | none =>
      exfalso
      rw [List.getLast?_eq_none_iff] at h
      cases cs with
      | nil => cases h
      | cons f cs => cases h
    | some x =>
      rw [h] at this
      exact this

theorem read_palette (p : Texture.Palette) : readPalette (strPalette p) =
    some (p.colors.length, (p.colors.take 20).map (fun c => (c.r, c.g, c.b, c.a)), decide (20 < p.colors.length)) := by
  have e : strPalette p = chars "<palette (" ++ ((reprNat p.colors.length ++ 32 :: (chars "colors) [" ++
      (join (lit ", ") ((p.colors.take 20).map reprColor) ++ if 20 < p.colors.length then chars ", ..." else []))) ++ chars "]>") := by
    have e1 : lit "<palette (" = chars "<palette (" := rfl
    have e2 : lit " colors) " = [32] ++ chars "colors) " := rfl
    have e3 : lit "[" = [91] := rfl
    have e4 : chars "colors) [" = chars "colors) " ++ [91] := rfl
    have e5 : lit ", ..." = chars ", ..." := rfl
    have e6 : lit "]" = [93] := rfl
    have e7 : lit ">" = [62] := rfl
    have e8 : chars "]>" = [93, 62] := rfl
    rw [strPalette, shortColorsListRepr, e1, e2, e3, e4, e5, e6, e7, e8]
    simp only [List.append_assoc, List.cons_append, List.nil_append]
  have e9 : ∀ x : Str, 32 :: (chars "colors) [" ++ x) = chars " colors) [" ++ x := fun _ => rfl
  rw [e, readPalette, inside_text, Option.bind_some, takeWhile_ne 32 _ _ (sp_nat _), dropWhile_ne 32 _ _ (sp_nat _), nat_repr,
    Option.bind_some, e9, after_append, Option.bind_some]
  have hb : (before (chars ", ...") (join (lit ", ") ((p.colors.take 20).map reprColor) ++
      if 20 < p.colors.length then chars ", ..." else [])).isSome = decide (20 < p.colors.length) := by
    by_cases h : 20 < p.colors.length
    · rw [if_pos h, before_append, decide_eq_true h]; rfl
    · rw [if_neg h, List.append_nil, decide_eq_false h]
      cases hb : before (chars ", ...") (join (lit ", ") ((p.colors.take 20).map reprColor)) with
      | none => rfl
      | some v =>
        exfalso
        refine colors_last (p.colors.take 20) ?_
        rw [before_some hb, List.getLast?_append]
        rfl
  by_cases h0 : p.colors = []
  · rw [h0]; rfl
  · obtain ⟨ps, h1, h2⟩ := colors_split (if 20 < p.colors.length then chars ", ..." else []) (by split <;> decide) (p.colors.take 20)
      (by simpa using h0)
    rw [h1]
    dsimp only
    rw [h2, hb]
    rfl

/-! ## Messages -/

theorem hex_pair (b : UInt8) : nat? [48, 120, hexDigit (b.toNat / 16), hexDigit (b.toNat % 16)] = some b.toNat := by
  have : ∀ k : Fin 256, nat? [48, 120, hexDigit (k.val / 16), hexDigit (k.val % 16)] = some k.val := by decide +kernel
  exact this ⟨b.toNat, b.toNat_lt⟩

theorem hex_bytes : ∀ d : Bytes, hexBytes (hexText d) = some d
  | [] => rfl
  | b :: d => by
    rw [show hexText (b :: d) = hexDigit (b.toNat / 16) :: hexDigit (b.toNat % 16) :: hexText d from rfl, hexBytes, hex_pair,
      Option.bind_some, hex_bytes d, Option.map_some, UInt8.ofNat_toNat]

theorem hex_text_chars : ∀ d : Bytes, ∀ c ∈ hexText d, 48 ≤ c ∧ c ≤ 57 ∨ 97 ≤ c
  | [], c, h => by cases h
  | b :: d, c, h => by
    have hd : ∀ n, 48 ≤ hexDigit n ∧ hexDigit n ≤ 57 ∨ 97 ≤ hexDigit n := by intro n; unfold hexDigit; split <;> omega
    rw [show hexText (b :: d) = hexDigit (b.toNat / 16) :: hexDigit (b.toNat % 16) :: hexText d from rfl] at h
    simp only [List.mem_cons] at h
    rcases h with rfl | rfl | h
    · exact hd _
    · exact hd _
    · exact hex_text_chars d c h

theorem read_escape (t : Nat) (d : Bytes) (s : Str) : readEscape (reprNat t ++ 58 :: (hexText d ++ 93 :: s)) = some (t, d, s) := by
  have h1 : 93 ∉ hexText d := fun h => by have := hex_text_chars d _ h; omega
  have h2 : 93 ∉ reprNat t ++ 58 :: hexText d := by simp [h1, nat_not t (c := 93) (by omega)]
  have e : reprNat t ++ 58 :: (hexText d ++ 93 :: s) = (reprNat t ++ 58 :: hexText d) ++ 93 :: s := by simp
  rw [readEscape, takeWhile_ne 58 _ _ (nat_not t (by omega)), dropWhile_ne 58 _ _ (nat_not t (by omega)), List.drop_succ_cons, List.drop_zero,
    takeWhile_ne 93 _ _ h1, hex_bytes, e, dropWhile_ne 93 _ _ h2, nat_repr]
  rfl

theorem message_split : ∀ (parts : List Bmg.Part), (∀ s, .text s ∈ parts → 91 ∉ s) → ∃ ps : List Str,
    splitOn 91 (parts.flatMap strPart) = (escapes parts).1 :: ps ∧ all? readEscape ps = some (escapes parts).2
  | [], _ => ⟨[], rfl, rfl⟩
  | .text s :: parts, h => by
    obtain ⟨ps, h1, h2⟩ := message_split parts (fun t ht => h t (by simp [ht]))
    exact ⟨ps, split_prefix (h s (by simp)) h1, h2⟩
  | .escape t d :: parts, h => by
    obtain ⟨ps, h1, h2⟩ := message_split parts (fun t ht => h t (by simp [ht]))
    have h3 : 91 ∉ reprNat t ++ 58 :: (hexText d ++ [93]) := by
      have h4 : 91 ∉ hexText d := fun h => by have := hex_text_chars d _ h; omega
      simp [h4, nat_not t (c := 91) (by omega)]
    refine ⟨(reprNat t ++ 58 :: (hexText d ++ [93]) ++ (escapes parts).1) :: ps, ?_, ?_⟩
    · have e : (Bmg.Part.escape t d :: parts).flatMap strPart = [] ++ 91 :: ((reprNat t ++ 58 :: (hexText d ++ [93])) ++ parts.flatMap strPart) := by
        simp [strPart, lit]
      rw [e, split_cons 91 _ _ (by simp), split_prefix h3 h1]
      rfl
    · have e : reprNat t ++ 58 :: (hexText d ++ [93]) ++ (escapes parts).1 = reprNat t ++ 58 :: (hexText d ++ 93 :: (escapes parts).1) := by simp
      rw [all?, e, read_escape, Option.bind_some, h2]
      rfl

theorem read_message (m : Bmg.Message) (h : ∀ s, .text s ∈ m.parts → 91 ∉ s) : readMessage (strMessage m) = some (escapes m.parts) := by
  obtain ⟨ps, h1, h2⟩ := message_split m.parts h
  rw [readMessage, strMessage, h1]
  dsimp only
  rw [h2]
  rfl

/-! ## ROMs -/

theorem read_quoted {q : Nat} (hq : q = 39 ∨ q = 34) (b : Bytes) :
    bytes? (98 :: q :: ((b.map UInt8.toNat).flatMap (reprByteIn q) ++ [q])) = some b := by
  unfold bytes?
  have hlen : b.length ≤ ((b.map UInt8.toNat).flatMap (reprByteIn q)).length := by
    have : ∀ (q : Nat) (l : List Nat), l.length ≤ (l.flatMap (reprByteIn q)).length := by
      intro q l
      induction l with
      | nil => simp
      | cons x l ih =>
        rw [List.flatMap_cons, List.length_append, List.length_cons]
        have : 1 ≤ (reprByteIn q x).length := by
          unfold reprByteIn Model.Util.reprByte
          split
          · simp
          · repeat' split
            all_goals simp
        omega
    have := this q (b.map UInt8.toNat)
    rwa [List.length_map] at this
  have hm : (98 :: q :: ((b.map UInt8.toNat).flatMap (reprByteIn q) ++ [q])).length =
      ((b.map UInt8.toNat).flatMap (reprByteIn q)).length + 3 := by simp
  rw [hm, expr_bytes hq, literal_pieces _ _ (fun c hc X => piece_byte hq (by
        obtain ⟨x, _, rfl⟩ := List.mem_map.1 hc
        exact x.toNat_lt)) [] _ (by rw [List.length_map]; omega)]
  simp only [Option.map_some, List.map_map]
  have : (UInt8.ofNat ∘ UInt8.toNat) = id := by funext x; simp
  rw [this, List.map_id]

theorem inside_quotes (b : Bytes) (h : 34 ∉ b) : insideQuotes b = (b.map UInt8.toNat).flatMap (reprByteIn 34) := by
  unfold insideQuotes reprBytes
  dsimp only
  rw [List.drop_succ_cons, List.drop_succ_cons, List.drop_zero, List.dropLast_concat]
  have h34 : 34 ∉ b.map UInt8.toNat := by
    intro hm
    obtain ⟨x, hx, e⟩ := List.mem_map.1 hm
    have : x = 34 := UInt8.toNat.inj (by rw [e]; rfl)
    exact h (this ▸ hx)
  have key : ∀ l : List Nat, 34 ∉ l → (∀ x ∈ l, x ≠ 39) → l.flatMap (reprByteIn 39) = l.flatMap (reprByteIn 34) := by
    intro l
    induction l with
    | nil => intro _ _; rfl
    | cons x l ih =>
      intro h1 h2
      rw [List.flatMap_cons, List.flatMap_cons, ih (fun hm => h1 (by simp [hm])) (fun y hy => h2 y (by simp [hy]))]
      have hx1 : x ≠ 34 := fun e => h1 (by simp [e])
      have hx2 : x ≠ 39 := h2 x (by simp)
      unfold reprByteIn
      rw [if_neg hx1, if_neg hx2]
  unfold quoteFor
  by_cases h39 : 39 ∈ b.map UInt8.toNat
  · rw [if_pos ⟨List.contains_iff_mem.2 h39, fun hc => h34 (List.contains_iff_mem.1 hc)⟩]
  · rw [if_neg (by
      intro hc
      exact h39 (List.contains_iff_mem.1 hc.1))]
    exact key _ h34 (fun x hx e => h39 (e ▸ hx))

theorem reprByte_chars {x : Nat} (hx : x < 256) : (reprByteIn 34 x).getLast? ≠ none ∧ (x ≠ 32 → (reprByteIn 34 x).getLast? ≠ some 32) ∧
    (x = 32 → reprByteIn 34 x = [32]) ∧ (x ≠ 34 → 34 ∉ reprByteIn 34 x) := by
  have : ∀ k : Fin 256, (reprByteIn 34 k.val).getLast? ≠ none ∧ (k.val ≠ 32 → (reprByteIn 34 k.val).getLast? ≠ some 32) ∧
    (k.val = 32 → reprByteIn 34 k.val = [32]) ∧ (k.val ≠ 34 → 34 ∉ reprByteIn 34 k.val) := by decide +kernel
  exact this ⟨x, hx⟩

theorem rstrip_last {s : Str} (h : s.getLast? ≠ some 32) : rstripSpaces s = s := by
  unfold rstripSpaces
  rw [dropWhile_head (by rwa [List.head?_reverse]), List.reverse_reverse]

theorem rstrip_space (s : Str) : rstripSpaces (s ++ [32]) = rstripSpaces s := by
  unfold rstripSpaces
  simp

theorem rstrip_flat (r : Bytes) : rstripSpaces ((r.reverse.map UInt8.toNat).flatMap (reprByteIn 34)) =
    ((r.dropWhile (· = 32)).reverse.map UInt8.toNat).flatMap (reprByteIn 34) := by
  induction r with
  | nil => rfl
  | cons x r ih =>
    obtain ⟨h1, h2, h3, _⟩ := reprByte_chars x.toNat_lt
    by_cases hx : x = 32
    · subst hx
      rw [List.dropWhile_cons, if_pos (by decide), ← ih]
      simp only [List.reverse_cons, List.map_append, List.flatMap_append, List.map_cons, List.map_nil, List.flatMap_cons, List.flatMap_nil,
        List.append_nil]
      rw [h3 rfl, rstrip_space]
    · rw [List.dropWhile_cons, if_neg (by simpa using hx)]
      apply rstrip_last
      simp only [List.reverse_cons, List.map_append, List.flatMap_append, List.map_cons, List.map_nil, List.flatMap_cons, List.flatMap_nil,
        List.append_nil]
      rw [List.getLast?_append]
      cases hl : (reprByteIn 34 x.toNat).getLast? with
      | none => exact absurd hl h1
      | some c =>
        rw [hl] at h2
        exact h2 (fun e => hx (UInt8.toNat.inj (by rw [e]; rfl)))

theorem read_rom (name idCode : Bytes) (h1 : 34 ∉ name) (h2 : 34 ∉ idCode) :
    readRom (strRom name idCode) = some (withoutSpaces name, idCode) := by
  have hn : rstripSpaces (insideQuotes name) = ((withoutSpaces name).map UInt8.toNat).flatMap (reprByteIn 34) := by
    have := rstrip_flat name.reverse
    rw [List.reverse_reverse] at this
    rw [inside_quotes name h1, this]
    rfl
  have hq : ∀ b : Bytes, 34 ∉ b → 34 ∉ (b.map UInt8.toNat).flatMap (reprByteIn 34) := by
    intro b hb hm
    obtain ⟨x, hx, hm⟩ := List.mem_flatMap.1 hm
    obtain ⟨y, hy, rfl⟩ := List.mem_map.1 hx
    refine (reprByte_chars y.toNat_lt).2.2.2 ?_ hm
    intro e
    have : y = 34 := UInt8.toNat.inj (by rw [e]; rfl)
    exact hb (this ▸ hy)
  have hw : 34 ∉ withoutSpaces name := by
    intro hm
    unfold withoutSpaces at hm
    rw [List.mem_reverse] at hm
    exact h1 (by simpa using (List.dropWhile_sublist _).subset hm)
  have e : strRom name idCode = chars "<rom " ++ 34 :: (((withoutSpaces name).map UInt8.toNat).flatMap (reprByteIn 34) ++
      34 :: (chars " (" ++ ((idCode.map UInt8.toNat).flatMap (reprByteIn 34) ++ chars ")>"))) := by
    have e1 : lit "<rom \"" = chars "<rom " ++ [34] := rfl
    have e2 : lit "\" (" = [34] ++ chars " (" := rfl
    have e3 : lit ")>" = chars ")>" := rfl
    rw [strRom, hn, inside_quotes idCode h2, e1, e2, e3]
    simp only [List.append_assoc, List.cons_append, List.nil_append]
  rw [e, readRom, split_cons 34 _ _ (by decide), split_cons 34 _ _ (hq _ hw), split_one 34 _ (by
    simp only [List.mem_append, not_or]
    exact ⟨by decide, hq _ h2, by decide⟩)]
  dsimp only
  rw [if_pos rfl, read_quoted (.inr rfl), Option.bind_some, inside_text, Option.bind_some, read_quoted (.inr rfl)]
  rfl

/-! ## Banks -/

theorem note_chars (v : Int) : ∀ c ∈ noteName v, c = 39 ∨ 65 ≤ c ∧ c ≤ 103 ∨ 110 ≤ c := by
  intro c hc
  rw [Props.NoteName.noteName_eq] at hc
  have hm : (v % 12).toNat < 12 := by omega
  simp only [List.mem_append, List.mem_singleton, List.mem_replicate] at hc
  rcases hc with (hc | hc) | ⟨_, rfl⟩ | ⟨_, rfl⟩
  · have : ∀ k : Fin 12, 97 ≤ letters[k.val]?.getD 0 ∧ letters[k.val]?.getD 0 ≤ 103 := by decide
    have := this ⟨_, hm⟩
    dsimp only at this
    split at hc <;> omega
  · have : ∀ k : Fin 12, ∀ c ∈ sharps[k.val]?.getD [], c = 0x266F := by decide
    have := this ⟨_, hm⟩ c hc
    omega
  · omega
  · omega

theorem note_not (v : Int) {c : Nat} (h : c ≠ 39 ∧ c < 65 ∨ c = 109) : c ∉ noteName v := fun hc => by
  have := note_chars v c hc
  omega

/-- The words about what a note plays. -/
def soundWords (n : SoundBank.Note) : List Str :=
  if n.type = 2 then [chars "(PSG", chars "square", chars "wave:", lit (dutyText (n.waveID &&& 7)), chars "duty", chars "cycle)"]
  else if n.type = 3 then [chars "(PSG", chars "white", chars "noise)"]
  else [chars "(PCM:", chars "SWAR", chars "" ++ (reprNat n.waveArchiveIDID ++ chars ","), chars "SWAV",
    chars "" ++ (reprNat n.waveID ++ chars ")")]

/-- The text of a note without the angle brackets. -/
def noteInner (n : SoundBank.Note) : Str := join [32] (chars "note" :: chars "def" :: noteName n.pitch :: soundWords n)

theorem note_text (n : SoundBank.Note) : strNote n = chars "<" ++ (noteInner n ++ chars ">") := by
  have e1 : lit "<note def " = chars "<" ++ chars "note" ++ [32] ++ chars "def" ++ [32] := rfl
  have e2 : lit " (" = [32, 40] := rfl
  have e3 : lit ")>" = [41] ++ chars ">" := rfl
  have e4 : lit "PSG square wave: " = chars "PSG" ++ [32] ++ chars "square" ++ [32] ++ chars "wave:" ++ [32] := rfl
  have e5 : lit " duty cycle" = [32] ++ chars "duty" ++ [32] ++ chars "cycle" := rfl
  have e6 : lit "PSG white noise" = chars "PSG" ++ [32] ++ chars "white" ++ [32] ++ chars "noise" := rfl
  have e7 : lit "PCM: SWAR " = chars "PCM:" ++ [32] ++ chars "SWAR" ++ [32] := rfl
  have e8 : lit ", SWAV " = chars "," ++ [32] ++ chars "SWAV" ++ [32] := rfl
  have e9 : chars "(PSG" = 40 :: chars "PSG" := rfl
  have e10 : chars "(PCM:" = 40 :: chars "PCM:" := rfl
  have e11 : chars "cycle)" = chars "cycle" ++ [41] := rfl
  have e12 : chars "noise)" = chars "noise" ++ [41] := rfl
  have e13 : chars ")" = [41] := rfl
  have e14 : chars "" = [] := rfl
  unfold strNote noteInner soundWords
  dsimp only
  rw [e1, e2, e3, e4, e5, e6, e7, e8, e9, e10, e11, e12, e13, e14]
  by_cases h2 : n.type = 2
  · rw [if_pos h2, if_pos h2]; simp [join]
  · by_cases h3 : n.type = 3
    · rw [if_neg h2, if_neg h2, if_pos h3, if_pos h3]; simp [join]
    · rw [if_neg h2, if_neg h2, if_neg h3, if_neg h3]; simp [join]

theorem duty_text (w : Nat) : eighthsOf (lit (dutyText (w &&& 7))) = some ((w + 1) % 8) ∧
    32 ∉ lit (dutyText (w &&& 7)) ∧ 10 ∉ lit (dutyText (w &&& 7)) ∧ 60 ∉ lit (dutyText (w &&& 7)) ∧ 62 ∉ lit (dutyText (w &&& 7)) := by
  have h : w &&& 7 = w % 8 := Nat.and_two_pow_sub_one_eq_mod w 3
  have : ∀ k : Fin 8, eighthsOf (lit (dutyText k.val)) = some ((k.val + 1) % 8) ∧
    32 ∉ lit (dutyText k.val) ∧ 10 ∉ lit (dutyText k.val) ∧ 60 ∉ lit (dutyText k.val) ∧ 62 ∉ lit (dutyText k.val) := by decide +kernel
  have := this ⟨w % 8, by omega⟩
  rw [h]
  have e : (w + 1) % 8 = (w % 8 + 1) % 8 := by omega
  rw [e]
  exact this

theorem note_words (n : SoundBank.Note) {c : Nat} (hc : c = 32 ∨ c = 10 ∨ c = 60 ∨ c = 62) :
    ∀ w ∈ chars "note" :: chars "def" :: noteName n.pitch :: soundWords n, c ∉ w := by
  have hn : ∀ v, c ∉ reprNat v := fun v => nat_not v (by omega)
  have hp : c ∉ noteName n.pitch := note_not _ (by omega)
  have hd := duty_text n.waveID
  simp only [List.forall_mem_cons]
  refine ⟨by rcases hc with rfl | rfl | rfl | rfl <;> decide, by rcases hc with rfl | rfl | rfl | rfl <;> decide, hp, ?_⟩
  unfold soundWords
  split
  · simp only [List.forall_mem_cons]
    refine ⟨?_, ?_, ?_, ?_, ?_, ?_, by simp⟩
    case refine_4 =>
      rcases hc with rfl | rfl | rfl | rfl
      · exact hd.2.1
      · exact hd.2.2.1
      · exact hd.2.2.2.1
      · exact hd.2.2.2.2
    all_goals rcases hc with rfl | rfl | rfl | rfl <;> decide
  · split
    · rcases hc with rfl | rfl | rfl | rfl <;> decide
    · simp only [List.forall_mem_cons, List.mem_append, not_or]
      refine ⟨?_, ?_, ⟨?_, hn _, ?_⟩, ?_, ⟨?_, hn _, ?_⟩, by simp⟩
      all_goals rcases hc with rfl | rfl | rfl | rfl <;> decide

theorem note_inner_not (n : SoundBank.Note) {c : Nat} (hc : c = 10 ∨ c = 60 ∨ c = 62) : c ∉ noteInner n :=
  join_not (by omega) _ (note_words n (by omega))

theorem note_nl (n : SoundBank.Note) : 10 ∉ strNote n := by
  rw [note_text]
  simp only [List.mem_append, not_or]
  exact ⟨by decide, note_inner_not n (.inl rfl), by decide⟩

theorem read_noteWords (n : SoundBank.Note) : readNoteWords (noteInner n) = some (noteOf n) := by
  rw [readNoteWords, noteInner, split_join 32 _ (by simp) (note_words n (.inl rfl))]
  have h := Props.NoteName.note_name_reads n.pitch
  simp only [and_self, if_true, h, Option.bind_some]
  unfold soundWords noteOf soundOf
  by_cases h2 : n.type = 2
  · rw [if_pos h2, if_pos h2]
    simp only [if_true, (duty_text n.waveID).1, Option.map_some]
  · rw [if_neg h2, if_neg h2]
    by_cases h3 : n.type = 3
    · rw [if_pos h3, if_pos h3]
      simp only [if_true]
    · rw [if_neg h3, if_neg h3]
      simp only [if_true, natIn_text, Option.bind_some, Option.map_some]

theorem read_note (n : SoundBank.Note) : readNote (strNote n) = some (noteOf n) := by
  rw [note_text, readNote, inside_text, Option.bind_some, read_noteWords]

/-- The notes after the first, with a comma before each. -/
def afterFirst : List (Str × SoundBank.Note) → Str
  | [] => []
  | (l, n) :: r => (chars ", " ++ l ++ chars ": ") ++ 60 :: (noteInner n ++ 62 :: afterFirst r)

theorem labels_join : ∀ (l : Str) (n : SoundBank.Note) (r : List (Str × SoundBank.Note)),
    join (lit ", ") (((l, n) :: r).map fun x => x.1 ++ lit ": " ++ strNote x.2) = (l ++ chars ": ") ++ 60 :: (noteInner n ++ 62 :: afterFirst r)
  | l, n, [] => by
    have e1 : lit ": " = chars ": " := rfl
    have e2 : chars "<" = [60] := rfl
    have e3 : chars ">" = [62] := rfl
    simp [join, afterFirst, note_text, e1, e2, e3]
  | l, n, (l', n') :: r => by
    have e1 : lit ": " = chars ": " := rfl
    have e2 : chars "<" = [60] := rfl
    have e3 : chars ">" = [62] := rfl
    have e4 : lit ", " = chars ", " := rfl
    have ih := labels_join l' n' r
    rw [List.map_cons] at ih ⊢
    rw [List.map_cons, join, ih, afterFirst, note_text, e1, e2, e3, e4]
    simp

theorem split_labels {u : Str} (hu : 60 ∉ u) (n : SoundBank.Note) : ∀ (r : List (Str × SoundBank.Note)), (∀ x ∈ r, 60 ∉ x.1) → ∃ ps : List Str,
    splitOn 60 (u ++ 60 :: (noteInner n ++ 62 :: afterFirst r)) = u :: ps ∧
    pieces u ps = some ((u, noteInner n) :: r.map fun x => (chars ", " ++ x.1 ++ chars ": ", noteInner x.2))
  | [], _ => by
    have h1 : 60 ∉ noteInner n ++ [62] := by simp [note_inner_not n (c := 60) (by simp)]
    refine ⟨[noteInner n ++ [62]], ?_, ?_⟩
    · rw [split_cons 60 _ _ hu, afterFirst, split_one 60 _ h1]
    · have h62 : 62 ∉ noteInner n := note_inner_not n (by simp)
      rw [pieces, dropWhile_ne 62 _ _ h62, takeWhile_ne 62 _ _ h62]
      rfl
  | (l, m) :: r, h => by
    have hl : 60 ∉ chars ", " ++ l ++ chars ": " := by
      simp only [List.mem_append, not_or]
      exact ⟨⟨by decide, h (l, m) (by simp)⟩, by decide⟩
    obtain ⟨ps, h1, h2⟩ := split_labels hl m r (fun x hx => h x (by simp [hx]))
    have h62 : 62 ∉ noteInner n := note_inner_not n (by simp)
    have h60 : 60 ∉ noteInner n ++ [62] := by simp [note_inner_not n (c := 60) (by simp)]
    refine ⟨(noteInner n ++ 62 :: (chars ", " ++ l ++ chars ": ")) :: ps, ?_, ?_⟩
    · rw [split_cons 60 _ _ hu, afterFirst]
      have e : noteInner n ++ 62 :: ((chars ", " ++ l ++ chars ": ") ++ 60 :: (noteInner m ++ 62 :: afterFirst r)) =
          (noteInner n ++ [62]) ++ ((chars ", " ++ l ++ chars ": ") ++ 60 :: (noteInner m ++ 62 :: afterFirst r)) := by simp
      rw [e, split_prefix h60 h1]
      simp
    · rw [pieces, dropWhile_ne 62 _ _ h62, takeWhile_ne 62 _ _ h62, List.drop_succ_cons, List.drop_zero, h2]
      rfl

theorem label_first {l : Str} (h : 44 ∉ l) : labelOf (l ++ chars ": ") = some l := by
  have : after (chars ", ") (l ++ chars ": ") = none := by
    cases e : after (chars ", ") (l ++ chars ": ") with
    | none => rfl
    | some v =>
      exfalso
      have e := after_some e
      have : 44 ∈ l ++ chars ": " := by rw [e]; simp [chars]
      rw [List.mem_append] at this
      rcases this with h' | h'
      · exact h h'
      · revert h'; decide
  rw [labelOf, this, Option.getD_none, before_append]

theorem label_next (l : Str) : labelOf (chars ", " ++ l ++ chars ": ") = some l := by
  rw [labelOf, List.append_assoc, after_append, Option.getD_some, before_append]

theorem read_labelled {α : Type} {label : Str → Option α} {k : Str → α} (items : List (Str × SoundBank.Note))
    (h : ∀ x ∈ items, label x.1 = some (k x.1) ∧ 44 ∉ x.1 ∧ 60 ∉ x.1) :
    labelled label (join (lit ", ") (items.map fun x => x.1 ++ lit ": " ++ strNote x.2)) =
      some (items.map fun x => (k x.1, noteOf x.2)) := by
  cases items with
  | nil => rfl
  | cons x r =>
    obtain ⟨l, n⟩ := x
    obtain ⟨h1, h2, h3⟩ := h (l, n) (by simp)
    dsimp only at h1 h2 h3
    have hu : 60 ∉ l ++ chars ": " := by
      rw [List.mem_append, not_or]
      exact ⟨h3, by decide⟩
    obtain ⟨ps, h4, h5⟩ := split_labels hu n r (fun x hx => (h x (by simp [hx])).2.2)
    rw [labels_join, labelled, h4]
    dsimp only
    rw [h5, Option.bind_some, all?]
    dsimp only
    rw [label_first h2, Option.bind_some, h1, Option.bind_some, read_noteWords, Option.map_some, Option.bind_some,
      all_of (k := fun x => (k x.1, noteOf x.2)) r]
    · rfl
    · intro x hx
      dsimp only
      rw [label_next, Option.bind_some, (h x (by simp [hx])).1, Option.bind_some, read_noteWords, Option.map_some]

theorem range_items : ∀ (p : Nat) (ns : List SoundBank.Note), ∃ items : List (Str × SoundBank.Note),
    rangeTexts p ns = items.map (fun x => x.1 ++ lit ": " ++ strNote x.2) ∧ (∀ x ∈ items, ∃ v : Nat, x.1 = noteName v) ∧
    items.map (fun x => ((readName x.1).getD 0, noteOf x.2)) = rangeOf p ns
  | _, [] => ⟨[], rfl, by simp, rfl⟩
  | p, n :: ns => by
    obtain ⟨items, h1, h2, h3⟩ := range_items (p + 1) ns
    refine ⟨(noteName p, n) :: items, ?_, ?_, ?_⟩
    · rw [rangeTexts, h1]; rfl
    · intro x hx
      rcases List.mem_cons.1 hx with rfl | hx
      · exact ⟨p, rfl⟩
      · exact h2 x hx
    · rw [List.map_cons, h3, rangeOf]
      dsimp only
      rw [Props.NoteName.note_name_reads]
      rfl

theorem key_text (n : Nat) : readKey (betterNoteName n) = some (n : Int) ∧ ∀ c ∈ betterNoteName n, c ≠ 44 ∧ c ≠ 45 ∧ c ≠ 60 ∧ c ≠ 10 := by
  unfold betterNoteName
  by_cases h0 : n = 0
  · rw [if_pos h0, h0]; decide +kernel
  · rw [if_neg h0]
    by_cases h1 : n = 127
    · rw [if_pos h1, h1]; decide +kernel
    · rw [if_neg h1]
      refine ⟨?_, fun c hc => by have := note_chars n c hc; omega⟩
      have hn : ∀ w : Str, 109 ∈ w → noteName n ≠ w := by
        rintro w hw rfl
        exact note_not n (.inr rfl) hw
      rw [readKey, if_neg (hn _ (by decide)), if_neg (hn _ (by decide)), Props.NoteName.note_name_reads]

theorem keys_text (a b : Nat) : readKeys (betterNoteName a ++ lit "-" ++ betterNoteName b) = some ((a : Int), (b : Int)) := by
  have e : betterNoteName a ++ lit "-" ++ betterNoteName b = betterNoteName a ++ 45 :: betterNoteName b := by
    rw [List.append_assoc]; rfl
  rw [readKeys, e, split_cons 45 _ _ (fun h => ((key_text a).2 _ h).2.1 rfl), split_one 45 _ (fun h => ((key_text b).2 _ h).2.1 rfl)]
  dsimp only
  rw [(key_text a).1, (key_text b).1]
  rfl

theorem region_items : ∀ (p : Nat) (rs : List (Nat × SoundBank.Note)), ∃ items : List (Str × SoundBank.Note),
    regionTexts p rs = items.map (fun x => x.1 ++ lit ": " ++ strNote x.2) ∧
    (∀ x ∈ items, ∃ a b : Nat, x.1 = betterNoteName a ++ lit "-" ++ betterNoteName b) ∧
    items.map (fun x => ((readKeys x.1).getD (0, 0), noteOf x.2)) = regionsOf p rs
  | _, [] => ⟨[], rfl, by simp, rfl⟩
  | p, (q, n) :: rs => by
    obtain ⟨items, h1, h2, h3⟩ := region_items (q + 1) rs
    refine ⟨(betterNoteName p ++ lit "-" ++ betterNoteName q, n) :: items, ?_, ?_, ?_⟩
    · rw [regionTexts, h1]; rfl
    · intro x hx
      rcases List.mem_cons.1 hx with rfl | hx
      · exact ⟨p, q, rfl⟩
      · exact h2 x hx
    · rw [List.map_cons, h3, regionsOf]
      dsimp only
      rw [keys_text]
      rfl

theorem inside_none {p e : String} {w : Str} (h : ∀ v, w ≠ chars p ++ v) : inside p e w = none := by
  unfold inside
  cases ha : after (chars p) w with
  | none => rfl
  | some v => exact absurd (after_some ha) (h v)

theorem read_instrument (k : SoundBank.Kind) : readInstrument (strKind k) = some (instrumentOf k) := by
  cases k with
  | single n =>
    have e : strKind (.single n) = chars "<single-note instrument " ++ (strNote n ++ chars ">") := by
      rw [strKind, List.append_assoc]; rfl
    rw [e, readInstrument, inside_text]
    dsimp only
    rw [read_note]
    rfl
  | range p ns =>
    obtain ⟨items, h1, h2, h3⟩ := range_items p ns
    have e : strKind (.range p ns) = chars "<range instrument starting at " ++ ((noteName p ++ 32 :: (chars "{" ++
        join (lit ", ") (items.map fun x => x.1 ++ lit ": " ++ strNote x.2))) ++ chars "}>") := by
      have e1 : lit "<range instrument starting at " = chars "<range instrument starting at " := rfl
      have e2 : lit " {" = [32] ++ chars "{" := rfl
      have e3 : lit "}>" = chars "}>" := rfl
      rw [strKind, h1, e1, e2, e3]
      simp only [List.append_assoc, List.cons_append, List.nil_append]
    have e4 : ∀ x : Str, 32 :: (chars "{" ++ x) = chars " {" ++ x := fun _ => rfl
    rw [e, readInstrument, inside_none (by intro v h; cases congrArg (fun s : Str => s[1]?) h), inside_text]
    dsimp only
    rw [takeWhile_ne 32 _ _ (note_not _ (by omega)), dropWhile_ne 32 _ _ (note_not _ (by omega)), Props.NoteName.note_name_reads,
      Option.bind_some, e4, after_append, Option.bind_some, read_labelled (k := fun x => (readName x).getD 0) items, h3]
    · rfl
    · intro x hx
      obtain ⟨v, hv⟩ := h2 x hx
      rw [hv, Props.NoteName.note_name_reads]
      exact ⟨rfl, note_not _ (by omega), note_not _ (by omega)⟩
  | regional rs =>
    obtain ⟨items, h1, h2, h3⟩ := region_items 0 rs
    have e : strKind (.regional rs) = chars "<regional instrument {" ++ (
        join (lit ", ") (items.map fun x => x.1 ++ lit ": " ++ strNote x.2) ++ chars "}>") := by
      rw [strKind, h1, List.append_assoc]; rfl
    rw [e, readInstrument, inside_none (by intro v h; cases congrArg (fun s : Str => s[1]?) h),
      inside_none (by intro v h; cases congrArg (fun s : Str => s[2]?) h), inside_text]
    dsimp only
    rw [Option.bind_some, read_labelled (k := fun x => (readKeys x).getD (0, 0)) items, h3]
    · rfl
    · intro x hx
      obtain ⟨a, b, hv⟩ := h2 x hx
      rw [hv, keys_text]
      refine ⟨rfl, ?_, ?_⟩
      · simp only [List.mem_append, not_or]
        exact ⟨⟨fun h => ((key_text a).2 _ h).1 rfl, by decide⟩, fun h => ((key_text b).2 _ h).1 rfl⟩
      · simp only [List.mem_append, not_or]
        exact ⟨⟨fun h => ((key_text a).2 _ h).2.2.1 rfl, by decide⟩, fun h => ((key_text b).2 _ h).2.2.1 rfl⟩

theorem read_region (r : Nat × SoundBank.Note) : readRegion (strRegion r) = some ((r.1 : Int), noteOf r.2) := by
  have e : strRegion r = chars "<region through " ++ ((noteName r.1 ++ 32 :: strNote r.2) ++ chars ">") := by
    have e1 : lit "<region through " = chars "<region through " := rfl
    have e2 : lit " " = [32] := rfl
    have e3 : lit ">" = chars ">" := rfl
    rw [strRegion, e1, e2, e3]
    simp only [List.append_assoc, List.cons_append, List.nil_append]
  rw [e, readRegion, inside_text, Option.bind_some, takeWhile_ne 32 _ _ (note_not _ (by omega)), dropWhile_ne 32 _ _ (note_not _ (by omega)),
    Props.NoteName.note_name_reads, Option.bind_some, show 32 :: strNote r.2 = [32] ++ strNote r.2 from rfl, after_append, Option.bind_some,
    read_note]
  rfl

theorem nl_join {c : Nat} {sep : Str} (hs : c ∉ sep) : ∀ l : List Str, (∀ w ∈ l, c ∉ w) → c ∉ join sep l
  | [], _ => by simp [join]
  | [w], h => h w (by simp)
  | w :: v :: l, h => by
    rw [join, List.mem_append, List.mem_append, not_or, not_or]
    exact ⟨⟨h w (by simp), hs⟩, nl_join hs (v :: l) (fun x hx => h x (by simp [hx]))⟩

theorem kind_nl (k : SoundBank.Kind) : 10 ∉ strKind k := by
  have hp : ∀ v : Nat, 10 ∉ noteName v := fun v => note_not _ (by omega)
  cases k with
  | single n =>
    simp only [strKind, List.mem_append, not_or]
    exact ⟨⟨by decide, note_nl n⟩, by decide⟩
  | range p ns =>
    obtain ⟨items, h1, h2, _⟩ := range_items p ns
    simp only [strKind, List.mem_append, not_or]
    refine ⟨⟨⟨⟨by decide, hp p⟩, by decide⟩, nl_join (by decide) _ ?_⟩, by decide⟩
    rw [h1]
    intro w hw
    obtain ⟨x, hx, rfl⟩ := List.mem_map.1 hw
    obtain ⟨v, hv⟩ := h2 x hx
    simp only [List.mem_append, not_or]
    exact ⟨⟨by rw [hv]; exact hp v, by decide⟩, note_nl _⟩
  | regional rs =>
    obtain ⟨items, h1, h2, _⟩ := region_items 0 rs
    simp only [strKind, List.mem_append, not_or]
    refine ⟨⟨by decide, nl_join (by decide) _ ?_⟩, by decide⟩
    rw [h1]
    intro w hw
    obtain ⟨x, hx, rfl⟩ := List.mem_map.1 hw
    obtain ⟨a, b, hv⟩ := h2 x hx
    simp only [List.mem_append, not_or]
    refine ⟨⟨?_, by decide⟩, note_nl _⟩
    rw [hv]
    simp only [List.mem_append, not_or]
    exact ⟨⟨fun h => ((key_text a).2 _ h).2.2.2 rfl, by decide⟩, fun h => ((key_text b).2 _ h).2.2.2 rfl⟩

theorem orNone_text {α β : Type} {f : α → Str} {read : Str → Option β} {k : α → β} (h : ∀ x, read (f x) = some (k x))
    (hn : ∀ x, f x ≠ chars "None") (o : Option α) : orNone read (reprOption f o) = some (o.map k) := by
  cases o with
  | none => rfl
  | some x =>
    rw [reprOption, orNone, if_neg (hn x), h]
    rfl

theorem read_sbnk (b : SoundBank.SBNK) : readSBNK (strSBNK b) =
    some (b.waveArchiveIDs, numberedFrom 0 (b.instruments.map fun i => i.map fun i => instrumentOf i.kind)) := by
  unfold readSBNK strSBNK enumerated
  have hi : ∀ x : Int, reprInt x ≠ chars "None" := fun x => not_word x _ ⟨78, by decide, by decide⟩
  have hk : ∀ i : SoundBank.Inst, strKind i.kind ≠ chars "None" := by
    intro i e
    cases h : i.kind <;> rw [h] at e <;> cases congrArg List.head? e
  have hc : ∀ (o : Option Int), (∀ c ∈ reprOption reprInt o, c = 45 ∨ 48 ≤ c) ∧ reprOption reprInt o ≠ [] := by
    intro o
    cases o with
    | none => exact ⟨by decide, by decide⟩
    | some x =>
      refine ⟨fun c hc => by have := int_chars x c hc; omega, ?_⟩
      show reprInt x ≠ []
      unfold reprInt
      split
      · simp
      · exact nat_ne _
  refine block_text ?_ ?_ ?_ ?_
  · rw [show lit "<sbnk waveArchiveIDs=" = chars "<sbnk waveArchiveIDs=" from rfl, after_append, Option.bind_some]
    have := listOf_text (f := reprOption reprInt) (read := orNone int?) (k := fun o => o.map id) b.waveArchiveIDs (fun o _ =>
      ⟨orNone_text int_repr hi o, fun h => by have := (hc o).1 _ h; omega, fun h => by
        have := (hc o).1 32 (List.mem_of_mem_head? (by rw [h]; rfl))
        omega, (hc o).2⟩)
    simp only [Option.map_id, id_eq, List.map_id'] at this
    exact this
  · exact numbered_lines _ b.instruments 0 (fun i _ => orNone_text (fun i => read_instrument i.kind) hk i)
  · unfold reprList
    simp only [List.mem_append, not_or]
    refine ⟨by decide, ⟨by decide, nl_join (by decide) _ ?_⟩, by decide⟩
    intro w hw
    obtain ⟨o, _, rfl⟩ := List.mem_map.1 hw
    intro h
    have := (hc o).1 _ h
    omega
  · refine numbered_nl _ _ 0 ?_
    intro x hx
    obtain ⟨o, _, rfl⟩ := List.mem_map.1 hx
    cases o with
    | none => decide
    | some i => exact kind_nl _

end Verif.Proofs.Summary
