import Verif.Model.Json
import Verif.Spec.Json
import Verif.Proofs.Listing

/-!
# Reading the JSON of filename tables
-/

namespace Verif.Proofs.Json

open Verif Verif.Model.Json Verif.Spec.Json
open Verif.Model.Repr (lit reprInt reprNat)
open Verif.Model.Util (hexDigit)
open Verif.Model.Fnt (Folder Folders)
open Verif.Spec.Fnt (All AllIn names)

/-! ## Texts -/

theorem hexValue_digit {d : Nat} (h : d < 16) : hexValue (hexDigit d) = some d := by
  unfold hexDigit hexValue
  split
  · rw [if_pos (by omega)]; congr 1; omega
  · rw [if_neg (by omega), if_pos (by omega)]; congr 1; omega

theorem hex4_digits {n : Nat} (h : n < 0x10000) :
    hex4 (hexDigit (n / 4096 % 16)) (hexDigit (n / 256 % 16)) (hexDigit (n / 16 % 16)) (hexDigit (n % 16)) = some n := by
  unfold hex4
  rw [hexValue_digit (by omega), hexValue_digit (by omega), hexValue_digit (by omega), hexValue_digit (by omega)]
  show some _ = some n
  congr 1
  omega

theorem read_plain (k c : Nat) (t : Str) (h : 32 ≤ c) (h1 : c ≠ 34) (h2 : c ≠ 92) :
    readStr (k + 1) (c :: t) = before c (readStr k t) := by
  rw [readStr.eq_def]
  dsimp only
  split
  · simp_all
  · simp_all
  · simp_all
  · simp_all
  · rename_i e
    obtain ⟨rfl, rfl⟩ := List.cons.inj e
    rw [if_neg (by omega)]

theorem read_named (k e c : Nat) (t : Str) (h : escaped e = some c) (hu : e ≠ 117) :
    readStr (k + 1) (92 :: e :: t) = before c (readStr k t) := by
  rw [readStr.eq_def]
  dsimp only
  split
  · simp_all
  · simp_all
  · simp_all
  · rename_i e'
    simp only [List.cons.injEq, true_and] at e'
    obtain ⟨rfl, rfl⟩ := e'
    rw [h]; rfl
  · rename_i hx e'
    obtain ⟨rfl, rfl⟩ := List.cons.inj e'
    exact absurd rfl (hx _ _ rfl)

theorem read_unicode (k n : Nat) (t : Str) (h : n < 0x10000) (hs : ¬ (0xD800 ≤ n ∧ n < 0xDC00)) :
    readStr (k + 1) (unicodeEscape n ++ t) = before n (readStr k t) := by
  unfold unicodeEscape
  simp only [List.cons_append, List.nil_append]
  rw [readStr]
  · rw [hex4_digits h]
    show (if _ then _ else _) = _
    rw [if_neg hs]

theorem read_pair (k n m : Nat) (t : Str) (h : 0xD800 ≤ n ∧ n < 0xDC00) (hm : 0xDC00 ≤ m ∧ m < 0xE000) :
    readStr (k + 1) (unicodeEscape n ++ (unicodeEscape m ++ t)) =
      before (0x10000 + (n - 0xD800) * 0x400 + (m - 0xDC00)) (readStr k t) := by
  unfold unicodeEscape
  simp only [List.cons_append, List.nil_append]
  rw [readStr]
  · rw [hex4_digits (by omega)]
    show (if _ then _ else _) = _
    rw [if_pos h, hex4_digits (by omega)]
    show (if _ then _ else _) = _
    rw [if_pos hm]

theorem read_wide (k c : Nat) (t : Str) (h : 0x10000 ≤ c ∧ c < 0x110000) :
    readStr (k + 1) (unicodeEscape (0xD800 + (c - 0x10000) / 0x400) ++ unicodeEscape (0xDC00 + (c - 0x10000) % 0x400) ++ t) =
      before c (readStr k t) := by
  have e : 0x10000 + (0xD800 + (c - 0x10000) / 0x400 - 0xD800) * 0x400 + (0xDC00 + (c - 0x10000) % 0x400 - 0xDC00) = c := by
    omega
  have := read_pair k (0xD800 + (c - 0x10000) / 0x400) (0xDC00 + (c - 0x10000) % 0x400) t (by omega) (by omega)
  rw [e] at this
  rw [List.append_assoc]
  exact this

theorem read_char (k c : Nat) (t : Str) (h : Scalar c) : readStr (k + 1) (escapeChar c ++ t) = before c (readStr k t) := by
  unfold Scalar at h
  unfold escapeChar
  repeat' split
  all_goals first
    | (subst c; exact read_named k _ _ t rfl (by omega))
    | exact read_plain k c t (by omega) (by omega) (by omega)
    | exact read_unicode k c t (by omega) (by omega)
    | exact read_wide k c t (by omega)

theorem escape_pos (c : Nat) : 1 ≤ (escapeChar c).length := by
  unfold escapeChar unicodeEscape
  repeat' split
  all_goals simp

theorem read_str (s : Str) (h : ∀ c ∈ s, Scalar c) (k : Nat) (hk : s.length < k) (rest : Str) :
    readStr k (s.flatMap escapeChar ++ 34 :: rest) = some (s, rest) := by
  induction s generalizing k with
  | nil =>
    obtain ⟨k, rfl⟩ : ∃ j, k = j + 1 := ⟨k - 1, by simp at hk; omega⟩
    rfl
  | cons c s ih =>
    obtain ⟨k, rfl⟩ : ∃ j, k = j + 1 := ⟨k - 1, by simp at hk; omega⟩
    rw [List.flatMap_cons, List.append_assoc, read_char k c _ (h c (by simp)),
      ih (fun x hx => h x (by simp [hx])) k (by simp at hk; omega)]
    rfl

theorem flat_length (s : Str) : s.length ≤ (s.flatMap escapeChar).length := by
  induction s with
  | nil => simp
  | cons c s ih =>
    have := escape_pos c
    simp only [List.flatMap_cons, List.length_append, List.length_cons]
    omega

/-! ## Values -/

/-- After a part comes a comma or the end of the line. -/
def Stops (rest : Str) : Prop := ∀ c, rest.head? = some c → c = 10 ∨ c = 44

/-- A text is read as a value. -/
def Reads (s : Str) (v : Json) : Prop :=
  (∃ c t, s = c :: t ∧ isSpace c = false ∧ c ≠ 93) ∧
  ∀ k rest, s.length ≤ k → Stops rest → value k (s ++ rest) = some (v, rest)

theorem skip_newline (level : Nat) (s : Str) : skip (newline level ++ s) = skip s := by
  unfold skip newline
  rw [List.cons_append, List.dropWhile_cons, if_pos (by decide)]
  induction 4 * level with
  | zero => rfl
  | succ n ih => rw [List.replicate_succ, List.cons_append, List.dropWhile_cons, if_pos (by decide), ih]

theorem skip_cons {c : Nat} (t : Str) (h : isSpace c = false) : skip (c :: t) = c :: t := by
  unfold skip
  rw [List.dropWhile_cons, if_neg (by simp [h])]

theorem stops_newline (level : Nat) (s : Str) : Stops (newline level ++ s) := by
  rintro c ⟨⟩
  exact .inl rfl

theorem stops_comma (s : Str) : Stops (44 :: s) := by
  rintro c ⟨⟩
  exact .inr rfl

theorem reads_str {s : Str} (h : ∀ c ∈ s, Scalar c) : Reads (writeStr s) (.text s) := by
  refine ⟨⟨_, _, rfl, rfl, by omega⟩, fun k rest hk _ => ?_⟩
  obtain ⟨k, rfl⟩ : ∃ j, k = j + 1 := ⟨k - 1, by simp [writeStr] at hk; omega⟩
  unfold writeStr
  simp only [List.cons_append, List.append_assoc, List.nil_append]
  rw [value]
  rw [read_str s h _ (by
    have := flat_length s
    simp only [List.length_append, List.length_cons]
    omega)]
  rfl

theorem decimal_eq (s : Str) (v : Nat) : s.foldl (fun n c => 10 * n + (c - 48)) v = Spec.PyExpr.decValue v s := by
  induction s generalizing v with
  | nil => rfl
  | cons c s ih =>
    rw [List.foldl_cons, ih, Nat.mul_comm]
    rfl

theorem stops_not {rest : Str} (h : Stops rest) (c : Nat) (hc : c ≠ 10 ∧ c ≠ 44) : rest.head? ≠ some c := by
  intro e
  have := h c e
  omega

theorem read_nat (n : Nat) {rest : Str} (h : Stops rest) : readNat (reprNat n ++ rest) = some (n, rest) := by
  obtain ⟨h1, h2, h3⟩ := Proofs.Listing.reprNat_digits n
  have h4 := PyExpr.digits_head (n + 1) n (by omega)
  change 0 < n → (reprNat n).head? ≠ some 48 at h4
  have hn := fun c hc => stops_not h c hc
  rcases Nat.eq_zero_or_pos n with rfl | hn0
  · show readNat (48 :: rest) = _
    show (if rest.head? = some 46 ∨ rest.head? = some 101 ∨ rest.head? = some 69 then none else some (0, rest)) = _
    rw [if_neg]
    rintro (e | e | e)
    · exact hn 46 (by omega) e
    · exact hn 101 (by omega) e
    · exact hn 69 (by omega) e
  · replace h4 := h4 hn0
    obtain ⟨e1, e2⟩ := PyExpr.take_while (p := isDigit) (ds := reprNat n) (rest := rest) (fun c hc => by
        have := h2 c hc
        simpa [isDigit, Spec.PyExpr.isDigit] using this) (fun c hc => by
        rcases h c hc with rfl | rfl <;> rfl)
    unfold readNat
    split
    · rename_i e
      cases e' : reprNat n with
      | nil => exact absurd e' h1
      | cons c t =>
        rw [e'] at e h4
        cases e
        exact absurd rfl h4
    · dsimp only
      rw [e1, e2, if_neg, decimal, decimal_eq, h3]
      rintro (e | e | e | e)
      · exact h1 e
      · exact hn 46 (by omega) e
      · exact hn 101 (by omega) e
      · exact hn 69 (by omega) e

theorem nat_cons (n : Nat) : ∃ c t, reprNat n = c :: t ∧ 48 ≤ c ∧ c ≤ 57 := by
  obtain ⟨c, t, e, h⟩ := PyExpr.reprNat_head n
  refine ⟨c, t, e, ?_⟩
  simpa [Spec.PyExpr.isDigit] using h

theorem read_int (n : Int) {rest : Str} (h : Stops rest) : readInt (reprInt n ++ rest) = some (n, rest) := by
  unfold reprInt
  by_cases hn : n < 0
  · rw [if_pos hn, List.cons_append]
    show (readNat (reprNat n.natAbs ++ rest)).map _ = _
    rw [read_nat _ h]
    show some (-(n.natAbs : Int), rest) = _
    rw [show -(n.natAbs : Int) = n by omega]
  · rw [if_neg hn]
    unfold readInt
    split
    · rename_i e
      obtain ⟨c, t, e', hc⟩ := nat_cons n.natAbs
      rw [e'] at e
      cases e
      omega
    · rw [read_nat _ h]
      show some ((n.natAbs : Int), rest) = _
      rw [show (n.natAbs : Int) = n by omega]

theorem int_cons (n : Int) : ∃ c t, reprInt n = c :: t ∧ (c = 45 ∨ 48 ≤ c ∧ c ≤ 57) := by
  unfold reprInt
  split
  · exact ⟨_, _, rfl, .inl rfl⟩
  · obtain ⟨c, t, e, h⟩ := nat_cons n.natAbs
    exact ⟨c, t, e, .inr h⟩

theorem reads_int (n : Int) : Reads (reprInt n) (.num n) := by
  obtain ⟨c, t, e, hc⟩ := int_cons n
  refine ⟨⟨c, t, e, ?_, by omega⟩, fun k rest hk hr => ?_⟩
  · unfold isSpace
    simp only [Bool.or_eq_false_iff, beq_eq_false_iff_ne]
    omega
  · obtain ⟨k, rfl⟩ : ∃ j, k = j + 1 := ⟨k - 1, by rw [e] at hk; simp at hk; omega⟩
    have := read_int n hr
    rw [value.eq_def]
    dsimp only
    split
    · rename_i e'
      rw [e] at e'
      cases e'
      omega
    · rename_i e'
      rw [e] at e'
      cases e'
      omega
    · rename_i e'
      rw [e] at e'
      cases e'
      omega
    · rw [this]; rfl

/-! ## Lists -/

/-- Texts are read as values, one by one. -/
inductive All2 {α β : Type} (r : α → β → Prop) : List α → List β → Prop
  | nil : All2 r [] []
  | cons {a b as bs} : r a b → All2 r as bs → All2 r (a :: as) (b :: bs)

theorem lines_cons (level : Nat) (x y : Str) (l : List Str) :
    lines level (x :: y :: l) = x ++ 44 :: (newline level ++ lines level (y :: l)) := rfl

theorem skip_start {s : Str} {v : Json} (h : Reads s v) (t : Str) : skip (s ++ t) = s ++ t := by
  obtain ⟨⟨c, u, rfl, hc, _⟩, _⟩ := h
  exact skip_cons _ hc

theorem skip_lines {ss : List Str} {vs : List Json} (h : All2 Reads ss vs) (hne : ss ≠ []) (level : Nat) (t : Str) :
    skip (lines level ss ++ t) = lines level ss ++ t := by
  cases h with
  | nil => exact absurd rfl hne
  | cons h1 h2 =>
    cases h2 with
    | nil => exact skip_start h1 t
    | cons h2 h3 => rw [lines_cons, List.append_assoc]; exact skip_start h1 _

theorem read_items {ss : List Str} {vs : List Json} (h : All2 Reads ss vs) (hne : ss ≠ []) (level level' : Nat) :
    ∀ k rest, (lines level ss).length + 2 ≤ k →
      items k (lines level ss ++ (newline level' ++ 93 :: rest)) = some (vs, rest) := by
  induction h with
  | nil => exact absurd rfl hne
  | @cons s v ss vs h1 h2 ih =>
    intro k rest hk
    obtain ⟨k, rfl⟩ : ∃ j, k = j + 1 := ⟨k - 1, by omega⟩
    cases h2 with
    | nil =>
      have hk' : s.length + 2 ≤ k + 1 := hk
      show items (k + 1) (s ++ (newline level' ++ 93 :: rest)) = _
      rw [items, h1.2 k _ (by omega) (stops_newline _ _)]
      dsimp only
      rw [skip_newline, skip_cons _ rfl]
      rfl
    | @cons s2 v2 ss vs h2 h3 =>
      have ih' := ih (by simp) k rest
      rw [lines_cons] at hk ⊢
      simp only [List.length_append, List.length_cons] at hk
      rw [List.append_assoc, List.cons_append, List.append_assoc]
      rw [items, h1.2 k _ (by omega) (stops_comma _)]
      dsimp only
      rw [skip_cons _ rfl]
      show (items k (skip (newline level ++ _))).map _ = _
      rw [skip_newline, skip_lines (.cons h2 h3) (by simp), ih' (by omega)]
      rfl

theorem newline_length (level : Nat) : 1 ≤ (newline level).length := by simp [newline]

theorem start_lines {ss : List Str} {vs : List Json} (h : All2 Reads ss vs) (hne : ss ≠ []) (level : Nat) (t : Str) :
    ∃ c u, lines level ss ++ t = c :: u ∧ c ≠ 93 := by
  cases h with
  | nil => exact absurd rfl hne
  | cons h1 h2 =>
    obtain ⟨⟨c, u, rfl, _, hc⟩, _⟩ := h1
    cases h2 with
    | nil => exact ⟨c, _, rfl, hc⟩
    | cons h2 h3 => exact ⟨c, _, rfl, hc⟩

theorem reads_arr {ss : List Str} {vs : List Json} (h : All2 Reads ss vs) (hne : ss ≠ []) (level : Nat) :
    Reads (bracket 91 93 level ss) (.arr vs) := by
  refine ⟨⟨_, _, rfl, rfl, by omega⟩, fun k rest hk _ => ?_⟩
  unfold bracket at hk ⊢
  have := newline_length level
  have := newline_length (level + 1)
  simp only [List.length_cons, List.length_append, List.length_nil] at hk
  obtain ⟨k, rfl⟩ : ∃ j, k = j + 1 := ⟨k - 1, by omega⟩
  simp only [List.cons_append, List.append_assoc, List.nil_append]
  rw [value]
  rw [skip_newline, skip_lines h hne]
  have hi := read_items h hne (level + 1) level k rest (by omega)
  obtain ⟨c, u, e, hc⟩ := start_lines h hne (level + 1) (newline level ++ 93 :: rest)
  rw [e] at hi ⊢
  split
  · rename_i e'
    cases e'
    exact absurd rfl hc
  · rw [hi]; rfl

/-! ## Objects -/

/-- A text is read as an item of an object. -/
def ReadsItem (s : Str) (p : Str × Json) : Prop :=
  ∃ t, s = writeStr p.1 ++ 58 :: 32 :: t ∧ Reads t p.2 ∧ ∀ c ∈ p.1, Scalar c

theorem skip_members {ss : List Str} {vs : List (Str × Json)} (h : All2 ReadsItem ss vs) (hne : ss ≠ []) (level : Nat) (t : Str) :
    ∃ u, lines level ss ++ t = 34 :: u := by
  cases h with
  | nil => exact absurd rfl hne
  | cons h1 h2 =>
    obtain ⟨t, rfl, _⟩ := h1
    cases h2 with
    | nil => exact ⟨_, rfl⟩
    | cons h2 h3 => exact ⟨_, rfl⟩

theorem read_member {s : Str} {p : Str × Json} (h : ReadsItem s p) (k : Nat) (rest : Str) (hk : s.length ≤ k)
    (hr : Stops rest) : members (k + 1) (s ++ rest) = match skip rest with
      | 44 :: s => (members k (skip s)).map fun r => (p :: r.1, r.2)
      | 125 :: s => some ([p], s)
      | _ => none := by
  obtain ⟨t, rfl, h1, h2⟩ := h
  simp only [writeStr, List.length_append, List.length_cons, List.length_nil] at hk
  unfold writeStr
  simp only [List.cons_append, List.append_assoc, List.nil_append]
  rw [members]
  rw [read_str p.1 h2 _ (by
    have := flat_length p.1
    simp only [List.length_append, List.length_cons]
    omega)]
  dsimp only
  rw [skip_cons _ rfl]
  have : skip (32 :: (t ++ rest)) = t ++ rest := by
    have := skip_start h1 rest
    unfold skip at this ⊢
    rw [List.dropWhile_cons, if_pos (by decide), this]
  show (match value k (skip (32 :: (t ++ rest))) with
    | none => none
    | some (v, s) => _) = _
  rw [this, h1.2 k rest (by omega) hr]
  rfl

theorem read_members {ss : List Str} {vs : List (Str × Json)} (h : All2 ReadsItem ss vs) (hne : ss ≠ []) (level level' : Nat) :
    ∀ k rest, (lines level ss).length + 2 ≤ k →
      members k (lines level ss ++ (newline level' ++ 125 :: rest)) = some (vs, rest) := by
  induction h with
  | nil => exact absurd rfl hne
  | @cons s v ss vs h1 h2 ih =>
    intro k rest hk
    obtain ⟨k, rfl⟩ : ∃ j, k = j + 1 := ⟨k - 1, by omega⟩
    cases h2 with
    | nil =>
      have hk' : s.length + 2 ≤ k + 1 := hk
      show members (k + 1) (s ++ (newline level' ++ 125 :: rest)) = _
      rw [read_member h1 k _ (by omega) (stops_newline _ _), skip_newline, skip_cons _ rfl]
      rfl
    | @cons s2 v2 ss vs h2 h3 =>
      have ih' := ih (by simp) k rest
      rw [lines_cons] at hk ⊢
      simp only [List.length_append, List.length_cons] at hk
      rw [List.append_assoc, List.cons_append, List.append_assoc]
      rw [read_member h1 k _ (by omega) (stops_comma _), skip_cons _ rfl]
      show (members k (skip (newline level ++ _))).map _ = _
      obtain ⟨u, e⟩ := skip_members (.cons h2 h3) (by simp) level (newline level' ++ 125 :: rest)
      rw [skip_newline, e, skip_cons _ rfl, ← e, ih' (by omega)]
      rfl

/-- A text is read as a value whatever follows it. -/
def ReadsAny (s : Str) (v : Json) : Prop :=
  (∃ c t, s = c :: t ∧ isSpace c = false ∧ c ≠ 93) ∧ ∀ k rest, s.length ≤ k → value k (s ++ rest) = some (v, rest)

theorem ReadsAny.reads {s : Str} {v : Json} (h : ReadsAny s v) : Reads s v := ⟨h.1, fun k rest hk _ => h.2 k rest hk⟩

theorem reads_obj {ss : List Str} {vs : List (Str × Json)} (h : All2 ReadsItem ss vs) (hne : ss ≠ []) (level : Nat) :
    ReadsAny (bracket 123 125 level ss) (.obj vs) := by
  refine ⟨⟨_, _, rfl, rfl, by omega⟩, fun k rest hk => ?_⟩
  unfold bracket at hk ⊢
  have := newline_length level
  have := newline_length (level + 1)
  simp only [List.length_cons, List.length_append, List.length_nil] at hk
  obtain ⟨k, rfl⟩ : ∃ j, k = j + 1 := ⟨k - 1, by omega⟩
  simp only [List.cons_append, List.append_assoc, List.nil_append]
  rw [value]
  have hi := read_members h hne (level + 1) level k rest (by omega)
  obtain ⟨u, e⟩ := skip_members h hne (level + 1) (newline level ++ 125 :: rest)
  rw [skip_newline, e, skip_cons _ rfl]
  rw [e] at hi
  show (members k (34 :: u)).map _ = _
  rw [hi]; rfl

/-! ## Tables -/

theorem all2_texts {files : List Str} (h : ∀ n ∈ files, ∀ c ∈ n, Scalar c) :
    All2 Reads (files.map writeStr) (files.map Json.text) := by
  induction files with
  | nil => exact .nil
  | cons n l ih => exact .cons (reads_str (h n (by simp))) (ih fun m hm => h m (by simp [hm]))

theorem all2_append {α β : Type} {r : α → β → Prop} {as as' : List α} {bs bs' : List β} (h : All2 r as bs) (h' : All2 r as' bs') :
    All2 r (as ++ as') (bs ++ bs') := by
  induction h with
  | nil => exact h'
  | cons h1 _ ih => exact .cons h1 ih

theorem scalar_keys : (∀ c ∈ lit "first_id", Scalar c) ∧ (∀ c ∈ lit "files", Scalar c) ∧ ∀ c ∈ lit "folders", Scalar c := by
  have key : ∀ s : Str, (s.all fun c => decide (c < 0xD800)) = true → ∀ c ∈ s, Scalar c := fun s h c hc =>
    .inl (by simpa using List.all_eq_true.1 h c hc)
  exact ⟨key _ (by decide +kernel), key _ (by decide +kernel), key _ (by decide +kernel)⟩

theorem item_int (n : Int) : ReadsItem (lit "\"first_id\": " ++ reprInt n) (lit "first_id", .num n) :=
  ⟨reprInt n, rfl, reads_int n, scalar_keys.1⟩

theorem item_files {s : Str} {v : Json} (h : Reads s v) : ReadsItem (lit "\"files\": " ++ s) (lit "files", v) :=
  ⟨s, rfl, h, scalar_keys.2.1⟩

theorem item_folders {s : Str} {v : Json} (h : Reads s v) : ReadsItem (lit "\"folders\": " ++ s) (lit "folders", v) :=
  ⟨s, rfl, h, scalar_keys.2.2⟩

mutual
theorem reads_folder (level : Nat) : ∀ (f : Folder), Texts f → ReadsAny (writeFolder level f) (document f)
  | .mk folders files firstID, h => by
    obtain ⟨⟨h1, h2⟩, h3⟩ := h
    have hf : All2 ReadsItem (if files = [] then [] else [lit "\"files\": " ++ bracket 91 93 (level + 1) (files.map writeStr)])
        (unlessEmpty "files" (files.map .text)) := by
      cases files with
      | nil => exact .nil
      | cons n l =>
        rw [if_neg (List.cons_ne_nil _ _)]
        have h1 : ∀ m ∈ n :: l, ∀ c ∈ m, Scalar c := h1
        exact .cons (item_files (reads_arr (all2_texts h1) (by simp) _)) .nil
    cases folders with
    | nil =>
      rw [writeFolder, document]
      exact reads_obj (.cons (item_int firstID) (all2_append hf .nil)) (by simp) _
    | cons n f rest =>
      rw [writeFolder, document]
      refine reads_obj (.cons (item_int firstID) (all2_append hf ?_)) (by simp) _
      exact .cons (item_folders (reads_arr (reads_folders (level + 2) (.cons n f rest) h2 h3) (by simp [writeFolders]) _)) .nil
theorem reads_folders (level : Nat) : ∀ (fs : Folders), (∀ n ∈ names fs, ∀ c ∈ n, Scalar c) →
    AllIn (fun f => (∀ n ∈ f.files, ∀ c ∈ n, Scalar c) ∧ ∀ n ∈ names f.folders, ∀ c ∈ n, Scalar c) fs →
    All2 Reads (writeFolders level fs) (pairs fs)
  | .nil, _, _ => .nil
  | .cons n f rest, h1, h2 => by
    rw [writeFolders, pairs]
    exact .cons (reads_arr (.cons (reads_str (h1 n (by simp [names]))) (.cons (reads_folder (level + 1) f h2.1).reads .nil)) (by simp) _)
      (reads_folders level rest (fun m hm => h1 m (by simp [names, hm])) h2.2)
end

theorem loads_followed {f : Folder} (h : Texts f) (t : Str) :
    loads (fntToJson f ++ t) = if skip t = [] then .ok (document f) else .error .valueError := by
  have hr := reads_folder 0 f h
  have := hr.2 ((fntToJson f ++ t).length + 1) t (by unfold fntToJson; rw [List.length_append]; omega)
  have hs := skip_start hr.reads t
  unfold loads fntToJson at *
  rw [hs, this]

theorem loads_json {f : Folder} (h : Texts f) : loads (fntToJson f) = .ok (document f) := by
  have := loads_followed h []
  rwa [List.append_nil] at this

/-! ## ASCII -/

theorem ascii_escape (c : Nat) : ∀ x ∈ escapeChar c, x < 128 := by
  have hd : ∀ d, d < 16 → hexDigit d < 128 := by decide
  have hu : ∀ n, ∀ x ∈ unicodeEscape n, x < 128 := by
    intro n x hx
    simp only [unicodeEscape, List.mem_cons, List.not_mem_nil, or_false] at hx
    rcases hx with rfl | rfl | rfl | rfl | rfl | rfl
    · omega
    · omega
    all_goals exact hd _ (by omega)
  unfold escapeChar
  intro x hx
  repeat' split at hx
  all_goals first
    | exact hu _ x hx
    | (rcases List.mem_append.1 hx with hx | hx <;> exact hu _ x hx)
    | (simp only [List.mem_cons, List.not_mem_nil, or_false] at hx; omega)

theorem ascii_str (s : Str) : ∀ x ∈ writeStr s, x < 128 := by
  intro x hx
  simp only [writeStr, List.mem_cons, List.mem_append, List.mem_flatMap, List.not_mem_nil, or_false] at hx
  rcases hx with rfl | ⟨c, _, hx⟩ | rfl
  · omega
  · exact ascii_escape c x hx
  · omega

theorem ascii_newline (level : Nat) : ∀ x ∈ newline level, x < 128 := by
  intro x hx
  rcases List.mem_cons.1 hx with rfl | hx
  · omega
  · have := (List.mem_replicate.1 hx).2; omega

theorem ascii_lines (level : Nat) : ∀ (l : List Str), (∀ s ∈ l, ∀ x ∈ s, x < 128) → ∀ x ∈ lines level l, x < 128
  | [], _, x, hx => nomatch hx
  | [s], h, x, hx => h s (by simp) x hx
  | s :: u :: l, h, x, hx => by
    rw [lines_cons] at hx
    simp only [List.mem_append, List.mem_cons] at hx
    rcases hx with hx | rfl | hx | hx
    · exact h s (by simp) x hx
    · omega
    · exact ascii_newline _ x hx
    · exact ascii_lines level (u :: l) (fun v hv => h v (List.mem_cons_of_mem _ hv)) x hx

theorem ascii_bracket {op cl : Nat} (h1 : op < 128) (h2 : cl < 128) (level : Nat) (l : List Str) (h : ∀ s ∈ l, ∀ x ∈ s, x < 128) :
    ∀ x ∈ bracket op cl level l, x < 128 := by
  intro x hx
  simp only [bracket, List.mem_append, List.mem_cons, List.not_mem_nil, or_false] at hx
  rcases hx with rfl | hx | hx | hx | rfl
  · exact h1
  · exact ascii_newline _ x hx
  · exact ascii_lines _ l h x hx
  · exact ascii_newline _ x hx
  · exact h2

theorem ascii_int (n : Int) : ∀ x ∈ reprInt n, x < 128 := by
  have key : ∀ n : Nat, ∀ x ∈ reprNat n, x < 128 := by
    intro n x hx
    have := (Proofs.Listing.reprNat_digits n).2.1 x hx
    simp only [Spec.PyExpr.isDigit, Bool.and_eq_true, decide_eq_true_eq] at this
    omega
  intro x hx
  unfold reprInt at hx
  split at hx
  · rcases List.mem_cons.1 hx with rfl | hx
    · omega
    · exact key _ x hx
  · exact key _ x hx

theorem ascii_keys : (∀ x ∈ lit "\"first_id\": ", x < 128) ∧ (∀ x ∈ lit "\"files\": ", x < 128) ∧
    ∀ x ∈ lit "\"folders\": ", x < 128 := by
  have key : ∀ s : Str, (s.all fun c => decide (c < 128)) = true → ∀ c ∈ s, c < 128 := fun s h c hc => by
    simpa using List.all_eq_true.1 h c hc
  exact ⟨key _ (by decide +kernel), key _ (by decide +kernel), key _ (by decide +kernel)⟩

theorem ascii_append {a b : Str} (h1 : ∀ x ∈ a, x < 128) (h2 : ∀ x ∈ b, x < 128) : ∀ x ∈ a ++ b, x < 128 := by
  intro x hx
  rcases List.mem_append.1 hx with hx | hx
  · exact h1 x hx
  · exact h2 x hx

mutual
theorem ascii_folder (level : Nat) : ∀ (f : Folder), ∀ x ∈ writeFolder level f, x < 128
  | .mk folders files firstID => by
    have hf : ∀ s ∈ (if files = [] then [] else [lit "\"files\": " ++ bracket 91 93 (level + 1) (files.map writeStr)]),
        ∀ x ∈ s, x < 128 := by
      intro s hs
      split at hs
      · exact nomatch hs
      · obtain rfl := List.mem_singleton.1 hs
        refine ascii_append ascii_keys.2.1 (ascii_bracket (by omega) (by omega) _ _ fun s hs => ?_)
        obtain ⟨n, _, rfl⟩ := List.mem_map.1 hs
        exact ascii_str n
    cases folders with
    | nil =>
      rw [writeFolder]
      refine ascii_bracket (by omega) (by omega) _ _ fun s hs => ?_
      rcases List.mem_cons.1 hs with rfl | hs
      · exact ascii_append ascii_keys.1 (ascii_int _)
      · rcases List.mem_append.1 hs with hs | hs
        · exact hf s hs
        · exact nomatch hs
    | cons n f rest =>
      rw [writeFolder]
      refine ascii_bracket (by omega) (by omega) _ _ fun s hs => ?_
      rcases List.mem_cons.1 hs with rfl | hs
      · exact ascii_append ascii_keys.1 (ascii_int _)
      · rcases List.mem_append.1 hs with hs | hs
        · exact hf s hs
        · obtain rfl := List.mem_singleton.1 hs
          exact ascii_append ascii_keys.2.2 (ascii_bracket (by omega) (by omega) _ _
            (ascii_folders (level + 2) (.cons n f rest)))
theorem ascii_folders (level : Nat) : ∀ (fs : Folders), ∀ s ∈ writeFolders level fs, ∀ x ∈ s, x < 128
  | .nil => fun s hs => by rw [writeFolders] at hs; exact nomatch hs
  | .cons n f rest => fun s hs => by
    rw [writeFolders] at hs
    rcases List.mem_cons.1 hs with rfl | hs
    · refine ascii_bracket (by omega) (by omega) _ _ fun s hs => ?_
      rcases List.mem_cons.1 hs with rfl | hs
      · exact ascii_str n
      · obtain rfl := List.mem_singleton.1 hs
        exact ascii_folder (level + 1) f
    · exact ascii_folders level rest s hs
end

/-! ## Documents -/

theorem map_text_inj {a b : List Str} (h : a.map Json.text = b.map Json.text) : a = b := by
  induction a generalizing b with
  | nil => cases b with
    | nil => rfl
    | cons => cases h
  | cons x a ih => cases b with
    | nil => cases h
    | cons y b =>
      simp only [List.map_cons, List.cons.injEq, Json.text.injEq] at h
      rw [h.1, ih h.2]

/-- The lists of an object for a table can be told apart. -/
theorem items_inj {a a' b b' : List Json}
    (h : unlessEmpty "files" a ++ unlessEmpty "folders" b = unlessEmpty "files" a' ++ unlessEmpty "folders" b') :
    a = a' ∧ b = b' := by
  have hk : lit "files" ≠ lit "folders" := by decide +kernel
  unfold unlessEmpty at h
  cases a <;> cases a' <;> cases b <;> cases b' <;> simp_all

mutual
theorem document_inj : ∀ (f g : Folder), document f = document g → f = g
  | .mk fs files i, .mk fs' files' i', h => by
    rw [document, document] at h
    simp only [Json.obj.injEq, List.cons.injEq, Prod.mk.injEq, Json.num.injEq, true_and] at h
    obtain ⟨rfl, h⟩ := h
    obtain ⟨h1, h2⟩ := items_inj h
    rw [map_text_inj h1, pairs_inj fs fs' h2]
theorem pairs_inj : ∀ (fs gs : Folders), pairs fs = pairs gs → fs = gs
  | .nil, .nil, _ => rfl
  | .nil, .cons _ _ _, h => by rw [pairs, pairs] at h; cases h
  | .cons _ _ _, .nil, h => by rw [pairs, pairs] at h; cases h
  | .cons n f r, .cons n' f' r', h => by
    rw [pairs, pairs] at h
    simp only [List.cons.injEq, Json.arr.injEq, Json.text.injEq, and_true] at h
    obtain ⟨⟨rfl, h1⟩, h2⟩ := h
    rw [document_inj f f' h1, pairs_inj r r' h2]
end

theorem texts_map (l : List Str) : texts (l.map .text) = .ok l := by
  induction l with
  | nil => rfl
  | cons s l ih => rw [List.map_cons, texts, ih]; rfl

theorem document_get (f : Folder) : ∃ d, document f = .obj d ∧ get d (lit "first_id") = some (.num f.firstID) ∧
    get d (lit "files") = (if f.files = [] then none else some (.arr (f.files.map .text))) ∧
    get d (lit "folders") = (match f.folders with | .nil => none | fs => some (.arr (pairs fs))) := by
  cases f with
  | mk fs files i =>
    have h1 : lit "first_id" ≠ lit "files" := by decide +kernel
    have h2 : lit "first_id" ≠ lit "folders" := by decide +kernel
    have h3 : lit "files" ≠ lit "folders" := by decide +kernel
    refine ⟨_, by rw [document], ?_⟩
    unfold unlessEmpty Model.Json.get
    cases files <;> cases fs <;> simp [pairs, Folder.files, Folder.folders, Folder.firstID, h1, h2, h3, h1.symm, h2.symm, h3.symm]

theorem convert_flat (t : Folder) (hf : t.folders = .nil) (limit : Nat) (hl : 1 ≤ limit) :
    convertDictToFilenamesTable limit (document t) = .ok t := by
  obtain ⟨d, e, h1, h2, h3⟩ := document_get t
  obtain ⟨k, rfl⟩ : ∃ j, limit = j + 1 := ⟨limit - 1, by omega⟩
  rw [hf] at h3
  cases t with
  | mk fs files i =>
    obtain rfl : fs = .nil := hf
    change Model.Json.get d (lit "files") = (if files = [] then none else some (.arr (files.map .text))) at h2
    by_cases hfs : files = []
    · rw [if_pos hfs] at h2
      rw [e, convertDictToFilenamesTable, h1, h2, h3, hfs]; rfl
    · rw [if_neg hfs] at h2
      rw [e, convertDictToFilenamesTable, h1, h2, h3]
      show (do
        let files ← texts (files.map .text)
        return Folder.mk .nil files i) = _
      rw [texts_map]; rfl

theorem convert_cons (t : Folder) (n : Str) (f : Folder) (rest : Folders) (hf : t.folders = .cons n f rest) (limit : Nat) :
    convertDictToFilenamesTable (limit + 1) (document t) =
      (convertDictToFilenamesTable limit (document f)).bind fun _ => .error .typeError := by
  obtain ⟨d, e, h1, h2, h3⟩ := document_get t
  rw [hf] at h3
  have h3 : Model.Json.get d (lit "folders") = some (.arr (.arr [.text n, document f] :: pairs rest)) := h3
  cases t with
  | mk fs files i =>
    change Model.Json.get d (lit "files") = (if files = [] then none else some (.arr (files.map .text))) at h2
    by_cases hfs : files = []
    · rw [if_pos hfs] at h2
      rw [e, convertDictToFilenamesTable, h1, h2, h3]; rfl
    · rw [if_neg hfs] at h2
      rw [e, convertDictToFilenamesTable, h1, h2, h3]
      show ((texts (files.map .text)).bind fun _ => _) = _
      rw [texts_map]; rfl

theorem convert_nested (t : Folder) (hf : t.folders ≠ .nil) (limit : Nat) (u : Folder) :
    convertDictToFilenamesTable limit (document t) ≠ .ok u := by
  intro h
  cases limit with
  | zero => rw [convertDictToFilenamesTable] at h; cases h
  | succ k =>
    cases e : t.folders with
    | nil => exact hf e
    | cons n f rest =>
      rw [convert_cons t n f rest e] at h
      cases e' : convertDictToFilenamesTable k (document f) <;> rw [e'] at h <;> cases h

theorem convert_nested_error : ∀ (t : Folder), t.folders ≠ .nil → ∀ limit, Spec.Fnt.depth t ≤ limit →
    convertDictToFilenamesTable limit (document t) = .error .typeError
  | .mk .nil _ _, h, _, _ => absurd rfl h
  | .mk (.cons n f rest) files i, _, limit, hd => by
    simp only [Spec.Fnt.depth, Spec.Fnt.depthIn] at hd
    obtain ⟨k, rfl⟩ : ∃ j, limit = j + 1 := ⟨limit - 1, by omega⟩
    rw [convert_cons (.mk (.cons n f rest) files i) n f rest rfl]
    cases e : f.folders with
    | nil =>
      have : 1 ≤ Spec.Fnt.depth f := by cases f; simp [Spec.Fnt.depth]
      rw [convert_flat f e k (by omega)]; rfl
    | cons _ _ _ =>
      rw [convert_nested_error f (by rw [e]; exact nofun) k (by omega)]; rfl

end Verif.Proofs.Json
