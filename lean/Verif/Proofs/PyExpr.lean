import Verif.Model.Repr
import Verif.Spec.PyExpr

/-!
# Reading what `repr` printed
-/

namespace Verif.Proofs.PyExpr

open Verif Verif.Spec.PyExpr Verif.Model.Repr Verif.Model.Util

/-! ## Numbers -/

/-- After an expression comes a comma, a closing bracket or a space. -/
def Ends (rest : Str) : Prop := ∀ c, rest.head? = some c → c = 44 ∨ c = 93 ∨ c = 41 ∨ c = 125 ∨ c = 32

theorem take_while {p : Nat → Bool} {ds rest : Str} (h : ∀ c ∈ ds, p c = true) (hr : ∀ c, rest.head? = some c → p c = false) :
    (ds ++ rest).takeWhile p = ds ∧ (ds ++ rest).dropWhile p = rest := by
  induction ds with
  | nil =>
    cases rest with
    | nil => exact ⟨rfl, rfl⟩
    | cons c t =>
      have := hr c rfl
      simp [List.takeWhile_cons, List.dropWhile_cons, this]
  | cons d ds ih =>
    have h1 := h d (by simp)
    have := ih (fun c hc => h c (by simp [hc]))
    simp [List.takeWhile_cons, List.dropWhile_cons, h1, this]

theorem digitsF_ne {b : Nat} {digit : Nat → Nat} (f n : Nat) : digitsF b digit (f + 1) n ≠ [] := by
  unfold digitsF
  split <;> simp

theorem digitsF_all {b : Nat} {digit : Nat → Nat} {p : Nat → Prop} (hb : 0 < b) (hp : ∀ d, d < b → p (digit d)) :
    ∀ (f n : Nat), ∀ c ∈ digitsF b digit f n, p c
  | 0, n, c, h => by simp [digitsF] at h
  | f + 1, n, c, h => by
    unfold digitsF at h
    split at h
    · simp at h; subst h; exact hp n (by assumption)
    · rw [List.mem_append] at h
      rcases h with h | h
      · exact digitsF_all hb hp f _ c h
      · simp at h; subst h; exact hp _ (Nat.mod_lt _ hb)

theorem decValue_append (v : Nat) (s : Str) (c : Nat) : decValue v (s ++ [c]) = decValue v s * 10 + (c - 48) := by
  induction s generalizing v with
  | nil => rfl
  | cons d s ih => exact ih _

theorem hexValue_append (v : Nat) (s : Str) (c : Nat) : hexValue v (s ++ [c]) = hexValue v s * 16 + (hexVal c).getD 0 := by
  induction s generalizing v with
  | nil => rfl
  | cons d s ih => exact ih _

theorem hexDigit_dec {d : Nat} (h : d < 10) : hexDigit d = 48 + d := by simp [hexDigit, h]

theorem decValue_digits : ∀ (f n : Nat), n < f → decValue 0 (digitsF 10 hexDigit f n) = n
  | 0, n, h => by omega
  | f + 1, n, h => by
    rw [digitsF]
    by_cases h1 : n < 10
    · rw [if_pos h1, hexDigit_dec h1]
      show 0 * 10 + (48 + n - 48) = n
      omega
    · rw [if_neg h1, decValue_append, decValue_digits f (n / 10) (by omega), hexDigit_dec (by omega)]
      omega

theorem digits_head : ∀ (f n : Nat), n < f → 0 < n → (digitsF 10 hexDigit f n).head? ≠ some 48
  | 0, n, h, _ => by omega
  | f + 1, n, h, h0 => by
    rw [digitsF]
    by_cases h1 : n < 10
    · rw [if_pos h1, hexDigit_dec h1]
      simp; omega
    · rw [if_neg h1]
      have := digits_head f (n / 10) (by omega) (by omega)
      cases f with
      | zero => omega
      | succ f =>
        rw [List.head?_append]
        cases e : digitsF 10 hexDigit (f + 1) (n / 10) with
        | nil => exact absurd e (digitsF_ne f _)
        | cons c t => rw [e] at this; exact this

theorem hexVal_lower {d : Nat} (h : d < 16) : hexVal (hexDigit d) = some d := by
  unfold hexDigit hexVal
  split
  · rw [if_pos (by omega)]; congr 1; omega
  · rw [if_neg (by omega), if_pos (by omega)]; congr 1; omega

theorem hexVal_upper {d : Nat} (h : d < 16) : hexVal (hexDigitUpper d) = some d := by
  unfold hexDigitUpper hexVal
  split
  · rw [if_pos (by omega)]; congr 1; omega
  · rw [if_neg (by omega), if_neg (by omega), if_pos (by omega)]; congr 1; omega

theorem hexValue_digits {digit : Nat → Nat} (hd : ∀ d, d < 16 → hexVal (digit d) = some d) :
    ∀ (f n : Nat), n < f → hexValue 0 (digitsF 16 digit f n) = n
  | 0, n, h => by omega
  | f + 1, n, h => by
    rw [digitsF]
    by_cases h1 : n < 16
    · rw [if_pos h1]
      simp [hexValue, hd n h1]
    · rw [if_neg h1, hexValue_append, hexValue_digits hd f (n / 16) (by omega), hd _ (by omega)]
      simp; omega

theorem ends_number {rest : Str} (h : Ends rest) : endsNumber rest = true := by
  cases rest with
  | nil => rfl
  | cons c t =>
    rcases h c rfl with rfl | rfl | rfl | rfl | rfl <;> rfl

theorem ends_not {rest : Str} (h : Ends rest) (p : Nat → Bool) (h1 : p 44 = false) (h2 : p 93 = false) (h3 : p 41 = false)
    (h4 : p 125 = false) (h5 : p 32 = false) : ∀ c, rest.head? = some c → p c = false := by
  intro c hc
  rcases h c hc with rfl | rfl | rfl | rfl | rfl <;> assumption

theorem decimal_repr (n : Nat) {rest : Str} (h : Ends rest) : decimal (reprNat n ++ rest) = some (n, rest) := by
  unfold decimal reprNat digits
  have hall : ∀ c ∈ digitsF 10 hexDigit (n + 1) n, isDigit c = true :=
    digitsF_all (p := fun c => isDigit c = true) (by omega) (fun d hd => by
      rw [hexDigit_dec hd]; simp [isDigit]; omega) _ _
  obtain ⟨e1, e2⟩ := take_while hall (ends_not h isDigit rfl rfl rfl rfl rfl)
  dsimp only
  rw [e1, e2, if_neg (by simp [digitsF_ne, ends_number h]), decValue_digits _ _ (by omega)]
  rcases Nat.eq_zero_or_pos n with rfl | hn
  · rfl
  · rw [if_neg (fun hh => digits_head _ _ (by omega) hn hh.1)]

theorem reprNat_head (n : Nat) : ∃ c t, reprNat n = c :: t ∧ isDigit c = true := by
  have h := digitsF_ne (b := 10) (digit := hexDigit) n n
  have hall := digitsF_all (b := 10) (digit := hexDigit) (p := fun c => isDigit c = true) (by omega) (fun d hd => by
      rw [hexDigit_dec hd]; simp [isDigit]; omega) (n + 1) n
  cases e : digitsF 10 hexDigit (n + 1) n with
  | nil => exact absurd e h
  | cons c t => exact ⟨c, t, e, hall c (by rw [e]; simp)⟩

theorem number_repr (n : Nat) {rest : Str} (h : Ends rest) : number (reprNat n ++ rest) = some (n, rest) := by
  have hd := decimal_repr n h
  have hall := digitsF_all (b := 10) (digit := hexDigit) (p := fun c => isDigit c = true) (by omega) (fun d hd => by
      rw [hexDigit_dec hd]; simp [isDigit]; omega) (n + 1) n
  unfold number
  split
  · rename_i x t e
    rw [if_neg, hd]
    intro hx
    have hx' : isDigit x = false := by rcases hx with rfl | rfl <;> rfl
    change ∀ c ∈ reprNat n, isDigit c = true at hall
    cases e1 : reprNat n with
    | nil => rw [e1] at e; simp at e; rw [e] at h; have := h 48 rfl; omega
    | cons c u =>
      rw [e1] at e hall
      cases u with
      | nil =>
        simp at e
        have := ends_not h isDigit rfl rfl rfl rfl rfl x (by rw [e.2]; rfl)
        have h2 := h x (by rw [e.2]; rfl)
        omega
      | cons d u =>
        simp at e
        have := hall d (by simp)
        rw [e.2.1, hx'] at this
        cases this
  · exact hd

theorem hexadecimal_read {ds rest : Str} {n : Nat} (h0 : ds ≠ []) (h1 : ∀ c ∈ ds, (hexVal c).isSome = true)
    (hv : hexValue 0 ds = n) (h : Ends rest) : number (lit "0x" ++ ds ++ rest) = some (n, rest) := by
  have e : lit "0x" = [48, 120] := by decide
  rw [e]
  unfold number
  simp only [List.cons_append, List.nil_append]
  rw [if_pos (by simp)]
  unfold hexadecimal
  obtain ⟨e1, e2⟩ := take_while (p := fun c => (hexVal c).isSome) h1 (ends_not h _ rfl rfl rfl rfl rfl)
  dsimp only
  rw [e1, e2, if_neg (by simp [h0, ends_number h]), hv]

theorem hex_all {digit : Nat → Nat} (hd : ∀ d, d < 16 → hexVal (digit d) = some d) (n : Nat) :
    ∀ c ∈ digits 16 digit n, (hexVal c).isSome = true :=
  digitsF_all (p := fun c => (hexVal c).isSome = true) (by omega) (fun d h => by rw [hd d h]; rfl) _ _

theorem number_hex (n : Nat) {rest : Str} (h : Ends rest) : number (reprHex n ++ rest) = some (n, rest) :=
  hexadecimal_read (digitsF_ne _ _) (hex_all (fun _ => hexVal_lower) n) (hexValue_digits (fun _ => hexVal_lower) _ _ (by omega)) h

theorem number_hex_upper (n : Nat) {rest : Str} (h : Ends rest) : number (reprHexUpper n ++ rest) = some (n, rest) :=
  hexadecimal_read (digitsF_ne _ _) (hex_all (fun _ => hexVal_upper) n) (hexValue_digits (fun _ => hexVal_upper) _ _ (by omega)) h

theorem hexValue_zeros (k : Nat) (s : Str) : hexValue 0 (List.replicate k 48 ++ s) = hexValue 0 s := by
  induction k with
  | zero => rfl
  | succ k ih => rw [List.replicate_succ, List.cons_append]; exact ih

theorem number_hex8 (n : Nat) {rest : Str} (h : Ends rest) : number (reprHex8 n ++ rest) = some (n, rest) := by
  unfold reprHex8
  rw [List.append_assoc (lit "0x")]
  refine hexadecimal_read ?_ ?_ ?_ h
  · have := digitsF_ne (b := 16) (digit := hexDigitUpper) n n
    intro e
    rw [List.append_eq_nil_iff] at e
    exact this e.2
  · intro c hc
    rw [List.mem_append] at hc
    rcases hc with hc | hc
    · rw [List.eq_of_mem_replicate hc]; rfl
    · exact hex_all (fun _ => hexVal_upper) n c hc
  · rw [hexValue_zeros]
    exact hexValue_digits (fun _ => hexVal_upper) _ _ (by omega)

/-! ## Literals -/

theorem hexDigits_succ (k v : Nat) (s : Str) :
    hexDigits (k + 1) v s = (hexDigits k v s).bind fun r => hexDigits 1 r.1 r.2 := by
  induction k generalizing v s with
  | zero => rfl
  | succ k ih =>
    cases s with
    | nil => rfl
    | cons c s =>
      rw [hexDigits, hexDigits]
      cases hexVal c with
      | none => rfl
      | some d => exact ih _ _

theorem hexDigits_hexN (k n : Nat) (X : Str) : hexDigits k 0 (hexN k n ++ X) = some (n % 16 ^ k, X) := by
  induction k generalizing n X with
  | zero => simp [hexDigits, hexN, Nat.mod_one]
  | succ k ih =>
    rw [hexDigits_succ, hexN, List.append_assoc, ih]
    simp only [Option.bind_some, List.cons_append, List.nil_append, hexDigits]
    rw [hexVal_lower (Nat.mod_lt _ (by omega))]
    simp only [Option.bind_some, Option.some.injEq, Prod.mk.injEq, and_true]
    rw [Nat.pow_succ, Nat.mul_comm (16 ^ k) 16, Nat.mod_mul]
    omega

/-- A piece of a literal that stands for some characters. -/
def Piece (uni : Bool) (q : Nat) (t : Str) (cs : Str) (X : Str) : Prop :=
  ∀ f, literal uni q (f + 1) (t ++ X) = (literal uni q f X).map fun r => (cs ++ r.1, r.2)

theorem piece_escape {uni : Bool} {q : Nat} {t cs X : Str} (hq : q ≠ 92) (h : escape uni (t ++ X) = some (cs, X)) :
    Piece uni q (92 :: t) cs X := by
  intro f
  rw [List.cons_append, literal, if_neg (Ne.symm hq), if_neg (by omega), if_pos rfl, h]
  rfl

theorem piece_plain {uni : Bool} {q c : Nat} {X : Str} (h1 : c ≠ q) (h2 : c ≠ 10) (h3 : c ≠ 13) (h4 : c ≠ 92)
    (h5 : uni = true ∨ c < 128) : Piece uni q [c] [c] X := by
  intro f
  rw [List.cons_append, List.nil_append, literal, if_neg h1, if_neg (by omega), if_neg h4, if_pos h5]
  rfl

theorem escape_hex2 (uni : Bool) (n : Nat) (hn : n < 256) (X : Str) : escape uni ([120] ++ hexN 2 n ++ X) = some ([n], X) := by
  have := hexDigits_hexN 2 n X
  rw [List.append_assoc, List.cons_append, List.nil_append]
  simp only [escape, this]
  simp [isOct]
  omega

theorem piece_byte {uni : Bool} {q b : Nat} {X : Str} (hq : q = 39 ∨ q = 34) (hb : b < 256) :
    Piece uni q (reprByteIn q b) [b] X := by
  unfold reprByteIn
  have hq' : q ≠ 92 := by omega
  split
  · rename_i h; subst h
    exact piece_escape hq' (by rcases hq with rfl | rfl <;> rfl)
  · unfold reprByte
    split
    · rename_i h; subst h; exact piece_escape hq' rfl
    · split
      · rename_i h; subst h; exact piece_escape hq' rfl
      · split
        · rename_i h; subst h; exact piece_escape hq' rfl
        · split
          · rename_i h; subst h; exact piece_escape hq' rfl
          · split
            · refine piece_escape hq' ?_
              have := escape_hex2 uni b hb X
              have e : b / 16 % 16 = b / 16 := by omega
              simp only [hexN, List.nil_append, List.cons_append, e] at this
              exact this
            · exact piece_plain (by assumption) (by omega) (by omega) (by omega) (Or.inr (by omega))

theorem piece_char {printable : Nat → Bool} {q c : Nat} {X : Str} (hq : q = 39 ∨ q = 34) (hc : c < 0x110000) :
    Piece true q (reprCharIn printable q c) [c] X := by
  have hq' : q ≠ 92 := by omega
  unfold reprCharIn
  split
  · rename_i h
    refine piece_escape hq' ?_
    rcases h with rfl | rfl
    · rcases hq with rfl | rfl <;> rfl
    · rfl
  · split
    · rename_i h; subst h; exact piece_escape hq' rfl
    · split
      · rename_i h; subst h; exact piece_escape hq' rfl
      · split
        · rename_i h; subst h; exact piece_escape hq' rfl
        · split
          · refine piece_escape (t := [120] ++ hexN 2 c) hq' (escape_hex2 true c (by omega) X)
          · split
            · exact piece_plain (by omega) (by omega) (by omega) (by omega) (Or.inl rfl)
            · split
              · exact piece_plain (by omega) (by omega) (by omega) (by omega) (Or.inl rfl)
              · split
                · exact piece_escape (t := [120] ++ hexN 2 c) hq' (escape_hex2 true c (by omega) X)
                · split
                  · refine piece_escape (t := [117] ++ hexN 4 c) hq' ?_
                    have := hexDigits_hexN 4 c X
                    rw [List.append_assoc, List.cons_append, List.nil_append]
                    simp only [escape, this]
                    simp [isOct]
                    omega
                  · refine piece_escape (t := [85] ++ hexN 8 c) hq' ?_
                    have := hexDigits_hexN 8 c X
                    rw [List.append_assoc, List.cons_append, List.nil_append]
                    simp only [escape, this]
                    have e : c % 16 ^ 8 = c := Nat.mod_eq_of_lt (by omega)
                    simp only [e]
                    simp [isOct, hc]

theorem literal_pieces {uni : Bool} {q : Nat} (piece : Nat → Str) :
    ∀ (s : Str), (∀ c ∈ s, ∀ X, Piece uni q (piece c) [c] X) → ∀ (rest : Str) (f : Nat), s.length < f →
      literal uni q f (s.flatMap piece ++ q :: rest) = some (s, rest)
  | [], _, rest, f, h => by
    cases f with
    | zero => simp at h
    | succ f => simp [literal]
  | c :: s, hp, rest, f, h => by
    cases f with
    | zero => simp at h
    | succ f =>
      rw [List.flatMap_cons, List.append_assoc, hp c (by simp) _ f,
        literal_pieces piece s (fun c hc => hp c (by simp [hc])) rest f (by simpa using h)]
      rfl

theorem quote_cases (s : Str) : quoteFor s = 39 ∨ quoteFor s = 34 := by
  unfold quoteFor
  split <;> simp

theorem octDigits_stop (k v : Nat) {X : Str} (h : ∀ c, X.head? = some c → isOct c = false) : octDigits k v X = (v, X) := by
  cases k with
  | zero => rfl
  | succ k =>
    cases X with
    | nil => rfl
    | cons c X => rw [octDigits, if_neg (by rw [h c rfl]; simp)]

theorem piece_oct {q b : Nat} {X : Str} (hq : q ≠ 92) (hb : b < 8) (h : ∀ c, X.head? = some c → isOct c = false) :
    Piece false q [92, 48 + b] [b] X := by
  refine piece_escape hq ?_
  rw [List.cons_append, List.nil_append]
  have e : isOct (48 + b) = true := by simp [isOct]; omega
  have : octDigits 2 b X = (b, X) := octDigits_stop 2 b h
  unfold escape
  dsimp only
  rw [if_neg (by omega), if_neg (by omega), if_neg (by omega), if_neg (by omega), if_neg (by omega), if_neg (by omega),
    if_neg (by omega), if_neg (by omega), if_neg (by omega), if_pos e, show 48 + b - 48 = b by omega, this]
  simp
  omega

theorem reprByte_head (b : Nat) (h : ¬ (48 ≤ b ∧ b < 58)) : ∀ (X : Str) c, (reprByte b ++ X).head? = some c → isOct c = false := by
  intro X c
  unfold reprByte
  repeat' split
  all_goals
    intro hc
    simp at hc
    subst hc
    first
      | rfl
      | simp [isOct]; omega

theorem short_head (n : Nat) (data : Bytes) (h : noDigitNext data = true) (rest : Str) :
    ∀ c, (shortLoop n data ++ 39 :: rest).head? = some c → isOct c = false := by
  intro c
  cases n with
  | zero => intro hc; simp [shortLoop] at hc; subst hc; rfl
  | succ n =>
    cases data with
    | nil => intro hc; simp [shortLoop] at hc; subst hc; rfl
    | cons b data =>
      rw [shortLoop]
      split
      · intro hc; simp at hc; subst hc; rfl
      · rw [List.append_assoc]
        refine reprByte_head _ ?_ _ c
        simp [noDigitNext] at h
        omega

theorem literal_short : ∀ (n : Nat) (data : Bytes), 0x27 ∉ data.take n → ∀ (rest : Str) (f : Nat), n < f →
    literal false 39 f (shortLoop n data ++ 39 :: rest) = some ((data.take n).map UInt8.toNat, rest)
  | 0, data, _, rest, f, h => by
    cases f with
    | zero => simp at h
    | succ f => simp [shortLoop, literal]
  | n + 1, [], _, rest, f, h => by
    cases f with
    | zero => simp at h
    | succ f => simp [shortLoop, literal]
  | n + 1, b :: data, hq, rest, f, h => by
    cases f with
    | zero => simp at h
    | succ f =>
      have ih := literal_short n data (by simp at hq ⊢; exact hq.2) rest f (by omega)
      have hb : b.toNat < 256 := b.toNat_lt
      have hb39 : b.toNat ≠ 39 := by
        intro e
        simp at hq
        exact hq.1 (UInt8.toNat_inj.1 (by rw [e]; rfl))
      rw [shortLoop, List.append_assoc]
      have : Piece false 39 (if b.toNat < 8 ∧ noDigitNext data = true then [92, 48 + b.toNat] else reprByte b.toNat)
          [b.toNat] (shortLoop n data ++ 39 :: rest) := by
        split
        · rename_i h1
          exact piece_oct (by omega) h1.1 (short_head n data h1.2 rest)
        · have := piece_byte (uni := false) (q := 39) (b := b.toNat) (X := shortLoop n data ++ 39 :: rest) (.inl rfl) hb
          unfold reprByteIn at this
          rwa [if_neg hb39] at this
      rw [this f, ih]
      rfl

/-! ## Expressions -/

/-- A text that is read as an expression, whatever follows. -/
def Reads (s : Str) (e : Expr) : Prop :=
  ∃ n, ∀ m, n ≤ m → ∀ rest, Ends rest → expr m (s ++ rest) = some (e, rest)

theorem Reads.parses {s : Str} {e : Expr} (h : Reads s e) : Parses s e := by
  obtain ⟨n, h⟩ := h
  refine ⟨n, ?_⟩
  have := h n (Nat.le_refl n) [] (by simp [Ends])
  rwa [List.append_nil] at this

theorem expr_head {m c : Nat} {s : Str} {r : Expr × Str} (h : expr m (c :: s) = some r) :
    c ≠ 32 ∧ c ≠ 93 ∧ c ≠ 41 ∧ c ≠ 125 ∧ c ≠ 44 ∧ c ≠ 60 := by
  cases m with
  | zero => simp [expr] at h
  | succ m =>
    have key : ∀ d : Nat, d = 32 ∨ d = 93 ∨ d = 41 ∨ d = 125 ∨ d = 44 ∨ d = 60 → c ≠ d := by
      intro d hd e
      subst e
      have h1 : dotted m (c :: s) = none := by
        cases m with
        | zero => rfl
        | succ m =>
          unfold dotted
          dsimp only
          rw [if_pos]
          rcases hd with rfl | rfl | rfl | rfl | rfl | rfl <;> simp [isIdStart]
      rw [expr] at h
      rw [if_neg (by omega), if_neg (by omega), if_neg (by omega), if_neg (by omega), if_neg (by omega), if_neg (by omega),
        if_neg (by simp [isDigit]; omega), if_neg (by omega), h1] at h
      cases h
    exact ⟨key _ (by simp), key _ (by simp), key _ (by simp), key _ (by simp), key _ (by simp), key _ (by simp)⟩

theorem Reads.cons {s : Str} {e : Expr} (h : Reads s e) : ∃ c t, s = c :: t ∧
    c ≠ 32 ∧ c ≠ 93 ∧ c ≠ 41 ∧ c ≠ 125 ∧ c ≠ 44 ∧ c ≠ 60 := by
  obtain ⟨n, h⟩ := h
  have := h n (Nat.le_refl n) [] (by simp [Ends])
  rw [List.append_nil] at this
  cases s with
  | nil => cases n <;> simp [expr] at this
  | cons c t => exact ⟨c, t, rfl, expr_head this⟩

theorem reads_nat_of {t : Str} {n : Nat} (hh : ∃ c u, t = c :: u ∧ isDigit c = true)
    (h : ∀ rest, Ends rest → number (t ++ rest) = some (n, rest)) : Reads t (.int n) := by
  obtain ⟨c, u, rfl, hc⟩ := hh
  refine ⟨1, fun m hm rest hr => ?_⟩
  cases m with
  | zero => omega
  | succ m =>
    have hr := h rest hr
    rw [List.cons_append] at hr ⊢
    have : 48 ≤ c ∧ c ≤ 57 := by simpa [isDigit] using hc
    rw [expr, if_neg (by omega), if_neg (by omega), if_neg (by omega), if_neg (by omega), if_neg (by omega), if_neg (by omega),
      if_pos hc, hr]
    rfl

theorem reads_nat (n : Nat) : Reads (reprNat n) (.int n) := reads_nat_of (reprNat_head n) (fun _ => number_repr n)
theorem reads_hex (n : Nat) : Reads (reprHex n) (.int n) := reads_nat_of ⟨48, _, rfl, rfl⟩ (fun _ => number_hex n)
theorem reads_hex_upper (n : Nat) : Reads (reprHexUpper n) (.int n) :=
  reads_nat_of ⟨48, _, rfl, rfl⟩ (fun _ => number_hex_upper n)
theorem reads_hex8 (n : Nat) : Reads (reprHex8 n) (.int n) := reads_nat_of ⟨48, _, rfl, rfl⟩ (fun _ => number_hex8 n)

theorem reads_int (n : Int) : Reads (reprInt n) (.int n) := by
  unfold reprInt
  split
  · refine ⟨1, fun m hm rest hr => ?_⟩
    cases m with
    | zero => omega
    | succ m =>
      rw [List.cons_append, expr, if_neg (by omega), if_neg (by omega), if_neg (by omega), if_neg (by omega),
        if_neg (by omega), if_pos rfl, number_repr _ hr]
      simp only [Option.map_some, Option.some.injEq, Prod.mk.injEq, and_true, Expr.int.injEq]
      omega
  · have := reads_nat n.natAbs
    rwa [show ((n.natAbs : Nat) : Int) = n by omega] at this

theorem reads_text (printable : Nat → Bool) (s : Str) (h : ∀ c ∈ s, c < 0x110000) :
    Reads (Model.Repr.reprStr printable s) (.text s) := by
  refine ⟨s.length + 2, fun m hm rest _ => ?_⟩
  cases m with
  | zero => omega
  | succ m =>
    have hq := quote_cases s
    unfold Model.Repr.reprStr
    dsimp only
    rw [List.cons_append, List.append_assoc, List.cons_append, List.nil_append, expr, if_neg (by omega), if_neg (by omega),
      if_neg (by omega), if_pos hq,
      literal_pieces _ s (fun c hc X => piece_char hq (h c hc)) rest m (by omega)]
    rfl

theorem expr_bytes {m q : Nat} {t : Str} (hq : q = 39 ∨ q = 34) :
    expr (m + 1) (98 :: q :: t) = (literal false q m t).map fun r => (.bytes r.1, r.2) := by
  rw [expr, if_neg (by omega), if_neg (by omega), if_neg (by omega), if_neg (by omega), if_neg (by omega), if_neg (by omega),
    if_neg (by simp [isDigit]), if_pos ⟨rfl, by rcases hq with rfl | rfl <;> simp⟩]
  rfl

theorem reads_bytes (b : Bytes) : Reads (reprBytes b) (.bytes (b.map UInt8.toNat)) := by
  refine ⟨b.length + 2, fun m hm rest _ => ?_⟩
  cases m with
  | zero => omega
  | succ m =>
    have hq := quote_cases (b.map UInt8.toNat)
    unfold reprBytes
    dsimp only
    rw [List.cons_append, List.cons_append, List.append_assoc, List.cons_append, List.nil_append, expr_bytes hq,
      literal_pieces _ _ (fun c hc X => piece_byte hq (by
        obtain ⟨x, _, rfl⟩ := List.mem_map.1 hc
        exact x.toNat_lt)) rest m (by simp; omega)]
    rfl

theorem reads_short (b : Bytes) (n : Nat) (hl : b.length ≤ n) (h : 0x27 ∉ b) :
    Reads (shortBytesRepr b n) (.bytes (b.map UInt8.toNat)) := by
  refine ⟨n + 2, fun m hm rest _ => ?_⟩
  cases m with
  | zero => omega
  | succ m =>
    have ht : b.take n = b := List.take_of_length_le hl
    unfold shortBytesRepr
    dsimp only
    rw [if_neg (by omega), List.append_assoc, List.append_assoc, List.cons_append, List.cons_append, List.nil_append,
      List.cons_append, List.nil_append, expr_bytes (.inl rfl), literal_short n b (by rwa [ht]) rest m (by omega), ht]
    rfl

/-! ### Names -/

/-- A name. -/
def IsId (s : Str) : Prop := (∃ c t, s = c :: t ∧ isIdStart c = true) ∧ ∀ c ∈ s, isIdChar c = true

instance (s : Str) : Decidable (IsId s) :=
  match s with
  | [] => .isFalse (by rintro ⟨⟨_, _, h, _⟩, _⟩; cases h)
  | c :: t => decidable_of_iff (isIdStart c = true ∧ ∀ d ∈ c :: t, isIdChar d = true)
      ⟨fun h => ⟨⟨c, t, rfl, h.1⟩, h.2⟩, fun h => by
        obtain ⟨⟨_, _, e, h1⟩, h2⟩ := h
        cases e
        exact ⟨h1, h2⟩⟩

theorem dotted_one {m : Nat} {s rest : Str} (hs : IsId s) (hr : ∀ c, rest.head? = some c → isIdChar c = false)
    (hd : rest.head? ≠ some 46) : dotted (m + 1) (s ++ rest) = some ([s], rest) := by
  obtain ⟨e1, e2⟩ := take_while hs.2 hr
  obtain ⟨c, t, rfl, hc⟩ := hs.1
  unfold dotted
  dsimp only
  rw [e1, e2, if_neg (by simp [hc])]
  split
  · exact absurd rfl hd
  · rfl

theorem dotted_two {m : Nat} {s t rest : Str} (hs : IsId s) (ht : IsId t) (hr : ∀ c, rest.head? = some c → isIdChar c = false)
    (hd : rest.head? ≠ some 46) : dotted (m + 2) (s ++ 46 :: (t ++ rest)) = some ([s, t], rest) := by
  obtain ⟨e1, e2⟩ := take_while (rest := 46 :: (t ++ rest)) hs.2 (by intro c hc; cases hc; rfl)
  have h2 := dotted_one (m := m) ht hr hd
  obtain ⟨c, u, rfl, hc⟩ := hs.1
  rw [dotted, e1, e2, if_neg (by simp [hc])]
  show (dotted (m + 1) (t ++ rest)).map _ = _
  rw [h2]
  rfl

theorem expr_dotted {m c : Nat} {s : Str} (hc : isIdStart c = true) (hb : ¬ (c = 98 ∧ (s.head? = some 39 ∨ s.head? = some 34))) :
    expr (m + 1) (c :: s) = (dotted m (c :: s)).bind fun r =>
        match r.2 with
        | 40 :: t => (items m 41 t).map fun q => (.call r.1 q.1, q.2.2)
        | rest => some (.name r.1, rest) := by
  have : (65 ≤ c ∧ c ≤ 90) ∨ (97 ≤ c ∧ c ≤ 122) ∨ c = 95 := by simpa [isIdStart, or_assoc] using hc
  rw [expr, if_neg (by omega), if_neg (by omega), if_neg (by omega), if_neg (by omega), if_neg (by omega), if_neg (by omega),
    if_neg (by simp [isDigit]; omega), if_neg hb]
  rfl

/-- A name is not the beginning of a bytes literal. -/
theorem id_not_bytes {s rest : Str} (hs : IsId s) (hr : rest.head? ≠ some 39 ∧ rest.head? ≠ some 34) {c : Nat} {t : Str}
    (e : s ++ rest = c :: t) : ¬ (c = 98 ∧ (t.head? = some 39 ∨ t.head? = some 34)) := by
  rintro ⟨_, h⟩
  obtain ⟨⟨d, u, rfl, hd⟩, hall⟩ := hs
  rw [List.cons_append, List.cons.injEq] at e
  obtain ⟨rfl, rfl⟩ := e
  cases u with
  | nil => exact h.elim hr.1 hr.2
  | cons x u =>
    have := hall x (by simp)
    simp at h
    rcases h with rfl | rfl <;> cases this

theorem expr_name {m : Nat} {s rest : Str} (hs : IsId s) (hr : ∀ c, rest.head? = some c → isIdChar c = false)
    (hd : rest.head? ≠ some 46) (hp : rest.head? ≠ some 40) (hq : rest.head? ≠ some 39 ∧ rest.head? ≠ some 34) :
    expr (m + 2) (s ++ rest) = some (.name [s], rest) := by
  have h1 := dotted_one (m := m) hs hr hd
  obtain ⟨c, t, e, hc⟩ := hs.1
  have e2 : s ++ rest = c :: (t ++ rest) := by rw [e]; rfl
  have e3 := expr_dotted (m := m + 1) hc (id_not_bytes hs hq e2)
  rw [← e2] at e3
  rw [e3, h1]
  dsimp only [Option.bind_some]
  split
  · exact absurd rfl hp
  · rfl

theorem ends_facts {rest : Str} (h : Ends rest) : (∀ c, rest.head? = some c → isIdChar c = false) ∧
    rest.head? ≠ some 46 ∧ rest.head? ≠ some 40 ∧ rest.head? ≠ some 39 ∧ rest.head? ≠ some 34 ∧ rest.head? ≠ some 61 := by
  refine ⟨ends_not h isIdChar rfl rfl rfl rfl rfl, ?_, ?_, ?_, ?_, ?_⟩ <;>
    · intro e
      have := h _ e
      omega

theorem reads_name {s : Str} (hs : IsId s) : Reads s (.name [s]) := by
  refine ⟨2, fun m hm rest hr => ?_⟩
  obtain ⟨h1, h2, h3, h4, h5, _⟩ := ends_facts hr
  obtain ⟨m, rfl⟩ : ∃ k, m = k + 2 := ⟨m - 2, by omega⟩
  exact expr_name hs h1 h2 h3 ⟨h4, h5⟩

/-! ### Items -/

/-- The text of an item. -/
def ReadsItem (t : Str) : Option Str × Expr → Prop
  | (none, e) => Reads t e
  | (some k, e) => ∃ u, t = k ++ 61 :: u ∧ IsId k ∧ Reads u e

def Close (c : Nat) : Prop := c = 93 ∨ c = 41 ∨ c = 125

theorem skip_id {c : Nat} {s : Str} (h : c ≠ 32) : skip (c :: s) = c :: s := by
  simp [skip, List.dropWhile_cons, h]

theorem skip_space (s : Str) : skip (32 :: s) = skip s := by simp [skip]

theorem items_space (m close : Nat) (s : Str) : items m close (32 :: s) = items m close s := by
  cases m with
  | zero => rfl
  | succ m => rw [items, items, skip_space]

theorem items_close {m close : Nat} (hc : Close close) (rest : Str) : items (m + 1) close (close :: rest) = some ([], true, rest) := by
  rw [items, skip_id (by unfold Close at hc; omega)]
  simp

theorem item_cons {t : Str} {x : Option Str × Expr} (h : ReadsItem t x) : ∃ c u, t = c :: u ∧ c ≠ 32 ∧ c ≠ 93 ∧ c ≠ 41 ∧ c ≠ 125 := by
  obtain ⟨k, e⟩ := x
  cases k with
  | none =>
    obtain ⟨c, u, e, h1, h2, h3, h4, _⟩ := Reads.cons h
    exact ⟨c, u, e, h1, h2, h3, h4⟩
  | some k =>
    obtain ⟨u, rfl, ⟨⟨c, v, rfl, hc⟩, _⟩, _⟩ := h
    refine ⟨c, _, rfl, ?_, ?_, ?_, ?_⟩ <;> (rintro rfl; cases hc)

/-- Reading one item, with a comma or the closing bracket after it. -/
theorem items_step {t : Str} {x : Option Str × Expr} (h : ReadsItem t x) : ∃ n, ∀ m, n ≤ m → ∀ close d rest, Close close →
    (d = 44 ∨ d = close) → items (m + 1) close (t ++ d :: rest) =
      if d = 44 then (items m close rest).map fun p => (x :: p.1, p.2.1, p.2.2) else some ([x], false, rest) := by
  obtain ⟨c, u, et, h1, h2, h3, h4⟩ := item_cons h
  obtain ⟨k, e⟩ := x
  have ends : ∀ close d (rest : Str), Close close → (d = 44 ∨ d = close) → Ends (d :: rest) := by
    intro close d rest hc hd c hcc
    cases hcc
    unfold Close at hc
    omega
  have head : ∀ close d (rest : Str), Close close → skip (t ++ d :: rest) = t ++ d :: rest ∧
      (t ++ d :: rest).head? ≠ some close := by
    intro close d rest hc
    rw [et, List.cons_append]
    refine ⟨skip_id h1, ?_⟩
    rw [List.head?_cons]
    intro e
    cases e
    unfold Close at hc
    omega
  cases k with
  | none =>
    obtain ⟨n, hn⟩ := h
    refine ⟨n, fun m hm close d rest hc hd => ?_⟩
    obtain ⟨e1, e2⟩ := head close d rest hc
    have hd' : skip (d :: rest) = d :: rest := skip_id (by unfold Close at hc; omega)
    rw [items, e1, if_neg e2, hn m hm _ (ends close d rest hc hd)]
    simp only [Option.bind_some]
    have e3 : keyword (e, d :: rest) = none := by
      unfold keyword
      split
      · rename_i heq
        simp only [Prod.mk.injEq, List.cons.injEq] at heq
        unfold Close at hc
        omega
      · rfl
    simp only [e3]
    simp only [Option.bind_some, hd']
    split
    · rfl
    · rw [if_pos (by omega)]
  | some k =>
    obtain ⟨v, rfl, hk, ⟨n, hn⟩⟩ := h
    refine ⟨n + 2, fun m hm close d rest hc hd => ?_⟩
    obtain ⟨e1, e2⟩ := head close d rest hc
    have hd' : skip (d :: rest) = d :: rest := skip_id (by unfold Close at hc; omega)
    obtain ⟨m, rfl⟩ : ∃ j, m = j + 2 := ⟨m - 2, by omega⟩
    have e4 : expr (m + 2) (k ++ 61 :: v ++ d :: rest) = some (.name [k], 61 :: (v ++ d :: rest)) := by
      rw [List.append_assoc, List.cons_append]
      exact expr_name hk (by intro c hc; cases hc; rfl) (by simp) (by simp) (by simp)
    have e3 : keyword (.name [k], 61 :: (v ++ d :: rest)) = some (k, v ++ d :: rest) := rfl
    rw [items, e1, if_neg e2, e4]
    simp only [e3, Option.bind_some, hn (m + 2) (by omega) _ (ends close d rest hc hd), Option.map_some, hd']
    split
    · rfl
    · rw [if_pos (by omega)]

/-- What separates items: a comma, maybe with a space. -/
def Sep (sep : Str) : Prop := sep = [44] ∨ sep = [44, 32]

theorem items_join {sep : Str} (hs : Sep sep) : ∀ (ts : List (Str × (Option Str × Expr))), (∀ x ∈ ts, ReadsItem x.1 x.2) →
    ∃ n, ∀ m, n ≤ m → ∀ close rest, Close close →
      items m close (join sep (ts.map Prod.fst) ++ close :: rest) = some (ts.map Prod.snd, ts.isEmpty, rest)
  | [], _ => ⟨1, fun m hm close rest hc => by
      obtain ⟨m, rfl⟩ : ∃ k, m = k + 1 := ⟨m - 1, by omega⟩
      exact items_close hc rest⟩
  | [x], h => by
    obtain ⟨n, hn⟩ := items_step (h x (by simp))
    refine ⟨n + 1, fun m hm close rest hc => ?_⟩
    obtain ⟨m, rfl⟩ : ∃ k, m = k + 1 := ⟨m - 1, by omega⟩
    have := hn m (by omega) close close rest hc (.inr rfl)
    rw [if_neg (by unfold Close at hc; omega)] at this
    exact this
  | x :: y :: ts, h => by
    obtain ⟨n, hn⟩ := items_step (h x (by simp))
    obtain ⟨n', hn'⟩ := items_join hs (y :: ts) (fun z hz => h z (by simp at hz ⊢; right; exact hz))
    refine ⟨n + n' + 1, fun m hm close rest hc => ?_⟩
    obtain ⟨m, rfl⟩ : ∃ k, m = k + 1 := ⟨m - 1, by omega⟩
    have e2 := hn' m (by omega) close rest hc
    have e3 : items m close (sep.tail ++ (join sep ((y :: ts).map Prod.fst) ++ close :: rest)) =
        items m close (join sep ((y :: ts).map Prod.fst) ++ close :: rest) := by
      rcases hs with rfl | rfl
      · rfl
      · exact items_space m close _
    have e4 : join sep ((x :: y :: ts).map Prod.fst) ++ close :: rest =
        x.1 ++ 44 :: (sep.tail ++ (join sep ((y :: ts).map Prod.fst) ++ close :: rest)) := by
      rcases hs with rfl | rfl <;> simp [join]
    rw [e4, hn m (by omega) close 44 _ hc (.inl rfl), if_pos rfl, e3, e2]
    rfl

theorem plain_map (l : List (Str × Expr)) : expr.plain (l.map fun x => ((none : Option Str), x.2)) = some (l.map Prod.snd) := by
  unfold expr.plain
  rw [if_pos (by simp)]
  simp [Function.comp_def]

theorem plain_items {sep : Str} (hs : Sep sep) (ts : List (Str × Expr)) (h : ∀ x ∈ ts, Reads x.1 x.2) :
    ∃ n, ∀ m, n ≤ m → ∀ close rest, Close close → items m close (join sep (ts.map Prod.fst) ++ close :: rest) =
      some (ts.map fun x => ((none : Option Str), x.2), ts.isEmpty, rest) := by
  obtain ⟨n, hn⟩ := items_join hs (ts.map fun x => (x.1, ((none : Option Str), x.2))) (by
    intro x hx
    obtain ⟨y, hy, rfl⟩ := List.mem_map.1 hx
    exact h y hy)
  refine ⟨n, fun m hm close rest hc => ?_⟩
  have := hn m hm close rest hc
  simpa [List.map_map, Function.comp_def] using this

theorem reads_items_list {sep : Str} (hs : Sep sep) (ts : List (Str × Expr)) (h : ∀ x ∈ ts, Reads x.1 x.2) :
    Reads (lit "[" ++ join sep (ts.map Prod.fst) ++ lit "]") (.list (ts.map Prod.snd)) := by
  obtain ⟨n, hn⟩ := plain_items hs ts h
  refine ⟨n + 1, fun m hm rest _ => ?_⟩
  obtain ⟨m, rfl⟩ : ∃ k, m = k + 1 := ⟨m - 1, by omega⟩
  have := hn m (by omega) 93 rest (.inl rfl)
  have e1 : lit "[" = [91] := by decide
  have e2 : lit "]" = [93] := by decide
  rw [e1, e2]
  simp only [List.append_assoc, List.cons_append, List.nil_append]
  rw [expr, if_pos rfl, this]
  simp only [Option.bind_some, plain_map, Option.map_some]

theorem reads_items_tuple {sep : Str} (hs : Sep sep) (ts : List (Str × Expr)) (h : ∀ x ∈ ts, Reads x.1 x.2) (hl : 2 ≤ ts.length) :
    Reads (lit "(" ++ join sep (ts.map Prod.fst) ++ lit ")") (.tuple (ts.map Prod.snd)) := by
  obtain ⟨n, hn⟩ := plain_items hs ts h
  refine ⟨n + 1, fun m hm rest _ => ?_⟩
  obtain ⟨m, rfl⟩ : ∃ k, m = k + 1 := ⟨m - 1, by omega⟩
  have := hn m (by omega) 41 rest (.inr (.inl rfl))
  have e1 : lit "(" = [40] := by decide
  have e2 : lit ")" = [41] := by decide
  rw [e1, e2]
  simp only [List.append_assoc, List.cons_append, List.nil_append]
  rw [expr, if_neg (by omega), if_neg (by omega), if_pos rfl, this]
  simp only [Option.bind_some, plain_map, Option.map_some]
  match ts, hl with
  | _ :: _ :: _, _ => rfl

theorem reads_items_set {sep : Str} (hs : Sep sep) (ts : List (Str × Expr)) (h : ∀ x ∈ ts, Reads x.1 x.2) (hl : ts ≠ []) :
    Reads (lit "{" ++ join sep (ts.map Prod.fst) ++ lit "}") (.set (ts.map Prod.snd)) := by
  obtain ⟨n, hn⟩ := plain_items hs ts h
  refine ⟨n + 1, fun m hm rest _ => ?_⟩
  obtain ⟨m, rfl⟩ : ∃ k, m = k + 1 := ⟨m - 1, by omega⟩
  have := hn m (by omega) 125 rest (.inr (.inr rfl))
  have e1 : lit "{" = [123] := by decide
  have e2 : lit "}" = [125] := by decide
  rw [e1, e2]
  simp only [List.append_assoc, List.cons_append, List.nil_append]
  rw [expr, if_neg (by omega), if_pos rfl, this]
  simp only [Option.bind_some, plain_map]
  rw [if_neg (by simp [hl])]

/-- A call of a name or of a name of a name. -/
theorem reads_call {path : List Str} {ptext : Str} (hp : (∃ s, IsId s ∧ path = [s] ∧ ptext = s) ∨
    ∃ s t, IsId s ∧ IsId t ∧ path = [s, t] ∧ ptext = s ++ 46 :: t) (ts : List (Str × (Option Str × Expr)))
    (h : ∀ x ∈ ts, ReadsItem x.1 x.2) :
    Reads (ptext ++ lit "(" ++ join (lit ", ") (ts.map Prod.fst) ++ lit ")") (.call path (ts.map Prod.snd)) := by
  obtain ⟨n, hn⟩ := items_join (sep := lit ", ") (.inr (by decide)) ts h
  refine ⟨n + 3, fun m hm rest _ => ?_⟩
  obtain ⟨m, rfl⟩ : ∃ k, m = k + 3 := ⟨m - 3, by omega⟩
  have hi := hn (m + 2) (by omega) 41 rest (.inr (.inl rfl))
  have e1 : lit "(" = [40] := by decide
  have e2 : lit ")" = [41] := by decide
  rw [e1, e2]
  simp only [List.append_assoc, List.cons_append, List.nil_append]
  generalize join (lit ", ") (ts.map Prod.fst) ++ 41 :: rest = X at hi ⊢
  have hx : ∀ c, (40 :: X).head? = some c → isIdChar c = false := by intro c hc; cases hc; rfl
  have hd : dotted (m + 2) (ptext ++ 40 :: X) = some (path, 40 :: X) := by
    rcases hp with ⟨s, hs, rfl, rfl⟩ | ⟨s, t, hs, ht, rfl, rfl⟩
    · exact dotted_one hs hx (by simp)
    · rw [List.append_assoc, List.cons_append]
      exact dotted_two hs ht hx (by simp)
  have hst : ∃ s r, IsId s ∧ ptext ++ 40 :: X = s ++ r ∧ r.head? ≠ some 39 ∧ r.head? ≠ some 34 := by
    rcases hp with ⟨s, hs, rfl, rfl⟩ | ⟨s, t, hs, ht, rfl, rfl⟩
    · exact ⟨ptext, 40 :: X, hs, rfl, by simp, by simp⟩
    · exact ⟨s, 46 :: (t ++ 40 :: X), hs, by simp, by simp, by simp⟩
  obtain ⟨s, r, hs, e, hr⟩ := hst
  obtain ⟨c, u, es, hc⟩ := hs.1
  have e' : ptext ++ 40 :: X = c :: (u ++ r) := by rw [e, es]; rfl
  have e3 := expr_dotted (m := m + 2) hc (id_not_bytes hs hr (e.symm.trans e'))
  rw [← e'] at e3
  rw [e3, hd]
  simp only [Option.bind_some]
  rw [hi]
  rfl

/-! ### A text is at most one expression -/

/-- What is found once is found with more fuel. -/
def Le {α : Type} (a b : Option α) : Prop := ∀ r, a = some r → b = some r

theorem Le.refl {α : Type} (a : Option α) : Le a a := fun _ h => h
theorem Le.bot {α : Type} (a : Option α) : Le none a := fun _ h => nomatch h
theorem Le.map {α β : Type} {a b : Option α} (f : α → β) (h : Le a b) : Le (a.map f) (b.map f) := by
  intro r hr
  cases a with
  | none => cases hr
  | some x => rw [h x rfl]; exact hr
theorem Le.bind {α β : Type} {a b : Option α} {f g : α → Option β} (h : Le a b) (hf : ∀ x, Le (f x) (g x)) :
    Le (a.bind f) (b.bind g) := by
  intro r hr
  cases a with
  | none => cases hr
  | some x => rw [h x rfl]; exact hf x r hr
theorem Le.ite {α : Type} {c : Prop} [Decidable c] {a b a' b' : Option α} (h : Le a b) (h' : Le a' b') :
    Le (if c then a else a') (if c then b else b') := by
  split
  · exact h
  · exact h'

theorem literal_mono (uni : Bool) (q : Nat) : ∀ m s, Le (literal uni q m s) (literal uni q (m + 1) s)
  | 0, _ => .bot _
  | _ + 1, [] => .bot _
  | m + 1, c :: s => by
    rw [literal, literal]
    exact .ite (.refl _) (.ite (.refl _) (.ite (.bind (.refl _) fun _ => .map _ (literal_mono uni q m _))
      (.ite (.map _ (literal_mono uni q m _)) (.refl _))))

theorem dotted_mono : ∀ m s, Le (dotted m s) (dotted (m + 1) s)
  | 0, _ => .bot _
  | m + 1, s => by
    rw [dotted, dotted]
    refine .ite (.refl _) ?_
    generalize s.dropWhile isIdChar = x
    split
    · exact .map _ (dotted_mono m _)
    · exact .refl _

mutual

theorem expr_mono : ∀ m s, Le (expr m s) (expr (m + 1) s)
  | 0, _ => .bot _
  | _ + 1, [] => .bot _
  | m + 1, c :: s => by
    rw [expr, expr]
    refine .ite (.bind (items_mono m _ _) fun _ => .refl _) (.ite (.bind (items_mono m _ _) fun _ => .refl _)
      (.ite (.bind (items_mono m _ _) fun _ => .refl _) (.ite (.map _ (literal_mono _ _ m _)) (.ite (.refl _) (.ite (.refl _)
      (.ite (.refl _) (.ite (.map _ (literal_mono _ _ m _)) (.bind (dotted_mono m _) fun r => ?_))))))))
    split
    · exact .map _ (items_mono m _ _)
    · exact .refl _

theorem items_mono : ∀ m c s, Le (items m c s) (items (m + 1) c s)
  | 0, _, _ => .bot _
  | m + 1, c, s => by
    rw [items, items]
    refine .ite (.refl _) (.bind (expr_mono m _) fun r => .bind ?_ fun q => ?_)
    · split
      · exact .map _ (expr_mono m _)
      · exact .refl _
    · split
      · exact .refl _
      · exact .ite (.map _ (items_mono m _ _)) (.refl _)

end

theorem expr_mono_le {m m' : Nat} (h : m ≤ m') (s : Str) : Le (expr m s) (expr m' s) := by
  induction h with
  | refl => exact .refl _
  | step _ ih => exact fun r hr => expr_mono _ s r (ih r hr)

theorem items_mono_le {m m' : Nat} (h : m ≤ m') (c : Nat) (s : Str) : Le (items m c s) (items m' c s) := by
  induction h with
  | refl => exact .refl _
  | step _ ih => exact fun r hr => items_mono _ c s r (ih r hr)

theorem parses_unique {s : Str} {e e' : Expr} (h : Parses s e) (h' : Parses s e') : e = e' := by
  obtain ⟨n, h⟩ := h
  obtain ⟨n', h'⟩ := h'
  have h1 := expr_mono_le (Nat.le_max_left n n') s _ h
  have h2 := expr_mono_le (Nat.le_max_right n n') s _ h'
  rw [h1] at h2
  cases h2
  rfl

/-- A text that is an expression is no longer one with something after it that could not belong to it. -/
theorem parses_more {s : Str} {e : Expr} (h : Reads s e) {rest : Str} (hr : Ends rest) (hn : rest ≠ []) (e' : Expr) :
    ¬ Parses (s ++ rest) e' := by
  rintro ⟨n', h'⟩
  obtain ⟨n, h⟩ := h
  have h1 := h (max n n') (Nat.le_max_left n n') rest hr
  have h2 := expr_mono_le (Nat.le_max_right n n') _ _ h'
  rw [h1] at h2
  cases h2
  exact hn rfl

end Verif.Proofs.PyExpr
