import Verif.Model.SoundArchive
import Verif.Spec.SoundArchive

/-!
# The symbols of a sound archive
-/

namespace Verif.Proofs.SoundArchive

open Verif Verif.Model.SoundArchive Verif.Spec.SoundArchive

/-- A name that can be read back: no NUL in it. -/
def NameOk (s : Symbol) : Prop := ∀ n, s = some n → 0 ∉ n

/-- The number that is stored for a value of the table. -/
def word (T : Nat) (v : Int × Bool) : Nat := if v.1 = -1 then 0 else (if v.2 = true then v.1 + (T : Int) else v.1).toNat

/-- The bytes of a part of the table. -/
def words (T : Nat) (vs : List (Int × Bool)) : Bytes := (vs.map fun v => enBytes .little 4 (word T v)).flatten

theorem words_cons (T : Nat) (v : Int × Bool) (vs : List (Int × Bool)) :
    words T (v :: vs) = enBytes .little 4 (word T v) ++ words T vs := rfl

theorem words_append (T : Nat) (vs ws : List (Int × Bool)) : words T (vs ++ ws) = words T vs ++ words T ws := by
  simp [words]

theorem words_length (T : Nat) (vs : List (Int × Bool)) : (words T vs).length = 4 * vs.length := by
  unfold words
  rw [flatten_length_const (n := 4) (by intro p hp; obtain ⟨v, _, rfl⟩ := List.mem_map.1 hp; simp), List.length_map,
    Nat.mul_comm]

/-- The values of the table that can be stored. -/
def WordOk (T : Nat) (v : Int × Bool) : Prop := -1 ≤ v.1 ∧ word T v < 2 ^ 32

theorem symbolWord_of {n : Nat} {v : Int × Bool} (h : WordOk (n + 0x40) v) :
    symbolWord n v = .ok (enBytes .little 4 (word (n + 0x40) v)) := by
  obtain ⟨h1, h2⟩ := h
  unfold symbolWord
  unfold word at h2 ⊢
  split
  · rfl
  · rename_i hv
    rw [if_neg hv] at h2
    rw [packUInt_of (by split <;> omega) (by omega)]

theorem word_of_symbolWord {n : Nat} {v : Int × Bool} {b : Bytes} (h1 : -1 ≤ v.1) (h : symbolWord n v = .ok b) :
    WordOk (n + 0x40) v ∧ b = enBytes .little 4 (word (n + 0x40) v) := by
  by_cases hw : WordOk (n + 0x40) v
  · rw [symbolWord_of hw] at h
    cases h
    exact ⟨hw, rfl⟩
  · exfalso
    refine hw ⟨h1, ?_⟩
    unfold symbolWord at h
    unfold word
    split
    · decide
    · rename_i hv
      rw [if_neg hv, packUInt_eq_ok] at h
      omega

theorem table_ok {n : Nat} : ∀ {vs : List (Int × Bool)} {ws : List Bytes}, (∀ v ∈ vs, -1 ≤ v.1) →
    mapE (symbolWord n) vs = .ok ws → (∀ v ∈ vs, WordOk (n + 0x40) v) ∧ ws.flatten = words (n + 0x40) vs
  | [], ws, _, h => by cases h; exact ⟨by simp, rfl⟩
  | v :: vs, ws, hv, h => by
    obtain ⟨b, bs, h1, h2, rfl⟩ := mapE_cons_ok.1 h
    obtain ⟨h3, h4⟩ := word_of_symbolWord (hv v (by simp)) h1
    obtain ⟨h5, h6⟩ := table_ok (fun v hv' => hv v (by simp [hv'])) h2
    refine ⟨?_, ?_⟩
    · intro v' hv'
      rcases List.mem_cons.1 hv' with rfl | hv'
      · exact h3
      · exact h5 v' hv'
    · rw [List.flatten_cons, h4, h6, words_cons]

theorem table_of {n : Nat} {vs : List (Int × Bool)} (h : ∀ v ∈ vs, WordOk (n + 0x40) v) :
    mapE (symbolWord n) vs = .ok (vs.map fun v => enBytes .little 4 (word (n + 0x40) v)) :=
  mapE_ok_of_forall fun v hv => symbolWord_of (h v hv)

/-! ## Strings -/

theorem loadString_at {data : Bytes} {o : Nat} {n : Str} {b : Bytes} (he : latin1Encode n = .ok b) (hn : 0 ∉ n)
    (h : At data o (b ++ [0])) : loadString data o = n := by
  obtain ⟨a, c, rfl, rfl⟩ := h
  have hb : (0 : UInt8) ∉ b := by
    intro hb
    obtain ⟨_, rfl⟩ := latin1Encode_eq_ok.1 he
    have hr := latin1_roundtrip he
    apply hn
    rw [← hr]
    unfold latin1Decode
    exact List.mem_map.2 ⟨0, hb, rfl⟩
  unfold loadString
  have hd : (a ++ (b ++ [0]) ++ c).drop a.length = b ++ 0 :: c := by
    rw [List.append_assoc, List.drop_left]; simp
  rw [hd, if_pos (by simp)]
  rw [List.takeWhile_append_of_pos (by
    intro x hx
    simp only [ne_eq, decide_not, Bool.not_eq_eq_eq_not, Bool.not_true, decide_eq_false_iff_not]
    intro h0; subst h0; exact hb hx)]
  simp only [List.takeWhile_cons, ne_eq, not_true_eq_false, decide_false, Bool.false_eq_true, if_false, List.append_nil]
  exact latin1_roundtrip he

/-- The bytes of a symbol. -/
def symbolBytes : Symbol → Bytes
  | none => []
  | some n => n.map UInt8.ofNat ++ [0]

/-- The value of the table for a symbol with its string at an offset. -/
def symbolVal (off : Nat) : Symbol → Int
  | none => -1
  | some _ => off

def stringsOf (l : List Symbol) : Bytes := (l.map symbolBytes).flatten

/-- A symbol that can be encoded. -/
def Latin1 (s : Symbol) : Prop := ∀ n, s = some n → ∀ c ∈ n, c < 256

theorem addSymbol_eq_ok {strings : Bytes} {s : Symbol} {r : Int × Bytes} :
    addSymbol strings s = .ok r ↔
      Latin1 s ∧ r = (symbolVal strings.length s, strings ++ symbolBytes s) := by
  cases s with
  | none =>
    simp only [addSymbol, Except.ok.injEq, symbolBytes, List.append_nil, Latin1]
    constructor
    · rintro rfl; exact ⟨by simp, rfl⟩
    · rintro ⟨_, rfl⟩; rfl
  | some n =>
    simp only [addSymbol, bind_eq_ok, pure_eq_ok, latin1Encode_eq_ok, symbolBytes, Latin1]
    constructor
    · rintro ⟨_, ⟨h, rfl⟩, rfl⟩
      refine ⟨?_, rfl⟩
      rintro _ h'
      cases h'
      exact h
    · rintro ⟨h, rfl⟩
      exact ⟨_, ⟨h n rfl, rfl⟩, rfl⟩

/-- The values of the table for some symbols, the first one with its string at an offset. -/
def symbolVals : (off : Nat) → List Symbol → List (Int × Bool)
  | _, [] => []
  | off, s :: ss => (symbolVal off s, true) :: symbolVals (off + (symbolBytes s).length) ss

theorem symbolVals_length : ∀ {ss : List Symbol} {off : Nat}, (symbolVals off ss).length = ss.length
  | [], _ => rfl
  | s :: ss, off => by rw [symbolVals, List.length_cons, symbolVals_length, List.length_cons]

theorem symbolVals_ge : ∀ {ss : List Symbol} {off : Nat}, ∀ v ∈ symbolVals off ss, -1 ≤ v.1
  | [], _ => by simp [symbolVals]
  | s :: ss, off => by
    intro v hv
    rw [symbolVals, List.mem_cons] at hv
    rcases hv with rfl | hv
    · cases s with
      | none => exact Int.le_refl _
      | some n => show -1 ≤ (off : Int); omega
    · exact symbolVals_ge v hv

theorem stringsOf_cons (s : Symbol) (ss : List Symbol) : stringsOf (s :: ss) = symbolBytes s ++ stringsOf ss := rfl

theorem stringsOf_append (l l' : List Symbol) : stringsOf (l ++ l') = stringsOf l ++ stringsOf l' := by simp [stringsOf]

theorem addSymbols_eq_ok : ∀ {ss : List Symbol} {strings : Bytes} {r : List (Int × Bool) × Bytes},
    addSymbols ss strings = .ok r ↔ (∀ s ∈ ss, Latin1 s) ∧ r = (symbolVals strings.length ss, strings ++ stringsOf ss)
  | [], strings, r => by
    simp only [addSymbols, Except.ok.injEq, symbolVals, stringsOf, List.map_nil, List.flatten_nil, List.append_nil]
    constructor
    · rintro rfl; exact ⟨by simp, rfl⟩
    · rintro ⟨_, rfl⟩; rfl
  | s :: ss, strings, r => by
    rw [addSymbols]
    simp only [bind_eq_ok, pure_eq_ok, addSymbol_eq_ok, addSymbols_eq_ok]
    constructor
    · rintro ⟨_, ⟨h1, rfl⟩, _, ⟨h2, rfl⟩, rfl⟩
      refine ⟨?_, ?_⟩
      · intro s' hs
        rcases List.mem_cons.1 hs with rfl | hs
        · exact h1
        · exact h2 s' hs
      · simp only [symbolVals, stringsOf_cons, List.length_append, List.append_assoc]
    · rintro ⟨h, rfl⟩
      refine ⟨_, ⟨h s (by simp), rfl⟩, _, ⟨fun s' hs => h s' (by simp [hs]), rfl⟩, ?_⟩
      simp only [symbolVals, stringsOf_cons, List.length_append, List.append_assoc]

/-- Where the last string ends, if there is any. -/
def lastEnd (T len : Nat) (ss : List Symbol) (last : Nat) : Nat := if ss.any Option.isSome = true then T + len else last

theorem stringsOf_of_none {ss : List Symbol} (h : ss.any Option.isSome = false) : stringsOf ss = [] := by
  induction ss with
  | nil => rfl
  | cons s ss ih =>
    rw [List.any_cons, Bool.or_eq_false_iff] at h
    cases s with
    | none => rw [stringsOf_cons, ih h.2]; rfl
    | some n => simp at h

theorem readSymbol_at {data : Bytes} {B T p o last : Nat} {s : Symbol} (hT : 0 < T) (hl : Latin1 s) (hn : NameOk s)
    (hs : At data (B + T + p) (symbolBytes s))
    (hw : At data o (enBytes .little 4 (word T (symbolVal p s, true))))
    (hlt : word T (symbolVal p s, true) < 2 ^ 32) :
    readSymbol data B o last = .ok (s, if s.isSome = true then T + (p + (symbolBytes s).length) else last) := by
  unfold readSymbol
  rw [hw.unpackU (by omega), bind_ok]
  cases s with
  | none => rfl
  | some n =>
    have hword : word T (symbolVal p (some n), true) = p + T := by
      unfold word symbolVal
      rw [if_neg (by show ¬ ((p : Int) = -1); omega)]
      simp only [if_true]
      omega
    rw [hword, if_neg (by omega)]
    have hls : loadString data (B + (p + T)) = n := by
      refine loadString_at (b := n.map UInt8.ofNat) (latin1Encode_eq_ok.2 ⟨hl n rfl, rfl⟩) (hn n rfl) ?_
      rw [show B + (p + T) = B + T + p by omega]
      exact hs
    rw [hls, pure_def]
    simp only [Option.isSome_some, if_true, symbolBytes, List.length_append, List.length_map, List.length_cons,
      List.length_nil]
    congr 2
    omega

theorem readSymbols_at {data : Bytes} {B T : Nat} (hT : 0 < T) : ∀ {ss : List Symbol} {p o last : Nat},
    (∀ s ∈ ss, Latin1 s) → (∀ s ∈ ss, NameOk s) → At data (B + T + p) (stringsOf ss) →
    At data o (words T (symbolVals p ss)) → (∀ v ∈ symbolVals p ss, WordOk T v) →
    readSymbols data B ss.length o last = .ok (ss, lastEnd T (p + (stringsOf ss).length) ss last)
  | [], p, o, last, _, _, _, _, _ => rfl
  | s :: ss, p, o, last, hl, hn, hs, hw, hv => by
    rw [stringsOf_cons, At.split] at hs
    rw [symbolVals, words_cons, At.split, enBytes_length] at hw
    rw [List.length_cons, readSymbols]
    rw [readSymbol_at hT (hl s (by simp)) (hn s (by simp)) hs.1 hw.1 (hv _ (by simp [symbolVals])).2, bind_ok]
    dsimp only
    rw [readSymbols_at hT (fun s' h => hl s' (by simp [h])) (fun s' h => hn s' (by simp [h]))
      (hs.2.cast (by omega : _ = B + T + (p + (symbolBytes s).length))) hw.2
      (fun v h => hv v (by simp [symbolVals, h])), bind_ok, pure_def]
    dsimp only
    congr 2
    unfold lastEnd
    rw [List.any_cons, stringsOf_cons, List.length_append]
    cases hany : ss.any Option.isSome with
    | true => simp only [Bool.or_true, if_true]; omega
    | false =>
      rw [stringsOf_of_none hany]
      cases hsome : s.isSome with
      | true => simp
      | false => simp

theorem readSymbolsList_at {data : Bytes} {B T : Nat} (hT : 0 < T) {ss : List Symbol} {p o last : Nat}
    (hl : ∀ s ∈ ss, Latin1 s) (hn : ∀ s ∈ ss, NameOk s) (hs : At data (B + T + p) (stringsOf ss))
    (hw : At data (B + o) (words T (((ss.length : Int), false) :: symbolVals p ss)))
    (hv : ∀ v ∈ (((ss.length : Int), false) :: symbolVals p ss), WordOk T v) :
    readSymbolsList data B o last = .ok (ss, lastEnd T (p + (stringsOf ss).length) ss last) := by
  rw [words_cons, At.split, enBytes_length] at hw
  have hword : word T ((ss.length : Int), false) = ss.length := by
    unfold word
    rw [if_neg (by show ¬ ((ss.length : Int) = -1); omega)]
    simp
  have hlt := (hv _ (List.mem_cons_self ..)).2
  rw [hword] at hw hlt
  unfold readSymbolsList
  rw [hw.1.unpackU (by omega), bind_ok]
  exact readSymbols_at hT hl hn hs hw.2 fun v h => hv v (List.mem_cons_of_mem _ h)

/-! ## Lists inside lists -/

/-- The entries of a nested list: the symbol and the symbols inside, if there is an entry. -/
abbrev Nested := List (Symbol × Option (List Symbol))

/-- All symbols of a nested list in order. -/
def flatSyms (es : Nested) : List Symbol := es.flatMap fun e => e.1 :: e.2.getD []

def nestedMain (area : Nat) : (k off : Nat) → Nested → List (Int × Bool)
  | _, _, [] => []
  | k, off, (s, none) :: es =>
    (symbolVal off s, true) :: (0, false) :: nestedMain area k (off + (symbolBytes s).length) es
  | k, off, (s, some names) :: es =>
    (symbolVal off s, true) :: (((area + k * 4 : Nat) : Int), false) ::
      nestedMain area (k + (1 + names.length)) (off + (symbolBytes s).length + (stringsOf names).length) es

def nestedSub : (off : Nat) → Nested → List (Int × Bool)
  | _, [] => []
  | off, (s, none) :: es => nestedSub (off + (symbolBytes s).length) es
  | off, (s, some names) :: es =>
    ((names.length : Int), false) :: symbolVals (off + (symbolBytes s).length) names ++
      nestedSub (off + (symbolBytes s).length + (stringsOf names).length) es

theorem flatSyms_none (s : Symbol) (es : Nested) : flatSyms ((s, none) :: es) = s :: flatSyms es := by simp [flatSyms]

theorem flatSyms_some (s : Symbol) (names : List Symbol) (es : Nested) :
    flatSyms ((s, some names) :: es) = s :: (names ++ flatSyms es) := by simp [flatSyms]

theorem nestedMain_length {area : Nat} : ∀ {es : Nested} {k off : Nat}, (nestedMain area k off es).length = 2 * es.length
  | [], _, _ => rfl
  | (s, none) :: es, k, off => by
    rw [nestedMain, List.length_cons, List.length_cons, nestedMain_length, List.length_cons]; omega
  | (s, some names) :: es, k, off => by
    rw [nestedMain, List.length_cons, List.length_cons, nestedMain_length, List.length_cons]; omega

theorem symbolVal_ge (off : Nat) (s : Symbol) : -1 ≤ symbolVal off s := by
  cases s with
  | none => exact Int.le_refl _
  | some n => show -1 ≤ (off : Int); omega

theorem nestedMain_ge {area : Nat} : ∀ {es : Nested} {k off : Nat}, ∀ v ∈ nestedMain area k off es, -1 ≤ v.1
  | [], _, _ => by simp [nestedMain]
  | (s, none) :: es, k, off => by
    intro v hv
    rw [nestedMain, List.mem_cons, List.mem_cons] at hv
    rcases hv with rfl | rfl | hv
    · exact symbolVal_ge _ _
    · decide
    · exact nestedMain_ge v hv
  | (s, some names) :: es, k, off => by
    intro v hv
    rw [nestedMain, List.mem_cons, List.mem_cons] at hv
    rcases hv with rfl | rfl | hv
    · exact symbolVal_ge _ _
    · show -1 ≤ ((area + k * 4 : Nat) : Int); omega
    · exact nestedMain_ge v hv

theorem nestedSub_ge : ∀ {es : Nested} {off : Nat}, ∀ v ∈ nestedSub off es, -1 ≤ v.1
  | [], _ => by simp [nestedSub]
  | (s, none) :: es, off => by rw [nestedSub]; exact nestedSub_ge
  | (s, some names) :: es, off => by
    intro v hv
    rw [nestedSub, List.mem_append, List.mem_cons] at hv
    rcases hv with (rfl | hv) | hv
    · show -1 ≤ ((names.length : Nat) : Int); omega
    · exact symbolVals_ge v hv
    · exact nestedSub_ge v hv

theorem addNested_eq_ok {area : Nat} : ∀ {es : Nested} {k : Nat} {strings : Bytes}
    {r : List (Int × Bool) × List (Int × Bool) × Bytes},
    addNested area es k strings = .ok r ↔ (∀ s ∈ flatSyms es, Latin1 s) ∧
      r = (nestedMain area k strings.length es, nestedSub strings.length es, strings ++ stringsOf (flatSyms es))
  | [], k, strings, r => by
    simp only [addNested, Except.ok.injEq, nestedMain, nestedSub, flatSyms, List.flatMap_nil, stringsOf, List.map_nil,
      List.flatten_nil, List.append_nil]
    constructor
    · rintro rfl; exact ⟨by simp, rfl⟩
    · rintro ⟨_, rfl⟩; rfl
  | (s, none) :: es, k, strings, r => by
    rw [addNested, flatSyms_none]
    simp only [bind_eq_ok, pure_eq_ok, addSymbol_eq_ok, addNested_eq_ok]
    constructor
    · rintro ⟨_, ⟨h1, rfl⟩, _, ⟨h2, rfl⟩, rfl⟩
      refine ⟨?_, ?_⟩
      · intro s' hs
        rcases List.mem_cons.1 hs with rfl | hs
        · exact h1
        · exact h2 s' hs
      · simp only [nestedMain, nestedSub, stringsOf_cons, List.length_append, List.append_assoc]
    · rintro ⟨h, rfl⟩
      refine ⟨_, ⟨h s (by simp), rfl⟩, _, ⟨fun s' hs => h s' (by simp [hs]), rfl⟩, ?_⟩
      simp only [nestedMain, nestedSub, stringsOf_cons, List.length_append, List.append_assoc]
  | (s, some names) :: es, k, strings, r => by
    rw [addNested, flatSyms_some]
    simp only [bind_eq_ok, pure_eq_ok, addSymbol_eq_ok, addSymbols_eq_ok, addNested_eq_ok]
    constructor
    · rintro ⟨_, ⟨h1, rfl⟩, _, ⟨h2, rfl⟩, _, ⟨h3, rfl⟩, rfl⟩
      refine ⟨?_, ?_⟩
      · intro s' hs
        rcases List.mem_cons.1 hs with rfl | hs
        · exact h1
        · rcases List.mem_append.1 hs with hs | hs
          · exact h2 s' hs
          · exact h3 s' hs
      · simp only [nestedMain, nestedSub, stringsOf_cons, stringsOf_append, List.length_append, List.append_assoc,
        Nat.add_assoc]
    · rintro ⟨h, rfl⟩
      refine ⟨_, ⟨h s (by simp), rfl⟩, _, ⟨fun s' hs => h s' (by simp [hs]), rfl⟩, _,
        ⟨fun s' hs => h s' (by simp [hs]), rfl⟩, ?_⟩
      simp only [nestedMain, nestedSub, stringsOf_cons, stringsOf_append, List.length_append, List.append_assoc,
        Nat.add_assoc]

theorem lastEnd_cons {T p : Nat} {s : Symbol} {ss : List Symbol} {last : Nat} :
    lastEnd T (p + (symbolBytes s).length + (stringsOf ss).length) ss
      (if s.isSome = true then T + (p + (symbolBytes s).length) else last) =
    lastEnd T (p + (stringsOf (s :: ss)).length) (s :: ss) last := by
  unfold lastEnd
  rw [List.any_cons, stringsOf_cons, List.length_append]
  cases hany : ss.any Option.isSome with
  | true => simp only [Bool.or_true, if_true]; omega
  | false =>
    rw [stringsOf_of_none hany]
    cases hsome : s.isSome with
    | true => simp
    | false => simp

theorem lastEnd_append {T p : Nat} {ss ss' : List Symbol} {last : Nat} :
    lastEnd T (p + (stringsOf ss).length + (stringsOf ss').length) ss' (lastEnd T (p + (stringsOf ss).length) ss last) =
    lastEnd T (p + (stringsOf (ss ++ ss')).length) (ss ++ ss') last := by
  unfold lastEnd
  rw [List.any_append, stringsOf_append, List.length_append]
  cases hany : ss'.any Option.isSome with
  | true => simp only [Bool.or_true, if_true]; omega
  | false =>
    rw [stringsOf_of_none hany]
    cases hsome : ss.any Option.isSome with
    | true => simp
    | false => simp

theorem readNested_at {data : Bytes} {B T area : Nat} (hT : 0 < T) (ha : 0 < area) : ∀ {es : Nested} {k p o last : Nat},
    (∀ s ∈ flatSyms es, Latin1 s) → (∀ s ∈ flatSyms es, NameOk s) → At data (B + T + p) (stringsOf (flatSyms es)) →
    At data o (words T (nestedMain area k p es)) → At data (B + (area + k * 4)) (words T (nestedSub p es)) →
    (∀ v ∈ nestedMain area k p es, WordOk T v) → (∀ v ∈ nestedSub p es, WordOk T v) →
    readNested data B es.length o last = .ok (es.map fun e => (e.1, e.2.getD []),
      lastEnd T (p + (stringsOf (flatSyms es)).length) (flatSyms es) last)
  | [], k, p, o, last, _, _, _, _, _, _, _ => rfl
  | (s, none) :: es, k, p, o, last, hl, hn, hs, hm, hsub, hv, hv' => by
    rw [flatSyms_none] at hl hn hs ⊢
    rw [stringsOf_cons, At.split] at hs
    rw [nestedMain, words_cons, At.split, enBytes_length, words_cons, At.split, enBytes_length] at hm
    rw [nestedSub] at hsub hv'
    rw [nestedMain] at hv
    rw [List.length_cons, readNested]
    rw [readSymbol_at hT (hl s (by simp)) (hn s (by simp)) hs.1 hm.1 (hv _ (by simp)).2, bind_ok]
    have hz : word T ((0 : Int), false) = 0 := rfl
    have h0 := hm.2.1
    rw [hz] at h0
    rw [h0.unpackU (by decide), bind_ok, if_pos rfl, bind_ok]
    dsimp only
    rw [readNested_at hT ha (fun s' h => hl s' (by simp [h])) (fun s' h => hn s' (by simp [h]))
      (hs.2.cast (by omega : _ = B + T + (p + (symbolBytes s).length))) (hm.2.2.cast (by omega : _ = o + 8)) hsub
      (fun v h => hv v (by simp [h])) hv', bind_ok, pure_def]
    dsimp only
    rw [lastEnd_cons]
    rfl
  | (s, some names) :: es, k, p, o, last, hl, hn, hs, hm, hsub, hv, hv' => by
    rw [flatSyms_some] at hl hn hs ⊢
    rw [stringsOf_cons, stringsOf_append, At.split, At.split] at hs
    rw [nestedMain, words_cons, At.split, enBytes_length, words_cons, At.split, enBytes_length] at hm
    rw [nestedSub, words_append, At.split, words_length] at hsub
    rw [nestedSub] at hv'
    rw [nestedMain] at hv
    rw [List.length_cons, readNested]
    rw [readSymbol_at hT (hl s (by simp)) (hn s (by simp)) hs.1 hm.1 (hv _ (by simp)).2, bind_ok]
    have hz : word T (((area + k * 4 : Nat) : Int), false) = area + k * 4 := by
      unfold word
      rw [if_neg (by show ¬ (((area + k * 4 : Nat) : Int) = -1); omega)]
      simp only [Bool.false_eq_true, if_false]
      omega
    have h0 := hm.2.1
    have hlt := (hv (((area + k * 4 : Nat) : Int), false) (by simp)).2
    rw [hz] at h0 hlt
    rw [h0.unpackU (by omega), bind_ok, if_neg (by omega)]
    rw [readSymbolsList_at hT (fun s' h => hl s' (by simp [h])) (fun s' h => hn s' (by simp [h]))
      (hs.2.1.cast (by omega : _ = B + T + (p + (symbolBytes s).length))) hsub.1
      (fun v h => hv' v (List.mem_append_left _ h)), bind_ok]
    dsimp only
    rw [readNested_at (k := k + (1 + names.length)) hT ha (fun s' h => hl s' (by simp [h])) (fun s' h => hn s' (by simp [h]))
      (hs.2.2.cast (by omega : _ = B + T + (p + (symbolBytes s).length + (stringsOf names).length)))
      (hm.2.2.cast (by omega : _ = o + 8))
      (hsub.2.cast (by
        rw [List.length_cons, symbolVals_length, Nat.add_mul]
        omega))
      (fun v h => hv v (by simp [h])) (fun v h => hv' v (List.mem_append_right _ h)), bind_ok, pure_def]
    dsimp only
    rw [lastEnd_append, lastEnd_cons]
    rfl

/-- The search for symbols, when it does not fail. -/
theorem anyNested_ok : ∀ {es : Nested} {sub b : Bool}, anyNested es sub = .ok b → b = (sub || (flatSyms es).any Option.isSome)
  | [], sub, b, h => by cases h; simp [flatSyms]
  | (some n, e) :: es, sub, b, h => by
    cases h
    cases e <;> simp [flatSyms]
  | (none, none) :: es, sub, b, h => by cases h
  | (none, some names) :: es, sub, b, h => by
    rw [anyNested] at h
    rw [anyNested_ok h, flatSyms_some]
    simp [Bool.or_assoc]

end Verif.Proofs.SoundArchive
