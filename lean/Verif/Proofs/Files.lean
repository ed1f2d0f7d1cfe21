import Verif.Spec.Files

/-!
# Lemmas about files
-/

namespace Verif.Proofs.Files

open Verif Verif.Model Verif.Model.Files Verif.Spec.Files

theorem write_ok {fs fs' : FS} {p : Path} {d : Bytes} :
    fs.write p d = (.ok (), fs') ↔ fs.writable p = true ∧ Wrote fs fs' p d := by
  unfold FS.write
  constructor
  · intro h
    by_cases hw : fs.writable p = true
    · rw [if_pos hw] at h
      obtain rfl := (Prod.mk.inj h).2
      exact ⟨hw, if_pos rfl, fun q hq => if_neg hq, fun _ => rfl⟩
    · rw [if_neg hw] at h
      exact nomatch (Prod.mk.inj h).1
  · rintro ⟨hw, h1, h2, h3⟩
    rw [if_pos hw]
    obtain ⟨c, w⟩ := fs'
    congr 1
    obtain rfl : w = fs.writable := funext h3
    congr 1
    funext q
    by_cases hq : q = p
    · rw [if_pos hq, hq]; exact h1.symm
    · rw [if_neg hq]; exact (h2 q hq).symm

theorem write_error {fs fs' : FS} {p : Path} {d : Bytes} {e : PyErr} :
    fs.write p d = (.error e, fs') ↔ fs.writable p = false ∧ e = .osError ∧ fs' = fs := by
  unfold FS.write
  by_cases hw : fs.writable p = true
  · rw [if_pos hw]
    constructor
    · intro h; exact nomatch (Prod.mk.inj h).1
    · rintro ⟨h, _⟩; rw [hw] at h; exact nomatch h
  · rw [if_neg hw]
    constructor
    · intro h
      have h1 := (Prod.mk.inj h).1
      cases h1
      exact ⟨by simpa using hw, rfl, (Prod.mk.inj h).2.symm⟩
    · rintro ⟨_, rfl, rfl⟩; rfl

theorem writeWith_ok {s : Py Bytes} {fs fs' : FS} {p : Path} :
    writeWith s p fs = (.ok (), fs') ↔ ∃ d, s = .ok d ∧ fs.writable p = true ∧ Wrote fs fs' p d := by
  unfold writeWith
  cases s with
  | error e =>
    constructor
    · intro h; exact nomatch (Prod.mk.inj h).1
    · rintro ⟨d, h, _⟩; exact nomatch h
  | ok d =>
    dsimp only
    rw [write_ok]
    constructor
    · intro h; exact ⟨d, rfl, h⟩
    · rintro ⟨d', h, h'⟩; cases h; exact h'

theorem writeWith_error {s : Py Bytes} {fs fs' : FS} {p : Path} {e : PyErr} (h : writeWith s p fs = (.error e, fs')) :
    fs' = fs ∧ (s = .error e ∨ (∃ d, s = .ok d) ∧ fs.writable p = false ∧ e = .osError) := by
  unfold writeWith at h
  cases s with
  | error e' =>
    dsimp only at h
    have h1 := (Prod.mk.inj h).1
    cases h1
    exact ⟨(Prod.mk.inj h).2.symm, .inl rfl⟩
  | ok d =>
    obtain ⟨h1, h2, h3⟩ := write_error.1 h
    exact ⟨h3, .inr ⟨⟨d, rfl⟩, h1, h2⟩⟩

theorem read_ok {fs : FS} {p : Path} {d : Bytes} : fs.read p = .ok d ↔ fs.content p = some d := by
  unfold FS.read
  cases fs.content p with
  | none => constructor <;> intro h <;> exact nomatch h
  | some x => constructor <;> intro h <;> cases h <;> rfl

theorem readWith_of {α : Type} {load : Bytes → Py α} {p : Path} {fs : FS} {d : Bytes} (h : fs.content p = some d) :
    readWith load p fs = load d := by
  unfold readWith
  rw [read_ok.2 h, bind_ok]

theorem readWith_ok {α : Type} {load : Bytes → Py α} {p : Path} {fs : FS} {x : α} :
    readWith load p fs = .ok x ↔ ∃ d, fs.content p = some d ∧ load d = .ok x := by
  unfold readWith
  rw [bind_eq_ok]
  simp only [read_ok]

/-! ## Names -/

theorem idxOf_reverse {r a : Str} (h : 46 ∉ r) : (a ++ 46 :: r).reverse.idxOf 46 = r.length := by
  rw [List.reverse_append, List.reverse_cons, List.append_assoc]
  rw [List.idxOf_append]
  rw [if_neg (by simpa using h)]
  simp

theorem lastDot_some {r a : Str} (h : 46 ∉ r) : lastDot (a ++ 46 :: r) = some a.length := by
  unfold lastDot
  rw [if_pos (by simp), idxOf_reverse h]
  simp

theorem last_split : ∀ (l : Str), 46 ∈ l → ∃ a r, l = a ++ 46 :: r ∧ 46 ∉ r
  | [], h => by simp at h
  | x :: l, h => by
    by_cases hl : 46 ∈ l
    · obtain ⟨a, r, rfl, hr⟩ := last_split l hl
      exact ⟨x :: a, r, rfl, hr⟩
    · have : x = 46 := by
        rcases List.mem_cons.1 h with h | h
        · exact h.symm
        · exact absurd h hl
      exact ⟨[], l, by rw [this]; rfl, hl⟩

theorem suffix_splits {name stem ext : Str} (h : Splits name stem ext) : suffix name = ext := by
  obtain ⟨rfl, hs, ⟨r, rfl, hr, hd⟩ | ⟨rfl, hd⟩⟩ := h
  · unfold suffix
    rw [lastDot_some hd]
    dsimp only
    have h1 : 0 < stem.length := List.length_pos_iff.2 hs
    have h2 : 0 < r.length := List.length_pos_iff.2 hr
    rw [if_pos (by rw [List.length_append, List.length_cons]; omega)]
    simp
  · rw [List.append_nil] at hd ⊢
    by_cases hm : 46 ∈ stem
    · obtain ⟨a, r, rfl, hr⟩ := last_split stem hm
      unfold suffix
      rw [lastDot_some hr]
      dsimp only
      rw [if_neg]
      rintro ⟨h1, h2⟩
      rw [List.length_append, List.length_cons] at h2
      rcases hd with hd | hd
      · cases a with
        | nil => simp at h1
        | cons x a => exact hd (by simp)
      · cases r with
        | nil => simp at h2
        | cons y r =>
          have h3 : (a ++ 46 :: y :: r).getLast? = (y :: r).getLast? := by
            rw [List.getLast?_append, List.getLast?_cons_cons]
            cases h4 : (y :: r).getLast? with
            | none => simp at h4
            | some z => rfl
          rw [h3] at hd
          exact hr (List.mem_of_getLast? hd)
    · unfold suffix lastDot
      rw [if_neg hm]

theorem splits_exists {name : Str} (h : name ≠ []) : ∃ stem ext, Splits name stem ext := by
  by_cases hm : 46 ∈ name
  · obtain ⟨a, r, rfl, hr⟩ := last_split name hm
    by_cases ha : a = []
    · subst ha
      exact ⟨_, [], (List.append_nil _).symm, h, .inr ⟨rfl, .inl hr⟩⟩
    · by_cases he : r = []
      · subst he
        exact ⟨_, [], (List.append_nil _).symm, h, .inr ⟨rfl, .inr (by simp)⟩⟩
      · exact ⟨a, 46 :: r, rfl, ha, .inl ⟨r, rfl, he, hr⟩⟩
  · exact ⟨name, [], (List.append_nil _).symm, h, .inr ⟨rfl, .inl fun h' => hm (List.mem_of_mem_drop h')⟩⟩

theorem withSuffix_splits {p : Path} {stem ext new : Str} (h : Splits p.name stem ext) :
    p.withSuffix new = .ok ⟨p.folder, stem ++ new⟩ := by
  have hs := suffix_splits h
  obtain ⟨hn, hne, _⟩ := h
  unfold Path.withSuffix
  rw [hs, if_neg (by rw [hn]; simp [hne])]
  by_cases he : ext = []
  · subst he
    rw [if_pos rfl, hn, List.append_nil]
  · rw [if_neg he, hn]
    simp

theorem withSuffix_iff {p q : Path} {new : Str} :
    p.withSuffix new = .ok q ↔ ∃ stem ext, Splits p.name stem ext ∧ q = ⟨p.folder, stem ++ new⟩ := by
  constructor
  · intro h
    by_cases hn : p.name = []
    · unfold Path.withSuffix at h
      rw [if_pos hn] at h
      exact nomatch h
    · obtain ⟨stem, ext, hs⟩ := splits_exists hn
      rw [withSuffix_splits hs] at h
      cases h
      exact ⟨stem, ext, hs, rfl⟩
  · rintro ⟨stem, ext, hs, rfl⟩
    exact withSuffix_splits hs

theorem splits_unique {name s e s' e' : Str} (h : Splits name s e) (h' : Splits name s' e') : s = s' ∧ e = e' := by
  have he : e = e' := (suffix_splits h).symm.trans (suffix_splits h')
  subst he
  exact ⟨List.append_cancel_right (h.1.symm.trans h'.1), rfl⟩

/-! ## The tools -/

theorem target_compress {i p : Path} {o : Option Path} {a : Bool} :
    outputPath i o dotCmp = .ok p ↔ Target (.compress i o a) p := by
  unfold outputPath
  cases o with
  | some q =>
    constructor
    · intro h; cases h; exact .compressTo _
    · intro h; cases h; rfl
  | none =>
    dsimp only
    rw [withSuffix_iff]
    obtain ⟨f, n⟩ := i
    constructor
    · rintro ⟨stem, ext, h, rfl⟩; exact .compress h
    · intro h
      cases h with
      | compress h => exact ⟨_, _, h, rfl⟩

theorem target_decompress {i p : Path} {o : Option Path} :
    outputPath i o dotDec = .ok p ↔ Target (.decompress i o) p := by
  unfold outputPath
  cases o with
  | some q =>
    constructor
    · intro h; cases h; exact .decompressTo _
    · intro h; cases h; rfl
  | none =>
    dsimp only
    rw [withSuffix_iff]
    obtain ⟨f, n⟩ := i
    constructor
    · rintro ⟨stem, ext, h, rfl⟩; exact .decompress h
    · intro h
      cases h with
      | decompress h => exact ⟨_, _, h, rfl⟩

theorem target_unique {c : Command} {p q : Path} (h : Target c p) (h' : Target c q) : p = q := by
  cases c with
  | usage => cases h
  | compress i o a => exact Except.ok.inj ((target_compress.2 h).symm.trans (target_compress.2 h'))
  | decompress i o => exact Except.ok.inj ((target_decompress.2 h).symm.trans (target_decompress.2 h'))

theorem handleCompress_ok {f : Bytes → Py Bytes} {i : Path} {o : Option Path} {a : Bool} {fs fs' : FS} :
    handleCompress f i o fs = (.ok (), fs') ↔ ∃ p s d, Target (.compress i o a) p ∧ fs.content i = some s ∧
      f s = .ok d ∧ fs.writable p = true ∧ Wrote fs fs' p d := by
  unfold handleCompress
  cases hr : fs.read i with
  | error e =>
    constructor
    · intro h; exact nomatch (Prod.mk.inj h).1
    · rintro ⟨p, s, d, _, h, _⟩; rw [read_ok.2 h] at hr; exact nomatch hr
  | ok s =>
    dsimp only
    cases ho : outputPath i o dotCmp with
    | error e =>
      constructor
      · intro h; exact nomatch (Prod.mk.inj h).1
      · rintro ⟨p, s, d, h, _⟩; rw [target_compress.2 h] at ho; exact nomatch ho
    | ok p =>
      dsimp only
      rw [writeWith_ok]
      constructor
      · rintro ⟨d, h1, h2⟩; exact ⟨p, s, d, target_compress.1 ho, read_ok.1 hr, h1, h2⟩
      · rintro ⟨p', s', d, h1, h2, h3, h4⟩
        have := target_compress.2 h1
        rw [ho] at this; cases this
        have := read_ok.2 h2
        rw [hr] at this; cases this
        exact ⟨d, h3, h4⟩

theorem handleDecompress_ok {f : Bytes → Py Bytes} {i : Path} {o : Option Path} {fs fs' : FS} :
    handleDecompress f i o fs = (.ok (), fs') ↔ ∃ p s d, Target (.decompress i o) p ∧ fs.content i = some s ∧
      f s = .ok d ∧ fs.writable p = true ∧ Wrote fs fs' p d := by
  unfold handleDecompress
  cases hr : readWith f i fs with
  | error e =>
    constructor
    · intro h; exact nomatch (Prod.mk.inj h).1
    · rintro ⟨p, s, d, _, h, h', _⟩; rw [readWith_of h, h'] at hr; exact nomatch hr
  | ok d =>
    dsimp only
    cases ho : outputPath i o dotDec with
    | error e =>
      constructor
      · intro h; exact nomatch (Prod.mk.inj h).1
      · rintro ⟨p, s, d, h, _⟩; rw [target_decompress.2 h] at ho; exact nomatch ho
    | ok p =>
      dsimp only
      rw [write_ok]
      constructor
      · intro h
        obtain ⟨s, h1, h2⟩ := readWith_ok.1 hr
        exact ⟨p, s, d, target_decompress.1 ho, h1, h2, h⟩
      · rintro ⟨p', s', d', h1, h2, h3, h4⟩
        have := target_decompress.2 h1
        rw [ho] at this; cases this
        rw [readWith_of h2, h3] at hr; cases hr
        exact h4

theorem handleCompress_error {f : Bytes → Py Bytes} {i : Path} {o : Option Path} {fs fs' : FS} {e : PyErr}
    (h : handleCompress f i o fs = (.error e, fs')) : fs' = fs := by
  unfold handleCompress at h
  split at h
  · exact (Prod.mk.inj h).2.symm
  · split at h
    · exact (Prod.mk.inj h).2.symm
    · exact (writeWith_error h).1

theorem handleDecompress_error {f : Bytes → Py Bytes} {i : Path} {o : Option Path} {fs fs' : FS} {e : PyErr}
    (h : handleDecompress f i o fs = (.error e, fs')) : fs' = fs := by
  unfold handleDecompress at h
  split at h
  · exact (Prod.mk.inj h).2.symm
  · split at h
    · exact (Prod.mk.inj h).2.symm
    · exact (write_error.1 h).2.2

/-! ## Calls -/

theorem map_ok {α β : Type} {x : Py α} {f : α → β} {b : β} : x.map f = .ok b ↔ ∃ a, x = .ok a ∧ b = f a := by
  cases x with
  | error e => constructor
               · intro h; exact nomatch h
               · rintro ⟨a, h, _⟩; exact nomatch h
  | ok a => constructor
            · intro h; cases h; exact ⟨a, rfl, rfl⟩
            · rintro ⟨a', h, rfl⟩; cases h; rfl

end Verif.Proofs.Files
