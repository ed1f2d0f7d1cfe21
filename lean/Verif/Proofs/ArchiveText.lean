import Verif.Spec.ArchiveText
import Verif.Proofs.EventText

/-!
# Lemmas for `Props/ArchiveText.lean`
-/

namespace Verif.Proofs.ArchiveText

open Verif Verif.Model.Repr Verif.Model.EventText Verif.Spec.EventText Verif.Spec.ArchiveText
open Verif.Spec.Listing (splitLines)
open Verif.Model.SoundSequence (Ev)
open Verif.Proofs.Listing Verif.Proofs.EventText

/-! ## Texts -/

theorem before_append (p s : Str) : before p (s ++ p) = some s := by
  rw [before, List.reverse_append, after_append, Option.map_some, List.reverse_reverse]

theorem before_none {p s : Str} {c : Nat} (h : c ∈ p) (hs : c ∉ s) : before p s = none := by
  cases hb : after p.reverse s.reverse with
  | none => rw [before, hb]; rfl
  | some d =>
    have := after_some hb
    exact absurd (List.mem_reverse.1 (this ▸ List.mem_append_left _ (List.mem_reverse.2 h))) hs

theorem drop_spaces (k : Nat) (s : Str) : (List.replicate k 32 ++ s).dropWhile (fun x => decide (x = 32)) =
    s.dropWhile (fun x => decide (x = 32)) := by
  induction k with
  | zero => rfl
  | succ k ih => rw [List.replicate_succ, List.cons_append, List.dropWhile_cons, if_pos (by decide), ih]

theorem trim_spaces (k : Nat) : trim (List.replicate k 32) = [] := by
  have := drop_spaces k []
  rw [List.append_nil] at this
  rw [trim, List.reverse_replicate, this]
  rfl

theorem trim_colon (s : Str) (k : Nat) : trim (s ++ [58] ++ List.replicate k 32) = s ++ [58] := by
  rw [trim, List.reverse_append, List.reverse_replicate, drop_spaces, List.reverse_append, List.reverse_singleton,
    List.singleton_append, List.dropWhile_cons, if_neg (by decide), List.reverse_cons, List.reverse_reverse]

theorem split_names : ∀ (n : Str) (ns : List Str), (∀ x ∈ n :: ns, 44 ∉ x) →
    splitOn 44 (join (lit ", ") (n :: ns)) = n :: ns.map (32 :: ·)
  | n, [], h => split_one 44 n (h n (by simp))
  | n, m :: ns, h => by
    have ih := split_names m ns (fun x hx => h x (by simp [hx]))
    have e : lit ", " = [44, 32] := rfl
    have : ∀ s : Str, 44 ∉ n → splitOn 44 (n ++ [44, 32] ++ s) = n :: splitOn 44 (32 :: s) := by
      intro s hn
      rw [List.append_assoc]
      exact split_cons 44 n (32 :: s) hn
    have hsp : ∀ s : Str, splitOn 44 (32 :: s) = match splitOn 44 s with
      | l :: ls => (32 :: l) :: ls
      | [] => [[32]] := by
      intro s
      rw [splitOn, if_neg (by decide)]
      rfl
    rw [join, e, this _ (h n (by simp)), hsp, ← e, ih]
    rfl

theorem read_names (l : List Str) (hne : l ≠ []) (h : ∀ x ∈ l, 44 ∉ x) : readNames (join (lit ", ") l) = some l := by
  cases l with
  | nil => exact absurd rfl hne
  | cons n ns =>
    rw [readNames, split_names n ns h]
    dsimp only
    have : all? (after [32]) (ns.map (32 :: ·)) = some ns := all_repr (fun x => after_append [32] x) ns
    rw [this]
    rfl

/-- The text of a label. -/
def labelOf (l : List Str) : Option Str := if l = [] then none else some (join (lit ", ") l)

theorem mem_join {c : Nat} (hc : c ∉ lit ", ") : ∀ (l : List Str), (∀ x ∈ l, c ∉ x) → c ∉ join (lit ", ") l
  | [], _ => by simp [join]
  | [x], h => by simpa [join] using h x (by simp)
  | x :: y :: l, h => by
    have ih := mem_join hc (y :: l) (fun z hz => h z (by simp [hz]))
    rw [join]
    simp only [List.mem_append, not_or]
    exact ⟨⟨h x (by simp), hc⟩, ih⟩

/-! ## The loop over the labels -/

/-- A name put behind others. -/
def extend (o : Option Str) (n : Str) : Option Str :=
  match o with
  | none => some n
  | some t => some (t ++ lit ", " ++ n)

theorem extend_some : ∀ (l : List Str) (t : Str), l.foldl extend (some t) = some (join (lit ", ") (t :: l))
  | [], _ => rfl
  | n :: l, t => by
    have h : ∀ (a b : Str) (l : List Str), join (lit ", ") ((a ++ b) :: l) = a ++ join (lit ", ") (b :: l) := by
      intro a b l
      cases l with
      | nil => rfl
      | cons c l => simp [join, List.append_assoc]
    rw [List.foldl_cons, extend, extend_some l, h, join]

theorem extend_none (l : List Str) : l.foldl extend none = labelOf l := by
  cases l with
  | nil => rfl
  | cons n l => exact (extend_some l n)

theorem lookup_set {α : Type} (k i : Nat) (v : α) : ∀ d : List (Nat × α),
    (dictSet d k v).lookup i = if i = k then some v else d.lookup i
  | [] => by
    rw [dictSet, List.lookup_cons]
    by_cases h : i = k
    · rw [if_pos h, h]; simp
    · rw [if_neg h, beq_false_of_ne h]
  | p :: d => by
    rw [dictSet]
    by_cases hp : p.1 = k
    · rw [if_pos hp, List.lookup_cons, List.lookup_cons]
      by_cases h : i = k
      · rw [if_pos h, h]; simp
      · rw [if_neg h, beq_false_of_ne h, beq_false_of_ne (by rw [hp]; exact h)]
    · rw [if_neg hp, List.lookup_cons, List.lookup_cons, lookup_set k i v d]
      by_cases h : i = p.1
      · have hk : ¬ i = k := fun hk => hp (h.symm.trans hk)
        simp only [h, beq_self_eq_true]
        rw [if_neg hp]
      · rw [beq_false_of_ne h]

/-- The line of a sequence without events. -/
def silentLine (pre n : Str) : Str := pre ++ n ++ lit ": (none)"

theorem label_loop (w : World) (pre : Str) (events : List Nat) : ∀ (seqs : List (Str × Option Nat)) (lines : List Str)
    (names : List (Nat × Str)) (len : Nat), (∀ s ∈ seqs, ∀ e, s.2 = some e → e ∈ events) →
    ∃ names' len', labelLoop w pre events (seqs.map fun s => (some s.1, s.2)) [] lines names len =
        .ok ([], lines ++ (silent seqs).map (silentLine pre), names', len') ∧
      ∀ i, names'.lookup i = (namesAt events seqs i).foldl extend (names.lookup i)
  | [], lines, names, len, _ => ⟨names, len, by simp [labelLoop, silent], fun i => rfl⟩
  | (n, none) :: seqs, lines, names, len, h => by
    obtain ⟨names', len', h1, h2⟩ := label_loop w pre events seqs (lines ++ [silentLine pre n]) names len
      (fun s hs => h s (by simp [hs]))
    refine ⟨names', len', ?_, ?_⟩
    · rw [List.map_cons, labelLoop]
      dsimp only
      refine h1.trans ?_
      simp [silent]
    · intro i
      rw [h2 i]
      simp [namesAt]
  | (n, some e) :: seqs, lines, names, len, h => by
    have he : e ∈ events := h (n, some e) (by simp) e rfl
    obtain ⟨names', len', h1, h2⟩ := label_loop w pre events seqs lines
      (dictSet names (events.idxOf e) (match names.lookup (events.idxOf e) with
          | none => n
          | some old => old ++ lit ", " ++ n))
      (max len (match names.lookup (events.idxOf e) with
          | none => n
          | some old => old ++ lit ", " ++ n).length)
      (fun s hs => h s (by simp [hs]))
    refine ⟨names', len', ?_, ?_⟩
    · rw [List.map_cons, labelLoop, indexIn, if_pos he]
      dsimp only [Option.getD]
      refine h1.trans ?_
      simp [silent]
    · intro i
      rw [h2 i, lookup_set]
      by_cases hi : i = events.idxOf e
      · rw [if_pos hi]
        have : namesAt events ((n, some e) :: seqs) i = n :: namesAt events seqs i := by
          simp [namesAt, hi]
        rw [this, List.foldl_cons, ← hi]
        cases names.lookup i <;> rfl
      · have : namesAt events ((n, some e) :: seqs) i = namesAt events seqs i := by
          have : ¬ events.idxOf e = i := fun h => hi h.symm
          simp [namesAt, this]
        rw [if_neg hi, this]

/-! ## Labels in pieces -/

theorem chunks_flatten (n : Nat) (hn : 0 < n) : ∀ (f : Nat) (l : Str), l.length ≤ f → (chunks n f l).flatten = l
  | 0, l, h => by
    have : l = [] := List.length_eq_zero_iff.1 (by omega)
    rw [this]
    rfl
  | f + 1, l, h => by
    rw [chunks]
    by_cases hl : l = []
    · rw [if_pos hl, hl]; rfl
    · have : 0 < l.length := List.length_pos_iff.2 hl
      rw [if_neg hl, List.flatten_cons, chunks_flatten n hn f _ (by rw [List.length_drop]; omega), List.take_append_drop]

theorem chunks_ne (n : Nat) (hn : 0 < n) : ∀ (f : Nat) (l : Str), ∀ x ∈ chunks n f l, x ≠ []
  | 0, l, x, h => by simp [chunks] at h
  | f + 1, l, x, h => by
    rw [chunks] at h
    by_cases hl : l = []
    · rw [if_pos hl] at h
      simp at h
    · rw [if_neg hl] at h
      rcases List.mem_cons.1 h with rfl | h
      · intro h0
        rcases List.take_eq_nil_iff.1 h0 with h0 | h0
        · omega
        · exact hl h0
      · exact chunks_ne n hn f _ x h

/-- The pieces of a label: all but the last, and the last with the spaces. -/
theorem label_pieces (pre : Str) (width : Nat) (hw : 0 < width) (label : Option Str) :
    ∃ (ps : List Str) (last : Str), labelText pre width label = join (10 :: pre) (ps ++ [last]) ∧
      match label with
      | none => ps = [] ∧ last = List.replicate width 32
      | some s => (∀ p ∈ ps, ∀ c ∈ p, c ∈ s) ∧ ∃ k, ps.flatten ++ last = s ++ [58] ++ List.replicate k 32 := by
  cases label with
  | none => exact ⟨[], List.replicate width 32, rfl, rfl, rfl⟩
  | some s =>
    have e : lit ":" = [58] := rfl
    have hf := chunks_flatten width hw (s ++ [58]).length (s ++ [58]) (Nat.le_refl _)
    have hc := chunks_ne width hw (s ++ [58]).length (s ++ [58])
    have hne : chunks width (s ++ [58]).length (s ++ [58]) ≠ [] := by
      intro h
      rw [h] at hf
      simp at hf
    have hg := List.getLast?_eq_some_getLast hne
    have hcat := List.dropLast_concat_getLast hne
    have hl := hc _ (List.getLast_mem hne)
    refine ⟨(chunks width (s ++ [58]).length (s ++ [58])).dropLast, (chunks width (s ++ [58]).length (s ++ [58])).getLast hne ++
      List.replicate (width - ((chunks width (s ++ [58]).length (s ++ [58])).getLast hne).length) 32, ?_, ?_,
      width - ((chunks width (s ++ [58]).length (s ++ [58])).getLast hne).length, ?_⟩
    · rw [labelText, e]
      simp only [hg]
    · rw [← hcat, List.flatten_append, List.flatten_singleton] at hf
      rw [← List.dropLast_concat_getLast hl, ← List.append_assoc] at hf
      have := (List.append_inj' hf rfl).1
      intro p hp c hcp
      rw [← this]
      exact List.mem_append_left _ (List.mem_flatten.2 ⟨p, hp, hcp⟩)
    · rw [← List.append_assoc]
      refine congrArg (· ++ _) ?_
      conv => rhs; rw [← hf, ← hcat]
      rw [List.flatten_append, List.flatten_singleton]

theorem join_pre (pre last tail : Str) : ∀ ps : List Str, pre ++ join (10 :: pre) (ps ++ [last]) ++ tail =
    join [10] (ps.map (pre ++ ·) ++ [pre ++ last ++ tail])
  | [] => by simp [join]
  | [p] => by simp [join]
  | p :: q :: ps => by
    have ih := join_pre pre last tail (q :: ps)
    simp only [List.cons_append, List.map_cons, join] at ih ⊢
    rw [← ih]
    simp

theorem join_flatten : ∀ (Ls : List (List Str)), (∀ L ∈ Ls, L ≠ []) → join [10] (Ls.map (join [10])) = join [10] Ls.flatten
  | [], _ => rfl
  | [L], _ => by simp [join]
  | L :: M :: Ls, h => by
    have ih := join_flatten (M :: Ls) (fun x hx => h x (by simp [hx]))
    have hM : (M :: Ls).flatten ≠ [] := by
      cases hM : M with
      | nil => exact absurd hM (h M (by simp))
      | cons x M => simp
    have key : ∀ (L R : List Str), L ≠ [] → R ≠ [] → join [10] (L ++ R) = join [10] L ++ [10] ++ join [10] R := by
      intro L R hL hR
      induction L with
      | nil => exact absurd rfl hL
      | cons x L ihL =>
        cases L with
        | nil =>
          cases R with
          | nil => exact absurd rfl hR
          | cons y R => rfl
        | cons y L =>
          have := ihL (by simp)
          simp only [List.cons_append, join] at this ⊢
          rw [this]
          simp
    rw [List.flatten_cons, key L _ (h L (by simp)) hM, ← ih]
    rfl

/-! ## The lines of the events -/

/-- An event behind its label. -/
def tail (w : World) (events : List Nat) (n i e : Nat) : Str :=
  lit "  [" ++ padLeft n i ++ lit "] " ++ evText (placeText events) (w.obj e)

theorem event_loop' (w : World) (pre : Str) (events : List Nat) (names : List (Nat × Str)) (width n : Nat) : ∀ (es : List Nat) (i : Nat),
    (∀ e ∈ es, ∀ d, dest (w.obj e) = some d → d ∈ events) →
    eventLoop w pre events names width n i es =
      .ok ((es.zipIdx i).map fun p => pre ++ labelText pre width (names.lookup p.2) ++ (tail w events n p.2 p.1 ++ [44]), [])
  | [], _, _ => rfl
  | e :: es, i, h => by
    rw [eventLoop, event_text w _ events e (h e (by simp)), bind_ok,
      event_loop' w pre events names width n es (i + 1) (fun x hx => h x (by simp [hx])), bind_ok, List.zipIdx_cons, List.map_cons]
    show Except.ok _ = _
    have : lit "," = [44] := rfl
    simp [tail, this]

theorem read_line {q r : Str} (h : 91 ∉ q) : readLine (q ++ 91 :: r) = readLine (91 :: r) := by
  have : ∀ q : Str, 91 ∉ q → (q ++ 91 :: r).dropWhile (fun x => decide (x ≠ 91)) = 91 :: r := by
    intro q hq
    rw [List.dropWhile_append_of_pos (p := fun x => decide (x ≠ 91)) (fun a ha => by
      rw [decide_eq_true_eq]
      intro h
      exact hq (h ▸ ha)), List.dropWhile_cons, if_neg (by decide)]
  have h1 := this q h
  have h2 := this [] (by simp)
  rw [List.nil_append] at h2
  unfold readLine
  rw [h1, h2]

theorem nl_tail (w : World) (events : List Nat) (n i e : Nat) : 10 ∉ tail w events n i e := by
  have := nl_bare w events n i e
  intro h
  apply this
  rw [bare]
  simp only [tail, List.mem_append, List.append_assoc] at h ⊢
  exact Or.inr (Or.inr h)

theorem tail_eq (w : World) (events : List Nat) (n i e : Nat) (c : Bool) : ∃ r, tail w events n i e ++ (if c then [44] else []) =
    [32, 32] ++ 91 :: r ∧ ((EvOk (w.obj e)) → (Clear (w.obj e)) →
      readLine (91 :: r) = some (i, withPlaces (events.idxOf ·) (w.obj e))) := by
  refine ⟨padLeft n i ++ lit "] " ++ evText (placeText events) (w.obj e) ++ (if c then [44] else []), ?_, ?_⟩
  · have : lit "  [" = [32, 32, 91] := rfl
    rw [tail, this]
    simp
  · intro hok hc
    have h := read_bare w events n i e c hok hc
    have : bare w events n i e ++ (if c then [44] else []) = [32, 32, 32, 32, 32] ++ 91 ::
        (padLeft n i ++ lit "] " ++ evText (placeText events) (w.obj e) ++ (if c then [44] else [])) := by
      have h1 : lit "  [" = [32, 32, 91] := rfl
      have h2 : lit "  " = [32, 32] := rfl
      rw [bare, h1, h2]
      simp
    rw [this, read_line (by decide)] at h
    exact h

/-! ## Reading -/

theorem take_bracket {q r : Str} (h : 91 ∉ q) : (q ++ 91 :: r).takeWhile (fun x => decide (x ≠ 91)) = q := by
  rw [List.takeWhile_append_of_pos (p := fun x => decide (x ≠ 91)) (fun a ha => by
      rw [decide_eq_true_eq]
      intro h'
      exact h (h' ▸ ha)), List.takeWhile_cons, if_neg (by decide),
    List.append_nil]

theorem read_pieces (last r : Str) (R : List Str) (names : List Str) (v : Nat × Ev) (hl : 91 ∉ last)
    (hr : readLine (91 :: r) = some v) : ∀ (ps : List Str) (label : Str), (∀ p ∈ ps, 91 ∉ p ∧ 58 ∉ p) →
    readLabel (label ++ ps.flatten ++ last ++ [32, 32]) = some names →
    readRows label (ps.map (lit "    " ++ ·) ++ (lit "    " ++ last ++ ([32, 32] ++ 91 :: r)) :: R) =
      (readRows [] R).map fun x => (x.1, (v.1, names, v.2) :: x.2)
  | [], label, _, h => by
    have e : lit "    " ++ last ++ ([32, 32] ++ 91 :: r) = chars "    " ++ ((last ++ [32, 32]) ++ 91 :: r) := by
      simp [lit, chars]
    have h91 : 91 ∉ last ++ [32, 32] := by simp [hl]
    have hm : 91 ∈ (last ++ [32, 32]) ++ 91 :: r := by simp
    rw [List.flatten_nil, List.append_nil, List.append_assoc] at h
    rw [List.map_nil, List.nil_append, readRows, e, after_append, Option.bind_some, if_pos hm, take_bracket h91, h, Option.bind_some,
      read_line h91, hr, Option.bind_some]
  | p :: ps, label, hp, h => by
    have hq := hp p (by simp)
    have ha : after (chars "    ") (lit "    " ++ p) = some p := after_append _ _
    rw [List.map_cons, List.cons_append, readRows, ha, Option.bind_some, if_neg hq.1,
      before_none (c := 58) (by decide) hq.2]
    dsimp only
    refine read_pieces last r R names v hl hr ps (label ++ p) (fun q hq => hp q (by simp [hq])) ?_
    rw [← h, List.flatten_cons]
    simp

theorem read_label (l : List Str) (h : ∀ x ∈ l, 44 ∉ x) (k : Nat) (hk : l = [] → True) :
    readLabel ((match labelOf l with
      | none => []
      | some s => s ++ [58]) ++ List.replicate k 32) = some l := by
  by_cases hl : l = []
  · subst hl
    rw [readLabel]
    show (if trim ([] ++ List.replicate k 32) = [] then _ else _) = _
    rw [List.nil_append, trim_spaces, if_pos rfl]
  · rw [labelOf, if_neg hl]
    dsimp only
    rw [readLabel, trim_colon, if_neg (by simp), before_append, Option.bind_some, read_names l hl h]

/-- What is known of the lines of one event. -/
theorem row (w : World) (events : List Nat) (n i e width : Nat) (hw : 0 < width) (c : Bool) (l : List Str) (hl : ∀ x ∈ l, Plain x)
    (hok : EvOk (w.obj e)) (hc : Clear (w.obj e)) :
    ∃ L : List Str, L ≠ [] ∧ (∀ x ∈ L, 10 ∉ x ∧ x ≠ []) ∧
      lit "    " ++ labelText (lit "    ") width (labelOf l) ++ (tail w events n i e ++ (if c then [44] else [])) = join [10] L ∧
      ∀ R, readRows [] (L ++ R) =
        (readRows [] R).map fun x => (x.1, (i, l, withPlaces (events.idxOf ·) (w.obj e)) :: x.2) := by
  obtain ⟨ps, last, h1, h2⟩ := label_pieces (lit "    ") width hw (labelOf l)
  obtain ⟨r, h3, h4⟩ := tail_eq w events n i e c
  have hr := h4 hok hc
  have hno : ∀ c : Nat, c ∉ lit ", " → (∀ x ∈ l, c ∉ x) → ∀ s, labelOf l = some s → c ∉ s := by
    intro c hc hx s hs
    rw [labelOf] at hs
    split at hs
    · cases hs
    · cases hs
      exact mem_join hc l hx
  have hps : ∀ c : Nat, c ∉ lit ", " → (∀ x ∈ l, c ∉ x) → ∀ p ∈ ps, c ∉ p := by
    intro c hc hx p hp hcp
    cases hs : labelOf l with
    | none =>
      rw [hs] at h2
      rw [h2.1] at hp
      simp at hp
    | some s =>
      rw [hs] at h2
      exact hno c hc hx s hs (h2.1 p hp c hcp)
  have hlast : ∀ c : Nat, c ∉ lit ", " → c ≠ 58 → c ≠ 32 → (∀ x ∈ l, c ∉ x) → c ∉ last := by
    intro c hc h58 h32 hx hcl
    cases hs : labelOf l with
    | none =>
      rw [hs] at h2
      rw [h2.2, List.mem_replicate] at hcl
      exact h32 hcl.2
    | some s =>
      rw [hs] at h2
      obtain ⟨_, k, hk⟩ := h2
      have : c ∈ ps.flatten ++ last := List.mem_append_right _ hcl
      rw [hk, List.mem_append, List.mem_append, List.mem_singleton, List.mem_replicate] at this
      rcases this with (h | h) | h
      · exact hno c hc hx s hs h
      · exact h58 h
      · exact h32 h.2
  have hlab : ∃ k, ps.flatten ++ last ++ [32, 32] = (match labelOf l with
      | none => []
      | some s => s ++ [58]) ++ List.replicate k 32 := by
    have e2 : ([32, 32] : Str) = List.replicate 2 32 := rfl
    cases hs : labelOf l with
    | none =>
      rw [hs] at h2
      refine ⟨width + 2, ?_⟩
      rw [h2.1, h2.2, e2]
      simp only [List.flatten_nil, List.nil_append, List.replicate_append_replicate]
    | some s =>
      rw [hs] at h2
      obtain ⟨_, k, hk⟩ := h2
      refine ⟨k + 2, ?_⟩
      rw [hk, e2]
      simp only [List.append_assoc, List.replicate_append_replicate]
  refine ⟨ps.map (lit "    " ++ ·) ++ [lit "    " ++ last ++ (tail w events n i e ++ (if c then [44] else []))], by simp, ?_, ?_, ?_⟩
  · intro x hx
    rw [List.mem_append, List.mem_map, List.mem_singleton] at hx
    rcases hx with ⟨p, hp, rfl⟩ | rfl
    · refine ⟨?_, by simp [lit]⟩
      rw [List.mem_append, not_or]
      exact ⟨by decide, hps 10 (by decide) (fun x hx => (hl x hx).1) p hp⟩
    · refine ⟨?_, by simp [lit]⟩
      simp only [List.mem_append, not_or]
      refine ⟨⟨by decide, hlast 10 (by decide) (by decide) (by decide) (fun x hx => (hl x hx).1)⟩, nl_tail _ _ _ _ _, ?_⟩
      cases c <;> decide
  · rw [h1, join_pre]
  · intro R
    obtain ⟨k, hk⟩ := hlab
    have hrl := read_label l (fun x hx => (hl x hx).2.1) k (fun _ => trivial)
    rw [← hk] at hrl
    rw [h3, List.append_assoc, List.singleton_append]
    exact read_pieces last r R l _ (hlast 91 (by decide) (by decide) (by decide) (fun x hx => (hl x hx).2.2.2)) hr ps []
      (fun p hp => ⟨hps 91 (by decide) (fun x hx => (hl x hx).2.2.2) p hp, hps 58 (by decide) (fun x hx => (hl x hx).2.2.1) p hp⟩)
      (by rw [List.nil_append]; exact hrl)

/-- The lines of several events; each is given with its place and whether a comma follows. -/
theorem row_list (w : World) (events : List Nat) (n width : Nat) (hw : 0 < width) (at' : Nat → List Str) (hl : ∀ i, ∀ x ∈ at' i, Plain x) :
    ∀ (es : List (Nat × Nat × Bool)), (∀ p ∈ es, EvOk (w.obj p.1) ∧ Clear (w.obj p.1)) →
    ∃ Ls : List (List Str), (∀ L ∈ Ls, L ≠ [] ∧ ∀ x ∈ L, 10 ∉ x ∧ x ≠ []) ∧
      es.map (fun p => lit "    " ++ labelText (lit "    ") width (labelOf (at' p.2.1)) ++
        (tail w events n p.2.1 p.1 ++ (if p.2.2 then [44] else []))) = Ls.map (join [10]) ∧
      ∀ R, readRows [] (Ls.flatten ++ R) = (readRows [] R).map fun x =>
        (x.1, es.map (fun p => (p.2.1, at' p.2.1, withPlaces (events.idxOf ·) (w.obj p.1))) ++ x.2)
  | [], _ => ⟨[], by simp, rfl, fun R => by simp⟩
  | p :: es, h => by
    obtain ⟨Ls, a1, a2, a3⟩ := row_list w events n width hw at' hl es (fun q hq => h q (by simp [hq]))
    have hp := h p (by simp)
    obtain ⟨L, b1, b2, b3, b4⟩ := row w events n p.2.1 p.1 width hw p.2.2 (at' p.2.1) (hl _) hp.1 hp.2
    refine ⟨L :: Ls, ?_, ?_, ?_⟩
    · intro M hM
      rcases List.mem_cons.1 hM with rfl | hM
      · exact ⟨b1, b2⟩
      · exact a1 M hM
    · rw [List.map_cons, List.map_cons, a2, b3]
    · intro R
      rw [List.flatten_cons, List.append_assoc, b4, a3, Option.map_map]
      rfl

theorem read_silent (R : List Str) : ∀ (ns : List Str), (∀ x ∈ ns, Plain x) →
    readRows [] (ns.map (silentLine (lit "    ")) ++ R) = (readRows [] R).map fun x => (ns ++ x.1, x.2)
  | [], _ => by simp
  | n :: ns, h => by
    have e : silentLine (lit "    ") n = chars "    " ++ (n ++ chars ": (none)") := by
      simp [silentLine, lit, chars]
    have h91 : 91 ∉ n ++ chars ": (none)" := by
      rw [List.mem_append, not_or]
      exact ⟨(h n (by simp)).2.2.2, by decide⟩
    rw [List.map_cons, List.cons_append, readRows, e, after_append, Option.bind_some, if_neg h91, before_append]
    dsimp only
    rw [read_silent R ns (fun x hx => h x (by simp [hx])), Option.map_map]
    rfl

theorem cut_last' (ls : List Str) (l : Str) : cutLast (ls ++ [l ++ [44]]) = ls ++ [l] := by
  rw [cutLast]
  simp

theorem labels_nodup : ∀ (seqs : List (Option Str × Option Nat)) (d : List (Option Str × Option Nat)),
    (seqs.map Prod.fst).Nodup → (∀ s ∈ seqs, s.1 ∉ d.map Prod.fst) → seqs.foldl (fun d s => dictSet d s.1 s.2) d = d ++ seqs
  | [], d, _, _ => by simp
  | s :: seqs, d, hn, hd => by
    rw [List.map_cons, List.nodup_cons] at hn
    rw [List.foldl_cons, dictSet_new (hd s (by simp)), labels_nodup seqs _ hn.2]
    · simp
    · intro t ht
      rw [List.map_append, List.mem_append, not_or]
      refine ⟨hd t (by simp [ht]), ?_⟩
      simp only [List.map_cons, List.map_nil, List.mem_singleton]
      intro h
      exact hn.1 (h ▸ List.mem_map_of_mem ht)

theorem read_ssar (w : World) (seqs : List (Str × Option Nat)) (events : List Nat) (hn : (seqs.map Prod.fst).Nodup)
    (hp : ∀ s ∈ seqs, Plain s.1) (hf : ∀ s ∈ seqs, ∀ e, s.2 = some e → e ∈ events) (hd : Closed w.obj events)
    (hok : ∀ e ∈ events, EvOk (w.obj e)) (hc : ∀ e ∈ events, Clear (w.obj e)) :
    ∃ t, strSSAR w (seqs.map fun s => (some s.1, s.2)) (some events) = .ok t ∧
      readSSAR t = some (silent seqs, rows w.obj events seqs) := by
  have hlabels : labelsOf (seqs.map fun s => (some s.1, s.2)) = seqs.map fun s => (some s.1, s.2) := by
    rw [labelsOf, labels_nodup _ [] ?_ (by simp), List.nil_append]
    rw [List.map_map]
    have : (Prod.fst ∘ fun s : Str × Option Nat => (some s.1, s.2)) = some ∘ Prod.fst := rfl
    rw [this, ← List.map_map]
    exact List.Pairwise.map some (fun a b h h' => h (Option.some.inj h')) hn
  obtain ⟨names, len, h1, h2⟩ := label_loop w (lit "    ") events seqs [] [] 0 hf
  have h2 : ∀ i, names.lookup i = labelOf (namesAt events seqs i) := fun i => (h2 i).trans (extend_none _)
  have hs : ∀ x ∈ silent seqs, Plain x := by
    intro x hx
    obtain ⟨s, hs, rfl⟩ := List.mem_map.1 hx
    exact hp s (List.mem_filter.1 hs).1
  have ha : ∀ i, ∀ x ∈ namesAt events seqs i, Plain x := by
    intro i x hx
    obtain ⟨s, hs, rfl⟩ := List.mem_map.1 hx
    exact hp s (List.mem_filter.1 hs).1
  have h3 := event_loop' w (lit "    ") events names (min len 48 + 1) (reprNat (events.length - 1)).length events 0 hd
  generalize hwd : min len 48 + 1 = width at h3
  have hw : 0 < width := by omega
  generalize hnl : (reprNat (events.length - 1)).length = n at h3
  -- the events with their places and commas
  have hlines : ∃ es : List (Nat × Nat × Bool), (∀ p ∈ es, EvOk (w.obj p.1) ∧ Clear (w.obj p.1)) ∧
      es.map (fun p => (p.2.1, namesAt events seqs p.2.1, withPlaces (events.idxOf ·) (w.obj p.1))) = rows w.obj events seqs ∧
      ∀ X : List Str, (if events.isEmpty then X ++ (events.zipIdx 0).map (fun p => lit "    " ++
          labelText (lit "    ") width (names.lookup p.2) ++ (tail w events n p.2 p.1 ++ [44]))
        else cutLast (X ++ (events.zipIdx 0).map (fun p => lit "    " ++
          labelText (lit "    ") width (names.lookup p.2) ++ (tail w events n p.2 p.1 ++ [44])))) =
        X ++ es.map (fun p => lit "    " ++ labelText (lit "    ") width (labelOf (namesAt events seqs p.2.1)) ++
        (tail w events n p.2.1 p.1 ++ (if p.2.2 then [44] else []))) := by
    by_cases hne : events = []
    · subst hne
      exact ⟨[], by simp, rfl, fun X => rfl⟩
    · have he : events.zipIdx 0 = events.dropLast.zipIdx 0 ++ [(events.getLast hne, events.length - 1)] := by
        conv => lhs; rw [← List.dropLast_concat_getLast hne]
        rw [List.zipIdx_append]
        simp
      refine ⟨(events.dropLast.zipIdx 0).map (fun p => (p.1, p.2, true)) ++ [(events.getLast hne, events.length - 1, false)], ?_, ?_, ?_⟩
      · intro p hp
        rw [List.mem_append, List.mem_map, List.mem_singleton] at hp
        rcases hp with ⟨q, hq, rfl⟩ | rfl
        · have hm : q.1 ∈ events := by
            have : (q.1, q.2) ∈ events.dropLast.zipIdx 0 := hq
            exact List.dropLast_subset _ (List.fst_mem_of_mem_zipIdx this)
          exact ⟨hok _ hm, hc _ hm⟩
        · exact ⟨hok _ (List.getLast_mem hne), hc _ (List.getLast_mem hne)⟩
      · rw [rows, numbered, he]
        simp
      · intro X
        have : events.isEmpty = false := by cases events with
          | nil => exact absurd rfl hne
          | cons _ _ => rfl
        rw [this, if_neg (by decide), he, List.map_append, List.map_append, List.map_map, List.map_singleton, List.map_singleton,
          ← List.append_assoc, ← List.append_assoc, ← List.append_assoc, cut_last']
        simp only [h2, Function.comp_def, if_true, if_false, Bool.false_eq_true, List.append_nil, ← List.append_assoc]
  obtain ⟨es, g1, g2, g3⟩ := hlines
  obtain ⟨Ls, f1, f2, f3⟩ := row_list w events n width hw (namesAt events seqs) ha es g1
  have hprint : printList w events (seqs.map fun s => (some s.1, s.2)) (lit "    ") =
      .ok (join [10] ((silent seqs).map (silentLine (lit "    ")) ++ Ls.flatten)) := by
    rw [printList, h1, bind_ok]
    dsimp only
    rw [hwd, hnl, h3, bind_ok]
    dsimp only
    have hg := g3 ((silent seqs).map (silentLine (lit "    ")))
    simp only [List.nil_append]
    rw [hg, f2]
    have hj := join_flatten ((silent seqs).map (fun s => [silentLine (lit "    ") s]) ++ Ls) (by
      intro L hL
      rcases List.mem_append.1 hL with h | h
      · obtain ⟨s, _, rfl⟩ := List.mem_map.1 h
        simp
      · exact (f1 L h).1)
    rw [List.map_append, List.map_map, List.flatten_append] at hj
    have e1 : (join [10] ∘ fun s => [silentLine (lit "    ") s]) = silentLine (lit "    ") := rfl
    have e2 : ∀ l : List Str, (l.map fun s => [silentLine (lit "    ") s]).flatten = l.map (silentLine (lit "    ")) := by
      intro l
      induction l with
      | nil => rfl
      | cons x l ih => rw [List.map_cons, List.flatten_cons, ih]; rfl
    rw [e1, e2] at hj
    show Except.ok _ = _
    rw [hj]
  refine ⟨join [10] [lit "<ssar", join [10] ((silent seqs).map (silentLine (lit "    ")) ++ Ls.flatten), lit ">"], ?_, ?_⟩
  · rw [strSSAR, hlabels, hprint]
    rfl
  have hread : readRows [] ((silent seqs).map (silentLine (lit "    ")) ++ Ls.flatten) = some (silent seqs, rows w.obj events seqs) := by
    have h := f3 []
    rw [List.append_nil] at h
    rw [read_silent _ _ hs, h, g2]
    simp [readRows]
  have hPL : ∀ x ∈ (silent seqs).map (silentLine (lit "    ")) ++ Ls.flatten, 10 ∉ x ∧ x ≠ [] := by
    intro x hx
    rcases List.mem_append.1 hx with hx | hx
    · obtain ⟨s, hs', rfl⟩ := List.mem_map.1 hx
      refine ⟨?_, by simp [silentLine, lit]⟩
      simp only [silentLine, List.mem_append, not_or]
      exact ⟨⟨by decide, (hs s hs').1⟩, by decide⟩
    · obtain ⟨L, hL, hx⟩ := List.mem_flatten.1 hx
      exact (f1 L hL).2 x hx
  generalize (silent seqs).map (silentLine (lit "    ")) ++ Ls.flatten = PL at hread hPL
  have l1 : lit ">" = [62] := rfl
  have l2 : lit "<ssar" = chars "<ssar" := rfl
  by_cases hne : PL = []
  · subst hne
    rw [readRows, if_pos rfl] at hread
    have : splitLines (join [10] [lit "<ssar", join [10] [], lit ">"]) = [lit "<ssar", [], [62]] := by decide +kernel
    rw [readSSAR, this, ← hread]
    rfl
  · have : splitLines (join [10] [lit "<ssar", join [10] PL, lit ">"]) = lit "<ssar" :: (PL ++ [[62]]) := by
      rw [join_lines _ _ hne, l1]
      refine splitLines_join _ (by simp) ?_
      intro l hl
      simp only [List.mem_cons, List.mem_append, List.not_mem_nil, or_false] at hl
      rcases hl with rfl | hl | rfl
      · decide
      · exact (hPL l hl).1
      · decide
    have hn0 : PL ≠ [[]] := by
      rintro rfl
      exact (hPL [] (by simp)).2 rfl
    rw [readSSAR, this]
    dsimp only
    rw [if_pos ⟨l2, last_word' _ _⟩, List.dropLast_concat, if_neg hn0, hread]

theorem read_unparsed' (w : World) (seqs : List (Str × Option Nat)) (h : ∀ s ∈ seqs, 44 ∉ s.1 ∧ s.1 ≠ []) :
    ∃ t, strSSAR w (seqs.map fun s => (some s.1, s.2)) none = .ok t ∧ readUnparsed t = some (seqs.map Prod.fst) := by
  refine ⟨_, rfl, ?_⟩
  have e : (seqs.map fun s => (some s.1, s.2)).map (fun s : Option Str × Option Nat => nameText s.1) = seqs.map Prod.fst := by
    rw [List.map_map]
    rfl
  have ha : after (chars "<ssar unparsed [") (lit "<ssar unparsed [" ++ join (lit ", ") (seqs.map Prod.fst) ++ lit "]>") =
      some (join (lit ", ") (seqs.map Prod.fst) ++ chars "]>") := by
    rw [List.append_assoc]
    exact after_append _ _
  rw [readUnparsed, e, ha, Option.bind_some, before_append, Option.bind_some]
  cases seqs with
  | nil => rfl
  | cons s seqs =>
    have hne : join (lit ", ") ((s :: seqs).map Prod.fst) ≠ [] := by
      have := (h s (by simp)).2
      cases seqs with
      | nil => exact this
      | cons t seqs => simp [join, this]
    rw [if_neg hne]
    refine read_names _ (by simp) ?_
    intro x hx
    obtain ⟨t, ht, rfl⟩ := List.mem_map.1 hx
    exact (h t ht).1

end Verif.Proofs.ArchiveText
