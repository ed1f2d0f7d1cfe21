import Verif.Model.Listing
import Verif.Spec.Listing
import Verif.Spec.Fnt
import Verif.Proofs.PyExpr
import Verif.Proofs.FntLookup

/-!
# Lemmas for `Props/Listing.lean`
-/

namespace Verif.Proofs.Listing

open Verif Verif.Model.Util Verif.Model.Repr Verif.Model.Fnt Verif.Model.Listing Verif.Spec.PyExpr Verif.Spec.Listing
open Verif.Proofs.PyExpr

/-! ## Numbers -/

theorem reprNat_digits (n : Nat) : reprNat n ≠ [] ∧ (∀ c ∈ reprNat n, isDigit c = true) ∧ decValue 0 (reprNat n) = n :=
  ⟨digitsF_ne n n, fun c hc => digitsF_all (b := 10) (digit := hexDigit) (p := fun c => isDigit c = true) (by omega) (fun d hd => by
      rw [hexDigit_dec hd]
      unfold isDigit
      simp only [Bool.and_eq_true, decide_eq_true_eq]; omega) (n + 1) n c hc, decValue_digits (n + 1) n (by omega)⟩

theorem decValue_cons (v c : Nat) (s : Str) (w : Nat) (h : v * 10 + (c - 48) = w) : decValue v (c :: s) = decValue w s := by
  conv => lhs; unfold decValue
  rw [h]

theorem decValue_zeros (k : Nat) (s : Str) : decValue 0 (List.replicate k 48 ++ s) = decValue 0 s := by
  induction k with
  | zero => rfl
  | succ k ih =>
    rw [List.replicate_succ, List.cons_append]
    rw [decValue_cons 0 48 _ 0 (by omega), ih]

theorem readID_pad4 (n : Int) (s : Str) : readID (pad4 n ++ 32 :: s) = some (n, 32 :: s) := by
  obtain ⟨h1, h2, h3⟩ := reprNat_digits n.natAbs
  have key : ∀ k, (List.replicate k 48 ++ reprNat n.natAbs ++ 32 :: s).takeWhile isDigit = List.replicate k 48 ++ reprNat n.natAbs ∧
      (List.replicate k 48 ++ reprNat n.natAbs ++ 32 :: s).dropWhile isDigit = 32 :: s := by
    intro k
    refine take_while ?_ (by intro c hc; cases hc; rfl)
    intro c hc
    rcases List.mem_append.1 hc with hc | hc
    · rw [(List.mem_replicate.1 hc).2]; rfl
    · exact h2 c hc
  have hne : ∀ k, List.replicate k 48 ++ reprNat n.natAbs ≠ [] := by
    intro k e
    exact h1 (List.append_eq_nil_iff.1 e).2
  unfold readID pad4
  by_cases hn : n < 0
  · rw [if_pos hn]
    simp only [List.cons_append, List.head?_cons, decide_true, if_true, List.tail_cons]
    rw [(key _).1, (key _).2, if_neg (hne _), decValue_zeros, h3]
    congr 2
    omega
  · rw [if_neg hn]
    have hh : (List.replicate (4 - (reprNat n.natAbs).length) 48 ++ reprNat n.natAbs ++ 32 :: s).head? ≠ some 45 := by
      cases e : List.replicate (4 - (reprNat n.natAbs).length) 48 ++ reprNat n.natAbs with
      | nil => exact absurd e (hne _)
      | cons c t =>
        have := (key (4 - (reprNat n.natAbs).length)).1
        intro e'
        rw [List.cons_append, List.head?_cons] at e'
        cases e'
        rw [e, List.cons_append, List.takeWhile_cons, if_neg (by decide)] at this
        cases this
    dsimp only
    rw [decide_eq_false hh]
    simp only [Bool.false_eq_true, if_false]
    rw [(key _).1, (key _).2, if_neg (hne _), decValue_zeros, h3]
    congr 2
    omega

/-! ## Lines -/

theorem readLine_line (above cur : List Str) (hp : cur.take above.length = above) (id : Int) (name : Str) (hn : name.head? ≠ some 32) :
    readLine cur (pad4 id ++ List.replicate (4 * above.length + 1) 32 ++ name) =
      some ⟨above ++ [if name.getLast? = some 47 then name.dropLast else name], id, decide (name.getLast? = some 47)⟩ := by
  obtain ⟨e1, e2⟩ := take_while (p := fun c => decide (c = 32)) (ds := List.replicate (4 * above.length + 1) 32) (rest := name)
    (by intro c hc; rw [(List.mem_replicate.1 hc).2]; rfl) (by
      intro c hc
      have : c ≠ 32 := by rintro rfl; exact hn hc
      simp [this])
  have e3 : pad4 id ++ List.replicate (4 * above.length + 1) 32 ++ name =
      pad4 id ++ 32 :: (List.replicate (4 * above.length) 32 ++ name) := by
    rw [List.replicate_succ]
    simp
  have e4 : 32 :: (List.replicate (4 * above.length) 32 ++ name) = List.replicate (4 * above.length + 1) 32 ++ name := by
    rw [List.replicate_succ]
    simp
  have hl : above.length ≤ cur.length := by
    have := congrArg List.length hp
    rw [List.length_take] at this
    omega
  unfold readLine
  rw [e3, readID_pad4, e4]
  simp only [Option.bind_some, e1, e2, List.length_replicate]
  rw [if_pos ⟨by omega, by omega⟩, show (4 * above.length + 1) / 4 = above.length by omega, hp]
  simp

/-- The lines of a folder are read as its listed, and what follows as something in the folder above. -/
def ReadsAs (above : List Str) (ls : List Str) (es : List Listed) : Prop :=
  ∀ cur, cur.take above.length = above → ∃ cur', cur'.take above.length = above ∧
    ∀ rest, readLines cur (ls ++ rest) = (readLines cur' rest).map (es ++ ·)

theorem ReadsAs.nil (above : List Str) : ReadsAs above [] [] := by
  intro cur hc
  refine ⟨cur, hc, fun rest => ?_⟩
  cases h : readLines cur rest <;> simp [h]

theorem ReadsAs.append {above : List Str} {ls ls' : List Str} {es es' : List Listed} (h : ReadsAs above ls es)
    (h' : ReadsAs above ls' es') : ReadsAs above (ls ++ ls') (es ++ es') := by
  intro cur hc
  obtain ⟨cur1, hc1, h1⟩ := h cur hc
  obtain ⟨cur2, hc2, h2⟩ := h' cur1 hc1
  refine ⟨cur2, hc2, fun rest => ?_⟩
  rw [List.append_assoc, h1, h2]
  cases readLines cur2 rest <;> simp

theorem ReadsAs.file {above : List Str} (id : Int) {name : Str} (hn : name.head? ≠ some 32) (hs : name.getLast? ≠ some 47) :
    ReadsAs above [pad4 id ++ List.replicate (4 * above.length + 1) 32 ++ name] [⟨above ++ [name], id, false⟩] := by
  intro cur hc
  refine ⟨above, List.take_length, fun rest => ?_⟩
  rw [List.cons_append, List.nil_append, readLines, readLine_line above cur hc id name hn]
  simp [hs]

theorem ReadsAs.folder {above : List Str} (id : Int) {name : Str} (hn : name.head? ≠ some 32) {ls : List Str} {es : List Listed}
    (h : ReadsAs (above ++ [name]) ls es) :
    ReadsAs above ((pad4 id ++ List.replicate (4 * above.length + 1) 32 ++ name ++ [47]) :: ls) (⟨above ++ [name], id, true⟩ :: es) := by
  intro cur hc
  obtain ⟨cur', hc', hr⟩ := h (above ++ [name]) List.take_length
  refine ⟨cur', ?_, fun rest => ?_⟩
  · have := congrArg (List.take above.length) hc'
    rw [List.take_take] at this
    simpa using this
  · have hl := readLine_line above cur hc id (name ++ [47]) (by
      cases name with
      | nil => simp
      | cons c t => exact hn)
    rw [← List.append_assoc] at hl
    rw [List.cons_append, readLines, hl]
    simp only [List.getLast?_append, List.getLast?_singleton, Option.some_or, List.dropLast_concat, if_true, decide_true,
      Option.bind_some]
    rw [hr]
    cases readLines cur' rest <;> rfl

theorem ReadsAs.map {above : List Str} {α : Type} {f : α → Str} {g : α → Listed} : ∀ (l : List α),
    (∀ x ∈ l, ReadsAs above [f x] [g x]) → ReadsAs above (l.map f) (l.map g)
  | [], _ => ReadsAs.nil above
  | x :: l, h => ReadsAs.append (h x (by simp)) (ReadsAs.map l (fun y hy => h y (by simp [hy])))

/-! ## Folders -/

mutual

/-- The lines of a folder, without previews. -/
def plain (indent : Nat) : Folder → List Str
  | .mk folders files firstID =>
    (files.zipIdx.map fun p => pad4 (firstID + (p.2 : Int)) ++ List.replicate (indent + 1) 32 ++ p.1) ++ plainIn indent folders

def plainIn (indent : Nat) : Folders → List Str
  | .nil => []
  | .cons name f rest => (pad4 f.firstID ++ List.replicate (indent + 1) 32 ++ name ++ [47]) :: (plain (indent + 4) f ++ plainIn indent rest)

end

mutual

theorem uncombined_plain (fileList : Option (List Bytes)) : ∀ (indent : Nat) (f : Folder) (l : List (Str × Option Str)),
    uncombined fileList indent f = .ok l → l.map Prod.fst = plain indent f
  | indent, .mk folders files firstID, l, h => by
    rw [uncombined] at h
    simp only [bind_eq_ok, pure_eq_ok] at h
    obtain ⟨own, ho, rest, hr, rfl⟩ := h
    rw [plain, List.map_append, uncombinedIn_plain fileList indent folders rest hr]
    congr 1
    generalize files.zipIdx = z at ho
    induction z generalizing own with
    | nil => cases ho; rfl
    | cons p z ih =>
      rw [mapE] at ho
      simp only [bind_eq_ok, pure_eq_ok] at ho
      obtain ⟨x, ⟨pre, _, rfl⟩, ys, hy, rfl⟩ := ho
      rw [List.map_cons, List.map_cons, ih ys hy]

theorem uncombinedIn_plain (fileList : Option (List Bytes)) : ∀ (indent : Nat) (fs : Folders) (l : List (Str × Option Str)),
    uncombinedIn fileList indent fs = .ok l → l.map Prod.fst = plainIn indent fs
  | indent, .nil, l, h => by
    rw [uncombinedIn] at h
    cases h
    rw [plainIn]
    rfl
  | indent, .cons name f rest, l, h => by
    rw [uncombinedIn] at h
    simp only [bind_eq_ok, pure_eq_ok] at h
    obtain ⟨inner, hi, others, ho, rfl⟩ := h
    rw [plainIn, List.map_cons, List.map_append, uncombined_plain fileList _ f inner hi, uncombinedIn_plain fileList _ rest others ho]

end

mutual

theorem uncombined_none : ∀ (indent : Nat) (f : Folder), uncombined none indent f = .ok ((plain indent f).map fun s => (s, none))
  | indent, .mk folders files firstID => by
    rw [uncombined, plain, uncombinedIn_none indent folders]
    have : ∀ z : List (Str × Nat), mapE (fun p : Str × Nat => do
        let pre ← preview none (firstID + (p.2 : Int))
        return (pad4 (firstID + (p.2 : Int)) ++ List.replicate (indent + 1) 32 ++ p.1, pre)) z =
        .ok (z.map fun p => (pad4 (firstID + (p.2 : Int)) ++ List.replicate (indent + 1) 32 ++ p.1, none)) := by
      intro z
      induction z with
      | nil => rfl
      | cons p z ih => rw [mapE, ih]; rfl
    rw [this, bind_ok, bind_ok]
    simp [pure_def, List.map_append, List.map_map, Function.comp_def]

theorem uncombinedIn_none : ∀ (indent : Nat) (fs : Folders),
    uncombinedIn none indent fs = .ok ((plainIn indent fs).map fun s => (s, none))
  | indent, .nil => by rw [uncombinedIn, plainIn]; rfl
  | indent, .cons name f rest => by
    rw [uncombinedIn, plainIn, uncombined_none, uncombinedIn_none, bind_ok, bind_ok]
    simp [pure_def]

end

theorem strFolder_eq (f : Folder) : strFolder f = .ok (join [10] (plain 0 f)) := by
  unfold strFolder strList
  rw [uncombined_none]
  simp [bind_ok, pure_def, List.map_map, Function.comp_def]

mutual

theorem reads_plain : ∀ (f : Folder) (above : List Str), Shown f → ReadsAs above (plain (4 * above.length) f) (listed above f)
  | .mk folders files firstID, above, h => by
    rw [Shown] at h
    rw [plain, listed]
    refine ReadsAs.append (ReadsAs.map _ ?_) (reads_plainIn folders above h.2)
    intro p hp
    have hm : p.1 ∈ files := by
      have := List.mem_map_of_mem (f := Prod.fst) hp
      rwa [List.zipIdx_map_fst] at this
    exact ReadsAs.file _ (h.1 _ hm).1.2 (h.1 _ hm).2

theorem reads_plainIn : ∀ (fs : Folders) (above : List Str), ShownIn fs → ReadsAs above (plainIn (4 * above.length) fs) (listedIn above fs)
  | .nil, above, _ => by rw [plainIn, listedIn]; exact ReadsAs.nil above
  | .cons name f rest, above, h => by
    rw [ShownIn] at h
    rw [plainIn, listedIn]
    have hf := reads_plain f (above ++ [name]) h.2.1
    rw [List.length_append, List.length_singleton, Nat.mul_add] at hf
    have := ReadsAs.append (ReadsAs.folder f.firstID h.1.2 hf) (reads_plainIn rest above h.2.2)
    simpa using this

end

/-! ## Splitting into lines -/

theorem splitLines_line : ∀ (l : Str), 10 ∉ l → splitLines l = [l]
  | [], _ => rfl
  | c :: l, h => by
    rw [splitLines, if_neg (by rintro rfl; simp at h), splitLines_line l (by intro hm; exact h (by simp [hm]))]

theorem splitLines_cons : ∀ (l s : Str), 10 ∉ l → splitLines (l ++ 10 :: s) = l :: splitLines s
  | [], s, _ => by rw [List.nil_append, splitLines, if_pos rfl]
  | c :: l, s, h => by
    rw [List.cons_append, splitLines, if_neg (by rintro rfl; simp at h), splitLines_cons l s (by intro hm; exact h (by simp [hm]))]

theorem splitLines_join : ∀ (ls : List Str), ls ≠ [] → (∀ l ∈ ls, 10 ∉ l) → splitLines (join [10] ls) = ls
  | [], h, _ => absurd rfl h
  | [l], _, h => splitLines_line l (h l (by simp))
  | l :: l' :: ls, _, h => by
    rw [join, List.append_assoc, List.cons_append, List.nil_append, splitLines_cons l _ (h l (by simp)),
      splitLines_join (l' :: ls) (by simp) (fun x hx => h x (by simp [hx]))]

theorem pad4_no10 (n : Int) : 10 ∉ pad4 n ∧ pad4 n ≠ [] := by
  obtain ⟨h1, h2, _⟩ := reprNat_digits n.natAbs
  have h10 : 10 ∉ reprNat n.natAbs := fun h => by have := h2 10 h; revert this; decide
  unfold pad4
  split
  · simp [h10]
  · simp [h10, h1]

mutual

theorem plain_lines : ∀ (f : Folder) (indent : Nat), Shown f → ∀ l ∈ plain indent f, 10 ∉ l ∧ l ≠ []
  | .mk folders files firstID, indent, h, l, hl => by
    rw [Shown] at h
    rw [plain, List.mem_append, List.mem_map] at hl
    rcases hl with ⟨p, hp, rfl⟩ | hl
    · have hm : p.1 ∈ files := by
        have := List.mem_map_of_mem (f := Prod.fst) hp
        rwa [List.zipIdx_map_fst] at this
      have := pad4_no10 (firstID + (p.2 : Int))
      simp [this, (h.1 _ hm).1.1]
    · exact plain_linesIn folders indent h.2 l hl

theorem plain_linesIn : ∀ (fs : Folders) (indent : Nat), ShownIn fs → ∀ l ∈ plainIn indent fs, 10 ∉ l ∧ l ≠ []
  | .nil, indent, _, l, hl => by rw [plainIn] at hl; simp at hl
  | .cons name f rest, indent, h, l, hl => by
    rw [ShownIn] at h
    rw [plainIn, List.mem_cons, List.mem_append] at hl
    rcases hl with rfl | hl | hl
    · have := pad4_no10 f.firstID
      simp [this, h.1.1]
    · exact plain_lines f _ h.2.1 l hl
    · exact plain_linesIn rest _ h.2.2 l hl

end

theorem join_ne (ls : List Str) (h : ls ≠ []) (hl : ∀ l ∈ ls, l ≠ []) : join [10] ls ≠ [] := by
  match ls, h with
  | [l], _ => exact hl l (by simp)
  | l :: l' :: ls, _ => simp [join]

theorem read_str (f : Folder) (h : Shown f) : Spec.Listing.read (join [10] (plain 0 f)) = some (listed [] f) := by
  have hl := plain_lines f 0 h
  obtain ⟨cur', _, hr⟩ := reads_plain f [] h [] rfl
  have hr := hr []
  simp only [List.length_nil, Nat.mul_zero, List.append_nil, readLines, Option.map_some] at hr
  unfold Spec.Listing.read
  by_cases hp : plain 0 f = []
  · rw [hp] at hr ⊢
    rw [readLines] at hr
    rw [join, if_pos rfl, hr]
  · rw [if_neg (join_ne _ hp (fun l hm => (hl l hm).2)), splitLines_join _ hp (fun l hm => (hl l hm).1), hr]

/-! ## The listed and the lookups -/

open Verif.Spec.Fnt

theorem firstNamed_mem {name : Str} {fs : Folders} {g : Folder} (h : FirstNamed name fs g) : name ∈ names fs := by
  induction h with
  | here => simp [names]
  | there n f g rest _ _ ih => simp [names, ih]

mutual

theorem file_mem (f : Folder) (above : List Str) (hw : WellNamed f) (dirs : List Str) (name : Str) (id : Int) :
    (⟨above ++ (dirs ++ [name]), id, false⟩ : Listed) ∈ listed above f ↔
      ∃ g k, Leads f dirs g ∧ FileAt g name k ∧ id = g.firstID + (k : Int) := by
  match f with
  | .mk folders files firstID =>
    unfold WellNamed at hw
    rw [All] at hw
    obtain ⟨⟨hn1, hn2, _, _⟩, hw⟩ := hw
    rw [listed, List.mem_append, List.mem_map]
    constructor
    · rintro (⟨p, hp, e⟩ | h)
      · simp only [Listed.mk.injEq, and_true] at e
        obtain ⟨e1, rfl⟩ := e
        have e1 := List.append_cancel_left e1
        cases dirs with
        | cons d ds =>
          have := congrArg List.length e1
          simp at this
        | nil =>
          simp at e1
          have hp := List.mem_zipIdx_iff_getElem?.1 hp
          refine ⟨.mk folders files firstID, p.2, .nil _, ⟨by rw [← e1]; exact hp, ?_⟩, rfl⟩
          intro j hj hh
          have := (List.getElem?_inj (i := j) (j := p.2) (by
            have := List.getElem?_eq_some_iff.1 hh; exact this.1) hn2).1 (by rw [← e1] at hh; exact hh.trans hp.symm)
          omega
      · obtain ⟨d, ds, g', rfl, h1, g, k, h2, h3⟩ := (file_memIn folders above hn1 hw dirs name id).1 h
        exact ⟨g, k, .cons d ds _ g' g h1 h2, h3⟩
    · rintro ⟨g, k, hl, hk, rfl⟩
      cases hl with
      | nil =>
        left
        exact ⟨(name, k), List.mem_zipIdx_iff_getElem?.2 hk.1, rfl⟩
      | cons d ds _ g' _ h1 h2 =>
        right
        exact (file_memIn folders above hn1 hw (d :: ds) name _).2 ⟨d, ds, g', rfl, h1, g, k, h2, hk, rfl⟩

theorem file_memIn (fs : Folders) (above : List Str) (hn : (names fs).Nodup)
    (hw : AllIn (fun f => (names f.folders).Nodup ∧ f.files.Nodup ∧
      (∀ n ∈ names f.folders, n ≠ [] ∧ 47 ∉ n) ∧ ∀ n ∈ f.files, n ≠ [] ∧ 47 ∉ n) fs) (dirs : List Str) (name : Str) (id : Int) :
    (⟨above ++ (dirs ++ [name]), id, false⟩ : Listed) ∈ listedIn above fs ↔
      ∃ d ds g', dirs = d :: ds ∧ FirstNamed d fs g' ∧ ∃ g k, Leads g' ds g ∧ FileAt g name k ∧ id = g.firstID + (k : Int) := by
  match fs with
  | .nil =>
    rw [listedIn]
    constructor
    · simp
    · rintro ⟨d, ds, g', _, h, _⟩
      cases h
  | .cons n f rest =>
    rw [AllIn] at hw
    rw [names, List.nodup_cons] at hn
    have ih1 := fun ds => file_mem f (above ++ [n]) hw.1 ds name id
    have ih2 := file_memIn rest above hn.2 hw.2 dirs name id
    have hpath : ∀ (f : Folder) (ab : List Str) (e : Listed), e ∈ listed ab f → ∃ x t, e.path = ab ++ x :: t := by
      intro f ab e he
      exact entries_path f ab e he
    rw [listedIn, List.mem_cons, List.mem_append]
    constructor
    · rintro (h | h | h)
      · simp at h
      · obtain ⟨x, t, e⟩ := hpath f _ _ h
        simp only [List.append_assoc] at e
        have e := List.append_cancel_left e
        cases dirs with
        | nil => simp at e
        | cons d ds =>
          simp only [List.cons_append, List.nil_append, List.cons.injEq] at e
          obtain ⟨rfl, e⟩ := e
          have h' : (⟨above ++ [d] ++ (ds ++ [name]), id, false⟩ : Listed) ∈ listed (above ++ [d]) f := by
            simpa using h
          exact ⟨d, ds, f, rfl, .here _ _, (ih1 ds).1 h'⟩
      · obtain ⟨d, ds, g', e, h1, h2⟩ := ih2.1 h
        have hd := firstNamed_mem h1
        exact ⟨d, ds, g', e, .there _ _ _ _ (by rintro rfl; exact hn.1 hd) h1, h2⟩
    · rintro ⟨d, ds, g', rfl, h1, h2⟩
      cases h1 with
      | here =>
        right; left
        have := (ih1 ds).2 h2
        simpa using this
      | there _ _ _ _ _ h1 =>
        right; right
        exact ih2.2 ⟨d, ds, g', rfl, h1, h2⟩

theorem entries_path (f : Folder) (above : List Str) (e : Listed) (h : e ∈ listed above f) : ∃ x t, e.path = above ++ x :: t := by
  match f with
  | .mk folders files firstID =>
    rw [listed, List.mem_append, List.mem_map] at h
    rcases h with ⟨p, _, rfl⟩ | h
    · exact ⟨p.1, [], rfl⟩
    · exact entriesIn_path folders above e h

theorem entriesIn_path (fs : Folders) (above : List Str) (e : Listed) (h : e ∈ listedIn above fs) : ∃ x t, e.path = above ++ x :: t := by
  match fs with
  | .nil => rw [listedIn] at h; simp at h
  | .cons n f rest =>
    rw [listedIn, List.mem_cons, List.mem_append] at h
    rcases h with rfl | h | h
    · exact ⟨n, [], rfl⟩
    · obtain ⟨x, t, e⟩ := entries_path f (above ++ [n]) e h
      exact ⟨n, x :: t, by simpa using e⟩
    · exact entriesIn_path rest above e h

end

/-! ## The printed list determines the tree -/

theorem append_split {α : Type} {p : α → Prop} : ∀ {l1 l2 r1 r2 : List α}, l1 ++ r1 = l2 ++ r2 → (∀ x ∈ l1, p x) → (∀ x ∈ l2, p x) →
    (∀ x, r1.head? = some x → ¬ p x) → (∀ x, r2.head? = some x → ¬ p x) → l1 = l2 ∧ r1 = r2
  | [], [], _, _, e, _, _, _, _ => ⟨rfl, e⟩
  | [], y :: l2, r1, r2, e, _, h2, h3, _ => by
    rw [List.nil_append, List.cons_append] at e
    exact absurd (h2 y (by simp)) (h3 y (by rw [e]; rfl))
  | x :: l1, [], r1, r2, e, h1, _, _, h4 => by
    rw [List.nil_append, List.cons_append] at e
    exact absurd (h1 x (by simp)) (h4 x (by rw [← e]; rfl))
  | x :: l1, y :: l2, r1, r2, e, h1, h2, h3, h4 => by
    rw [List.cons_append, List.cons_append, List.cons.injEq] at e
    obtain ⟨rfl, e⟩ := e
    obtain ⟨rfl, rfl⟩ := append_split e (fun z hz => h1 z (by simp [hz])) (fun z hz => h2 z (by simp [hz])) h3 h4
    exact ⟨rfl, rfl⟩

theorem listedIn_head (fs : Folders) (above : List Str) (e : Listed) (h : (listedIn above fs).head? = some e) :
    e.isFolder = true ∧ e.path.length = above.length + 1 := by
  cases fs with
  | nil => rw [listedIn] at h; cases h
  | cons n f rest =>
    rw [listedIn, List.head?_cons] at h
    cases h
    simp

mutual

theorem listed_inj : ∀ (f g : Folder) (above : List Str), listed above f = listed above g →
    f.files = g.files ∧ f.folders = g.folders
  | .mk folders files firstID, .mk folders' files' firstID', above, h => by
    rw [listed, listed] at h
    obtain ⟨h1, h2⟩ := append_split (p := fun e : Listed => e.isFolder = false) h
      (by intro e he; obtain ⟨p, _, rfl⟩ := List.mem_map.1 he; rfl) (by intro e he; obtain ⟨p, _, rfl⟩ := List.mem_map.1 he; rfl)
      (by intro e he; rw [(listedIn_head _ _ _ he).1]; simp) (by intro e he; rw [(listedIn_head _ _ _ he).1]; simp)
    refine ⟨?_, listedIn_inj folders folders' above h2⟩
    have e : ∀ (l : List Str) (k : Int), ((l.zipIdx.map fun p => (⟨above ++ [p.1], k + (p.2 : Int), false⟩ : Listed)).map
        fun e => e.path.getLast?.getD []) = l := by
      intro l k
      rw [List.map_map]
      have : ((fun e : Listed => e.path.getLast?.getD []) ∘ fun p : Str × Nat => (⟨above ++ [p.1], k + (p.2 : Int), false⟩ : Listed)) =
          Prod.fst := by
        funext p
        simp
      rw [this, List.zipIdx_map_fst]
    have := congrArg (List.map fun e : Listed => e.path.getLast?.getD []) h1
    rw [e, e] at this
    exact this

theorem listedIn_inj : ∀ (fs gs : Folders) (above : List Str), listedIn above fs = listedIn above gs → fs = gs
  | .nil, .nil, _, _ => rfl
  | .nil, .cons .., above, h => by rw [listedIn, listedIn] at h; cases h
  | .cons .., .nil, above, h => by rw [listedIn, listedIn] at h; cases h
  | .cons n f rest, .cons n' g rest', above, h => by
    rw [listedIn, listedIn, List.cons.injEq, Listed.mk.injEq] at h
    obtain ⟨⟨h1, h2, _⟩, h⟩ := h
    have h1 := List.append_cancel_left h1
    cases h1
    have hl : ∀ (f : Folder), ∀ e ∈ listed (above ++ [n]) f, above.length + 1 < e.path.length := by
      intro f e he
      obtain ⟨x, t, e'⟩ := entries_path f _ e he
      rw [e']
      simp
    obtain ⟨h3, h4⟩ := append_split (p := fun e : Listed => above.length + 1 < e.path.length) h (hl f) (hl g)
      (by intro e he; rw [(listedIn_head _ _ _ he).2]; omega) (by intro e he; rw [(listedIn_head _ _ _ he).2]; omega)
    obtain ⟨h5, h6⟩ := listed_inj f g _ h3
    rw [listedIn_inj rest rest' above h4]
    congr 1
    cases f; cases g
    simp only [Folder.files, Folder.folders, Folder.firstID] at h2 h5 h6
    rw [h2, h5, h6]

end

/-! ## Previews -/

theorem preview_some (files : List Bytes) (path : List Str) (id : Int) :
    preview (some files) id = if -(files.length : Int) ≤ id then
        .ok ((fileOf files ⟨path, id, false⟩).map fun d => shortBytesRepr d 16)
      else .error .indexError := by
  unfold preview fileOf
  simp only [Bool.false_eq_true, if_false]
  by_cases h0 : 0 ≤ id
  · rw [if_pos h0, if_pos h0, if_pos (show -(files.length : Int) ≤ id by omega)]
    by_cases h1 : (files.length : Int) ≤ id
    · rw [if_pos h1, List.getElem?_eq_none (by omega)]
      rfl
    · rw [if_neg h1]
      have : id.toNat < files.length := by omega
      rw [List.getElem?_eq_getElem this, pyIdx_eq_ok.2 (List.getElem?_eq_getElem this)]
      rfl
  · rw [if_neg h0, if_neg h0, if_neg (show ¬ (files.length : Int) ≤ id by omega)]
    by_cases h1 : 0 ≤ id + files.length
    · rw [if_pos h1, if_pos h1, if_pos (show -(files.length : Int) ≤ id by omega)]
      have : (id + files.length).toNat < files.length := by omega
      rw [List.getElem?_eq_getElem this, pyIdx_eq_ok.2 (List.getElem?_eq_getElem this)]
      rfl
    · rw [if_neg h1, if_neg (show ¬ -(files.length : Int) ≤ id by omega)]
      rfl

theorem fileOf_path (files : List Bytes) (p p' : List Str) (id : Int) : fileOf files ⟨p, id, false⟩ = fileOf files ⟨p', id, false⟩ := rfl

mutual

theorem uncombined_some (files : List Bytes) : ∀ (f : Folder) (indent : Nat) (above : List Str),
    ((∀ e ∈ listed above f, e.isFolder = false → -(files.length : Int) ≤ e.id) →
      ∃ l, uncombined (some files) indent f = .ok l ∧
        l.map Prod.snd = (listed above f).map fun e => (fileOf files e).map fun d => shortBytesRepr d 16) ∧
    ((∃ e ∈ listed above f, e.isFolder = false ∧ e.id < -(files.length : Int)) →
      uncombined (some files) indent f = .error .indexError)
  | .mk folders names firstID, indent, above => by
    obtain ⟨ih1, ih2⟩ := uncombinedIn_some files folders indent above
    have key : ∀ z : List (Str × Nat),
        ((∀ p ∈ z, -(files.length : Int) ≤ firstID + (p.2 : Int)) → ∃ own, mapE (fun p : Str × Nat => do
          let pre ← preview (some files) (firstID + (p.2 : Int))
          return (pad4 (firstID + (p.2 : Int)) ++ List.replicate (indent + 1) 32 ++ p.1, pre)) z = .ok own ∧
          own.map Prod.snd = (z.map fun p => (⟨above ++ [p.1], firstID + (p.2 : Int), false⟩ : Listed)).map
            fun e => (fileOf files e).map fun d => shortBytesRepr d 16) ∧
        ((∃ p ∈ z, firstID + (p.2 : Int) < -(files.length : Int)) → mapE (fun p : Str × Nat => do
          let pre ← preview (some files) (firstID + (p.2 : Int))
          return (pad4 (firstID + (p.2 : Int)) ++ List.replicate (indent + 1) 32 ++ p.1, pre)) z = .error .indexError) := by
      intro z
      induction z with
      | nil => exact ⟨fun _ => ⟨[], rfl, rfl⟩, by rintro ⟨_, h, _⟩; simp at h⟩
      | cons p z ih =>
        refine ⟨fun h => ?_, fun h => ?_⟩
        · obtain ⟨own, e1, e2⟩ := ih.1 (fun q hq => h q (by simp [hq]))
          rw [mapE, e1, preview_some files (above ++ [p.1]), if_pos (h p (by simp))]
          exact ⟨_, rfl, by rw [List.map_cons, e2]; rfl⟩
        · rw [mapE, preview_some files []]
          by_cases hp : -(files.length : Int) ≤ firstID + (p.2 : Int)
          · rw [if_pos hp, ih.2]
            · rfl
            · obtain ⟨q, hq, hlt⟩ := h
              rcases List.mem_cons.1 hq with rfl | hq
              · omega
              · exact ⟨q, hq, hlt⟩
          · rw [if_neg hp]
            rfl
    obtain ⟨k1, k2⟩ := key names.zipIdx
    rw [uncombined, listed]
    refine ⟨fun h => ?_, fun h => ?_⟩
    · obtain ⟨own, e1, e2⟩ := k1 (fun p hp => h _ (List.mem_append_left _ (List.mem_map_of_mem hp)) rfl)
      obtain ⟨l, e3, e4⟩ := ih1 (fun e he => h e (List.mem_append_right _ he))
      rw [e1, e3]
      exact ⟨own ++ l, rfl, by rw [List.map_append, List.map_append, e2, e4]⟩
    · by_cases hx : ∃ p ∈ names.zipIdx, firstID + (p.2 : Int) < -(files.length : Int)
      · rw [k2 hx]; rfl
      · obtain ⟨own, e1, _⟩ := k1 (fun p hp => by
          have : ¬ firstID + (p.2 : Int) < -(files.length : Int) := fun hlt => hx ⟨p, hp, hlt⟩
          omega)
        rw [e1, ih2]
        · rfl
        · obtain ⟨e, he, h1, h2⟩ := h
          rcases List.mem_append.1 he with he | he
          · obtain ⟨p, hp, rfl⟩ := List.mem_map.1 he
            exact absurd ⟨p, hp, h2⟩ hx
          · exact ⟨e, he, h1, h2⟩

theorem uncombinedIn_some (files : List Bytes) : ∀ (fs : Folders) (indent : Nat) (above : List Str),
    ((∀ e ∈ listedIn above fs, e.isFolder = false → -(files.length : Int) ≤ e.id) →
      ∃ l, uncombinedIn (some files) indent fs = .ok l ∧
        l.map Prod.snd = (listedIn above fs).map fun e => (fileOf files e).map fun d => shortBytesRepr d 16) ∧
    ((∃ e ∈ listedIn above fs, e.isFolder = false ∧ e.id < -(files.length : Int)) →
      uncombinedIn (some files) indent fs = .error .indexError)
  | .nil, indent, above => by
    rw [listedIn, uncombinedIn]
    exact ⟨fun _ => ⟨[], rfl, rfl⟩, by rintro ⟨_, h, _⟩; simp at h⟩
  | .cons n f rest, indent, above => by
    obtain ⟨i1, i2⟩ := uncombined_some files f (indent + 4) (above ++ [n])
    obtain ⟨j1, j2⟩ := uncombinedIn_some files rest indent above
    rw [uncombinedIn, listedIn]
    refine ⟨fun h => ?_, fun h => ?_⟩
    · obtain ⟨a, e1, e2⟩ := i1 (fun e he => h e (by simp [he]))
      obtain ⟨b, e3, e4⟩ := j1 (fun e he => h e (by simp [he]))
      rw [e1, e3]
      refine ⟨_, rfl, ?_⟩
      rw [List.map_cons, List.map_cons, List.map_append, List.map_append, e2, e4]
      rfl
    · obtain ⟨e, he, h1, h2⟩ := h
      rcases List.mem_cons.1 he with rfl | he
      · cases h1
      · rcases List.mem_append.1 he with he | he
        · rw [i2 ⟨e, he, h1, h2⟩]; rfl
        · by_cases hx : ∃ e ∈ listed (above ++ [n]) f, e.isFolder = false ∧ e.id < -(files.length : Int)
          · rw [i2 hx]; rfl
          · obtain ⟨a, e1, _⟩ := i1 (fun e' he' hf => by
              have : ¬ e'.id < -(files.length : Int) := fun hlt => hx ⟨e', he', hf, hlt⟩
              omega)
            rw [e1, j2 ⟨e, he, h1, h2⟩]; rfl

end

theorem readLines_plain (f : Folder) (h : Shown f) : readLines [] (plain 0 f) = some (listed [] f) := by
  obtain ⟨cur', _, hr⟩ := reads_plain f [] h [] rfl
  have hr := hr []
  simpa [readLines] using hr

theorem column_ge (l : List (Str × Option Str)) : ∀ p ∈ l, p.1.length + 4 ≤ previewColumn l := by
  intro p hp
  unfold previewColumn
  have : ∀ l : List (Str × Option Str), p ∈ l → p.1.length ≤ (l.map fun p => p.1.length).foldr max 0 := by
    intro l
    induction l with
    | nil => intro h; simp at h
    | cons q l ih =>
      intro h
      rw [List.map_cons, List.foldr_cons]
      rcases List.mem_cons.1 h with rfl | h
      · omega
      · have := ih h
        omega
  have := this l hp
  omega

/-! ## The text of an archive -/

theorem reprByte_no10 (b : Nat) : 10 ∉ reprByte b := by
  have hd : ∀ n, hexDigit n ≠ 10 := by intro n; unfold hexDigit; split <;> omega
  unfold reprByte
  split; · simp
  split; · simp
  split; · simp
  split; · simp
  split
  · simp [Ne.symm (hd _)]
  · intro h
    simp at h
    omega

theorem shortLoop_no10 : ∀ (n : Nat) (d : Bytes), 10 ∉ shortLoop n d
  | 0, _ => by simp [shortLoop]
  | n + 1, [] => by simp [shortLoop]
  | n + 1, b :: rest => by
    rw [shortLoop, List.mem_append]
    rintro (h | h)
    · split at h
      · simp at h; omega
      · exact reprByte_no10 _ h
    · exact shortLoop_no10 n rest h

theorem short_no10 (d : Bytes) (n : Nat) : 10 ∉ shortBytesRepr d n := by
  have := shortLoop_no10 n d
  unfold shortBytesRepr
  dsimp only
  split <;> simp [this]

theorem strList_no10 (f : Folder) (h : Shown f) (files : List Bytes) (ls : List Str) (hs : strList f 0 (some files) = .ok ls) :
    ∀ l ∈ ls, 10 ∉ l := by
  unfold strList at hs
  simp only [bind_eq_ok, pure_eq_ok] at hs
  obtain ⟨u, hu, rfl⟩ := hs
  have hp := uncombined_plain _ _ _ _ hu
  have hpre : ∀ p ∈ u, ∀ t, p.2 = some t → 10 ∉ t := by
    have hx : ∀ e ∈ listed [] f, e.isFolder = false → -(files.length : Int) ≤ e.id := by
      intro e he hf
      have : ¬ e.id < -(files.length : Int) := fun hlt => by
        rw [(uncombined_some files f 0 []).2 ⟨e, he, hf, hlt⟩] at hu
        cases hu
      omega
    obtain ⟨u', hu', hs'⟩ := (uncombined_some files f 0 []).1 hx
    rw [hu'] at hu
    cases hu
    intro p hp t ht
    have := List.mem_map_of_mem (f := Prod.snd) hp
    rw [hs', ht] at this
    obtain ⟨e, _, he⟩ := List.mem_map.1 this
    cases hf : fileOf files e with
    | none => rw [hf] at he; cases he
    | some d => rw [hf] at he; cases he; exact short_no10 _ _
  intro l hl
  obtain ⟨p, hpm, rfl⟩ := List.mem_map.1 hl
  have h1 : 10 ∉ p.1 := (plain_lines f 0 h p.1 (by rw [← hp]; exact List.mem_map_of_mem hpm)).1
  split
  · exact h1
  · rename_i t ht
    have := hpre p hpm t ht
    simp [h1, this]

theorem join_indent (ls : List Str) (hne : ls ≠ []) : ∀ rest, lit "\n    " ++ join (lit "\n    ") ls ++ 10 :: rest =
    10 :: (join [10] (ls.map (lit "    " ++ ·)) ++ 10 :: rest) := by
  intro rest
  match ls, hne with
  | [l], _ => rfl
  | l :: l' :: ls, _ =>
    have ih := join_indent (l' :: ls) (by simp) rest
    rw [join, List.map_cons, List.map_cons, join, ← List.map_cons]
    have e : lit "\n    " = 10 :: lit "    " := rfl
    rw [e] at ih ⊢
    simp only [List.cons_append, List.nil_append, List.append_assoc, List.cons.injEq, true_and] at ih ⊢
    rw [ih]

theorem splitLines_append : ∀ (ls : List Str) (s : Str), ls ≠ [] → (∀ l ∈ ls, 10 ∉ l) →
    splitLines (join [10] ls ++ 10 :: s) = ls ++ splitLines s
  | [], _, h, _ => absurd rfl h
  | [l], s, _, h => splitLines_cons l s (h l (by simp))
  | l :: l' :: ls, s, _, h => by
    have ih := splitLines_append (l' :: ls) s (by simp) (fun x hx => h x (by simp [hx]))
    rw [join, List.append_assoc, List.append_assoc, List.cons_append, List.nil_append, splitLines_cons l _ (h l (by simp)), ih]
    rfl

theorem readNARC_text (notes : Str) (big : Bool) (hn : notes = if big then lit " endiannessOfBeginning='>'" else []) (ls : List Str)
    (h10 : ∀ l ∈ ls, 10 ∉ l) (hls : ∀ l ∈ ls, l ≠ []) :
    readNARC (lit "<narc" ++ notes ++ lit "\n    " ++ join (lit "\n    ") ls ++ lit "\n>") = some (big, ls) := by
  have hfirst : 10 ∉ lit "<narc" ++ notes := by
    rw [hn]
    cases big <;> decide +kernel
  have hbig : (big = true ∨ lit "<narc" ++ notes = "<narc".toList.map Char.toNat) ∧
      decide (lit "<narc" ++ notes = "<narc endiannessOfBeginning='>'".toList.map Char.toNat) = big := by
    rw [hn]
    cases big <;> decide +kernel
  have hsplit : splitLines (lit "<narc" ++ notes ++ lit "\n    " ++ join (lit "\n    ") ls ++ lit "\n>") =
      (lit "<narc" ++ notes) :: ((if ls = [] then [lit "    "] else ls.map (lit "    " ++ ·)) ++ [[62]]) := by
    have e2 : lit "\n>" = 10 :: [62] := rfl
    rw [e2]
    by_cases hne : ls = []
    · subst hne
      rw [if_pos rfl]
      have : lit "<narc" ++ notes ++ lit "\n    " ++ join (lit "\n    ") [] ++ 10 :: [62] =
          (lit "<narc" ++ notes) ++ 10 :: (lit "    " ++ 10 :: [62]) := by
        have e : lit "\n    " = 10 :: lit "    " := rfl
        rw [e, join]
        simp
      rw [this, splitLines_cons _ _ hfirst, splitLines_cons _ _ (by decide +kernel)]
      rfl
    · rw [if_neg hne]
      have : lit "<narc" ++ notes ++ lit "\n    " ++ join (lit "\n    ") ls ++ 10 :: [62] =
          (lit "<narc" ++ notes) ++ 10 :: (join [10] (ls.map (lit "    " ++ ·)) ++ 10 :: [62]) := by
        rw [← join_indent ls hne]
        simp
      rw [this, splitLines_cons _ _ hfirst, splitLines_append _ _ (by simpa using hne)]
      · rfl
      · intro l hl
        obtain ⟨x, hx, rfl⟩ := List.mem_map.1 hl
        have hb : 10 ∉ lit "    " := by decide +kernel
        simp [hb, h10 x hx]
  unfold readNARC
  rw [hsplit]
  have h4 : lit "    " = [32, 32, 32, 32] := rfl
  simp only [List.dropLast_concat, List.getLast?_append, List.getLast?_singleton, Option.some_or]
  rw [hbig.2]
  have hall : ∀ l ∈ (if ls = [] then [lit "    "] else ls.map (lit "    " ++ ·)), l.take 4 = [32, 32, 32, 32] := by
    intro l hl
    split at hl
    · simp only [List.mem_singleton] at hl
      subst hl
      rfl
    · obtain ⟨x, _, rfl⟩ := List.mem_map.1 hl
      rfl
  rw [if_pos ⟨hbig.1, trivial, hall⟩]
  by_cases hne : ls = []
  · subst hne
    rfl
  · rw [if_neg hne, if_neg]
    · rw [List.map_map]
      have : ((List.drop 4) ∘ fun x : Str => lit "    " ++ x) = id := by funext x; rfl
      rw [this, List.map_id]
    · intro e
      match ls, hne with
      | [l], _ =>
        simp only [List.map_cons, List.map_nil, List.cons.injEq, and_true] at e
        have : lit "    " ++ l = lit "    " ++ [] := e
        exact hls l (by simp) (List.append_cancel_left this)
      | l :: l' :: ls, _ => simp at e

end Verif.Proofs.Listing
