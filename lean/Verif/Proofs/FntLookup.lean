import Verif.Spec.Fnt

/-!
# Lemmas about looking up files by path and by ID
-/

namespace Verif.Proofs.FntLookup

open Verif Verif.Model.Fnt Verif.Spec.Fnt

/-! ## Paths -/

theorem pyJoin_cons {w : Str} {ws : List Str} (h : ws ≠ []) :
    pyJoin 47 (w :: ws) = w ++ 47 :: pyJoin 47 ws := by
  cases ws with
  | nil => exact absurd rfl h
  | cons a b => rfl

theorem pyJoin_snoc {ws : List Str} {w : Str} (h : ws ≠ []) :
    pyJoin 47 (ws ++ [w]) = pyJoin 47 ws ++ 47 :: w := by
  induction ws with
  | nil => exact absurd rfl h
  | cons a b ih =>
    cases b with
    | nil => rfl
    | cons c d =>
      rw [List.cons_append, pyJoin_cons (by simp), ih (by simp), pyJoin_cons (w := a) (ws := c :: d) (by simp)]
      simp

theorem pyJoin_pad {cs : List Str} (h : cs ≠ []) (m n : Nat) :
    pyJoin 47 (List.replicate m [] ++ cs ++ List.replicate n []) =
      List.replicate m 47 ++ pyJoin 47 cs ++ List.replicate n 47 := by
  have h1 : ∀ n, pyJoin 47 (cs ++ List.replicate n []) = pyJoin 47 cs ++ List.replicate n 47 := by
    intro n
    induction n with
    | zero => simp
    | succ n ih =>
      rw [List.replicate_succ', ← List.append_assoc, pyJoin_snoc (by simp [h]), ih,
        List.replicate_succ', List.append_assoc]
  induction m with
  | zero => simp [h1]
  | succ m ih =>
    rw [List.replicate_succ, List.cons_append, List.cons_append, pyJoin_cons (by simp [h]), ih]
    simp [List.replicate_succ]

theorem dropWhile_replicate_append {m : Nat} {l : List Str} (h : ∀ c rest, l = c :: rest → c ≠ []) :
    (List.replicate m [] ++ l).dropWhile (·.isEmpty) = l := by
  induction m with
  | zero =>
    cases l with
    | nil => rfl
    | cons c rest =>
      have := h c rest rfl
      simp [this]
  | succ m ih => simp [List.replicate_succ, ih]

theorem components_ne_nil {cs : List Str} (h : Components cs) : cs ≠ [] := by
  obtain ⟨_, ⟨c, rest, rfl, _⟩, _⟩ := h; simp

theorem pathList_of_denotes {path : Str} {cs : List Str} (h : Denotes path cs) : pathList path = .ok cs := by
  obtain ⟨hc, m, n, rfl⟩ := h
  have hne := components_ne_nil hc
  obtain ⟨h1, ⟨c, rest, hcs, hc0⟩, init, l, hcs', hl0⟩ := hc
  unfold pathList
  rw [← pyJoin_pad hne, pySplit_pyJoin (by simp [hne]) (by
    intro w hw
    simp only [List.mem_append, List.mem_replicate] at hw
    rcases hw with (⟨_, rfl⟩ | hw) | ⟨_, rfl⟩
    · simp
    · exact h1 w hw
    · simp)]
  have e1 : stripEnd (List.replicate m [] ++ cs ++ List.replicate n []) = .ok (List.replicate m [] ++ cs) := by
    unfold stripEnd
    rw [List.reverse_append, List.reverse_replicate, dropWhile_replicate_append (by
      intro c rest he
      rw [hcs'] at he
      simp at he
      rw [← he.1]; exact hl0), List.reverse_reverse]
    split
    · rename_i he; simp [hne] at he
    · rfl
  rw [e1, bind_ok]
  unfold stripStart
  rw [dropWhile_replicate_append (by
    intro c' rest' he
    rw [hcs] at he
    cases he
    exact hc0)]
  split
  · exact absurd rfl hne
  · rfl

theorem takeWhile_isEmpty (l : List Str) : ∃ m, l.takeWhile (·.isEmpty) = List.replicate m [] := by
  refine ⟨(l.takeWhile (·.isEmpty)).length, List.eq_replicate_iff.2 ⟨rfl, ?_⟩⟩
  intro b hb
  have := List.all_takeWhile (p := (·.isEmpty)) (l := l)
  rw [List.all_eq_true] at this
  simpa using this b hb

theorem dropWhile_head {l : List Str} {c : Str} {rest : List Str}
    (h : l.dropWhile (·.isEmpty) = c :: rest) : c ≠ [] := by
  induction l with
  | nil => simp at h
  | cons a l ih =>
    rw [List.dropWhile_cons] at h
    split at h
    · exact ih h
    · cases h
      rename_i hc
      simpa using hc

theorem pyJoin_replicate (n : Nat) : pyJoin 47 (List.replicate n []) = List.replicate (n - 1) 47 := by
  induction n with
  | zero => rfl
  | succ n ih =>
    cases n with
    | zero => rfl
    | succ n =>
      rw [List.replicate_succ, pyJoin_cons (by simp), ih]
      simp [List.replicate_succ]

/-- Every path consists of slashes only or denotes components. -/
theorem path_cases (path : Str) :
    (∃ n, path = List.replicate n 47 ∧ pathList path = .error .indexError) ∨ ∃ cs, Denotes path cs := by
  have hj := pyJoin_pySplit 47 path
  have hnm : ∀ w ∈ pySplit 47 path, 47 ∉ w := fun w hw => not_mem_of_mem_pySplit hw
  generalize hl : pySplit 47 path = l at *
  obtain ⟨n, hn⟩ := takeWhile_isEmpty l.reverse
  have h1 : l.reverse = List.replicate n [] ++ l.reverse.dropWhile (·.isEmpty) := by
    rw [← hn, List.takeWhile_append_dropWhile]
  have h2 : l = (l.reverse.dropWhile (·.isEmpty)).reverse ++ List.replicate n [] := by
    have := congrArg List.reverse h1
    rw [List.reverse_reverse, List.reverse_append, List.reverse_replicate] at this
    exact this
  cases hd : l.reverse.dropWhile (·.isEmpty) with
  | nil =>
    left
    rw [hd] at h2
    simp at h2
    refine ⟨n - 1, ?_, ?_⟩
    · rw [← hj, h2, pyJoin_replicate]
    · unfold pathList stripEnd
      rw [hl, hd]
      rfl
  | cons c rest =>
    right
    have hc := dropWhile_head hd
    rw [hd] at h2
    generalize hK : (c :: rest).reverse = K at *
    have hK' : K = rest.reverse ++ [c] := by rw [← hK]; simp
    obtain ⟨m, hm⟩ := takeWhile_isEmpty K
    have h3 : K = List.replicate m [] ++ K.dropWhile (·.isEmpty) := by
      rw [← hm, List.takeWhile_append_dropWhile]
    cases hd2 : K.dropWhile (·.isEmpty) with
    | nil =>
      exfalso
      rw [hd2] at h3
      have : c ∈ K := by rw [hK']; simp
      rw [h3] at this
      simp at this
      exact hc this.2
    | cons a as =>
      have ha := dropWhile_head hd2
      rw [hd2] at h3
      refine ⟨a :: as, ⟨?_, ⟨a, as, rfl, ha⟩, ?_⟩, m, n, ?_⟩
      · intro w hw
        apply hnm w
        rw [h2, h3]
        simp only [List.mem_append]
        exact Or.inl (Or.inr hw)
      · refine ⟨(a :: as).dropLast, c, ?_, hc⟩
        have h4 : (a :: as).getLast (by simp) = c := by
          have : K.getLast (by rw [hK']; simp) = c := by simp [hK']
          rw [← this]
          conv => rhs; arg 1; rw [h3]
          rw [List.getLast_append_of_ne_nil (by simp)]
        rw [← h4, List.dropLast_concat_getLast]
      · rw [← hj, h2, h3, pyJoin_pad (by simp)]

/-! ## Following names -/

theorem find_iff {name : Str} : ∀ {fs : Folders} {g : Folder}, fs.find name = some g ↔ FirstNamed name fs g
  | .nil, g => by
    unfold Folders.find
    constructor
    · intro h; cases h
    · intro h; cases h
  | .cons n f rest, g => by
    unfold Folders.find
    split
    · rename_i h
      subst h
      constructor
      · intro h; cases h; exact .here _ _
      · intro h
        cases h with
        | here => rfl
        | there _ _ _ _ hne _ => exact absurd rfl hne
    · rename_i h
      rw [find_iff]
      constructor
      · intro h'; exact .there _ _ _ _ h h'
      · intro h'
        cases h' with
        | here => exact absurd rfl h
        | there _ _ _ _ _ h' => exact h'

theorem indexOf_iff {name : Str} {files : List Str} {k : Nat} :
    indexOf name files = some k ↔ files[k]? = some name ∧ ∀ j < k, files[j]? ≠ some name := by
  unfold indexOf
  rw [List.findIdx?_eq_some_iff_getElem]
  constructor
  · rintro ⟨h, h1, h2⟩
    refine ⟨by rw [List.getElem?_eq_getElem h]; simpa using h1, ?_⟩
    intro j hj
    have := h2 j hj
    rw [List.getElem?_eq_getElem (by omega)]
    simpa using this
  · rintro ⟨h1, h2⟩
    obtain ⟨h, h1⟩ := List.getElem?_eq_some_iff.1 h1
    refine ⟨h, by simpa using h1, ?_⟩
    intro j hj
    have := h2 j hj
    rw [List.getElem?_eq_getElem (by omega)] at this
    simpa using this

theorem idInFolder_iff {name : Str} {i : Int} : ∀ {dirs : List Str} {f : Folder},
    idInFolder (dirs ++ [name]) f = some i ↔
      ∃ g k, Leads f dirs g ∧ FileAt g name k ∧ i = g.firstID + (k : Int)
  | [], f => by
    rw [List.nil_append, idInFolder]
    constructor
    · intro h
      split at h
      · rename_i k hk
        cases h
        exact ⟨f, k, .nil _, indexOf_iff.1 hk, rfl⟩
      · cases h
    · rintro ⟨g, k, h1, h2, rfl⟩
      cases h1
      rw [indexOf_iff.2 h2]
  | d :: dirs, f => by
    have e : idInFolder (d :: dirs ++ [name]) f =
        match f.folders.find d with
        | some sub => idInFolder (dirs ++ [name]) sub
        | none => none := by
      cases dirs with
      | nil => rfl
      | cons a b => rfl
    rw [e]
    constructor
    · intro h
      split at h
      · rename_i sub hs
        obtain ⟨g, k, h1, h2, h3⟩ := idInFolder_iff.1 h
        exact ⟨g, k, .cons _ _ _ _ _ (find_iff.1 hs) h1, h2, h3⟩
      · cases h
    · rintro ⟨g, k, h1, h2, h3⟩
      cases h1 with
      | cons _ _ _ sub _ hf hl =>
        rw [find_iff.2 hf]
        exact idInFolder_iff.2 ⟨g, k, hl, h2, h3⟩

theorem subInFolder_iff {g : Folder} : ∀ {dirs : List Str} {f : Folder}, dirs ≠ [] →
    (subInFolder dirs f = some g ↔ Leads f dirs g)
  | [], _, h => absurd rfl h
  | [d], f, _ => by
    rw [subInFolder, find_iff]
    constructor
    · intro h; exact .cons _ _ _ _ _ h (.nil _)
    · intro h
      cases h with
      | cons _ _ _ s _ hf hl => cases hl; exact hf
  | d :: d' :: dirs, f, _ => by
    rw [subInFolder]
    constructor
    · intro h
      split at h
      · rename_i sub hs
        exact .cons _ _ _ _ _ (find_iff.1 hs) ((subInFolder_iff (by simp)).1 h)
      · cases h
    · intro h
      cases h with
      | cons _ _ _ s _ hf hl =>
        rw [find_iff.2 hf]
        exact (subInFolder_iff (by simp)).2 hl
    · simp

theorem firstNamed_unique {name : Str} {fs : Folders} {g h : Folder} (h1 : FirstNamed name fs g)
    (h2 : FirstNamed name fs h) : g = h := by
  have := find_iff.2 h1
  rw [find_iff.2 h2] at this
  cases this; rfl

/-! ## From IDs to paths -/

mutual
theorem nameInFolder_comps (id : Int) : ∀ {f : Folder} {cs : List Str}, WellNamed f → nameInFolder id f = some cs →
    cs ≠ [] ∧ (∀ c ∈ cs, c ≠ [] ∧ 47 ∉ c) ∧ idInFolder cs f = some id
  | .mk fs files i, cs, hw, h => by
    unfold WellNamed at hw
    rw [All] at hw
    obtain ⟨⟨h1, h2, h3, h4⟩, h5⟩ := hw
    simp only [Folder.folders, Folder.files] at h1 h2 h3 h4
    rw [nameInFolder] at h
    split at h
    · rename_i hr
      cases h
      have hlt : (id - i).toNat < files.length := by omega
      rw [List.getElem?_eq_getElem hlt, Option.getD_some]
      refine ⟨by simp, ?_, ?_⟩
      · intro c hc
        simp only [List.mem_singleton] at hc
        subst hc
        exact h4 _ (List.getElem_mem hlt)
      · rw [idInFolder]
        have : indexOf files[(id - i).toNat] files = some (id - i).toNat := by
          rw [indexOf_iff]
          refine ⟨List.getElem?_eq_getElem hlt, ?_⟩
          intro j hj he
          rw [List.getElem?_eq_getElem (by omega)] at he
          have he' := Option.some.inj he
          exact List.pairwise_iff_getElem.1 h2 j (id - i).toNat (by omega) hlt hj he'
        simp only [Folder.files, Folder.firstID]
        rw [this]
        simp
        omega
    · obtain ⟨n, p, rfl, hn, hp, hpc, sub, hs, hid⟩ := nameInFolders_comps id h5 h1 h
      refine ⟨by simp, ?_, ?_⟩
      · intro c hc
        rcases List.mem_cons.1 hc with rfl | hc
        · exact h3 _ hn
        · exact hpc c hc
      · cases p with
        | nil => exact absurd rfl hp
        | cons a b =>
          rw [idInFolder]
          · simp only [Folder.folders]; rw [hs]; exact hid
          · simp
theorem nameInFolders_comps (id : Int) : ∀ {fs : Folders} {cs : List Str},
    AllIn (fun f => (names f.folders).Nodup ∧ f.files.Nodup ∧
      (∀ n ∈ names f.folders, n ≠ [] ∧ 47 ∉ n) ∧ ∀ n ∈ f.files, n ≠ [] ∧ 47 ∉ n) fs →
    (names fs).Nodup → nameInFolders id fs = some cs →
    ∃ n p, cs = n :: p ∧ n ∈ names fs ∧ p ≠ [] ∧ (∀ c ∈ p, c ≠ [] ∧ 47 ∉ c) ∧
      ∃ sub, fs.find n = some sub ∧ idInFolder p sub = some id
  | .nil, cs, _, _, h => by rw [nameInFolders] at h; cases h
  | .cons n f rest, cs, ha, hn, h => by
    rw [AllIn] at ha
    rw [names, List.nodup_cons] at hn
    rw [nameInFolders] at h
    split at h
    · rename_i p hp
      cases h
      obtain ⟨h1, h2, h3⟩ := nameInFolder_comps id (f := f) ha.1 hp
      exact ⟨n, p, rfl, by simp [names], h1, h2, f, by simp [Folders.find], h3⟩
    · obtain ⟨n', p, rfl, hn', hp, hpc, sub, hs, hid⟩ := nameInFolders_comps id ha.2 hn.2 h
      refine ⟨n', p, rfl, by simp [names, hn'], hp, hpc, sub, ?_, hid⟩
      rw [Folders.find, if_neg, hs]
      rintro rfl
      exact hn.1 hn'
end

end Verif.Proofs.FntLookup
