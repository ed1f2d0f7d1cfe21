import Verif.Props.Fnt
import Verif.Props.Narc
import Verif.Props.Nested
import Verif.Spec.Numbering

/-!
# C157: names and numbers of files
-/

namespace Verif.Props.Numbering

open Verif Verif.Model Verif.Model.Fnt Verif.Spec.Fnt Verif.Spec.Numbering
open Verif.Proofs.FntLookup

/-! ## What a tree contains -/

theorem mem_files {files : List Str} {n i : Int} {p : List Str} :
    (p, i) ∈ (files.zipIdx.map fun p => ([p.1], n + (p.2 : Int))) ↔
      ∃ (k : Nat) (name : Str), files[k]? = some name ∧ p = [name] ∧ i = n + k := by
  rw [List.mem_map]
  constructor
  · rintro ⟨⟨name, k⟩, h, e⟩
    cases e
    exact ⟨k, name, List.mem_zipIdx_iff_getElem?.1 h, rfl, rfl⟩
  · rintro ⟨k, name, h, rfl, rfl⟩
    exact ⟨(name, k), List.mem_zipIdx_iff_getElem?.2 h, rfl⟩

theorem mem_firstNamed {n : Str} {fs : Folders} {g : Folder} {p : List Str} {i : Int} (h : FirstNamed n fs g)
    (hg : (p, i) ∈ entries g) : (n :: p, i) ∈ entriesIn fs := by
  induction h with
  | here f rest =>
    rw [entriesIn, List.mem_append]
    exact .inl (List.mem_map.2 ⟨_, hg, rfl⟩)
  | there m f g rest _ _ ih =>
    rw [entriesIn, List.mem_append]
    exact .inr (ih hg)

theorem mem_of_id {i : Int} : ∀ {p : List Str} {f : Folder}, idInFolder p f = some i → (p, i) ∈ entries f
  | [], f, h => by rw [idInFolder] at h; cases h
  | [name], .mk fs files n, h => by
    rw [idInFolder] at h
    split at h
    · rename_i k hk
      cases h
      rw [entries, List.mem_append, mem_files]
      exact .inl ⟨k, name, (indexOf_iff.1 hk).1, rfl, rfl⟩
    · cases h
  | part :: a :: rest, .mk fs files n, h => by
    rw [idInFolder] at h
    · split at h
      · rename_i sub hs
        rw [entries, List.mem_append]
        exact .inr (mem_firstNamed (find_iff.1 hs) (mem_of_id h))
      · cases h
    · simp

mutual
theorem mem_of_name {i : Int} : ∀ {f : Folder} {p : List Str}, nameInFolder i f = some p → (p, i) ∈ entries f
  | .mk fs files n, p, h => by
    rw [nameInFolder] at h
    rw [entries, List.mem_append, mem_files]
    split at h
    · rename_i hr
      cases h
      have hlt : (i - n).toNat < files.length := by omega
      refine .inl ⟨(i - n).toNat, files[(i - n).toNat], List.getElem?_eq_getElem hlt, ?_, by omega⟩
      rw [List.getElem?_eq_getElem hlt, Option.getD_some]
    · exact .inr (mem_of_nameIn h)
theorem mem_of_nameIn {i : Int} : ∀ {fs : Folders} {p : List Str}, nameInFolders i fs = some p → (p, i) ∈ entriesIn fs
  | .nil, p, h => by rw [nameInFolders] at h; cases h
  | .cons n f rest, p, h => by
    rw [nameInFolders] at h
    rw [entriesIn, List.mem_append]
    split at h
    · rename_i q hq
      cases h
      exact .inl (List.mem_map.2 ⟨_, mem_of_name hq, rfl⟩)
    · exact .inr (mem_of_nameIn h)
end

mutual
theorem name_of_mem {i : Int} : ∀ {f : Folder} {p : List Str}, (p, i) ∈ entries f → (nameInFolder i f).isSome
  | .mk fs files n, p, h => by
    rw [entries, List.mem_append, mem_files] at h
    rw [nameInFolder]
    split
    · rfl
    · rename_i hr
      rcases h with ⟨k, name, hk, rfl, rfl⟩ | h
      · have := (List.getElem?_eq_some_iff.1 hk).1
        omega
      · exact name_of_memIn h
theorem name_of_memIn {i : Int} : ∀ {fs : Folders} {p : List Str}, (p, i) ∈ entriesIn fs → (nameInFolders i fs).isSome
  | .nil, p, h => by rw [entriesIn] at h; cases h
  | .cons n f rest, p, h => by
    rw [entriesIn, List.mem_append] at h
    rw [nameInFolders]
    split
    · rfl
    · rename_i hn
      rcases h with h | h
      · obtain ⟨e, he, heq⟩ := List.mem_map.1 h
        obtain ⟨q, j⟩ := e
        cases heq
        have := name_of_mem he
        rw [hn] at this
        cases this
      · exact name_of_memIn h
end

mutual
/-- What the tree contains has good names, and is found. -/
theorem id_of_mem {i : Int} : ∀ {f : Folder} {p : List Str}, WellNamed f → (p, i) ∈ entries f →
    p ≠ [] ∧ (∀ c ∈ p, c ≠ [] ∧ 47 ∉ c) ∧ idInFolder p f = some i
  | .mk fs files n, p, hw, h => by
    unfold WellNamed at hw
    rw [All] at hw
    obtain ⟨⟨h1, h2, h3, h4⟩, h5⟩ := hw
    simp only [Folder.folders, Folder.files] at h1 h2 h3 h4
    rw [entries, List.mem_append, mem_files] at h
    rcases h with ⟨k, name, hk, rfl, rfl⟩ | h
    · refine ⟨by simp, ?_, ?_⟩
      · intro c hc
        simp only [List.mem_singleton] at hc
        subst hc
        exact h4 _ (List.mem_of_getElem? hk)
      · rw [idInFolder]
        have : indexOf name files = some k := by
          rw [indexOf_iff]
          refine ⟨hk, fun j hj he => ?_⟩
          obtain ⟨h6, h7⟩ := List.getElem?_eq_some_iff.1 hk
          obtain ⟨h8, h9⟩ := List.getElem?_eq_some_iff.1 he
          exact List.pairwise_iff_getElem.1 h2 j k h8 h6 hj (h9.trans h7.symm)
        simp only [Folder.files, Folder.firstID]
        rw [this]
    · obtain ⟨m, q, rfl, hm, hq, hqc, sub, hs, hid⟩ := id_of_memIn h5 h1 h
      refine ⟨by simp, ?_, ?_⟩
      · intro c hc
        rcases List.mem_cons.1 hc with rfl | hc
        · exact h3 _ hm
        · exact hqc c hc
      · cases q with
        | nil => exact absurd rfl hq
        | cons a b =>
          rw [idInFolder]
          · simp only [Folder.folders]; rw [hs]; exact hid
          · simp
theorem id_of_memIn {i : Int} : ∀ {fs : Folders} {p : List Str},
    AllIn (fun f => (names f.folders).Nodup ∧ f.files.Nodup ∧
      (∀ n ∈ names f.folders, n ≠ [] ∧ 47 ∉ n) ∧ ∀ n ∈ f.files, n ≠ [] ∧ 47 ∉ n) fs →
    (names fs).Nodup → (p, i) ∈ entriesIn fs →
    ∃ n q, p = n :: q ∧ n ∈ names fs ∧ q ≠ [] ∧ (∀ c ∈ q, c ≠ [] ∧ 47 ∉ c) ∧
      ∃ sub, fs.find n = some sub ∧ idInFolder q sub = some i
  | .nil, p, _, _, h => by rw [entriesIn] at h; cases h
  | .cons n f rest, p, ha, hn, h => by
    rw [AllIn] at ha
    rw [names, List.nodup_cons] at hn
    rw [entriesIn, List.mem_append] at h
    rcases h with h | h
    · obtain ⟨⟨q, j⟩, he, heq⟩ := List.mem_map.1 h
      cases heq
      obtain ⟨h1, h2, h3⟩ := id_of_mem (f := f) ha.1 he
      exact ⟨n, q, rfl, by simp [names], h1, h2, f, by simp [Folders.find], h3⟩
    · obtain ⟨n', q, rfl, hn', hq, hqc, sub, hs, hid⟩ := id_of_memIn ha.2 hn.2 h
      refine ⟨n', q, rfl, by simp [names, hn'], hq, hqc, sub, ?_, hid⟩
      rw [Folders.find, if_neg, hs]
      rintro rfl
      exact hn.1 hn'
end

theorem mem_unique {f : Folder} (hd : Distinct f) {p q : List Str} {i : Int} (hp : (p, i) ∈ entries f)
    (hq : (q, i) ∈ entries f) : p = q := by
  unfold Distinct ids at hd
  rw [List.Nodup, List.pairwise_map] at hd
  obtain ⟨a, ha, hpa⟩ := List.mem_iff_getElem.1 hp
  obtain ⟨b, hb, hqb⟩ := List.mem_iff_getElem.1 hq
  rcases Nat.lt_trichotomy a b with h | rfl | h
  · exact absurd (by rw [hpa, hqb]) (List.pairwise_iff_getElem.1 hd a b ha hb h)
  · rw [hpa] at hqb
    cases hqb
    rfl
  · exact absurd (by rw [hpa, hqb]) (List.pairwise_iff_getElem.1 hd b a hb ha h)

/-! ## From a name to the number, and back -/

/-- **C157.** If no two files have the same number, then the number that a path leads to has this path as its name, up to
slashes around. -/
theorem filename_of_id (f : Folder) (hd : Distinct f) (path : Str) (cs : List Str) (hp : Denotes path cs) (i : Int)
    (h : idOf f path = .ok (some i)) : filenameOf f i = some (pyJoin 47 cs) := by
  unfold idOf at h
  rw [pathList_of_denotes hp, bind_ok, pure_eq_ok] at h
  have hm := mem_of_id h
  obtain ⟨q, hq⟩ := Option.isSome_iff_exists.1 (name_of_mem hm)
  unfold filenameOf
  rw [hq, mem_unique hd hm (mem_of_name hq)]
  rfl

/-- **C157.** Then different paths lead to different numbers. -/
theorem path_unique (f : Folder) (hd : Distinct f) (path path' : Str) (cs cs' : List Str) (hp : Denotes path cs)
    (hp' : Denotes path' cs') (i : Int) (h : idOf f path = .ok (some i)) (h' : idOf f path' = .ok (some i)) : cs = cs' := by
  unfold idOf at h h'
  rw [pathList_of_denotes hp, bind_ok, pure_eq_ok] at h
  rw [pathList_of_denotes hp', bind_ok, pure_eq_ok] at h'
  exact mem_unique hd (mem_of_id h) (mem_of_id h')

/-- **C157.** The numbers that have a name are those of the files of the tree. -/
theorem named_iff (f : Folder) (i : Int) : (filenameOf f i).isSome ↔ i ∈ ids f := by
  unfold filenameOf ids
  rw [Option.isSome_map, List.mem_map]
  constructor
  · intro h
    obtain ⟨q, hq⟩ := Option.isSome_iff_exists.1 h
    exact ⟨_, mem_of_name hq, rfl⟩
  · rintro ⟨⟨p, j⟩, h, rfl⟩
    exact name_of_mem h

theorem denotes_components {p : List Str} (h1 : p ≠ []) (h2 : ∀ c ∈ p, c ≠ [] ∧ 47 ∉ c) : Denotes (pyJoin 47 p) p := by
  refine ⟨⟨fun c hc => (h2 c hc).2, ?_, ?_⟩, 0, 0, by simp⟩
  · cases p with
    | nil => exact absurd rfl h1
    | cons c rest => exact ⟨c, rest, rfl, (h2 c (by simp)).1⟩
  · exact ⟨p.dropLast, p.getLast h1, (List.dropLast_concat_getLast h1).symm, (h2 _ (List.getLast_mem h1)).1⟩

/-- **C157.** In a well-named tree the paths that lead to a file are those of the files of the tree. -/
theorem found_iff (f : Folder) (hw : WellNamed f) (path : Str) (cs : List Str) (hp : Denotes path cs) (i : Int) :
    idOf f path = .ok (some i) ↔ (cs, i) ∈ entries f := by
  unfold idOf
  rw [pathList_of_denotes hp, bind_ok, pure_eq_ok]
  exact ⟨mem_of_id, fun h => (id_of_mem hw h).2.2⟩

/-! ## Numbers one after another -/

theorem numbered_distinct {n : Int} {f : Folder} (h : Numbered n f) : Distinct f := by
  unfold Distinct
  refine List.pairwise_iff_getElem.2 fun a b ha hb hab he => ?_
  have h1 := h a _ (List.getElem?_eq_getElem ha)
  have h2 := h b _ (List.getElem?_eq_getElem hb)
  omega

theorem numbered_entry {n : Int} {f : Folder} (h : Numbered n f) {k : Nat} {p : List Str} (hp : (paths f)[k]? = some p) :
    (entries f)[k]? = some (p, n + k) := by
  unfold paths at hp
  rw [List.getElem?_map] at hp
  obtain ⟨⟨q, i⟩, he, rfl⟩ := Option.map_eq_some_iff.1 hp
  have := h k i (by unfold ids; rw [List.getElem?_map, he]; rfl)
  rw [he, this]

/-- **C157.** In a well-named tree whose files are numbered one after another, the path of the `k`-th file leads to the
`k`-th number, and this number back to the path. -/
theorem numbered_lookup (n : Int) (f : Folder) (hw : WellNamed f) (hn : Numbered n f) (k : Nat) (p : List Str)
    (hp : (paths f)[k]? = some p) :
    (∀ path, Denotes path p → idOf f path = .ok (some (n + k))) ∧ idOf f (pyJoin 47 p) = .ok (some (n + k)) ∧
      filenameOf f (n + k) = some (pyJoin 47 p) := by
  have hm := List.mem_of_getElem? (numbered_entry hn hp)
  obtain ⟨h1, h2, -⟩ := id_of_mem hw hm
  have h3 : ∀ path, Denotes path p → idOf f path = .ok (some (n + k)) := fun path hp => (found_iff f hw path p hp _).2 hm
  have h4 := h3 _ (denotes_components h1 h2)
  exact ⟨h3, h4, filename_of_id f (numbered_distinct hn) _ p (denotes_components h1 h2) _ h4⟩

/-- **C157.** Nothing else has a name: the numbers with one are those from `n` on, as many as there are files. -/
theorem numbered_names (n : Int) (f : Folder) (hn : Numbered n f) (i : Int) :
    (filenameOf f i).isSome ↔ n ≤ i ∧ i < n + (paths f).length := by
  rw [named_iff]
  have hl : (ids f).length = (paths f).length := by unfold ids paths; simp
  constructor
  · intro h
    obtain ⟨k, hk, rfl⟩ := List.mem_iff_getElem.1 h
    have := hn k _ (List.getElem?_eq_getElem hk)
    omega
  · rintro ⟨h1, h2⟩
    have hk : (i - n).toNat < (ids f).length := by omega
    have := hn _ _ (List.getElem?_eq_getElem hk)
    rw [show i = (ids f)[(i - n).toNat] by omega]
    exact List.getElem_mem hk

mutual
theorem number_entries (n : Int) : ∀ (f : Folder), paths (number n f).1 = paths f ∧ (number n f).2 = (paths f).length ∧
    ids (number n f).1 = (List.range (paths f).length).map (fun k : Nat => n + (k : Int))
  | .mk fs files i => by
    obtain ⟨h1, h2, h3⟩ := numberIn_entries (n + files.length) fs
    unfold number paths ids
    simp only [entries, List.map_append, List.map_map]
    have e1 : ∀ m : Int, List.map ((fun x : List Str × Int => x.1) ∘ fun p : Str × Nat => ([p.1], m + (p.2 : Int))) files.zipIdx =
        files.map ([·]) := by
      intro m
      conv => rhs; rw [← List.zipIdx_map_fst 0 files]
      rw [List.map_map]
      rfl
    have e2 : List.map ((fun x : List Str × Int => x.2) ∘ fun p : Str × Nat => ([p.1], n + (p.2 : Int))) files.zipIdx =
        (List.range files.length).map (fun k : Nat => n + (k : Int)) := by
      rw [List.range_eq_range', ← List.zipIdx_map_snd 0 files, List.map_map]
      rfl
    refine ⟨by rw [e1, e1, h1], by simp [h2], ?_⟩
    rw [e1, e2, h3]
    simp only [List.length_append, List.length_map]
    rw [List.range_add, List.map_append, List.map_map]
    congr 1
    refine List.map_congr_left fun k _ => ?_
    simp only [Function.comp]
    omega
theorem numberIn_entries (n : Int) : ∀ (fs : Folders), (entriesIn (numberIn n fs).1).map (·.1) = (entriesIn fs).map (·.1) ∧
    (numberIn n fs).2 = (entriesIn fs).length ∧
    (entriesIn (numberIn n fs).1).map (·.2) = (List.range (entriesIn fs).length).map (fun k : Nat => n + (k : Int))
  | .nil => by simp [numberIn, entriesIn]
  | .cons name f rest => by
    obtain ⟨h1, h2, h3⟩ := number_entries n f
    obtain ⟨h4, h5, h6⟩ := numberIn_entries (n + (number n f).2) rest
    unfold paths at h1 h2 h3
    unfold ids at h3
    rw [List.length_map] at h2 h3
    have e : ∀ l : List (List Str × Int), List.map ((fun x : List Str × Int => x.1) ∘ fun e => (name :: e.1, e.2)) l =
        (l.map (·.1)).map (name :: ·) := by
      intro l
      rw [List.map_map]
      rfl
    have e' : ∀ l : List (List Str × Int), List.map ((fun x : List Str × Int => x.2) ∘ fun e => (name :: e.1, e.2)) l =
        l.map (·.2) := fun _ => rfl
    unfold numberIn
    simp only [entriesIn, List.map_append, List.map_map]
    refine ⟨by rw [e, e, h1, h4], by simp only [h5, List.length_append, List.length_map]; omega, ?_⟩
    rw [e', h3, h6, h2]
    simp only [List.length_append, List.length_map]
    rw [List.range_add, List.map_append, List.map_map]
    congr 1
    refine List.map_congr_left fun k _ => ?_
    simp only [Function.comp]
    omega
end

mutual
theorem number_names (n : Int) : ∀ (f : Folder), WellNamed f → WellNamed (number n f).1
  | .mk fs files i, h => by
    unfold WellNamed at h ⊢
    rw [All] at h
    rw [number, All]
    simp only [Folder.folders, Folder.files] at h ⊢
    rw [numberIn_names_eq]
    exact ⟨h.1, numberIn_names _ fs h.2⟩
theorem numberIn_names (n : Int) : ∀ (fs : Folders),
    AllIn (fun f => (names f.folders).Nodup ∧ f.files.Nodup ∧
      (∀ n ∈ names f.folders, n ≠ [] ∧ 47 ∉ n) ∧ ∀ n ∈ f.files, n ≠ [] ∧ 47 ∉ n) fs →
    AllIn (fun f => (names f.folders).Nodup ∧ f.files.Nodup ∧
      (∀ n ∈ names f.folders, n ≠ [] ∧ 47 ∉ n) ∧ ∀ n ∈ f.files, n ≠ [] ∧ 47 ∉ n) (numberIn n fs).1
  | .nil, h => by rw [numberIn]; exact h
  | .cons name f rest, h => by
    rw [AllIn] at h
    rw [numberIn, AllIn]
    exact ⟨number_names n f h.1, numberIn_names _ rest h.2⟩
theorem numberIn_names_eq (n : Int) : ∀ (fs : Folders), names (numberIn n fs).1 = names fs
  | .nil => by rw [numberIn]
  | .cons name f rest => by
    rw [numberIn, names, names, numberIn_names_eq]
end

/-- **C157.** Numbering by counting the files before each folder does that, for every tree and every first number, and
changes no name. -/
theorem number_numbered (n : Int) (f : Folder) :
    Numbered n (number n f).1 ∧ paths (number n f).1 = paths f ∧ (number n f).2 = (paths f).length ∧
      (WellNamed f → WellNamed (number n f).1) := by
  obtain ⟨h1, h2, h3⟩ := number_entries n f
  refine ⟨fun k i hi => ?_, h1, h2, number_names n f⟩
  rw [h3, List.getElem?_map] at hi
  obtain ⟨j, hj, rfl⟩ := Option.map_eq_some_iff.1 hi
  obtain ⟨h4, h5⟩ := List.getElem?_eq_some_iff.1 hj
  rw [List.getElem_range] at h5
  rw [h5]

/-! ## Archives and ROMs made this way -/

mutual
theorem noEmpty_of_wellNamed : ∀ {f : Folder}, WellNamed f → NoEmptyFileName f
  | .mk fs files i, h => by
    unfold WellNamed at h
    unfold NoEmptyFileName
    rw [All] at h ⊢
    exact ⟨fun hm => (h.1.2.2.2 _ hm).1 rfl, noEmptyIn_of_wellNamed h.2⟩
theorem noEmptyIn_of_wellNamed : ∀ {fs : Folders},
    AllIn (fun f => (names f.folders).Nodup ∧ f.files.Nodup ∧
      (∀ n ∈ names f.folders, n ≠ [] ∧ 47 ∉ n) ∧ ∀ n ∈ f.files, n ≠ [] ∧ 47 ∉ n) fs → AllIn (fun f => [] ∉ f.files) fs
  | .nil, _ => by rw [AllIn]; trivial
  | .cons n f rest, h => by
    rw [AllIn] at h ⊢
    exact ⟨noEmpty_of_wellNamed h.1, noEmptyIn_of_wellNamed h.2⟩
end

theorem get_numbered {n : Nat} {f : Folder} {files : List Bytes} (hw : WellNamed f) (hn : Numbered n f) {k : Nat}
    {p : List Str} {d : Bytes} (hp : (paths f)[k]? = some p) (hd : files[n + k]? = some d) {path : Str}
    (h : Denotes path p) : ∃ j, Spec.Nested.Denotes f files.length path j ∧ files[j]? = some d := by
  refine ⟨n + k, ⟨n + k, (numbered_lookup n f hw hn k p hp).1 path h, ?_⟩, hd⟩
  have := (List.getElem?_eq_some_iff.1 hd).1
  unfold pyPos
  rw [if_pos (by omega), if_pos (by omega)]
  congr 1

/-- **C157.** `NARC.fromFilesAndNames` with a list of files and a tree with as many well-formed names, numbered from zero: each
file is found by the path at its place in the tree, by no other, and it is found again after saving and loading. -/
theorem narc_from_scratch (files : List Bytes) (f : Folder) (hw : WellNamed f) (hn : Numbered 0 f)
    (hl : files.length = (paths f).length) :
    (∀ (k : Nat) (p : List Str) (d : Bytes) (path : Str), (paths f)[k]? = some p → files[k]? = some d → Denotes path p →
      Narc.getFileByName (Narc.fromFilesAndNames files (some f)) path = .ok d) ∧
    (∀ path d, Narc.getFileByName (Narc.fromFilesAndNames files (some f)) path = .ok d →
      ∃ (k : Nat) (p : List Str), (paths f)[k]? = some p ∧ files[k]? = some d ∧ Denotes path p) ∧
    (∀ b limit, Narc.save (Narc.fromFilesAndNames files (some f)) = .ok b → depth f ≤ limit →
      Narc.load limit b = .ok (Narc.fromFilesAndNames files (some f))) := by
  refine ⟨?_, ?_, ?_⟩
  · intro k p d path hp hd h
    rw [Nested.narc_get, Nested.getIn_eq_ok]
    exact get_numbered (n := 0) hw hn hp (by rw [Nat.zero_add]; exact hd) h
  · intro path d h
    rw [Nested.narc_get, Nested.getIn_eq_ok] at h
    obtain ⟨j, ⟨i, hi, hj⟩, hd⟩ := h
    simp only [Narc.fromFilesAndNames, Option.getD_some] at hi hj hd
    rcases Fnt.path_total f path with ⟨-, h, -⟩ | ⟨⟨cs, hcs⟩, -⟩
    · rw [h] at hi; cases hi
    · have hm := (found_iff f hw path cs hcs i).1 hi
      obtain ⟨k, hk, he⟩ := List.mem_iff_getElem.1 hm
      have hi' := hn k i (by unfold ids; rw [List.getElem?_map, List.getElem?_eq_getElem hk, he]; rfl)
      have hk' : k < files.length := by
        rw [hl]; unfold paths; rw [List.length_map]; exact hk
      have : j = k := by
        subst hi'
        unfold pyPos at hj
        rw [if_pos (by omega), if_pos (by omega)] at hj
        have := Option.some.inj hj
        omega
      subst this
      exact ⟨j, cs, by unfold paths; rw [List.getElem?_map, List.getElem?_eq_getElem hk, he]; rfl, hd, hcs⟩
  · intro b limit hb hd
    refine Narc.narc_roundtrip _ b hb ?_ limit hd
    exact noEmpty_of_wellNamed hw

/-- **C157.** In a ROM the first files can be without names, such as those of overlays: with a tree that is numbered from `n`, the
`k`-th path leads to the file `n + k`. -/
theorem rom_numbered (r : Rom.Rom) (n : Nat) (hw : WellNamed r.filenames) (hn : Numbered n r.filenames) (k : Nat) (p : List Str)
    (d : Bytes) (path : Str) (hp : (paths r.filenames)[k]? = some p) (hd : r.files[n + k]? = some d) (h : Denotes path p) :
    Rom.getFileByName r path = .ok d := by
  rw [Nested.rom_get, Nested.getIn_eq_ok]
  exact get_numbered hw hn hp hd h

/-! ## Examples -/

/-- A name. -/
def s (t : String) : Str := t.toList.map Char.toNat

/-- The tree of docs/source/api/fnt.rst 50–61, without numbers. -/
def docTree : Folder :=
  .mk (.cons (s "books") (.mk (.cons (s "lord-of-the-rings") (.mk .nil [s "book1.pdf", s "book2.pdf", s "book3.pdf"] 0) .nil)
      [s "hyrule-historia.pdf", s "ndspy-documentation.pdf"] 0)
    (.cons (s "songs") (.mk .nil [s "smb3-athletic.mp3", s "zeldas-lullaby.mp3"] 0) .nil))
    [s "barrier-skip.mp4", s "sm64-upwarp.zip"] 0

/-- It gets the numbers of the documentation. -/
example : number 87 docTree = (.mk (.cons (s "books") (.mk (.cons (s "lord-of-the-rings")
      (.mk .nil [s "book1.pdf", s "book2.pdf", s "book3.pdf"] 91) .nil)
      [s "hyrule-historia.pdf", s "ndspy-documentation.pdf"] 89)
    (.cons (s "songs") (.mk .nil [s "smb3-athletic.mp3", s "zeldas-lullaby.mp3"] 94) .nil))
    [s "barrier-skip.mp4", s "sm64-upwarp.zip"] 87, 9) := by decide +kernel
example : paths docTree = [[s "barrier-skip.mp4"], [s "sm64-upwarp.zip"], [s "books", s "hyrule-historia.pdf"],
    [s "books", s "ndspy-documentation.pdf"], [s "books", s "lord-of-the-rings", s "book1.pdf"],
    [s "books", s "lord-of-the-rings", s "book2.pdf"], [s "books", s "lord-of-the-rings", s "book3.pdf"],
    [s "songs", s "smb3-athletic.mp3"], [s "songs", s "zeldas-lullaby.mp3"]] := by decide +kernel
example : idOf (number 87 docTree).1 (s "/books/lord-of-the-rings/book2.pdf") = .ok (some 92) ∧
    filenameOf (number 87 docTree).1 92 = some (s "books/lord-of-the-rings/book2.pdf") := by decide +kernel

/-- The archive of docs/source/api/narc.rst 98–128. -/
def docNames : Folder := .mk (.cons (s "images") (.mk .nil [s "c.png"] 2) .nil) [s "a.txt", s "b.bin"] 0

example : WellNamed docNames := by
  unfold WellNamed docNames
  simp only [All, AllIn, Folder.folders, Folder.files, names]
  decide +kernel
example : (number 0 docNames).1 = docNames := by decide +kernel
example : Numbered 0 docNames := (number_numbered 0 docNames).1
example : Distinct docNames := by unfold Distinct; decide +kernel
example : (paths docNames).length = 3 ∧ depth docNames = 2 := by decide +kernel
example : Narc.getFileByName (Narc.fromFilesAndNames [[1], [2, 2], [3, 3, 3]] (some docNames)) (s "images/c.png") =
    .ok [3, 3, 3] := by decide +kernel
example : ((Narc.save (Narc.fromFilesAndNames [[1], [2, 2], [3, 3, 3]] (some docNames))) >>= Narc.load 2) =
    .ok (Narc.fromFilesAndNames [[1], [2, 2], [3, 3, 3]] (some docNames)) := by decide +kernel

/-- Without a first ID for the subfolder its file gets the number of another one, and each name still leads to a file: the
wrong one. -/
theorem not_distinct : ∃ f path i, WellNamed f ∧ idOf f path = .ok (some i) ∧
    ∃ other, filenameOf f i = some other ∧ other ≠ path := by
  refine ⟨.mk (.cons (s "images") (.mk .nil [s "c.png"] 0) .nil) [s "a.txt", s "b.bin"] 0, s "images/c.png", 0, ?_, ?_,
    s "a.txt", ?_, ?_⟩
  · unfold WellNamed
    simp only [All, AllIn, Folder.folders, Folder.files, names]
    decide +kernel
  all_goals decide +kernel

end Verif.Props.Numbering
