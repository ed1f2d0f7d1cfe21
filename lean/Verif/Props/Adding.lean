import Verif.Props.Nested
import Verif.Proofs.FntLookup
import Verif.Spec.Adding

/-!
# C162: adding files
-/

namespace Verif.Props.Adding

open Verif Verif.Model Verif.Model.Fnt Verif.Spec.Adding Verif.Proofs.FntLookup
open Verif.Spec.Fnt (Leads FirstNamed names All AllIn FirstIDsOk)
open Verif.Props.Nested (getIn)

/-! ## The tree -/

theorem changeFirst_find {name : Str} {change : Folder → Option Folder} : ∀ {fs fs' : Folders},
    changeFirst name change fs = some fs' → ∃ f f', fs.find name = some f ∧ change f = some f' ∧ fs'.find name = some f' ∧
      (∀ n, n ≠ name → fs'.find n = fs.find n) ∧ names fs' = names fs
  | .nil, fs', h => by cases h
  | .cons n f rest, fs', h => by
    unfold changeFirst at h
    split at h
    · rename_i hn
      subst hn
      obtain ⟨f', h1, rfl⟩ := Option.map_eq_some_iff.1 h
      refine ⟨f, f', by simp [Folders.find], h1, by simp [Folders.find], ?_, rfl⟩
      intro m hm
      simp [Folders.find, Ne.symm hm]
    · rename_i hn
      obtain ⟨r, h1, rfl⟩ := Option.map_eq_some_iff.1 h
      obtain ⟨g, g', h2, h3, h4, h5, h6⟩ := changeFirst_find h1
      refine ⟨g, g', by simp [Folders.find, hn, h2], h3, by simp [Folders.find, hn, h4], ?_, by simp [names, h6]⟩
      intro m hm
      unfold Folders.find
      rw [h5 m hm]

theorem idIn_cons (part : Str) {rest : List Str} (h : rest ≠ []) (f : Folder) : idInFolder (part :: rest) f =
    match f.folders.find part with
    | some sub => idInFolder rest sub
    | none => none := by
  cases rest with
  | nil => exact absurd rfl h
  | cons a b => rfl

theorem idIn_one (name : Str) (f : Folder) : idInFolder [name] f =
    match indexOf name f.files with
    | some i => some (f.firstID + i)
    | none => none := rfl

/-- Lookups after a change of a folder: of what is in it, as the change says; of everything else, as before. -/
theorem changeAt_id {change : Folder → Folder} : ∀ {dirs : List Str} {f f' : Folder}, changeAt dirs change f = some f' →
    ∃ g, Leads f dirs g ∧ (∀ rest, rest ≠ [] → idInFolder (dirs ++ rest) f' = idInFolder rest (change g) ∧
        idInFolder (dirs ++ rest) f = idInFolder rest g) ∧
      ∀ p, (¬ ∃ rest, rest ≠ [] ∧ p = dirs ++ rest) → idInFolder p f' = idInFolder p f
  | [], f, f', h => by
    cases h
    refine ⟨f, .nil f, fun rest _ => ⟨rfl, rfl⟩, ?_⟩
    intro p hp
    cases p with
    | nil => rfl
    | cons a b => exact absurd ⟨a :: b, by simp, rfl⟩ hp
  | d :: dirs, .mk fs files i, f', h => by
    unfold changeAt at h
    obtain ⟨fs', h1, rfl⟩ := Option.map_eq_some_iff.1 h
    obtain ⟨a, a', h2, h3, h4, h5, -⟩ := changeFirst_find h1
    obtain ⟨g, h6, h7, h8⟩ := changeAt_id h3
    refine ⟨g, .cons d dirs _ a g (find_iff.1 h2) h6, ?_, ?_⟩
    · intro rest hr
      have hne : dirs ++ rest ≠ [] := by simp [hr]
      rw [List.cons_append, idIn_cons d hne, idIn_cons d hne]
      simp only [Folder.folders, h2, h4]
      exact h7 rest hr
    · intro p hp
      match p with
      | [] => rfl
      | [x] => rfl
      | x :: y :: rest =>
        rw [idIn_cons x (by simp), idIn_cons x (by simp)]
        simp only [Folder.folders]
        by_cases hx : x = d
        · subst hx
          rw [h2, h4]
          refine h8 (y :: rest) ?_
          rintro ⟨q, hq, e⟩
          exact hp ⟨q, hq, by rw [e]; rfl⟩
        · rw [h5 x hx]

theorem changeFirst_some {name : Str} {change : Folder → Option Folder} : ∀ {fs : Folders} {g g' : Folder},
    FirstNamed name fs g → change g = some g' → ∃ fs', changeFirst name change fs = some fs'
  | _, g, g', .here _ rest, hc => ⟨.cons name g' rest, by simp [changeFirst, hc]⟩
  | _, g, g', .there n f _ rest hn h, hc => by
    obtain ⟨r, hr⟩ := changeFirst_some h hc
    exact ⟨.cons n f r, by simp [changeFirst, hn, hr]⟩

/-- **C162.** The folder is found exactly if there is one. -/
theorem changeAt_some {change : Folder → Folder} {dirs : List Str} {f : Folder} :
    (∃ f', changeAt dirs change f = some f') ↔ ∃ g, Leads f dirs g := by
  constructor
  · rintro ⟨f', h⟩
    obtain ⟨g, hg, -⟩ := changeAt_id h
    exact ⟨g, hg⟩
  · rintro ⟨g, h⟩
    induction h with
    | nil f => exact ⟨_, rfl⟩
    | cons name rest f g h h1 _ ih =>
      obtain ⟨g', hg'⟩ := ih
      obtain ⟨fs, files, i⟩ := f
      obtain ⟨fs', hfs⟩ := changeFirst_some h1 hg'
      exact ⟨.mk fs' files i, by unfold changeAt; rw [show changeFirst name (changeAt rest change) fs = some fs' from hfs]; rfl⟩

theorem indexOf_append {name : Str} {files more : List Str} : indexOf name (files ++ more) =
    match indexOf name files with
    | some i => some i
    | none => (indexOf name more).map (· + files.length) := by
  unfold indexOf
  rw [List.findIdx?_append]
  cases List.findIdx? (fun x => decide (x = name)) files <;> rfl

theorem indexOf_none {name : Str} {files : List Str} (h : name ∉ files) : indexOf name files = none := by
  unfold indexOf
  rw [List.findIdx?_eq_none_iff]
  intro x hx
  rw [decide_eq_false_iff_not]
  rintro rfl
  exact h hx

theorem withFile_id {name : Str} {g : Folder} (hn : name ∉ g.files) : ∀ {rest : List Str},
    idInFolder rest (withFile name g) = if rest = [name] then some (g.firstID + g.files.length) else idInFolder rest g := by
  obtain ⟨fs, files, i⟩ := g
  intro rest
  change name ∉ files at hn
  match rest with
  | [] => rfl
  | [x] =>
    rw [idIn_one, idIn_one]
    simp only [withFile, Folder.files, Folder.firstID, List.cons.injEq, and_true, indexOf_append]
    by_cases hx : x = name
    · subst hx
      rw [indexOf_none hn, if_pos rfl]
      simp [indexOf]
    · rw [if_neg hx]
      cases indexOf x files with
      | some k => rfl
      | none => simp [indexOf, Ne.symm hx]
  | x :: y :: rest => simp [withFile, idInFolder, Folder.folders]

theorem find_append {name : Str} {new : Folder} : ∀ {fs : Folders}, name ∉ names fs →
    (appendFolder name new fs).find name = some new ∧ ∀ n, n ≠ name → (appendFolder name new fs).find n = fs.find n
  | .nil, _ => by
    refine ⟨by simp [appendFolder, Folders.find], ?_⟩
    intro n hn
    simp [appendFolder, Folders.find, Ne.symm hn]
  | .cons m f rest, h => by
    simp only [names, List.mem_cons, not_or] at h
    obtain ⟨h1, h2⟩ := find_append (new := new) h.2
    refine ⟨by simp [appendFolder, Folders.find, Ne.symm h.1, h1], ?_⟩
    intro n hn
    unfold appendFolder Folders.find
    rw [h2 n hn]

theorem mem_names_of_find {name : Str} {g : Folder} : ∀ {fs : Folders}, fs.find name = some g → name ∈ names fs
  | .nil, h => by cases h
  | .cons n f rest, h => by
    unfold Folders.find at h
    rw [names, List.mem_cons]
    split at h
    · rename_i hn; exact .inl hn.symm
    · exact .inr (mem_names_of_find h)

theorem withFolder_id {name : Str} {new g : Folder} (hn : name ∉ names g.folders) (rest : List Str) :
    (∀ q, q ≠ [] → idInFolder (name :: q) (withFolder name new g) = idInFolder q new) ∧
    ((¬ ∃ q, q ≠ [] ∧ rest = name :: q) → idInFolder rest (withFolder name new g) = idInFolder rest g) := by
  obtain ⟨fs, files, i⟩ := g
  obtain ⟨h1, h2⟩ := find_append (new := new) hn
  constructor
  · intro q hq
    rw [idIn_cons _ hq]
    simp only [withFolder, Folder.folders] at h1 ⊢
    rw [h1]
  · intro h
    match rest with
    | [] => rfl
    | [x] => rfl
    | x :: y :: rest =>
      rw [idIn_cons _ (by simp), idIn_cons _ (by simp)]
      simp only [withFolder, Folder.folders] at h2 ⊢
      rw [h2 x]
      rintro rfl
      exact h ⟨y :: rest, by simp, rfl⟩

/-! ## Files by name -/

theorem find_all {P : Folder → Prop} {name : Str} {g : Folder} : ∀ {fs : Folders}, AllIn P fs → fs.find name = some g → All P g
  | .nil, _, h => by cases h
  | .cons n f rest, ha, h => by
    rw [AllIn] at ha
    unfold Folders.find at h
    split at h
    · cases h; exact ha.1
    · exact find_all ha.2 h

theorem idIn_nonneg {i : Int} : ∀ {p : List Str} {f : Folder}, FirstIDsOk f → idInFolder p f = some i → 0 ≤ i
  | [], _, _, h => by cases h
  | [name], .mk fs files n, hf, h => by
    unfold FirstIDsOk at hf
    rw [All] at hf
    have h0 : 0 ≤ n := hf.1.1
    rw [idIn_one] at h
    split at h
    · cases h
      show 0 ≤ n + _
      omega
    · cases h
  | x :: y :: p, .mk fs files n, hf, h => by
    rw [idIn_cons _ (by simp)] at h
    unfold FirstIDsOk at hf
    rw [All] at hf
    split at h
    · rename_i sub hs
      exact idIn_nonneg (find_all hf.2 hs) h
    · cases h

theorem id_nonneg {i : Int} {f : Folder} {s : Str} (hf : FirstIDsOk f) (h : idOf f s = .ok (some i)) : 0 ≤ i := by
  unfold idOf at h
  obtain ⟨p, -, h⟩ := bind_eq_ok.1 h
  exact idIn_nonneg hf (Except.ok.inj h)

theorem denotes_components {s : Str} {cs cs' : List Str} (h : Spec.Fnt.Denotes s cs) (h' : Spec.Fnt.Denotes s cs') : cs = cs' := by
  have := pathList_of_denotes h
  rw [pathList_of_denotes h'] at this
  cases this
  rfl

theorem idOf_denotes {s : Str} {cs : List Str} (h : Spec.Fnt.Denotes s cs) (f : Folder) : idOf f s = .ok (idInFolder cs f) := by
  unfold idOf
  rw [pathList_of_denotes h]
  rfl

/-- **C162.** Appending a name that was not there to a folder: the new path has the ID after the last one of the folder, and
all other paths have the IDs they had. -/
theorem name_added {f f' : Folder} {dirs : List Str} {name : Str} (h : changeAt dirs (withFile name) f = some f') :
    ∃ g, Leads f dirs g ∧ (name ∉ g.files →
      (∀ s, Spec.Fnt.Denotes s (dirs ++ [name]) → idOf f' s = .ok (some (g.firstID + g.files.length))) ∧
      (∀ s, ¬ Spec.Fnt.Denotes s (dirs ++ [name]) → idOf f' s = idOf f s)) := by
  obtain ⟨g, h1, h2, h3⟩ := changeAt_id h
  refine ⟨g, h1, fun hn => ⟨?_, ?_⟩⟩
  · intro s hs
    rw [idOf_denotes hs, (h2 [name] (by simp)).1, withFile_id hn, if_pos rfl]
  · intro s hs
    rcases path_cases s with ⟨n, -, e⟩ | ⟨cs, hcs⟩
    · unfold idOf; rw [e]; rfl
    · rw [idOf_denotes hcs, idOf_denotes hcs]
      congr 1
      by_cases hp : ∃ rest, rest ≠ [] ∧ cs = dirs ++ rest
      · obtain ⟨rest, hr, rfl⟩ := hp
        rw [(h2 rest hr).1, (h2 rest hr).2, withFile_id hn, if_neg]
        rintro rfl
        exact hs hcs
      · exact h3 cs hp

/-- **C162.** Appending a new folder to a folder: the files in it have the IDs from the given one on, and all other paths have
the IDs they had. -/
theorem folder_added {f f' : Folder} {dirs : List Str} {name : Str} {new : List Str} {count : Nat}
    (h : changeAt dirs (withFolder name (newFolder new count)) f = some f') :
    ∃ g, Leads f dirs g ∧ (name ∉ names g.folders → new.Nodup →
      (∀ (j : Nat) (x : Str) (s : Str), new[j]? = some x → Spec.Fnt.Denotes s (dirs ++ [name, x]) →
        idOf f' s = .ok (some ((count + j : Nat) : Int))) ∧
      (∀ s, (¬ ∃ x ∈ new, Spec.Fnt.Denotes s (dirs ++ [name, x])) → idOf f' s = idOf f s)) := by
  obtain ⟨g, h1, h2, h3⟩ := changeAt_id h
  refine ⟨g, h1, fun hn hd => ⟨?_, ?_⟩⟩
  · intro j x s hj hs
    rw [idOf_denotes hs, (h2 [name, x] (by simp)).1, (withFolder_id hn []).1 [x] (by simp), idIn_one]
    have : indexOf x new = some j := by
      rw [indexOf_iff]
      refine ⟨hj, ?_⟩
      intro l hl hx
      have hlt := (List.getElem?_eq_some_iff.1 hx).1
      have := (List.getElem?_inj hlt hd).1 (hx.trans hj.symm)
      omega
    simp only [newFolder, Folder.files, Folder.firstID, this]
    rfl
  · intro s hs
    rcases path_cases s with ⟨n, -, e⟩ | ⟨cs, hcs⟩
    · unfold idOf; rw [e]; rfl
    · rw [idOf_denotes hcs, idOf_denotes hcs]
      congr 1
      by_cases hp : ∃ rest, rest ≠ [] ∧ cs = dirs ++ rest
      · obtain ⟨rest, hr, rfl⟩ := hp
        rw [(h2 rest hr).1, (h2 rest hr).2]
        by_cases hq : ∃ q, q ≠ [] ∧ rest = name :: q
        · obtain ⟨q, hq, rfl⟩ := hq
          rw [(withFolder_id hn []).1 q hq]
          have h0 : idInFolder (name :: q) g = none := by
            rw [idIn_cons _ hq]
            have : g.folders.find name = none := by
              cases e : g.folders.find name with
              | none => rfl
              | some a => exact absurd (mem_names_of_find e) hn
            rw [this]
          rw [h0]
          match q with
          | [x] =>
            rw [idIn_one]
            simp only [newFolder, Folder.files]
            rw [indexOf_none]
            intro hx
            exact hs ⟨x, hx, hcs⟩
          | x :: y :: q => rw [idIn_cons _ (by simp)]; rfl
        · exact (withFolder_id hn rest).2 hq
      · exact h3 cs hp

/-! ## The files -/

/-- A file by name in a list of files to which others have been appended. -/
theorem getIn_append {f : Folder} {files more : List Bytes} {s : Str} (hf : FirstIDsOk f) {d : Bytes}
    (h : getIn f files s = .ok d) : getIn f (files ++ more) s = .ok d := by
  rw [Nested.getIn_eq_ok] at h ⊢
  obtain ⟨k, ⟨i, h1, h2⟩, h3⟩ := h
  have h0 : 0 ≤ i := id_nonneg hf h1
  refine ⟨k, ⟨i, h1, ?_⟩, ?_⟩
  · unfold pyPos at h2 ⊢
    rw [if_pos h0] at h2 ⊢
    split at h2
    · cases h2
      rw [if_pos (by rw [List.length_append]; omega)]
    · cases h2
  · rw [List.getElem?_append_left (List.getElem?_eq_some_iff.1 h3).1]
    exact h3

/-- The file that an ID from 0 on denotes. -/
theorem getIn_id {f : Folder} {files : List Bytes} {s : Str} {k : Nat} {d : Bytes} (h : idOf f s = .ok (some (k : Int)))
    (hk : files[k]? = some d) : getIn f files s = .ok d := by
  rw [Nested.getIn_eq_ok]
  have hlt := (List.getElem?_eq_some_iff.1 hk).1
  refine ⟨k, ⟨k, h, ?_⟩, hk⟩
  unfold pyPos
  rw [if_pos (by omega), if_pos (by simpa using hlt)]
  rfl

theorem getIn_congr {f f' : Folder} {files : List Bytes} {s : Str} (h : idOf f' s = idOf f s) :
    getIn f' files s = getIn f files s := by
  unfold getIn
  rw [h]

/-! ## What can be saved and loaded -/

theorem changeFirst_all {Q : Folder → Prop} {change : Folder → Option Folder} {name : Str}
    (hc : ∀ g g', All Q g → change g = some g' → All Q g') : ∀ {fs fs' : Folders}, AllIn Q fs →
    changeFirst name change fs = some fs' → AllIn Q fs'
  | .nil, _, _, h => by cases h
  | .cons n f rest, fs', ha, h => by
    rw [AllIn] at ha
    unfold changeFirst at h
    split at h
    · obtain ⟨f', h1, rfl⟩ := Option.map_eq_some_iff.1 h
      rw [AllIn]
      exact ⟨hc f f' ha.1 h1, ha.2⟩
    · obtain ⟨r, h1, rfl⟩ := Option.map_eq_some_iff.1 h
      rw [AllIn]
      exact ⟨ha.1, changeFirst_all hc ha.2 h1⟩

theorem changeAt_noEmpty {change : Folder → Folder}
    (hc : ∀ g, Spec.Fnt.NoEmptyFileName g → Spec.Fnt.NoEmptyFileName (change g)) : ∀ {dirs : List Str} {f f' : Folder},
    Spec.Fnt.NoEmptyFileName f → changeAt dirs change f = some f' → Spec.Fnt.NoEmptyFileName f'
  | [], f, f', ha, h => by cases h; exact hc f ha
  | d :: dirs, .mk fs files i, f', ha, h => by
    unfold changeAt at h
    obtain ⟨fs', h1, rfl⟩ := Option.map_eq_some_iff.1 h
    unfold Spec.Fnt.NoEmptyFileName at ha ⊢
    rw [All] at ha ⊢
    exact ⟨ha.1, changeFirst_all (fun g g' hg hg' => changeAt_noEmpty hc hg hg') ha.2 h1⟩

theorem changeFirst_depth {change : Folder → Option Folder} {name : Str} {m : Nat}
    (hc : ∀ g g', change g = some g' → Spec.Fnt.depth g' ≤ max (Spec.Fnt.depth g) m) : ∀ {fs fs' : Folders},
    changeFirst name change fs = some fs' → Spec.Fnt.depthIn fs' ≤ max (Spec.Fnt.depthIn fs) m
  | .nil, _, h => by cases h
  | .cons n f rest, fs', h => by
    unfold changeFirst at h
    split at h
    · obtain ⟨f', h1, rfl⟩ := Option.map_eq_some_iff.1 h
      have := hc f f' h1
      simp only [Spec.Fnt.depthIn]
      omega
    · obtain ⟨r, h1, rfl⟩ := Option.map_eq_some_iff.1 h
      have := changeFirst_depth hc h1
      simp only [Spec.Fnt.depthIn]
      omega

theorem changeAt_depth {change : Folder → Folder} {m : Nat}
    (hc : ∀ g, Spec.Fnt.depth (change g) ≤ max (Spec.Fnt.depth g) m) : ∀ {dirs : List Str} {f f' : Folder},
    changeAt dirs change f = some f' → Spec.Fnt.depth f' ≤ max (Spec.Fnt.depth f) (dirs.length + m)
  | [], f, f', h => by cases h; have := hc f; simp only [List.length_nil]; omega
  | d :: dirs, .mk fs files i, f', h => by
    unfold changeAt at h
    obtain ⟨fs', h1, rfl⟩ := Option.map_eq_some_iff.1 h
    have := changeFirst_depth (fun g g' hg => changeAt_depth hc hg) h1
    simp only [Spec.Fnt.depth, List.length_cons]
    omega

theorem depth_pos (f : Folder) : 1 ≤ Spec.Fnt.depth f := by
  obtain ⟨fs, files, i⟩ := f
  simp only [Spec.Fnt.depth]
  omega

theorem withFile_noEmpty {name : Str} (hn : name ≠ []) (g : Folder) (h : Spec.Fnt.NoEmptyFileName g) :
    Spec.Fnt.NoEmptyFileName (withFile name g) := by
  obtain ⟨fs, files, i⟩ := g
  unfold Spec.Fnt.NoEmptyFileName withFile at *
  rw [All] at h ⊢
  refine ⟨?_, h.2⟩
  have h1 : [] ∉ files := h.1
  show [] ∉ files ++ [name]
  simp [h1, Ne.symm hn]

theorem withFolder_noEmpty {name : Str} {new : Folder} (hn : Spec.Fnt.NoEmptyFileName new) (g : Folder)
    (h : Spec.Fnt.NoEmptyFileName g) : Spec.Fnt.NoEmptyFileName (withFolder name new g) := by
  obtain ⟨fs, files, i⟩ := g
  unfold Spec.Fnt.NoEmptyFileName withFolder at *
  rw [All] at h ⊢
  refine ⟨h.1, ?_⟩
  have : ∀ {fs : Folders}, AllIn (fun f => [] ∉ f.files) fs → AllIn (fun f => [] ∉ f.files) (appendFolder name new fs) := by
    intro fs
    induction fs using Folders.rec (motive_1 := fun _ => True) with
    | mk => trivial
    | nil => intro _; rw [appendFolder, AllIn]; exact ⟨hn, by rw [AllIn]; trivial⟩
    | cons n f rest _ ih =>
      intro ha
      rw [AllIn] at ha
      rw [appendFolder, AllIn]
      exact ⟨ha.1, ih ha.2⟩
  exact this h.2

theorem withFolder_depth {name : Str} {new : Folder} (g : Folder) :
    Spec.Fnt.depth (withFolder name new g) ≤ max (Spec.Fnt.depth g) (1 + Spec.Fnt.depth new) := by
  obtain ⟨fs, files, i⟩ := g
  have : ∀ {fs : Folders}, Spec.Fnt.depthIn (appendFolder name new fs) ≤ max (Spec.Fnt.depthIn fs) (Spec.Fnt.depth new) := by
    intro fs
    induction fs using Folders.rec (motive_1 := fun _ => True) with
    | mk => trivial
    | nil => simp only [appendFolder, Spec.Fnt.depthIn]; omega
    | cons n f rest _ ih => simp only [appendFolder, Spec.Fnt.depthIn]; omega
  have := this (fs := fs)
  simp only [withFolder, Spec.Fnt.depth]
  omega

theorem firstNamed_depth {name : Str} {fs : Folders} {g : Folder} (h : FirstNamed name fs g) :
    Spec.Fnt.depth g ≤ Spec.Fnt.depthIn fs := by
  induction h with
  | here f rest => simp only [Spec.Fnt.depthIn]; omega
  | there n f g rest _ _ ih => simp only [Spec.Fnt.depthIn]; omega

theorem leads_depth {f g : Folder} {dirs : List Str} (h : Leads f dirs g) :
    dirs.length + Spec.Fnt.depth g ≤ Spec.Fnt.depth f := by
  induction h with
  | nil f => simp
  | cons name rest f g h h1 h2 ih =>
    have : Spec.Fnt.depth g ≤ Spec.Fnt.depthIn f.folders := by
      exact firstNamed_depth h1
    obtain ⟨fs, files, i⟩ := f
    simp only [Spec.Fnt.depth, List.length_cons]
    simp only [Folder.folders] at this
    omega

/-! ## Archives and ROMs -/

/-- What is known of the names of a file that was loaded. -/
structure Good (limit : Nat) (f : Folder) : Prop where
  noEmpty : Spec.Fnt.NoEmptyFileName f
  ids : FirstIDsOk f
  depth : Spec.Fnt.depth f ≤ limit

theorem narc_good {limit : Nat} {d : Bytes} {n : Narc.NARC} (h : Narc.load limit d = .ok n) : Good limit n.filenames := by
  unfold Narc.load at h
  simp only [bind_eq_ok, pure_eq_ok] at h
  obtain ⟨_, _, _, _, _, _, _, _, _, _, _, _, _, _, _, _, _, _, _, _, _, _, _, _, _, _, fs, _, f, hf, rfl⟩ := h
  obtain ⟨-, h2, h3, h4⟩ := Proofs.FntLoad.loadFolder_loaded hf
  exact ⟨h2, h3, h4⟩

theorem rom_good {limit : Nat} (hl : 0 < limit) {d : Bytes} {r : Rom.Rom} (h : Rom.load limit d = .ok r) :
    Good limit r.filenames := by
  obtain ⟨h1, h2⟩ := Nested.rom_names hl h
  refine ⟨h1, ?_, h2⟩
  unfold Rom.load at h
  simp only [bind_eq_ok] at h
  obtain ⟨_, _, _, _, _, _, _, _, _, _, h⟩ := h
  split at h
  · simp only [bind_eq_ok] at h
    obtain ⟨_, _, _, _, h⟩ := h
    split at h
    · simp only [bind_ok, bind_eq_ok, pure_eq_ok] at h
      obtain ⟨_, _, rfl⟩ := h
      simp [FirstIDsOk, Fnt.emptyFolder, All, AllIn, Fnt.Folder.firstID]
    · simp only [bind_eq_ok, pure_eq_ok] at h
      obtain ⟨names, hn, _, _, rfl⟩ := h
      obtain ⟨-, -, h3, -⟩ := Proofs.FntLoad.loadFolder_loaded hn
      exact h3
  · cases h

theorem fileAdded {f f' : Folder} {files : List Bytes} {dirs : List Str} {name : Str} {data : Bytes} (hf : FirstIDsOk f)
    (h : changeAt dirs (withFile name) f = some f') : ∃ g, Leads f dirs g ∧ (name ∉ g.files →
      FileAdded g dirs name data files (getIn f files) (getIn f' (files ++ [data]))) := by
  obtain ⟨g, h1, h2⟩ := name_added h
  refine ⟨g, h1, fun hn => ?_⟩
  obtain ⟨h3, h4⟩ := h2 hn
  refine ⟨?_, ?_, ?_⟩
  · intro s d hs hd
    rw [getIn_congr (h4 s hs)]
    exact getIn_append hf hd
  · intro he s hs
    refine getIn_id (k := files.length) ?_ (by simp)
    rw [h3 s hs, he]
  · intro k d he hd s hs
    refine getIn_id (k := k) (by rw [h3 s hs, he]) ?_
    rw [List.getElem?_append_left (List.getElem?_eq_some_iff.1 hd).1]
    exact hd

theorem folderAdded {f f' : Folder} {files datas : List Bytes} {dirs new : List Str} {name : Str} (hf : FirstIDsOk f)
    (h : changeAt dirs (withFolder name (newFolder new files.length)) f = some f') : ∃ g, Leads f dirs g ∧
      (name ∉ names g.folders → new.Nodup →
        FolderAdded dirs name new datas (getIn f files) (getIn f' (files ++ datas))) := by
  obtain ⟨g, h1, h2⟩ := folder_added h
  refine ⟨g, h1, fun hn hd => ?_⟩
  obtain ⟨h3, h4⟩ := h2 hn hd
  refine ⟨?_, ?_⟩
  · intro s d hs hd
    rw [getIn_congr (h4 s hs)]
    exact getIn_append hf hd
  · intro j x d s hj hd hs
    refine getIn_id (h3 j x s hj hs) ?_
    rw [List.getElem?_append_right (by omega)]
    rw [Nat.add_sub_cancel_left]
    exact hd

theorem file_good {limit : Nat} {f f' : Folder} {dirs : List Str} {name : Str} (hf : Good limit f) (hn : name ≠ [])
    (h : changeAt dirs (withFile name) f = some f') : Spec.Fnt.NoEmptyFileName f' ∧ Spec.Fnt.depth f' ≤ limit := by
  refine ⟨changeAt_noEmpty (withFile_noEmpty hn) hf.noEmpty h, ?_⟩
  obtain ⟨g, hg, -⟩ := changeAt_id h
  have h1 := leads_depth hg
  have h2 := depth_pos g
  have h3 := changeAt_depth (m := 0) (change := withFile name) (fun g => by obtain ⟨fs, files, i⟩ := g; simp [withFile, Spec.Fnt.depth]) h
  have := hf.depth
  omega

theorem folder_good {limit : Nat} {f f' : Folder} {dirs new : List Str} {name : Str} {count : Nat} (hf : Good limit f)
    (hn : [] ∉ new) (hl : dirs.length + 2 ≤ limit) (h : changeAt dirs (withFolder name (newFolder new count)) f = some f') :
    Spec.Fnt.NoEmptyFileName f' ∧ Spec.Fnt.depth f' ≤ limit := by
  have hnew : Spec.Fnt.NoEmptyFileName (newFolder new count) := by
    unfold Spec.Fnt.NoEmptyFileName newFolder
    rw [All, AllIn]
    exact ⟨hn, trivial⟩
  refine ⟨changeAt_noEmpty (withFolder_noEmpty hnew) hf.noEmpty h, ?_⟩
  have h3 := changeAt_depth (change := withFolder name (newFolder new count)) withFolder_depth h
  have h4 : Spec.Fnt.depth (newFolder new count) = 1 := by simp [newFolder, Spec.Fnt.depth, Spec.Fnt.depthIn]
  have := hf.depth
  omega

/-- **C162.** Adding a file to a NARC by appending its name to a folder that does not have it. -/
theorem narc_add_file {limit : Nat} {d : Bytes} {n n' : Narc.NARC} {dirs : List Str} {name : Str} {data : Bytes}
    (hl : Narc.load limit d = .ok n) (h : narcAddFile n dirs name data = some n') (hn : name ≠ []) :
    ∃ g, Leads n.filenames dirs g ∧ (name ∉ g.files →
      FileAdded g dirs name data n.files (Narc.getFileByName n) (Narc.getFileByName n')) ∧
      ∀ b, Narc.save n' = .ok b → Narc.load limit b = .ok n' := by
  obtain ⟨f, h1, rfl⟩ := Option.map_eq_some_iff.1 h
  have hg := narc_good hl
  obtain ⟨g, h2, h3⟩ := fileAdded hg.ids h1
  obtain ⟨h4, h5⟩ := file_good hg hn h1
  exact ⟨g, h2, h3, fun b hb => Narc.narc_roundtrip _ b hb h4 limit h5⟩

/-- **C162.** The same for a ROM. -/
theorem rom_add_file {limit : Nat} (h0 : 0 < limit) {d : Bytes} {r r' : Rom.Rom} {dirs : List Str} {name : Str} {data : Bytes}
    (hl : Rom.load limit d = .ok r) (h : romAddFile r dirs name data = some r') (hn : name ≠ []) :
    ∃ g, Leads r.filenames dirs g ∧ (name ∉ g.files →
      FileAdded g dirs name data r.files (Rom.getFileByName r) (Rom.getFileByName r')) ∧
      ∀ u b r2, Rom.save r' u = .ok (b, r2) → ∃ q, Rom.load limit b = .ok q ∧ q.filenames = r'.filenames ∧ q.files = r'.files ∧
        ∀ s, Rom.getFileByName q s = Rom.getFileByName r' s := by
  obtain ⟨f, h1, rfl⟩ := Option.map_eq_some_iff.1 h
  have hg := rom_good h0 hl
  obtain ⟨g, h2, h3⟩ := fileAdded hg.ids h1
  obtain ⟨h4, h5⟩ := file_good hg hn h1
  refine ⟨g, h2, h3, fun u b r2 hb => ?_⟩
  obtain ⟨q, h6, h7, h8, -⟩ := RomCode.reload _ r2 u b hb limit h4 h5
  refine ⟨q, h6, h8, h7, fun s => ?_⟩
  rw [Nested.rom_get, Nested.rom_get, h7, h8]

/-- **C162.** Adding a folder with files to a NARC, in a folder that has no folder of that name. -/
theorem narc_add_folder {limit : Nat} {d : Bytes} {n n' : Narc.NARC} {dirs new : List Str} {name : Str} {datas : List Bytes}
    (hl : Narc.load limit d = .ok n) (h : narcAddFolder n dirs name new datas = some n') (hn : [] ∉ new) :
    ∃ g, Leads n.filenames dirs g ∧ (name ∉ names g.folders → new.Nodup →
      FolderAdded dirs name new datas (Narc.getFileByName n) (Narc.getFileByName n')) ∧
      (dirs.length + 2 ≤ limit → ∀ b, Narc.save n' = .ok b → Narc.load limit b = .ok n') := by
  obtain ⟨f, h1, rfl⟩ := Option.map_eq_some_iff.1 h
  have hg := narc_good hl
  obtain ⟨g, h2, h3⟩ := folderAdded hg.ids h1
  refine ⟨g, h2, h3, fun hd b hb => ?_⟩
  obtain ⟨h4, h5⟩ := folder_good hg hn hd h1
  exact Narc.narc_roundtrip _ b hb h4 limit h5

/-- **C162.** The same for a ROM. -/
theorem rom_add_folder {limit : Nat} (h0 : 0 < limit) {d : Bytes} {r r' : Rom.Rom} {dirs new : List Str} {name : Str}
    {datas : List Bytes} (hl : Rom.load limit d = .ok r) (h : romAddFolder r dirs name new datas = some r') (hn : [] ∉ new) :
    ∃ g, Leads r.filenames dirs g ∧ (name ∉ names g.folders → new.Nodup →
      FolderAdded dirs name new datas (Rom.getFileByName r) (Rom.getFileByName r')) ∧
      (dirs.length + 2 ≤ limit → ∀ u b r2, Rom.save r' u = .ok (b, r2) → ∃ q, Rom.load limit b = .ok q ∧
        q.filenames = r'.filenames ∧ q.files = r'.files ∧ ∀ s, Rom.getFileByName q s = Rom.getFileByName r' s) := by
  obtain ⟨f, h1, rfl⟩ := Option.map_eq_some_iff.1 h
  have hg := rom_good h0 hl
  obtain ⟨g, h2, h3⟩ := folderAdded hg.ids h1
  refine ⟨g, h2, h3, fun hd u b r2 hb => ?_⟩
  obtain ⟨h4, h5⟩ := folder_good hg hn hd h1
  obtain ⟨q, h6, h7, h8, -⟩ := RomCode.reload _ r2 u b hb limit h4 h5
  refine ⟨q, h6, h8, h7, fun s => ?_⟩
  rw [Nested.rom_get, Nested.rom_get, h7, h8]

/-! ## Examples -/

/-- A file `a`, and a folder `x` with the file `b`. -/
def sample : Narc.NARC := ⟨.mk (.cons [120] (.mk .nil [[98]] 1) .nil) [[97]] 0, [[1, 2], [3]], .little⟩

/-- A file `c` in the folder `x`: it is there, and the others still. -/
example : (do
    let n ← Narc.save sample >>= Narc.load 2
    let n' := (narcAddFile n [[120]] [99] [7, 7, 7]).getD sample
    let q ← Narc.save n' >>= Narc.load 2
    return (← Narc.getFileByName q [120, 47, 99], ← Narc.getFileByName q [97], ← Narc.getFileByName q [120, 47, 98])) =
    .ok ([7, 7, 7], [1, 2], [3]) := by decide +kernel

/-- A file `c` in the root: the name has the file `x/b`. -/
example : (do
    let n ← Narc.save sample >>= Narc.load 2
    let n' := (narcAddFile n [] [99] [7, 7, 7]).getD sample
    Narc.getFileByName n' [99]) = .ok [3] := by decide +kernel

/-- A folder `x/y` with the files `d` and `e`. -/
example : (do
    let n ← Narc.save sample >>= Narc.load 3
    let n' := (narcAddFolder n [[120]] [121] [[100], [101]] [[8], [9]]).getD sample
    let q ← Narc.save n' >>= Narc.load 3
    return (← Narc.getFileByName q [120, 47, 121, 47, 100], ← Narc.getFileByName q [120, 47, 121, 47, 101],
      ← Narc.getFileByName q [97], ← Narc.getFileByName q [120, 47, 98])) = .ok ([8], [9], [1, 2], [3]) := by decide +kernel

example : Spec.Fnt.Denotes [120, 47, 99] ([[120]] ++ [[99]]) :=
  ⟨⟨by decide, ⟨[120], [[99]], rfl, by decide⟩, [[120]], [99], rfl, by decide⟩, 0, 0, rfl⟩

example : Leads sample.filenames [[120]] (.mk .nil [[98]] 1) := .cons _ _ _ _ _ (.here _ _) (.nil _)

end Verif.Props.Adding
