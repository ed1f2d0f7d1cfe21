import Verif.Props.Adding
import Verif.Spec.Renaming

/-!
# C165: renaming files and folders
-/

namespace Verif.Props.Renaming

open Verif Verif.Model Verif.Model.Fnt Verif.Spec.Adding Verif.Spec.Renaming Verif.Proofs.FntLookup
open Verif.Spec.Fnt (Leads names All AllIn)
open Verif.Props.Nested (getIn)
open Verif.Props.Adding

/-! ## One folder -/

theorem get_set {files : List Str} {old new x : Str} {k : Nat} (ho : OnlyAt files old k) (hx : x ≠ old) (hn : x ≠ new) (j : Nat) :
    (files.set k new)[j]? = some x ↔ files[j]? = some x := by
  rw [List.getElem?_set]
  split
  · rename_i h
    subst h
    rw [(ho k).2 rfl]
    constructor
    · intro h
      split at h
      · cases h; exact absurd rfl hn
      · cases h
    · intro h; cases h; exact absurd rfl hx
  · exact Iff.rfl

theorem indexOf_rename {files : List Str} {old new : Str} {k : Nat} (ho : OnlyAt files old k) (hn : new ∉ files) :
    indexOf new (files.set k new) = indexOf old files ∧ indexOf old (files.set k new) = none ∧
    ∀ x, x ≠ old → x ≠ new → indexOf x (files.set k new) = indexOf x files := by
  have hk := (ho k).2 rfl
  have hlt := (List.getElem?_eq_some_iff.1 hk).1
  have hne : old ≠ new := by
    rintro rfl
    exact hn (List.mem_of_getElem? hk)
  refine ⟨?_, ?_, ?_⟩
  · have h1 : indexOf old files = some k := by
      rw [indexOf_iff]
      exact ⟨hk, fun j hj h => by have := (ho j).1 h; omega⟩
    rw [h1, indexOf_iff]
    refine ⟨List.getElem?_set_self hlt, fun j hj h => ?_⟩
    rw [List.getElem?_set_ne (by omega)] at h
    exact hn (List.mem_of_getElem? h)
  · refine indexOf_none fun h => ?_
    obtain ⟨j, hj⟩ := List.mem_iff_getElem?.1 h
    by_cases he : k = j
    · subst he
      rw [List.getElem?_set_self hlt] at hj
      cases hj
      exact hne rfl
    · rw [List.getElem?_set_ne he] at hj
      exact he ((ho j).1 hj).symm
  · intro x h1 h2
    apply Option.ext
    intro i
    rw [indexOf_iff, indexOf_iff, get_set ho h1 h2]
    refine and_congr_right fun _ => forall_congr' fun j => forall_congr' fun _ => not_congr (get_set ho h1 h2 j)

theorem renameFile_id {g : Folder} {old new : Str} {k : Nat} (ho : OnlyAt g.files old k) (hn : new ∉ g.files) :
    idInFolder [new] (renameFile k new g) = idInFolder [old] g ∧ idInFolder [old] (renameFile k new g) = none ∧
    ∀ rest, rest ≠ [old] → rest ≠ [new] → idInFolder rest (renameFile k new g) = idInFolder rest g := by
  obtain ⟨fs, files, i⟩ := g
  obtain ⟨h1, h2, h3⟩ := indexOf_rename ho hn
  simp only [Folder.files] at h1 h2 h3
  refine ⟨?_, ?_, ?_⟩
  · rw [idIn_one, idIn_one]
    simp only [renameFile, Folder.files, Folder.firstID, h1]
  · rw [idIn_one]
    simp only [renameFile, Folder.files, h2]
  · intro rest ha hb
    match rest with
    | [] => rfl
    | [x] =>
      rw [idIn_one, idIn_one]
      simp only [renameFile, Folder.files, Folder.firstID]
      rw [h3 x (fun h => ha (by rw [h])) (fun h => hb (by rw [h]))]
    | x :: y :: q => rw [idIn_cons _ (by simp), idIn_cons _ (by simp)]; rfl

theorem find_none {name : Str} {fs : Folders} (h : name ∉ names fs) : fs.find name = none := by
  cases e : fs.find name with
  | none => rfl
  | some a => exact absurd (mem_names_of_find e) h

theorem find_rename {old new : Str} : ∀ {fs : Folders} {k : Nat}, OnlyAt (names fs) old k → new ∉ names fs →
    (renameAt new k fs).find new = fs.find old ∧ (renameAt new k fs).find old = none ∧
    ∀ x, x ≠ old → x ≠ new → (renameAt new k fs).find x = fs.find x
  | .nil, k, ho, _ => by
    have := (ho k).2 rfl
    simp [names] at this
  | .cons n f rest, 0, ho, hn => by
    have h0 := (ho 0).2 rfl
    simp only [names, List.getElem?_cons_zero, Option.some.injEq] at h0
    subst h0
    simp only [names, List.mem_cons, not_or] at hn
    have hr : n ∉ names rest := by
      intro h
      obtain ⟨j, hj⟩ := List.mem_iff_getElem?.1 h
      have := (ho (j + 1)).1 (by simpa [names] using hj)
      omega
    refine ⟨?_, ?_, ?_⟩
    · simp [renameAt, Folders.find]
    · simp [renameAt, Folders.find, hn.1, find_none hr]
    · intro x h1 h2
      simp [renameAt, Folders.find, Ne.symm h1, Ne.symm h2]
  | .cons n f rest, k + 1, ho, hn => by
    simp only [names, List.mem_cons, not_or] at hn
    have hne : n ≠ old := by
      rintro rfl
      have := (ho 0).1 (by simp [names])
      omega
    have ho' : OnlyAt (names rest) old k := by
      intro j
      have := ho (j + 1)
      simp only [names, List.getElem?_cons_succ] at this
      rw [this]
      omega
    obtain ⟨h1, h2, h3⟩ := find_rename ho' hn.2
    refine ⟨?_, ?_, ?_⟩
    · simp [renameAt, Folders.find, Ne.symm hn.1, hne, h1]
    · simp [renameAt, Folders.find, hne, h2]
    · intro x hx hy
      simp only [renameAt, Folders.find]
      rw [h3 x hx hy]

theorem renameFolder_id {g : Folder} {old new : Str} {k : Nat} (ho : OnlyAt (names g.folders) old k)
    (hn : new ∉ names g.folders) :
    (∀ q, q ≠ [] → idInFolder (new :: q) (renameFolder k new g) = idInFolder (old :: q) g ∧
      idInFolder (old :: q) (renameFolder k new g) = none) ∧
    ∀ rest, (∀ q, q ≠ [] → rest ≠ old :: q ∧ rest ≠ new :: q) → idInFolder rest (renameFolder k new g) = idInFolder rest g := by
  obtain ⟨fs, files, i⟩ := g
  obtain ⟨h1, h2, h3⟩ := find_rename ho hn
  refine ⟨fun q hq => ⟨?_, ?_⟩, ?_⟩
  · rw [idIn_cons _ hq, idIn_cons _ hq]
    simp only [renameFolder, Folder.folders] at h1 ⊢
    rw [h1]
  · rw [idIn_cons _ hq]
    simp only [renameFolder, Folder.folders] at h2 ⊢
    rw [h2]
  · intro rest hr
    match rest with
    | [] => rfl
    | [x] => rfl
    | x :: y :: q =>
      obtain ⟨ha, hb⟩ := hr (y :: q) (by simp)
      rw [idIn_cons _ (by simp), idIn_cons _ (by simp)]
      simp only [renameFolder, Folder.folders] at h3 ⊢
      rw [h3 x (fun h => ha (by rw [h])) (fun h => hb (by rw [h]))]

/-! ## The tree -/

theorem get_none {f : Folder} {files : List Bytes} {s : Str} (h : idOf f s = .ok none) : getIn f files s = .error .valueError := by
  unfold getIn
  rw [h]
  rfl

theorem get_of {f f' : Folder} {files : List Bytes} {s s' : Str} (h : idOf f' s = idOf f s') :
    getIn f' files s = getIn f files s' := by
  unfold getIn
  rw [h]

theorem fileRenamed {f f' : Folder} {files : List Bytes} {dirs : List Str} {new : Str} {k : Nat}
    (h : changeAt dirs (renameFile k new) f = some f') : ∃ g, Leads f dirs g ∧
      ∀ old, OnlyAt g.files old k → new ∉ g.files → FileRenamed dirs old new (getIn f files) (getIn f' files) := by
  obtain ⟨g, h1, h2, h3⟩ := changeAt_id h
  refine ⟨g, h1, fun old ho hn => ?_⟩
  obtain ⟨h4, h5, h6⟩ := renameFile_id ho hn
  refine ⟨?_, ?_, ?_⟩
  · intro s s' hs hs'
    refine get_of ?_
    rw [idOf_denotes hs, idOf_denotes hs', (h2 [new] (by simp)).1, (h2 [old] (by simp)).2, h4]
  · intro s hs
    refine get_none ?_
    rw [idOf_denotes hs, (h2 [old] (by simp)).1, h5]
  · intro s hs hs'
    refine get_of ?_
    rcases path_cases s with ⟨n, -, e⟩ | ⟨cs, hcs⟩
    · unfold idOf; rw [e]; rfl
    · rw [idOf_denotes hcs, idOf_denotes hcs]
      congr 1
      by_cases hp : ∃ rest, rest ≠ [] ∧ cs = dirs ++ rest
      · obtain ⟨rest, hr, rfl⟩ := hp
        rw [(h2 rest hr).1, (h2 rest hr).2, h6]
        · rintro rfl; exact hs hcs
        · rintro rfl; exact hs' hcs
      · exact h3 cs hp

theorem folderRenamed {f f' : Folder} {files : List Bytes} {dirs : List Str} {new : Str} {k : Nat}
    (h : changeAt dirs (renameFolder k new) f = some f') : ∃ g, Leads f dirs g ∧
      ∀ old, OnlyAt (names g.folders) old k → new ∉ names g.folders →
        FolderRenamed dirs old new (getIn f files) (getIn f' files) := by
  obtain ⟨g, h1, h2, h3⟩ := changeAt_id h
  refine ⟨g, h1, fun old ho hn => ?_⟩
  obtain ⟨h4, h5⟩ := renameFolder_id ho hn
  refine ⟨?_, ?_, ?_⟩
  · intro q s s' hq hs hs'
    refine get_of ?_
    rw [idOf_denotes hs, idOf_denotes hs', (h2 (new :: q) (by simp)).1, (h2 (old :: q) (by simp)).2, (h4 q hq).1]
  · intro q s hq hs
    refine get_none ?_
    rw [idOf_denotes hs, (h2 (old :: q) (by simp)).1, (h4 q hq).2]
  · intro s hs
    refine get_of ?_
    rcases path_cases s with ⟨n, -, e⟩ | ⟨cs, hcs⟩
    · unfold idOf; rw [e]; rfl
    · rw [idOf_denotes hcs, idOf_denotes hcs]
      congr 1
      by_cases hp : ∃ rest, rest ≠ [] ∧ cs = dirs ++ rest
      · obtain ⟨rest, hr, rfl⟩ := hp
        rw [(h2 rest hr).1, (h2 rest hr).2, h5]
        intro q hq
        constructor
        · rintro rfl; exact (hs q hq).1 hcs
        · rintro rfl; exact (hs q hq).2 hcs
      · exact h3 cs hp

/-! ## What can be saved and loaded -/

theorem renameFile_noEmpty {k : Nat} {new : Str} (hn : new ≠ []) (g : Folder) (h : Spec.Fnt.NoEmptyFileName g) :
    Spec.Fnt.NoEmptyFileName (renameFile k new g) := by
  obtain ⟨fs, files, i⟩ := g
  unfold Spec.Fnt.NoEmptyFileName renameFile at *
  rw [All] at h ⊢
  refine ⟨?_, h.2⟩
  intro hm
  rcases List.mem_or_eq_of_mem_set hm with h' | h'
  · exact h.1 h'
  · exact hn h'.symm

theorem renameAt_noEmpty {new : Str} : ∀ {fs : Folders} {k : Nat}, AllIn (fun f => [] ∉ f.files) fs →
    AllIn (fun f => [] ∉ f.files) (renameAt new k fs)
  | .nil, k, h => by cases k <;> exact h
  | .cons n f rest, 0, h => by
    rw [AllIn] at h
    rw [renameAt, AllIn]
    exact h
  | .cons n f rest, k + 1, h => by
    rw [AllIn] at h
    rw [renameAt, AllIn]
    exact ⟨h.1, renameAt_noEmpty h.2⟩

theorem renameAt_depth {new : Str} : ∀ {fs : Folders} {k : Nat},
    Spec.Fnt.depthIn (renameAt new k fs) = Spec.Fnt.depthIn fs
  | .nil, k => by cases k <;> rfl
  | .cons n f rest, 0 => by simp only [renameAt, Spec.Fnt.depthIn]
  | .cons n f rest, k + 1 => by simp only [renameAt, Spec.Fnt.depthIn, renameAt_depth (fs := rest)]

theorem renameFolder_noEmpty {k : Nat} {new : Str} (g : Folder) (h : Spec.Fnt.NoEmptyFileName g) :
    Spec.Fnt.NoEmptyFileName (renameFolder k new g) := by
  obtain ⟨fs, files, i⟩ := g
  unfold Spec.Fnt.NoEmptyFileName renameFolder at *
  rw [All] at h ⊢
  exact ⟨h.1, renameAt_noEmpty h.2⟩

theorem change_good {limit : Nat} {f f' : Folder} {dirs : List Str} {change : Folder → Folder} (hf : Good limit f)
    (he : ∀ g, Spec.Fnt.NoEmptyFileName g → Spec.Fnt.NoEmptyFileName (change g))
    (hd : ∀ g, Spec.Fnt.depth (change g) = Spec.Fnt.depth g) (h : changeAt dirs change f = some f') :
    Spec.Fnt.NoEmptyFileName f' ∧ Spec.Fnt.depth f' ≤ limit := by
  refine ⟨changeAt_noEmpty he hf.noEmpty h, ?_⟩
  obtain ⟨g, hg, -⟩ := changeAt_id h
  have h1 := leads_depth hg
  have h2 := depth_pos g
  have h3 := changeAt_depth (m := 0) (change := change) (fun g => by rw [hd]; omega) h
  have := hf.depth
  omega

theorem renameFile_depth (k : Nat) (new : Str) (g : Folder) : Spec.Fnt.depth (renameFile k new g) = Spec.Fnt.depth g := by
  obtain ⟨fs, files, i⟩ := g
  simp only [renameFile, Spec.Fnt.depth]

theorem renameFolder_depth (k : Nat) (new : Str) (g : Folder) : Spec.Fnt.depth (renameFolder k new g) = Spec.Fnt.depth g := by
  obtain ⟨fs, files, i⟩ := g
  simp only [renameFolder, Spec.Fnt.depth, renameAt_depth]

/-! ## Archives and ROMs -/

/-- **C165.** Renaming a file of a NARC, whose name is there once, to a name that is not there: the new name has the file, the
old one none, and all others what they had.  It comes back from saving and loading. -/
theorem narc_rename_file {limit : Nat} {d : Bytes} {n n' : Narc.NARC} {dirs : List Str} {new : Str} {k : Nat}
    (hl : Narc.load limit d = .ok n) (h : narcChange n dirs (renameFile k new) = some n') (hn : new ≠ []) :
    ∃ g, Leads n.filenames dirs g ∧ n'.files = n.files ∧ (∀ old, OnlyAt g.files old k → new ∉ g.files →
      FileRenamed dirs old new (Narc.getFileByName n) (Narc.getFileByName n')) ∧
      ∀ b, Narc.save n' = .ok b → Narc.load limit b = .ok n' := by
  obtain ⟨f, h1, rfl⟩ := Option.map_eq_some_iff.1 h
  obtain ⟨g, h2, h3⟩ := fileRenamed h1
  obtain ⟨h4, h5⟩ := change_good (narc_good hl) (renameFile_noEmpty hn) (renameFile_depth k new) h1
  exact ⟨g, h2, rfl, h3, fun b hb => Narc.narc_roundtrip _ b hb h4 limit h5⟩

/-- **C165.** The same for a folder of a NARC, with all that is in it. -/
theorem narc_rename_folder {limit : Nat} {d : Bytes} {n n' : Narc.NARC} {dirs : List Str} {new : Str} {k : Nat}
    (hl : Narc.load limit d = .ok n) (h : narcChange n dirs (renameFolder k new) = some n') :
    ∃ g, Leads n.filenames dirs g ∧ n'.files = n.files ∧ (∀ old, OnlyAt (names g.folders) old k → new ∉ names g.folders →
      FolderRenamed dirs old new (Narc.getFileByName n) (Narc.getFileByName n')) ∧
      ∀ b, Narc.save n' = .ok b → Narc.load limit b = .ok n' := by
  obtain ⟨f, h1, rfl⟩ := Option.map_eq_some_iff.1 h
  obtain ⟨g, h2, h3⟩ := folderRenamed h1
  obtain ⟨h4, h5⟩ := change_good (narc_good hl) renameFolder_noEmpty (renameFolder_depth k new) h1
  exact ⟨g, h2, rfl, h3, fun b hb => Narc.narc_roundtrip _ b hb h4 limit h5⟩

/-- **C165.** A file of a ROM. -/
theorem rom_rename_file {limit : Nat} (h0 : 0 < limit) {d : Bytes} {r r' : Rom.Rom} {dirs : List Str} {new : Str} {k : Nat}
    (hl : Rom.load limit d = .ok r) (h : romChange r dirs (renameFile k new) = some r') (hn : new ≠ []) :
    ∃ g, Leads r.filenames dirs g ∧ r' = { r with filenames := r'.filenames } ∧ (∀ old, OnlyAt g.files old k → new ∉ g.files →
      FileRenamed dirs old new (Rom.getFileByName r) (Rom.getFileByName r')) ∧
      ∀ u b r2, Rom.save r' u = .ok (b, r2) → ∃ q, Rom.load limit b = .ok q ∧ q.filenames = r'.filenames ∧ q.files = r'.files ∧
        ∀ s, Rom.getFileByName q s = Rom.getFileByName r' s := by
  obtain ⟨f, h1, rfl⟩ := Option.map_eq_some_iff.1 h
  obtain ⟨g, h2, h3⟩ := fileRenamed h1
  obtain ⟨h4, h5⟩ := change_good (rom_good h0 hl) (renameFile_noEmpty hn) (renameFile_depth k new) h1
  refine ⟨g, h2, rfl, h3, fun u b r2 hb => ?_⟩
  obtain ⟨q, h6, h7, h8, -⟩ := RomCode.reload _ r2 u b hb limit h4 h5
  refine ⟨q, h6, h8, h7, fun s => ?_⟩
  rw [Nested.rom_get, Nested.rom_get, h7, h8]

/-- **C165.** A folder of a ROM. -/
theorem rom_rename_folder {limit : Nat} (h0 : 0 < limit) {d : Bytes} {r r' : Rom.Rom} {dirs : List Str} {new : Str} {k : Nat}
    (hl : Rom.load limit d = .ok r) (h : romChange r dirs (renameFolder k new) = some r') :
    ∃ g, Leads r.filenames dirs g ∧ r' = { r with filenames := r'.filenames } ∧
      (∀ old, OnlyAt (names g.folders) old k → new ∉ names g.folders →
        FolderRenamed dirs old new (Rom.getFileByName r) (Rom.getFileByName r')) ∧
      ∀ u b r2, Rom.save r' u = .ok (b, r2) → ∃ q, Rom.load limit b = .ok q ∧ q.filenames = r'.filenames ∧ q.files = r'.files ∧
        ∀ s, Rom.getFileByName q s = Rom.getFileByName r' s := by
  obtain ⟨f, h1, rfl⟩ := Option.map_eq_some_iff.1 h
  obtain ⟨g, h2, h3⟩ := folderRenamed h1
  obtain ⟨h4, h5⟩ := change_good (rom_good h0 hl) renameFolder_noEmpty (renameFolder_depth k new) h1
  refine ⟨g, h2, rfl, h3, fun u b r2 hb => ?_⟩
  obtain ⟨q, h6, h7, h8, -⟩ := RomCode.reload _ r2 u b hb limit h4 h5
  refine ⟨q, h6, h8, h7, fun s => ?_⟩
  rw [Nested.rom_get, Nested.rom_get, h7, h8]

/-! ## Examples -/

/-- The file `x/b` becomes `x/c`, and then the folder `x` becomes `y`. -/
example : (show Py (List (Py Bytes)) from do
    let b ← Narc.save sample
    let n ← Narc.load 2 b
    let n' := (narcChange n [[120]] (renameFile 0 [99])).getD n
    let b' ← Narc.save n'
    let m ← Narc.load 2 b'
    let m' := (narcChange m [] (renameFolder 0 [121])).getD m
    let b'' ← Narc.save m'
    let q ← Narc.load 2 b''
    return [Narc.getFileByName m [120, 47, 99], Narc.getFileByName m [120, 47, 98], Narc.getFileByName m [97],
      Narc.getFileByName q [121, 47, 99], Narc.getFileByName q [120, 47, 99], Narc.getFileByName q [47, 97]]) =
    .ok [.ok [3], .error .valueError, .ok [1, 2], .ok [3], .error .valueError, .ok [1, 2]] := by decide +kernel

example : OnlyAt [[98]] [98] 0 ∧ [99] ∉ [[98]] := by
  refine ⟨fun j => ?_, by decide⟩
  cases j <;> simp

/-- The only file of a ROM, `c`, becomes `d`. -/
example : (show Py (List (Py Bytes)) from do
    let r ← Rom.load 1 Nested.small
    let r' := (romChange r [] (renameFile 0 [100])).getD r
    return [Rom.getFileByName r [99], Rom.getFileByName r' [100], Rom.getFileByName r' [99]]) =
    .ok [.ok [1, 2, 3], .ok [1, 2, 3], .error .valueError] := by decide +kernel

/-- If the name is there twice, renaming the second does nothing. -/
example : idInFolder [[98]] (renameFile 1 [99] (.mk .nil [[98], [98]] 0)) = some 0 := by decide +kernel

end Verif.Props.Renaming
