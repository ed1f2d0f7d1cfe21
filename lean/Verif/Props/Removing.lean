import Verif.Props.Renaming
import Verif.Spec.Removing

/-!
# C166: removing the names of files and folders
-/

namespace Verif.Props.Removing

open Verif Verif.Model Verif.Model.Fnt Verif.Spec.Adding Verif.Spec.Renaming Verif.Spec.Removing Verif.Proofs.FntLookup
open Verif.Spec.Fnt (Leads names All AllIn)
open Verif.Props.Nested (getIn)
open Verif.Props.Adding Verif.Props.Renaming

/-! ## One folder -/

theorem indexOf_nodup {l : List Str} (hn : l.Nodup) {j : Nat} {x : Str} (h : l[j]? = some x) : indexOf x l = some j := by
  rw [indexOf_iff]
  refine ⟨h, fun i hi hx => ?_⟩
  have hlt := (List.getElem?_eq_some_iff.1 hx).1
  have := (List.getElem?_inj hlt hn).1 (hx.trans h.symm)
  omega

theorem erase_nodup {l : List Str} (hn : l.Nodup) (k : Nat) : (l.eraseIdx k).Nodup :=
  (List.eraseIdx_sublist l k).nodup hn

theorem erase_gone {l : List Str} (hn : l.Nodup) {k : Nat} {x : Str} (h : l[k]? = some x) : x ∉ l.eraseIdx k := by
  intro hx
  obtain ⟨j, hj⟩ := List.mem_iff_getElem?.1 hx
  rw [List.getElem?_eraseIdx] at hj
  have hlt := (List.getElem?_eq_some_iff.1 h).1
  split at hj
  · have := (List.getElem?_inj hlt hn).1 (h.trans hj.symm); omega
  · have := (List.getElem?_inj hlt hn).1 (h.trans hj.symm); omega

theorem removeFile_id {g : Folder} (hn : g.files.Nodup) (k : Nat) :
    (∀ x, g.files[k]? = some x → idInFolder [x] (removeFile k g) = none) ∧
    (∀ (j : Nat) x, j < k → g.files[j]? = some x → idInFolder [x] (removeFile k g) = idInFolder [x] g) ∧
    (∀ (j : Nat) w x, k ≤ j → g.files[j]? = some w → g.files[j + 1]? = some x →
      idInFolder [x] (removeFile k g) = idInFolder [w] g) ∧
    ∀ rest, (∀ x ∈ g.files, rest ≠ [x]) → idInFolder rest (removeFile k g) = idInFolder rest g := by
  obtain ⟨fs, files, i⟩ := g
  simp only [Folder.files] at hn ⊢
  refine ⟨?_, ?_, ?_, ?_⟩
  · intro x hx
    rw [idIn_one]
    simp only [removeFile, Folder.files, indexOf_none (erase_gone hn hx)]
  · intro j x hj hx
    rw [idIn_one, idIn_one]
    simp only [removeFile, Folder.files, Folder.firstID]
    rw [indexOf_nodup hn hx, indexOf_nodup (erase_nodup hn k) (j := j) (by rw [List.getElem?_eraseIdx, if_pos hj]; exact hx)]
  · intro j w x hj hw hx
    rw [idIn_one, idIn_one]
    simp only [removeFile, Folder.files, Folder.firstID]
    rw [indexOf_nodup hn hw, indexOf_nodup (erase_nodup hn k) (j := j) (by
      rw [List.getElem?_eraseIdx, if_neg (by omega)]; exact hx)]
  · intro rest hr
    match rest with
    | [] => rfl
    | [x] =>
      have hx : x ∉ files := fun h => hr x h rfl
      rw [idIn_one, idIn_one]
      simp only [removeFile, Folder.files, Folder.firstID]
      rw [indexOf_none hx, indexOf_none fun h => hx ((List.eraseIdx_sublist files k).subset h)]
    | x :: y :: q => rw [idIn_cons _ (by simp), idIn_cons _ (by simp)]; rfl

theorem find_remove {old : Str} : ∀ {fs : Folders} {k : Nat}, OnlyAt (names fs) old k →
    (removeAt k fs).find old = none ∧ ∀ x, x ≠ old → (removeAt k fs).find x = fs.find x
  | .nil, k, ho => by
    have := (ho k).2 rfl
    simp [names] at this
  | .cons n f rest, 0, ho => by
    have h0 := (ho 0).2 rfl
    simp only [names, List.getElem?_cons_zero, Option.some.injEq] at h0
    subst h0
    have hr : n ∉ names rest := by
      intro h
      obtain ⟨j, hj⟩ := List.mem_iff_getElem?.1 h
      have := (ho (j + 1)).1 (by simpa [names] using hj)
      omega
    refine ⟨by simp [removeAt, find_none hr], ?_⟩
    intro x h1
    simp [removeAt, Folders.find, Ne.symm h1]
  | .cons n f rest, k + 1, ho => by
    have hne : n ≠ old := by
      rintro rfl
      have := (ho 0).1 (by simp [names])
      omega
    have ho' : OnlyAt (names rest) old k := by
      intro j
      have := ho (j + 1)
      simp only [names, List.getElem?_cons_succ] at this
      rw [this]
      omega
    obtain ⟨h2, h3⟩ := find_remove ho'
    refine ⟨by simp [removeAt, Folders.find, hne, h2], ?_⟩
    intro x hx
    simp only [removeAt, Folders.find]
    rw [h3 x hx]

theorem removeFolder_id {g : Folder} {old : Str} {k : Nat} (ho : OnlyAt (names g.folders) old k) :
    (∀ q, q ≠ [] → idInFolder (old :: q) (removeFolder k g) = none) ∧
    ∀ rest, (∀ q, q ≠ [] → rest ≠ old :: q) → idInFolder rest (removeFolder k g) = idInFolder rest g := by
  obtain ⟨fs, files, i⟩ := g
  obtain ⟨h2, h3⟩ := find_remove ho
  refine ⟨fun q hq => ?_, ?_⟩
  · rw [idIn_cons _ hq]
    simp only [removeFolder, Folder.folders] at h2 ⊢
    rw [h2]
  · intro rest hr
    match rest with
    | [] => rfl
    | [x] => rfl
    | x :: y :: q =>
      have ha := hr (y :: q) (by simp)
      rw [idIn_cons _ (by simp), idIn_cons _ (by simp)]
      simp only [removeFolder, Folder.folders] at h3 ⊢
      rw [h3 x (fun h => ha (by rw [h]))]

/-! ## The tree -/

theorem nameRemoved {f f' : Folder} {files : List Bytes} {dirs : List Str} {k : Nat}
    (h : changeAt dirs (removeFile k) f = some f') : ∃ g, Leads f dirs g ∧
      (g.files.Nodup → NameRemoved g dirs k (getIn f files) (getIn f' files)) := by
  obtain ⟨g, h1, h2, h3⟩ := changeAt_id h
  refine ⟨g, h1, fun hn => ?_⟩
  obtain ⟨h4, h5, h6, h7⟩ := removeFile_id hn k
  refine ⟨?_, ?_, ?_, ?_⟩
  · intro x s hx hs
    refine get_none ?_
    rw [idOf_denotes hs, (h2 [x] (by simp)).1, h4 x hx]
  · intro j x s hj hx hs
    refine get_of ?_
    rw [idOf_denotes hs, idOf_denotes hs, (h2 [x] (by simp)).1, (h2 [x] (by simp)).2, h5 j x hj hx]
  · intro j w x s s' hj hw hx hs hs'
    refine get_of ?_
    rw [idOf_denotes hs, idOf_denotes hs', (h2 [x] (by simp)).1, (h2 [w] (by simp)).2, h6 j w x hj hw hx]
  · intro s hs
    refine get_of ?_
    rcases path_cases s with ⟨n, -, e⟩ | ⟨cs, hcs⟩
    · unfold idOf; rw [e]; rfl
    · rw [idOf_denotes hcs, idOf_denotes hcs]
      congr 1
      by_cases hp : ∃ rest, rest ≠ [] ∧ cs = dirs ++ rest
      · obtain ⟨rest, hr, rfl⟩ := hp
        rw [(h2 rest hr).1, (h2 rest hr).2, h7]
        rintro x hx rfl
        exact hs x hx hcs
      · exact h3 cs hp

theorem folderRemoved {f f' : Folder} {files : List Bytes} {dirs : List Str} {k : Nat}
    (h : changeAt dirs (removeFolder k) f = some f') : ∃ g, Leads f dirs g ∧
      ∀ old, OnlyAt (names g.folders) old k → FolderRemoved dirs old (getIn f files) (getIn f' files) := by
  obtain ⟨g, h1, h2, h3⟩ := changeAt_id h
  refine ⟨g, h1, fun old ho => ?_⟩
  obtain ⟨h4, h5⟩ := removeFolder_id ho
  refine ⟨?_, ?_⟩
  · intro q s hq hs
    refine get_none ?_
    rw [idOf_denotes hs, (h2 (old :: q) (by simp)).1, h4 q hq]
  · intro s hs
    refine get_of ?_
    rcases path_cases s with ⟨n, -, e⟩ | ⟨cs, hcs⟩
    · unfold idOf; rw [e]; rfl
    · rw [idOf_denotes hcs, idOf_denotes hcs]
      congr 1
      by_cases hp : ∃ rest, rest ≠ [] ∧ cs = dirs ++ rest
      · obtain ⟨rest, hr, rfl⟩ := hp
        rw [(h2 rest hr).1, (h2 rest hr).2, h5]
        rintro q hq rfl
        exact hs q hq hcs
      · exact h3 cs hp

/-! ## What can be saved and loaded -/

theorem removeFile_noEmpty (k : Nat) (g : Folder) (h : Spec.Fnt.NoEmptyFileName g) :
    Spec.Fnt.NoEmptyFileName (removeFile k g) := by
  obtain ⟨fs, files, i⟩ := g
  unfold Spec.Fnt.NoEmptyFileName removeFile at *
  rw [All] at h ⊢
  exact ⟨fun hm => h.1 ((List.eraseIdx_sublist files k).subset hm), h.2⟩

theorem removeAt_noEmpty : ∀ {fs : Folders} {k : Nat}, AllIn (fun f => [] ∉ f.files) fs →
    AllIn (fun f => [] ∉ f.files) (removeAt k fs)
  | .nil, k, h => by cases k <;> exact h
  | .cons n f rest, 0, h => by
    rw [AllIn] at h
    exact h.2
  | .cons n f rest, k + 1, h => by
    rw [AllIn] at h
    rw [removeAt, AllIn]
    exact ⟨h.1, removeAt_noEmpty h.2⟩

theorem removeAt_depth : ∀ {fs : Folders} {k : Nat}, Spec.Fnt.depthIn (removeAt k fs) ≤ Spec.Fnt.depthIn fs
  | .nil, k => by cases k <;> exact Nat.le_refl _
  | .cons n f rest, 0 => by simp only [removeAt, Spec.Fnt.depthIn]; omega
  | .cons n f rest, k + 1 => by
    have := removeAt_depth (fs := rest) (k := k)
    simp only [removeAt, Spec.Fnt.depthIn]
    omega

theorem removeFolder_noEmpty (k : Nat) (g : Folder) (h : Spec.Fnt.NoEmptyFileName g) :
    Spec.Fnt.NoEmptyFileName (removeFolder k g) := by
  obtain ⟨fs, files, i⟩ := g
  unfold Spec.Fnt.NoEmptyFileName removeFolder at *
  rw [All] at h ⊢
  exact ⟨h.1, removeAt_noEmpty h.2⟩

theorem removed_good {limit : Nat} {f f' : Folder} {dirs : List Str} {change : Folder → Folder} (hf : Good limit f)
    (he : ∀ g, Spec.Fnt.NoEmptyFileName g → Spec.Fnt.NoEmptyFileName (change g))
    (hd : ∀ g, Spec.Fnt.depth (change g) ≤ Spec.Fnt.depth g) (h : changeAt dirs change f = some f') :
    Spec.Fnt.NoEmptyFileName f' ∧ Spec.Fnt.depth f' ≤ limit := by
  refine ⟨changeAt_noEmpty he hf.noEmpty h, ?_⟩
  obtain ⟨g, hg, -⟩ := changeAt_id h
  have h1 := leads_depth hg
  have h2 := depth_pos g
  have h3 := changeAt_depth (m := 0) (change := change) (fun g => by have := hd g; omega) h
  have := hf.depth
  omega

theorem removeFile_depth (k : Nat) (g : Folder) : Spec.Fnt.depth (removeFile k g) ≤ Spec.Fnt.depth g := by
  obtain ⟨fs, files, i⟩ := g
  simp only [removeFile, Spec.Fnt.depth]
  omega

theorem removeFolder_depth (k : Nat) (g : Folder) : Spec.Fnt.depth (removeFolder k g) ≤ Spec.Fnt.depth g := by
  obtain ⟨fs, files, i⟩ := g
  have := removeAt_depth (fs := fs) (k := k)
  simp only [removeFolder, Spec.Fnt.depth]
  omega

/-! ## Archives and ROMs -/

/-- **C166.** Removing a file name from a folder of a NARC whose names are different. -/
theorem narc_remove_name {limit : Nat} {d : Bytes} {n n' : Narc.NARC} {dirs : List Str} {k : Nat}
    (hl : Narc.load limit d = .ok n) (h : narcChange n dirs (removeFile k) = some n') :
    ∃ g, Leads n.filenames dirs g ∧ n'.files = n.files ∧ (g.files.Nodup →
      NameRemoved g dirs k (Narc.getFileByName n) (Narc.getFileByName n')) ∧
      ∀ b, Narc.save n' = .ok b → Narc.load limit b = .ok n' := by
  obtain ⟨f, h1, rfl⟩ := Option.map_eq_some_iff.1 h
  obtain ⟨g, h2, h3⟩ := nameRemoved h1
  obtain ⟨h4, h5⟩ := removed_good (narc_good hl) (removeFile_noEmpty k) (removeFile_depth k) h1
  exact ⟨g, h2, rfl, h3, fun b hb => Narc.narc_roundtrip _ b hb h4 limit h5⟩

/-- **C166.** Removing a folder, with all names in it, from a folder of a NARC. -/
theorem narc_remove_folder {limit : Nat} {d : Bytes} {n n' : Narc.NARC} {dirs : List Str} {k : Nat}
    (hl : Narc.load limit d = .ok n) (h : narcChange n dirs (removeFolder k) = some n') :
    ∃ g, Leads n.filenames dirs g ∧ n'.files = n.files ∧ (∀ old, OnlyAt (names g.folders) old k →
      FolderRemoved dirs old (Narc.getFileByName n) (Narc.getFileByName n')) ∧
      ∀ b, Narc.save n' = .ok b → Narc.load limit b = .ok n' := by
  obtain ⟨f, h1, rfl⟩ := Option.map_eq_some_iff.1 h
  obtain ⟨g, h2, h3⟩ := folderRemoved h1
  obtain ⟨h4, h5⟩ := removed_good (narc_good hl) (removeFolder_noEmpty k) (removeFolder_depth k) h1
  exact ⟨g, h2, rfl, h3, fun b hb => Narc.narc_roundtrip _ b hb h4 limit h5⟩

/-- **C166.** A file name of a ROM. -/
theorem rom_remove_name {limit : Nat} (h0 : 0 < limit) {d : Bytes} {r r' : Rom.Rom} {dirs : List Str} {k : Nat}
    (hl : Rom.load limit d = .ok r) (h : romChange r dirs (removeFile k) = some r') :
    ∃ g, Leads r.filenames dirs g ∧ r' = { r with filenames := r'.filenames } ∧ (g.files.Nodup →
      NameRemoved g dirs k (Rom.getFileByName r) (Rom.getFileByName r')) ∧
      ∀ u b r2, Rom.save r' u = .ok (b, r2) → ∃ q, Rom.load limit b = .ok q ∧ q.filenames = r'.filenames ∧ q.files = r'.files ∧
        ∀ s, Rom.getFileByName q s = Rom.getFileByName r' s := by
  obtain ⟨f, h1, rfl⟩ := Option.map_eq_some_iff.1 h
  obtain ⟨g, h2, h3⟩ := nameRemoved h1
  obtain ⟨h4, h5⟩ := removed_good (rom_good h0 hl) (removeFile_noEmpty k) (removeFile_depth k) h1
  refine ⟨g, h2, rfl, h3, fun u b r2 hb => ?_⟩
  obtain ⟨q, h6, h7, h8, -⟩ := RomCode.reload _ r2 u b hb limit h4 h5
  refine ⟨q, h6, h8, h7, fun s => ?_⟩
  rw [Nested.rom_get, Nested.rom_get, h7, h8]

/-- **C166.** A folder of a ROM. -/
theorem rom_remove_folder {limit : Nat} (h0 : 0 < limit) {d : Bytes} {r r' : Rom.Rom} {dirs : List Str} {k : Nat}
    (hl : Rom.load limit d = .ok r) (h : romChange r dirs (removeFolder k) = some r') :
    ∃ g, Leads r.filenames dirs g ∧ r' = { r with filenames := r'.filenames } ∧ (∀ old, OnlyAt (names g.folders) old k →
      FolderRemoved dirs old (Rom.getFileByName r) (Rom.getFileByName r')) ∧
      ∀ u b r2, Rom.save r' u = .ok (b, r2) → ∃ q, Rom.load limit b = .ok q ∧ q.filenames = r'.filenames ∧ q.files = r'.files ∧
        ∀ s, Rom.getFileByName q s = Rom.getFileByName r' s := by
  obtain ⟨f, h1, rfl⟩ := Option.map_eq_some_iff.1 h
  obtain ⟨g, h2, h3⟩ := folderRemoved h1
  obtain ⟨h4, h5⟩ := removed_good (rom_good h0 hl) (removeFolder_noEmpty k) (removeFolder_depth k) h1
  refine ⟨g, h2, rfl, h3, fun u b r2 hb => ?_⟩
  obtain ⟨q, h6, h7, h8, -⟩ := RomCode.reload _ r2 u b hb limit h4 h5
  refine ⟨q, h6, h8, h7, fun s => ?_⟩
  rw [Nested.rom_get, Nested.rom_get, h7, h8]

/-! ## Examples -/

/-- Files `a`, `b` and `c`, and a folder `x` with the file `d`. -/
def four : Narc.NARC :=
  ⟨.mk (.cons [120] (.mk .nil [[100]] 3) .nil) [[97], [98], [99]] 0, [[1], [2], [3], [4]], .little⟩

/-- `b` is removed: `c` has its file then.  Then `x` is removed. -/
example : (show Py (List (Py Bytes)) from do
    let b ← Narc.save four
    let n ← Narc.load 2 b
    let n' := (narcChange n [] (removeFile 1)).getD n
    let b' ← Narc.save n'
    let m ← Narc.load 2 b'
    let m' := (narcChange m [] (removeFolder 0)).getD m
    return [Narc.getFileByName m [97], Narc.getFileByName m [98], Narc.getFileByName m [99], Narc.getFileByName m [120, 47, 100],
      Narc.getFileByName m' [120, 47, 100], Narc.getFileByName m' [99]]) =
    .ok [.ok [1], .error .valueError, .ok [2], .ok [4], .error .valueError, .ok [2]] := by decide +kernel

example : four.filenames.files.Nodup ∧ OnlyAt (names four.filenames.folders) [120] 0 := by
  refine ⟨by decide, fun j => ?_⟩
  cases j <;> simp [four, names, Folder.folders]

/-- The only file name of a ROM is removed. -/
example : (show Py (List (Py Bytes)) from do
    let r ← Rom.load 1 Nested.small
    let r' := (romChange r [] (removeFile 0)).getD r
    return [Rom.getFileByName r [99], Rom.getFileByName r' [99]]) = .ok [.ok [1, 2, 3], .error .valueError] := by decide +kernel

end Verif.Props.Removing
