import Verif.Proofs.Files
import Verif.Props.Nested
import Verif.Props.Tools
import Verif.Spec.Programs

/-!
# C156: the programs of the documentation that work on the files of a ROM
-/

namespace Verif.Props.Programs

open Verif Verif.Model Verif.Model.Files Verif.Spec.Files Verif.Spec.Programs
open Verif.Spec.Nested (Denotes)
open Verif.Proofs.Files

/-! ## Searching -/

theorem search_from (names : Fnt.Folder) (magic : Bytes) (suffix : Str) : ∀ (files : List Bytes) (i : Nat),
    ∃ ids : List Nat, ids.Pairwise (· < ·) ∧ (∀ j, j ∈ ids ↔ i ≤ j ∧ Matches files magic (j - i)) ∧
      searchNames names magic i files = ids.map (fun j : Nat => Fnt.filenameOf names j) ∧
      (search names magic suffix i files).1.map some =
        (ids.map fun j : Nat => (Fnt.filenameOf names j).map (· ++ suffix)).takeWhile Option.isSome ∧
      (((∀ j ∈ ids, (Fnt.filenameOf names j).isSome) ∧ (search names magic suffix i files).2 = .ok ()) ∨
        ((∃ j ∈ ids, Fnt.filenameOf names j = none) ∧ (search names magic suffix i files).2 = .error .keyError))
  | [], i => ⟨[], .nil, by simp [Matches], rfl, rfl, .inl ⟨by simp, rfl⟩⟩
  | file :: rest, i => by
    obtain ⟨ids, h1, h2, h3, h4, h5⟩ := search_from names magic suffix rest (i + 1)
    have hrest : ∀ j, i + 1 ≤ j → (Matches (file :: rest) magic (j - i) ↔ Matches rest magic (j - (i + 1))) := by
      intro j hj
      unfold Matches
      rw [show j - i = (j - (i + 1)) + 1 by omega, List.getElem?_cons_succ]
    by_cases hm : magic.isPrefixOf file
    · have hm' : Matches (file :: rest) magic 0 := by
        obtain ⟨t, rfl⟩ := List.isPrefixOf_iff_prefix.1 hm
        exact ⟨t, rfl⟩
      refine ⟨i :: ids, ?_, ?_, ?_, ?_⟩
      · refine List.pairwise_cons.2 ⟨fun j hj => ?_, h1⟩
        have := ((h2 j).1 hj).1
        omega
      · intro j
        rw [List.mem_cons, h2]
        constructor
        · rintro (rfl | ⟨h, h'⟩)
          · exact ⟨Nat.le_refl _, by rw [Nat.sub_self]; exact hm'⟩
          · exact ⟨by omega, (hrest j h).2 h'⟩
        · rintro ⟨h, h'⟩
          by_cases e : j = i
          · exact .inl e
          · exact .inr ⟨by omega, (hrest j (by omega)).1 h'⟩
      · rw [searchNames, if_pos hm, h3, List.map_cons]
      · rw [search, if_pos hm]
        unfold Fnt.getInt
        cases hn : Fnt.filenameOf names (i : Int) with
        | none =>
          refine ⟨?_, .inr ⟨⟨i, by simp, hn⟩, rfl⟩⟩
          rw [List.map_cons, hn, Option.map_none, List.takeWhile_cons_of_neg (by simp)]
          rfl
        | some p =>
          refine ⟨?_, ?_⟩
          · show some (p ++ suffix) :: (search names magic suffix (i + 1) rest).1.map some =
              ((Fnt.filenameOf names (i : Nat)).map (· ++ suffix) :: ids.map fun j : Nat =>
                (Fnt.filenameOf names j).map (· ++ suffix)).takeWhile Option.isSome
            rw [hn, Option.map_some, List.takeWhile_cons_of_pos (by simp), ← h4]
          · rcases h5 with ⟨h5, h6⟩ | ⟨⟨j, hj, h5⟩, h6⟩
            · refine .inl ⟨fun j hj => ?_, h6⟩
              rcases List.mem_cons.1 hj with rfl | hj
              · rw [hn]; rfl
              · exact h5 j hj
            · exact .inr ⟨⟨j, List.mem_cons_of_mem _ hj, h5⟩, h6⟩
    · have hm' : ¬ Matches (file :: rest) magic 0 := by
        rintro ⟨t, h⟩
        rw [List.getElem?_cons_zero] at h
        cases h
        exact hm (List.isPrefixOf_iff_prefix.2 ⟨t, rfl⟩)
      refine ⟨ids, h1, ?_, ?_, ?_⟩
      · intro j
        rw [h2]
        constructor
        · rintro ⟨h, h'⟩
          exact ⟨by omega, (hrest j h).2 h'⟩
        · rintro ⟨h, h'⟩
          by_cases e : j = i
          · subst e
            rw [Nat.sub_self] at h'
            exact absurd h' hm'
          · exact ⟨by omega, (hrest j (by omega)).1 h'⟩
      · rw [searchNames, if_neg hm, h3]
      · rw [search, if_neg hm]
        exact ⟨h4, h5⟩

/-- **C156.** What the two programs print: the names of exactly the files that begin with the bytes, in the order of their
numbers.  The second never fails and prints `None` for a file without a name; the first stops with `KeyError` at such a
file, after printing the names of those before it, and otherwise ends well. -/
theorem search_prints (names : Fnt.Folder) (magic : Bytes) (suffix : Str) (files : List Bytes) :
    ∃ ids, AllMatches files magic ids ∧
      searchNames names magic 0 files = ids.map (fun j : Nat => Fnt.filenameOf names j) ∧
      (search names magic suffix 0 files).1.map some =
        (ids.map fun j : Nat => (Fnt.filenameOf names j).map (· ++ suffix)).takeWhile Option.isSome ∧
      (((∀ j ∈ ids, (Fnt.filenameOf names j).isSome) ∧ (search names magic suffix 0 files).2 = .ok ()) ∨
        ((∃ j ∈ ids, Fnt.filenameOf names j = none) ∧ (search names magic suffix 0 files).2 = .error .keyError)) := by
  obtain ⟨ids, h1, h2, h3⟩ := search_from names magic suffix files 0
  exact ⟨ids, ⟨h1, fun i => by rw [h2]; simp⟩, h3⟩

theorem mem_takeWhile_some {α : Type} {l : List (Option α)} {x : Option α} (h : x ∈ l.takeWhile Option.isSome) : x ∈ l :=
  (List.takeWhile_sublist _).subset h

theorem takeWhile_all {α : Type} {l : List (Option α)} (h : ∀ x ∈ l, x.isSome) : l.takeWhile Option.isSome = l := by
  induction l with
  | nil => rfl
  | cons a l ih =>
    rw [List.takeWhile_cons_of_pos (h a (by simp)), ih fun x hx => h x (List.mem_cons_of_mem _ hx)]

/-- The numbers and names behind the printed lines. -/
theorem search_line {names : Fnt.Folder} {magic : Bytes} {suffix : Str} {files : List Bytes} {line : Str}
    (h : line ∈ (search names magic suffix 0 files).1) :
    ∃ i p, Matches files magic i ∧ Fnt.filenameOf names (i : Nat) = some p ∧ line = p ++ suffix := by
  obtain ⟨ids, h1, -, h3, -⟩ := search_prints names magic suffix files
  have h4 : some line ∈ (search names magic suffix 0 files).1.map some := List.mem_map.2 ⟨_, h, rfl⟩
  rw [h3] at h4
  obtain ⟨i, hi, h5⟩ := List.mem_map.1 (mem_takeWhile_some h4)
  obtain ⟨p, h6, h7⟩ := Option.map_eq_some_iff.1 h5
  exact ⟨i, p, (h1.2 i).1 hi, h6, h7.symm⟩

/-- **C156.** Every printed path leads to a file that begins with the bytes (if names are different and well formed). -/
theorem search_reached (r : Rom.Rom) (magic : Bytes) (suffix : Str) (hw : Spec.Fnt.WellNamed r.filenames) (line : Str)
    (h : line ∈ (search r.filenames magic suffix 0 r.files).1) :
    ∃ p t, line = p ++ suffix ∧ Rom.getFileByName r p = .ok (magic ++ t) := by
  obtain ⟨i, p, ⟨t, h1⟩, h2, h3⟩ := search_line h
  refine ⟨p, t, h3, ?_⟩
  rw [Nested.rom_get, Nested.getIn_eq_ok]
  refine ⟨i, ⟨i, Fnt.id_of_filename _ hw _ _ h2, ?_⟩, h1⟩
  obtain ⟨h4, -⟩ := List.getElem?_eq_some_iff.1 h1
  unfold pyPos
  rw [if_pos (by omega), if_pos (by simpa using h4)]
  rfl

theorem name_of_firstNamed {n : Str} {id : Int} {fs : Fnt.Folders} {g : Fnt.Folder} (h : Spec.Fnt.FirstNamed n fs g)
    (hg : (Fnt.nameInFolder id g).isSome) : (Fnt.nameInFolders id fs).isSome := by
  induction h with
  | here f rest =>
    rw [Fnt.nameInFolders]
    split
    · rfl
    · rename_i he
      rw [he] at hg
      cases hg
  | there m f g rest _ _ ih =>
    rw [Fnt.nameInFolders]
    split
    · rfl
    · exact ih hg

/-- A file that a path leads to has a name. -/
theorem name_of_leads {name : Str} {k : Nat} {dirs : List Str} {f g : Fnt.Folder} (h : Spec.Fnt.Leads f dirs g)
    (hk : Spec.Fnt.FileAt g name k) : (Fnt.nameInFolder (g.firstID + k) f).isSome := by
  induction h with
  | nil f =>
    obtain ⟨fs, files, i⟩ := f
    have hlt := (List.getElem?_eq_some_iff.1 hk.1).1
    rw [Fnt.nameInFolder, if_pos]
    · rfl
    · simp only [Fnt.Folder.firstID, Fnt.Folder.files] at hlt ⊢
      omega
  | cons n rest f g h hn hl ih =>
    obtain ⟨fs, files, i⟩ := f
    rw [Fnt.nameInFolder]
    split
    · rfl
    · simp only [Fnt.Folder.folders] at hn
      exact name_of_firstNamed hn (ih hk)

/-- **C156.** Nothing is missed: if the program ends well, then for every path that leads (by a number that is not negative)
to a file that begins with the bytes, a path to this file is printed. -/
theorem search_complete (r : Rom.Rom) (magic : Bytes) (suffix : Str) (path : Str) (i : Nat) (t : Bytes)
    (hi : Fnt.idOf r.filenames path = .ok (some (i : Int))) (hf : Rom.getFileByName r path = .ok (magic ++ t)) :
    ∃ p, Fnt.filenameOf r.filenames i = some p ∧ some p ∈ searchNames r.filenames magic 0 r.files ∧
      ((search r.filenames magic suffix 0 r.files).2 = .ok () →
        p ++ suffix ∈ (search r.filenames magic suffix 0 r.files).1) := by
  have hn : (Fnt.filenameOf r.filenames i).isSome := by
    rcases Fnt.path_total r.filenames path with ⟨-, h, -⟩ | ⟨⟨cs, hcs⟩, -⟩
    · rw [h] at hi; cases hi
    · obtain ⟨dirs, name, rfl, -⟩ := hcs.1.2.2
      obtain ⟨g, k, h1, h2, h3⟩ := (Fnt.idOf_iff _ _ _ _ hcs _).1 hi
      unfold Fnt.filenameOf
      rw [Option.isSome_map, h3]
      exact name_of_leads h1 h2
  obtain ⟨p, hp⟩ := Option.isSome_iff_exists.1 hn
  have hm : Matches r.files magic i := by
    rw [Nested.rom_get, Nested.getIn_eq_ok] at hf
    obtain ⟨k, ⟨j, hj, hk⟩, hf⟩ := hf
    rw [hi] at hj
    cases hj
    unfold pyPos at hk
    rw [if_pos (by omega)] at hk
    split at hk
    · cases hk
      exact ⟨t, by simpa using hf⟩
    · cases hk
  obtain ⟨ids, h1, h2, h3, h4⟩ := search_prints r.filenames magic suffix r.files
  have hmem := (h1.2 i).2 hm
  refine ⟨p, hp, ?_, fun hok => ?_⟩
  · rw [h2]
    exact List.mem_map.2 ⟨i, hmem, hp⟩
  · rcases h4 with ⟨h4, -⟩ | ⟨-, h4⟩
    · have h5 : some (p ++ suffix) ∈ (search r.filenames magic suffix 0 r.files).1.map some := by
        rw [h3, takeWhile_all]
        · exact List.mem_map.2 ⟨i, hmem, by rw [hp]; rfl⟩
        · intro x hx
          obtain ⟨j, hj, rfl⟩ := List.mem_map.1 hx
          rw [Option.isSome_map]
          exact h4 j hj
      obtain ⟨x, hx, e⟩ := List.mem_map.1 h5
      cases e
      exact hx
    · rw [h4] at hok; cases hok

/-- **C156.** No path is printed twice. -/
theorem search_once (r : Rom.Rom) (magic : Bytes) (suffix : Str) (hw : Spec.Fnt.WellNamed r.filenames) :
    (search r.filenames magic suffix 0 r.files).1.Nodup := by
  obtain ⟨ids, h1, -, h3, -⟩ := search_prints r.filenames magic suffix r.files
  have h4 : ((ids.map fun j : Nat => (Fnt.filenameOf r.filenames j).map (· ++ suffix)).takeWhile Option.isSome).Nodup := by
    rw [List.takeWhile_map]
    refine List.pairwise_map.2 ((h1.1.sublist (List.takeWhile_sublist _)).imp_of_mem ?_)
    intro a b ha hb hlt he
    have ha' := List.all_eq_true.1 List.all_takeWhile a ha
    simp only [Function.comp, Option.isSome_map] at ha'
    obtain ⟨p, hp⟩ := Option.isSome_iff_exists.1 ha'
    rw [hp, Option.map_some] at he
    obtain ⟨q, hq, e⟩ := Option.map_eq_some_iff.1 he.symm
    have e := List.append_cancel_right e
    subst e
    have h6 := Fnt.id_of_filename _ hw _ _ hp
    rw [Fnt.id_of_filename _ hw _ _ hq] at h6
    have h7 : (b : Int) = a := by simpa using h6
    omega
  rw [← h3] at h4
  exact (List.pairwise_map.1 h4).imp fun h e => h (congrArg some e)

/-! ## Names and numbers -/

/-- **C156.** `rom.files[rom.filenames[name]]` is `rom.getFileByName(name)` wherever one of them gives a file; where there is
no file of that name, one raises `ValueError` and the other `TypeError` (for a folder) or `KeyError`. -/
theorem by_id (r : Rom.Rom) (name : Str) (data : Bytes) :
    (∀ f, getById r name = .ok f ↔ Rom.getFileByName r name = .ok f) ∧
    (∀ r', setById r name data = .ok r' ↔ Rom.setFileByName r name data = .ok r') ∧
    (Fnt.idOf r.filenames name = .ok none → Rom.getFileByName r name = .error .valueError ∧
      Rom.setFileByName r name data = .error .valueError ∧
      (∀ s, Fnt.subfolder r.filenames name = .ok (some s) → getById r name = .error .typeError ∧
        setById r name data = .error .typeError) ∧
      (Fnt.subfolder r.filenames name = .ok none → getById r name = .error .keyError ∧
        setById r name data = .error .keyError)) := by
  unfold getById setById Rom.getFileByName Rom.setFileByName Fnt.getStr
  cases hi : Fnt.idOf r.filenames name with
  | error e => simp [bind_error]
  | ok i =>
    cases i with
    | some i => simp [bind_ok, pure_def]
    | none =>
      simp only [bind_ok]
      cases hs : Fnt.subfolder r.filenames name with
      | error e => simp [bind_error, raise]
      | ok s => cases s <;> simp [bind_ok, pure_def, raise, bind_error]

/-! ## Programs that read and write files -/

/-- How these programs end: nothing is written unless everything before went well. -/
theorem program_ok {α : Type} {x : Py α} {save : α → FS → Py Unit × FS} {fs fs' : FS} :
    andThen x save fs = (.ok (), fs') ↔ ∃ r, x = .ok r ∧ save r fs = (.ok (), fs') := by
  cases x with
  | error e => simp [andThen]
  | ok r => simp [andThen]

theorem rom_saved {r : Rom.Rom} {p : Path} {fs fs' : FS} :
    romSaveToFile r p false fs = (.ok (), fs') ↔ ∃ b r', Rom.save r false = .ok (b, r') ∧ fs.writable p = true ∧
      Wrote fs fs' p b := by
  unfold romSaveToFile
  rw [writeWith_ok]
  cases h : Rom.save r false with
  | error e => simp [Except.map]
  | ok x =>
    obtain ⟨b, r'⟩ := x
    simp [Except.map]

/-- **C156.** Extracting ends well exactly if there is a ROM, there is such a file in it, and the target can be written; the
target then has the data of the file, and no other file has changed. -/
theorem extract_ok {limit : Nat} {source target : Path} {name : Str} {fs fs' : FS} :
    extract limit source name target fs = (.ok (), fs') ↔ ∃ d r f, fs.content source = some d ∧ Rom.load limit d = .ok r ∧
      Rom.getFileByName r name = .ok f ∧ fs.writable target = true ∧ Wrote fs fs' target f := by
  unfold extract romFromFile
  rw [writeWith_ok]
  constructor
  · rintro ⟨f, h, hw, h'⟩
    obtain ⟨r, hr, h⟩ := bind_eq_ok.1 h
    obtain ⟨d, hd, hr⟩ := readWith_ok.1 hr
    exact ⟨d, r, f, hd, hr, h, hw, h'⟩
  · rintro ⟨d, r, f, hd, hr, h, hw, h'⟩
    exact ⟨f, bind_eq_ok.2 ⟨r, readWith_ok.2 ⟨d, hd, hr⟩, h⟩, hw, h'⟩

/-- **C156.** Putting a file into a ROM ends well exactly if there is a ROM and there is the new file, there is a file of
that name in the ROM, the changed ROM can be saved, and the target can be written. -/
theorem replace_ok {limit : Nat} {source new target : Path} {name : Str} {fs fs' : FS} :
    replace limit source new name target fs = (.ok (), fs') ↔ ∃ d r data r' b r2, fs.content source = some d ∧
      Rom.load limit d = .ok r ∧ fs.content new = some data ∧ Rom.setFileByName r name data = .ok r' ∧
      Rom.save r' false = .ok (b, r2) ∧ fs.writable target = true ∧ Wrote fs fs' target b := by
  unfold replace
  rw [program_ok]
  constructor
  · rintro ⟨r', h, hs⟩
    obtain ⟨r, hr, h⟩ := bind_eq_ok.1 h
    obtain ⟨data, hn, h⟩ := bind_eq_ok.1 h
    obtain ⟨d, hd, hr⟩ := readWith_ok.1 hr
    obtain ⟨b, r2, h1, h2, h3⟩ := rom_saved.1 hs
    exact ⟨d, r, data, r', b, r2, hd, hr, read_ok.1 hn, h, h1, h2, h3⟩
  · rintro ⟨d, r, data, r', b, r2, hd, hr, hn, h, h1, h2, h3⟩
    exact ⟨r', bind_eq_ok.2 ⟨r, readWith_ok.2 ⟨d, hd, hr⟩, bind_eq_ok.2 ⟨data, read_ok.2 hn, h⟩⟩, rom_saved.2 ⟨b, r2, h1, h2, h3⟩⟩

/-- **C156.** If one of the programs fails, then no file has changed. -/
theorem failed {limit : Nat} {source new target : Path} {name : Str} {edits : List (Str × Path)} {changes : List (Str × Bytes)}
    {fs fs' : FS} {e : PyErr}
    (h : extract limit source name target fs = (.error e, fs') ∨ replace limit source new name target fs = (.error e, fs') ∨
      editNarc limit source edits target fs = (.error e, fs') ∨
      editNarcInRom limit source name changes target fs = (.error e, fs')) : fs' = fs := by
  rcases h with h | h | h | h
  · exact (writeWith_error h).1
  all_goals
    first | unfold replace andThen at h | unfold editNarc andThen at h | unfold editNarcInRom andThen at h
    split at h
    · cases h; rfl
    · exact (writeWith_error h).1

/-- A changed ROM that has been saved, as it is loaded again. -/
theorem rom_changed {limit : Nat} (hl : 0 < limit) {d b data : Bytes} {r r' r2 : Rom.Rom} {name : Str}
    (hr : Rom.load limit d = .ok r) (h : Rom.setFileByName r name data = .ok r') (hs : Rom.save r' false = .ok (b, r2)) :
    ∃ q, Rom.load limit b = .ok q ∧ Rom.getFileByName q name = .ok data ∧
      (∀ k name', Denotes r.filenames r.files.length name k → ¬ Denotes r.filenames r.files.length name' k →
        Rom.getFileByName q name' = Rom.getFileByName r name') ∧
      q = { r with
        files := q.files, pad200 := q.pad200, rsaSignature := q.rsaSignature, arm9PostData := q.arm9PostData,
        sortedFileIds := q.sortedFileIds } := by
  obtain ⟨h1, h2, h3, h4, h5, -⟩ := Tools.rom_loaded hr hl
  obtain ⟨files, e, rfl⟩ := Nested.rom_set h
  obtain ⟨q, hq, hq'⟩ := Props.Rom.rom_roundtrip _ r2 false b hs limit h1 h2 h3 h4 h5
  have hr2 : r2 = { r with files := files } := by
    obtain ⟨_, _, _, _, _, _, _, _, _, hr⟩ := Proofs.Rom.save_inv hs
    rw [if_neg (by decide)] at hr
    exact hr
  subst hr2
  obtain ⟨q', hq1, hn, k, hc⟩ := Nested.rom_write hl hr h hs
  rw [hq] at hq1
  cases hq1
  refine ⟨q, hq, ?_, ?_, ?_⟩
  · rw [Nested.rom_get, hn]
    exact Nested.changed_get hc hc.denotes
  · intro k' name' hk hk'
    have := Nested.denotes_unique hk hc.denotes
    subst this
    rw [Nested.rom_get, Nested.rom_get, hn, hc.files, Nested.getIn_set hk']
  · rw [hq']

/-- **C156.** What the target of the program is: a ROM that has the new data under the name, what it had under every other
name, and every other attribute but for those that C39 to C41 and C79 are about. -/
theorem replace_result {limit : Nat} (hl : 0 < limit) {source new target : Path} {name : Str} {fs fs' : FS}
    (h : replace limit source new name target fs = (.ok (), fs')) : ∃ r data q, romFromFile limit source fs = .ok r ∧
      fs.content new = some data ∧ romFromFile limit target fs' = .ok q ∧ Rom.getFileByName q name = .ok data ∧
      (∀ k name', Denotes r.filenames r.files.length name k → ¬ Denotes r.filenames r.files.length name' k →
        Rom.getFileByName q name' = Rom.getFileByName r name') ∧
      q = { r with
        files := q.files, pad200 := q.pad200, rsaSignature := q.rsaSignature, arm9PostData := q.arm9PostData,
        sortedFileIds := q.sortedFileIds } := by
  obtain ⟨d, r, data, r', b, r2, hd, hr, hn, h, h1, h2, h3⟩ := replace_ok.1 h
  obtain ⟨q, hq, h4, h5, h6⟩ := rom_changed hl hr h h1
  exact ⟨r, data, q, readWith_ok.2 ⟨d, hd, hr⟩, hn, readWith_ok.2 ⟨b, h3.here, hq⟩, h4, h5, h6⟩

/-- Putting a file back where it is. -/
theorem set_get {r : Rom.Rom} {name : Str} {f : Bytes} (h : Rom.getFileByName r name = .ok f) :
    Rom.setFileByName r name f = .ok r := by
  unfold Rom.getFileByName at h
  unfold Rom.setFileByName
  obtain ⟨i, hi, h⟩ := bind_eq_ok.1 h
  rw [hi, bind_ok]
  cases i with
  | none => cases h
  | some i =>
    dsimp only at h ⊢
    rw [pyIdxI_eq] at h
    unfold pySetI
    split at h
    · rename_i k hk
      have hk' := pyIdx_eq_ok.1 h
      obtain ⟨hlt, e⟩ := List.getElem?_eq_some_iff.1 hk'
      rw [bind_ok, ← e, List.set_getElem_self]
      rfl
    · cases h

/-- **C156.** Extracting a file and putting it back unchanged is the same as saving the ROM again. -/
theorem extract_replace {limit : Nat} {source p target : Path} {name : Str} {fs fs1 : FS} (hp : p ≠ source)
    (h : extract limit source name p fs = (.ok (), fs1)) :
    replace limit source p name target fs1 = resave limit source target fs1 := by
  obtain ⟨d, r, f, hd, hr, hf, -, hw⟩ := extract_ok.1 h
  have h1 : romFromFile limit source fs1 = .ok r :=
    readWith_ok.2 ⟨d, by rw [hw.elsewhere _ (Ne.symm hp)]; exact hd, hr⟩
  unfold replace resave
  rw [h1, bind_ok, read_ok.2 hw.here, bind_ok, set_get hf]

/-! ## Editing an archive -/

theorem setAll_ok {n' : Narc.NARC} : ∀ {edits : List (Str × Bytes)} {n : Narc.NARC}, setAll n edits = .ok n' →
    n'.filenames = n.filenames ∧ n'.beginning = n.beginning ∧ n'.files.length = n.files.length ∧
    (∀ k data, Last n.filenames n.files.length edits k data → n'.files[k]? = some data) ∧
    ∀ k, Untouched n.filenames n.files.length edits k → n'.files[k]? = n.files[k]?
  | [], n, h => by
    cases h
    refine ⟨rfl, rfl, rfl, ?_, fun _ _ => rfl⟩
    rintro k data ⟨before, name, after, h, -⟩
    cases before <;> cases h
  | (name, data) :: rest, n, h => by
    obtain ⟨m, hm, h⟩ := bind_eq_ok.1 h
    obtain ⟨h1, h2, h3, h4, h5⟩ := setAll_ok h
    obtain ⟨files, e, rfl⟩ := Nested.narc_set hm
    obtain ⟨l, hd, hlt, rfl⟩ := Nested.setIn_eq_ok e
    simp only [List.length_set] at h1 h2 h3 h4 h5
    refine ⟨h1, h2, h3, ?_, ?_⟩
    · rintro k x ⟨before, name', after, he, hk, ha⟩
      cases before with
      | nil =>
        cases he
        have := Nested.denotes_unique hd hk
        subst this
        rw [h5 l ha, List.getElem?_set_self hlt]
      | cons b before =>
        cases he
        exact h4 k x ⟨before, name', after, rfl, hk, ha⟩
    · intro k hk
      rw [h5 k fun e he => hk e (List.mem_cons_of_mem _ he)]
      have : l ≠ k := by
        rintro rfl
        exact hk _ (List.mem_cons_self ..) hd
      rw [List.getElem?_set_ne this]

theorem readAll_ok {fs : FS} : ∀ {edits : List (Str × Path)} {datas : List (Str × Bytes)}, readAll fs edits = .ok datas →
    datas.map (fun e => (e.1, some e.2)) = edits.map fun e => (e.1, fs.content e.2)
  | [], _, h => by cases h; rfl
  | (name, p) :: rest, _, h => by
    obtain ⟨d, hd, h⟩ := bind_eq_ok.1 h
    obtain ⟨ds, hds, h⟩ := bind_eq_ok.1 h
    cases h
    rw [List.map_cons, List.map_cons, readAll_ok hds, read_ok.1 hd]

/-- **C156.** Editing an archive: the target is an archive with the same names and byte order and as many files, in which
every file is the last of those that were put there, or what it was. -/
theorem editNarc_result {limit : Nat} {source target : Path} {edits : List (Str × Path)} {fs fs' : FS}
    (h : editNarc limit source edits target fs = (.ok (), fs')) : ∃ n n' datas, narcFromFile limit source fs = .ok n ∧
      narcFromFile limit target fs' = .ok n' ∧
      datas.map (fun e => (e.1, some e.2)) = edits.map (fun e => (e.1, fs.content e.2)) ∧
      n'.filenames = n.filenames ∧ n'.beginning = n.beginning ∧ n'.files.length = n.files.length ∧
      (∀ k data, Last n.filenames n.files.length datas k data → n'.files[k]? = some data) ∧
      (∀ k, Untouched n.filenames n.files.length datas k → n'.files[k]? = n.files[k]?) ∧
      ∀ p, p ≠ target → fs'.content p = fs.content p := by
  unfold editNarc at h
  rw [program_ok] at h
  obtain ⟨n', h, hs⟩ := h
  obtain ⟨n, hn, h⟩ := bind_eq_ok.1 h
  obtain ⟨datas, hd, h⟩ := bind_eq_ok.1 h
  obtain ⟨h1, h2, h3, h4, h5⟩ := setAll_ok h
  obtain ⟨b, hb, -, hw⟩ := writeWith_ok.1 hs
  obtain ⟨d, hd', hl⟩ := readWith_ok.1 hn
  obtain ⟨h6, h7⟩ := Nested.narc_names hl
  exact ⟨n, n', datas, hn, readWith_ok.2 ⟨b, hw.here, Props.Narc.narc_roundtrip n' b hb (by rw [h1]; exact h6) limit
    (by rw [h1]; exact h7)⟩, readAll_ok hd, h1, h2, h3, h4, h5, hw.elsewhere⟩

/-- **C156.** Editing an archive in a ROM: the target is a ROM that has the edited archive under its name, and is otherwise as
after putting in a file. -/
theorem editNarcInRom_result {limit : Nat} (hl : 0 < limit) {source target : Path} {archive : Str} {edits : List (Str × Bytes)}
    {fs fs' : FS} (h : editNarcInRom limit source archive edits target fs = (.ok (), fs')) :
    ∃ r f n n' b q, romFromFile limit source fs = .ok r ∧ Rom.getFileByName r archive = .ok f ∧ Narc.load limit f = .ok n ∧
      romFromFile limit target fs' = .ok q ∧ Rom.getFileByName q archive = .ok b ∧ Narc.load limit b = .ok n' ∧
      n'.filenames = n.filenames ∧ n'.beginning = n.beginning ∧ n'.files.length = n.files.length ∧
      (∀ k data, Last n.filenames n.files.length edits k data → n'.files[k]? = some data) ∧
      (∀ k, Untouched n.filenames n.files.length edits k → n'.files[k]? = n.files[k]?) ∧
      (∀ k name', Denotes r.filenames r.files.length archive k → ¬ Denotes r.filenames r.files.length name' k →
        Rom.getFileByName q name' = Rom.getFileByName r name') ∧
      (q = { r with
        files := q.files, pad200 := q.pad200, rsaSignature := q.rsaSignature, arm9PostData := q.arm9PostData,
        sortedFileIds := q.sortedFileIds }) ∧
      ∀ p, p ≠ target → fs'.content p = fs.content p := by
  unfold editNarcInRom at h
  rw [program_ok] at h
  obtain ⟨r', h, hs⟩ := h
  obtain ⟨r, hr, h⟩ := bind_eq_ok.1 h
  obtain ⟨f, hf, h⟩ := bind_eq_ok.1 h
  obtain ⟨n, hn, h⟩ := bind_eq_ok.1 h
  obtain ⟨n', ha, h⟩ := bind_eq_ok.1 h
  obtain ⟨b, hb, h⟩ := bind_eq_ok.1 h
  obtain ⟨d, hd, hr'⟩ := readWith_ok.1 hr
  obtain ⟨c, r2, h1, -, hw⟩ := rom_saved.1 hs
  obtain ⟨q, hq, h2, h3, h4⟩ := rom_changed hl hr' h h1
  obtain ⟨e1, e2, e3, e4, e5⟩ := setAll_ok ha
  obtain ⟨h6, h7⟩ := Nested.narc_names hn
  exact ⟨r, f, n, n', b, q, hr, hf, hn, readWith_ok.2 ⟨c, hw.here, hq⟩, h2,
    Props.Narc.narc_roundtrip n' b hb (by rw [e1]; exact h6) limit (by rw [e1]; exact h7), e1, e2, e3, e4, e5, h3, h4,
    hw.elsewhere⟩

/-! ## Examples -/

/-- Two files in the root, one in a folder `d`; the file with number 3 has no name. -/
def tree : Fnt.Folder := .mk (.cons [100] (.mk .nil [[99]] 2) .nil) [[97], [98]] 0

-- "BMD0" is the start of the second and third of these files
example : search tree [66, 77] [33] 0 [[1], [66, 77, 1], [66, 77], [66]] = ([[98, 33], [100, 47, 99, 33]], .ok ()) ∧
    searchNames tree [66, 77] 0 [[1], [66, 77, 1], [66, 77], [66]] = [some [98], some [100, 47, 99]] := by decide +kernel

-- the fourth file has no name
example : search tree [66, 77] [33] 0 [[66, 77], [], [], [66, 77], [66, 77]] = ([[97, 33]], .error .keyError) ∧
    searchNames tree [66, 77] 0 [[66, 77], [], [], [66, 77], [66, 77]] = [some [97], none, none] := by decide +kernel

example : Spec.Fnt.WellNamed tree := by
  unfold tree Spec.Fnt.WellNamed
  simp [Spec.Fnt.All, Spec.Fnt.AllIn, Fnt.Folder.folders, Fnt.Folder.files, Spec.Fnt.names]

example : Fnt.idOf tree [100, 47, 99] = .ok (some (2 : Nat)) ∧
    Rom.getFileByName { Rom.new with filenames := tree, files := [[1], [2], [66, 77, 5]] } [100, 47, 99] =
      .ok ([66, 77] ++ [5]) := by decide +kernel

theorem wrote_here (fs : FS) (p : Path) (d : Bytes) :
    Wrote fs ⟨fun q => if q = p then some d else fs.content q, fs.writable⟩ p d :=
  ⟨by simp, fun q hq => by simp [hq], fun _ => rfl⟩

def romFile : Path := ⟨[], [114]⟩
def newFile : Path := ⟨[], [110]⟩
def outFile : Path := ⟨[], [111]⟩

/-- A ROM with the file `c`, and another file. -/
def disk : FS := ⟨fun p => if p = romFile then some Nested.small else if p = newFile then some [9, 9] else none, fun _ => true⟩

example : ∃ fs', replace 1 romFile newFile [99] outFile disk = (.ok (), fs') := by
  obtain ⟨b, r', h⟩ := Nested.small_saves
  have h1 : ∃ r, Rom.load 1 Nested.small = .ok r := by
    cases h : Rom.load 1 Nested.small with
    | ok r => exact ⟨r, rfl⟩
    | error e =>
      have : (Rom.load 1 Nested.small).isOk := by decide +kernel
      rw [h] at this
      cases this
  obtain ⟨r, hr⟩ := h1
  have h2 : ∃ r2, Rom.setFileByName r [99] [9, 9] = .ok r2 ∧ Rom.save r2 false = .ok (b, r') := by
    have : Nested.smallEdited.isOk := by decide +kernel
    cases he : Nested.smallEdited with
    | error e => rw [he] at this; cases this
    | ok r2 =>
      rw [he] at h
      refine ⟨r2, ?_, h⟩
      unfold Nested.smallEdited at he
      rw [hr, bind_ok] at he
      exact he
  obtain ⟨r2, h2, h3⟩ := h2
  exact ⟨_, replace_ok.2 ⟨Nested.small, r, [9, 9], r2, b, r', by decide +kernel, hr, by decide +kernel, h2, h3, rfl,
    wrote_here _ _ _⟩⟩

example : (extract 1 romFile [99] outFile disk).1 = .ok () ∧ (extract 1 romFile [99] outFile disk).2.content outFile =
    some [1, 2, 3] ∧ (extract 1 romFile [97] outFile disk).1 = .error .valueError := by decide +kernel

/-- An archive and two new files. -/
def disk2 : FS := ⟨fun p => if p = romFile then (Narc.save Props.Narc.sample).toOption
  else if p = newFile then some [9, 9] else if p = outFile then some [8] else none, fun _ => true⟩

example : (editNarc 1 romFile [([97], outFile), ([98], newFile), ([97], newFile)] outFile disk2).1 = .ok () ∧
    (narcFromFile 1 outFile (editNarc 1 romFile [([97], outFile), ([98], newFile), ([97], newFile)] outFile disk2).2).map (·.files) =
      .ok [[9, 9], [9, 9]] := by decide +kernel

example : Last (.mk .nil [[97], [98]] 0) 2 [([97], [8]), ([98], [9, 9]), ([97], [7])] 1 [9, 9] ∧
    Untouched (.mk .nil [[97], [98]] 0) 2 [([97], [8])] 1 := by
  have h0 : ¬ Denotes (.mk .nil [[97], [98]] 0) 2 [97] 1 := by
    rintro ⟨i, hi, h⟩
    rw [show Fnt.idOf (.mk .nil [[97], [98]] 0) [97] = .ok (some 0) by decide +kernel] at hi
    cases hi
    exact absurd h (by decide)
  refine ⟨⟨[([97], [8])], [98], [([97], [7])], rfl, ⟨1, by decide +kernel, by decide⟩, ?_⟩, ?_⟩ <;>
  · intro e he
    rw [List.mem_singleton] at he
    subst he
    exact h0

/-- The ROM with an archive as its only file `c`. -/
def withNarc : Bytes :=
  let f := (Narc.save Props.Narc.sample).toOption.getD []
  zeros 0x40 ++ [0, 2, 0, 0, 12, 0, 0, 0, 12, 2, 0, 0, 8, 0, 0, 0] ++ zeros 0x1B0 ++
    [8, 0, 0, 0, 0, 0, 1, 0, 1, 99, 0, 0] ++ [20, 2, 0, 0] ++ leBytes 4 (0x214 + f.length) ++ f

/-- What is to be saved when the file `b` of the archive has been changed. -/
def withNarcEdited : Py Rom.Rom := do
  let r ← Rom.load 1 withNarc
  let f ← Rom.getFileByName r [99]
  let n ← Narc.load 1 f
  let n ← setAll n [([98], [7])]
  let b ← Narc.save n
  Rom.setFileByName r [99] b

example : ∃ fs', editNarcInRom 1 romFile [99] [([98], [7])] outFile ⟨fun p => if p = romFile then some withNarc else none,
    fun _ => true⟩ = (.ok (), fs') := by
  have h : ∃ b r', Rom.save (withNarcEdited.toOption.getD Rom.new) false = .ok (b, r') := by
    refine (Props.Rom.saves_of (ids := []) (fnt := [8, 0, 0, 0, 0, 0, 1, 0, 1, 99, 0]) ?_ (by decide +kernel)
      (by decide +kernel) (by decide +kernel) ?_ ?_).2.2
    · rw [show (withNarcEdited.toOption.getD Rom.new).arm9OverlayTable = [] by decide +kernel]
      exact Props.Rom.overlayIds_nil
    · exact .inl (by decide +kernel)
    · refine ⟨by decide +kernel, by decide +kernel, by decide +kernel, by decide +kernel, by decide +kernel,
        by decide +kernel, by decide +kernel, ?_, ?_, ?_⟩ <;> decide +kernel
  obtain ⟨b, r', h⟩ := h
  have h1 : withNarcEdited.isOk := by decide +kernel
  cases he : withNarcEdited with
  | error e => rw [he] at h1; cases h1
  | ok r2 =>
    rw [he] at h
    refine ⟨_, program_ok.2 ⟨r2, ?_, rom_saved.2 ⟨b, r', h, rfl, wrote_here _ _ _⟩⟩⟩
    rw [← he]
    unfold withNarcEdited romFromFile
    rw [readWith_of (d := withNarc) (by simp)]

end Verif.Props.Programs
