import Verif.Props.Nested
import Verif.Spec.EditOrder

/-!
# C161: replacing several files
-/

namespace Verif.Props.EditOrder

open Verif Verif.Model Verif.Spec.EditOrder
open Verif.Spec.Nested (Denotes)
open Verif.Props.Nested (denotes_unique setIn_eq_ok narc_set rom_set setIn)

/-- One replacement in a list of files. -/
def editFiles (names : Fnt.Folder) (files : List Bytes) : Edit → Py (List Bytes)
  | .byName name d => setIn names files name d
  | .byId i d => pySetI files i d

theorem hits_unique {names : Fnt.Folder} {n k l : Nat} {e : Edit} (h : Hits names n e k) (h' : Hits names n e l) : k = l := by
  cases e with
  | byName name d => exact denotes_unique h h'
  | byId i d =>
    change pyPos n i = some k at h
    change pyPos n i = some l at h'
    rw [h] at h'
    cases h'
    rfl

theorem pyPos_lt {n : Nat} {i : Int} {k : Nat} (h : pyPos n i = some k) : k < n := by
  unfold pyPos at h
  split at h
  · split at h
    · cases h; assumption
    · cases h
  · split at h
    · cases h; omega
    · cases h

theorem hits_lt {names : Fnt.Folder} {n k : Nat} {e : Edit} (h : Hits names n e k) : k < n := by
  cases e with
  | byName name d => obtain ⟨i, -, h⟩ := h; exact pyPos_lt h
  | byId i d => exact pyPos_lt h

theorem pySetI_some {α : Type} {l : List α} {i : Int} {k : Nat} (h : pyPos l.length i = some k) (v : α) :
    pySetI l i v = .ok (l.set k v) := by
  unfold pySetI
  rw [h]

/-- One replacement works if and only if there is such a file. -/
theorem editFiles_ok {names : Fnt.Folder} {files files' : List Bytes} {e : Edit} :
    editFiles names files e = .ok files' ↔ ∃ k, Hits names files.length e k ∧ files' = files.set k e.data := by
  cases e with
  | byName name d =>
    constructor
    · intro h
      obtain ⟨k, h1, -, h2⟩ := setIn_eq_ok h
      exact ⟨k, h1, h2⟩
    · rintro ⟨k, ⟨i, h1, h2⟩, rfl⟩
      show setIn names files name d = _
      unfold setIn
      rw [h1, bind_ok]
      exact pySetI_some h2 d
  | byId i d =>
    constructor
    · intro h
      change pySetI files i d = _ at h
      cases hp : pyPos files.length i with
      | none => unfold pySetI at h; rw [hp] at h; cases h
      | some k => rw [pySetI_some hp] at h; cases h; exact ⟨k, hp, rfl⟩
    · rintro ⟨k, h, rfl⟩
      exact pySetI_some h d

/-- What the replacements do, and when they work. -/
theorem editAll_files {names : Fnt.Folder} : ∀ {es : List Edit} {files : List Bytes},
    (∀ files', editAll (editFiles names) files es = .ok files' → Replaced names es files files') ∧
    ((∃ files', editAll (editFiles names) files es = .ok files') ↔ ∀ e ∈ es, ∃ k, Hits names files.length e k)
  | [], files => by
    refine ⟨?_, by simp [editAll]⟩
    intro files' h
    cases h
    refine ⟨rfl, fun _ _ => rfl, ?_⟩
    rintro k d ⟨before, e, after, h, -⟩
    cases before <;> cases h
  | e0 :: rest, files => by
    constructor
    · intro files' h
      unfold editAll at h
      obtain ⟨f, hf, h⟩ := bind_eq_ok.1 h
      obtain ⟨a, ha, rfl⟩ := editFiles_ok.1 hf
      obtain ⟨h2, h3, h4⟩ := (editAll_files (es := rest)).1 files' h
      simp only [List.length_set] at h2 h3 h4
      refine ⟨h2, ?_, ?_⟩
      · intro k hk
        rw [h3 k fun e he => hk e (List.mem_cons_of_mem _ he), List.getElem?_set_ne]
        rintro rfl
        exact hk e0 (by simp) ha
      · rintro k d ⟨before, e, after, he, hj, hd, hl⟩
        cases before with
        | nil =>
          cases he
          have := hits_unique ha hj
          subst this
          rw [h3 _ hl, List.getElem?_set_self (hits_lt ha), hd]
        | cons x before =>
          cases he
          exact h4 k d ⟨before, e, after, rfl, hj, hd, hl⟩
    · constructor
      · rintro ⟨files', h⟩
        unfold editAll at h
        obtain ⟨f, hf, h⟩ := bind_eq_ok.1 h
        obtain ⟨a, ha, rfl⟩ := editFiles_ok.1 hf
        have := (editAll_files (es := rest)).2.1 ⟨files', h⟩
        rw [List.length_set] at this
        intro e he
        rcases List.mem_cons.1 he with rfl | he
        · exact ⟨a, ha⟩
        · exact this e he
      · intro h
        obtain ⟨a, ha⟩ := h e0 (by simp)
        obtain ⟨files', h'⟩ := (editAll_files (names := names) (es := rest) (files := files.set a e0.data)).2.2 (by
          rw [List.length_set]
          exact fun e he => h e (List.mem_cons_of_mem _ he))
        refine ⟨files', ?_⟩
        unfold editAll
        rw [editFiles_ok.2 ⟨a, ha, rfl⟩, bind_ok]
        exact h'

theorem last_exists {names : Fnt.Folder} {count k : Nat} : ∀ {es : List Edit}, (∃ e ∈ es, Hits names count e k) →
    ∃ d, Last names count es k d
  | [], h => by obtain ⟨e, h, -⟩ := h; cases h
  | e :: rest, h => by
    by_cases hr : ∃ e' ∈ rest, Hits names count e' k
    · obtain ⟨d, before, e', after, h1, h2⟩ := last_exists hr
      exact ⟨d, e :: before, e', after, by rw [h1]; rfl, h2⟩
    · obtain ⟨e', he, ha⟩ := h
      rcases List.mem_cons.1 he with rfl | he
      · exact ⟨e'.data, [], e', rest, rfl, ha, rfl, fun e'' h1 h2 => hr ⟨e'', h1, h2⟩⟩
      · exact absurd ⟨e', he, ha⟩ hr

/-- **C161.** There is only one list of files that is right. -/
theorem replaced_unique {names : Fnt.Folder} {es es' : List Edit} {files f1 f2 : List Bytes}
    (h1 : Replaced names es files f1) (h2 : Replaced names es' files f2)
    (h : ∀ k d, Last names files.length es k d ↔ Last names files.length es' k d) : f1 = f2 := by
  refine List.ext_getElem? fun k => ?_
  by_cases hx : ∃ e ∈ es, Hits names files.length e k
  · obtain ⟨d, hd⟩ := last_exists hx
    rw [h1.new k d hd, h2.new k d ((h k d).1 hd)]
  · rw [h1.same k fun e he hh => hx ⟨e, he, hh⟩, h2.same k]
    intro e he hh
    obtain ⟨d, hd⟩ := last_exists ⟨e, he, hh⟩
    obtain ⟨before, e', after, rfl, he', -⟩ := (h k d).2 hd
    exact hx ⟨e', by simp, he'⟩

/-- If the replacements are of different files, each one is the last of its file. -/
theorem last_different {names : Fnt.Folder} {count : Nat} {es : List Edit} (hd : Different names count es) (k : Nat) (d : Bytes) :
    Last names count es k d ↔ ∃ e ∈ es, Hits names count e k ∧ e.data = d := by
  constructor
  · rintro ⟨before, e, after, rfl, h1, h2, -⟩
    exact ⟨e, by simp, h1, h2⟩
  · rintro ⟨e, he, h1, h2⟩
    obtain ⟨before, after, rfl⟩ := List.append_of_mem he
    refine ⟨before, e, after, rfl, h1, h2, ?_⟩
    unfold Different at hd
    rw [List.pairwise_append] at hd
    have := (List.pairwise_cons.1 hd.2.1).1
    exact fun e' he' => this e' he' k h1

theorem different_perm {names : Fnt.Folder} {count : Nat} {es es' : List Edit} (hp : es.Perm es')
    (hd : Different names count es) : Different names count es' :=
  (hp.pairwise_iff fun {x y} h k hy hx => h k hx hy).1 hd

/-! ## ROMs -/

theorem editRom_eq (r : Rom.Rom) (e : Edit) :
    editRom r e = (editFiles r.filenames r.files e).map fun files => { r with files := files } := by
  cases e with
  | byName name d =>
    show Rom.setFileByName r name d = (setIn r.filenames r.files name d).map _
    unfold Rom.setFileByName setIn
    cases h : Fnt.idOf r.filenames name with
    | error x => rfl
    | ok o =>
      rw [bind_ok, bind_ok]
      cases o with
      | none => rfl
      | some i =>
        dsimp only
        cases pySetI r.files i d <;> rfl
  | byId i d =>
    show (pySetI r.files i d >>= fun files => pure { r with files := files }) = (pySetI r.files i d).map _
    cases pySetI r.files i d <;> rfl

theorem editAll_rom : ∀ (es : List Edit) (r : Rom.Rom),
    editAll editRom r es = (editAll (editFiles r.filenames) r.files es).map fun files => { r with files := files }
  | [], r => rfl
  | e :: rest, r => by
    unfold editAll
    rw [editRom_eq]
    cases editFiles r.filenames r.files e with
    | error x => rfl
    | ok files =>
      show (editAll editRom { r with files := files } rest) = _
      rw [editAll_rom rest]
      rfl

/-- **C161.** After replacing any number of files of a ROM, by name or by ID, each one that was replaced is the last one given
for it, and nothing else has changed. -/
theorem rom_replaced {r r' : Rom.Rom} {es : List Edit} (h : editAll editRom r es = .ok r') :
    r' = { r with files := r'.files } ∧ Replaced r.filenames es r.files r'.files := by
  rw [editAll_rom] at h
  cases hf : editAll (editFiles r.filenames) r.files es with
  | error x => rw [hf] at h; cases h
  | ok files =>
    rw [hf] at h
    cases h
    exact ⟨rfl, editAll_files.1 files hf⟩

/-- **C161.** It works if and only if all the files are there. -/
theorem rom_works (r : Rom.Rom) (es : List Edit) :
    (∃ r', editAll editRom r es = .ok r') ↔ ∀ e ∈ es, ∃ k, Hits r.filenames r.files.length e k := by
  rw [← editAll_files.2, editAll_rom]
  cases editAll (editFiles r.filenames) r.files es with
  | error x => exact ⟨fun ⟨_, h⟩ => (by cases h), fun ⟨_, h⟩ => (by cases h)⟩
  | ok files => exact ⟨fun _ => ⟨_, rfl⟩, fun _ => ⟨_, rfl⟩⟩

/-- **C161.** Two programs that give the same last data for each file make the same ROM: the same image is saved, or the same
exception is raised. -/
theorem rom_same {r r1 r2 : Rom.Rom} {es es' : List Edit} (h1 : editAll editRom r es = .ok r1)
    (h2 : editAll editRom r es' = .ok r2)
    (h : ∀ k d, Last r.filenames r.files.length es k d ↔ Last r.filenames r.files.length es' k d) :
    r1 = r2 ∧ ∀ u, Rom.save r1 u = Rom.save r2 u := by
  obtain ⟨e1, g1⟩ := rom_replaced h1
  obtain ⟨e2, g2⟩ := rom_replaced h2
  have : r1 = r2 := by rw [e1, e2, replaced_unique g1 g2 h]
  exact ⟨this, fun u => by rw [this]⟩

/-- **C161.** Different files of a ROM can be replaced in any order, with the same image. -/
theorem rom_order {r r1 : Rom.Rom} {es es' : List Edit} (hp : es.Perm es') (hd : Different r.filenames r.files.length es)
    (h1 : editAll editRom r es = .ok r1) : editAll editRom r es' = .ok r1 := by
  obtain ⟨r2, h2⟩ := (rom_works r es').2 fun e he => (rom_works r es).1 ⟨r1, h1⟩ e (hp.mem_iff.2 he)
  rw [(rom_same h1 h2 fun k d => ?_).1, h2]
  rw [last_different hd, last_different (different_perm hp hd)]
  simp only [hp.mem_iff]

/-! ## NARCs -/

theorem editNarc_eq (n : Narc.NARC) (e : Edit) :
    editNarc n e = (editFiles n.filenames n.files e).map fun files => { n with files := files } := by
  cases e with
  | byName name d =>
    show Narc.setFileByName n name d = (setIn n.filenames n.files name d).map _
    unfold Narc.setFileByName setIn
    cases h : Fnt.idOf n.filenames name with
    | error x => rfl
    | ok o =>
      rw [bind_ok, bind_ok]
      cases o with
      | none => rfl
      | some i =>
        dsimp only
        cases pySetI n.files i d <;> rfl
  | byId i d =>
    show (pySetI n.files i d >>= fun files => pure { n with files := files }) = (pySetI n.files i d).map _
    cases pySetI n.files i d <;> rfl

theorem editAll_narc : ∀ (es : List Edit) (n : Narc.NARC),
    editAll editNarc n es = (editAll (editFiles n.filenames) n.files es).map fun files => { n with files := files }
  | [], n => rfl
  | e :: rest, n => by
    unfold editAll
    rw [editNarc_eq]
    cases editFiles n.filenames n.files e with
    | error x => rfl
    | ok files =>
      show (editAll editNarc { n with files := files } rest) = _
      rw [editAll_narc rest]
      rfl

/-- **C161.** The same for NARCs. -/
theorem narc_replaced {n n' : Narc.NARC} {es : List Edit} (h : editAll editNarc n es = .ok n') :
    n' = { n with files := n'.files } ∧ Replaced n.filenames es n.files n'.files := by
  rw [editAll_narc] at h
  cases hf : editAll (editFiles n.filenames) n.files es with
  | error x => rw [hf] at h; cases h
  | ok files =>
    rw [hf] at h
    cases h
    exact ⟨rfl, editAll_files.1 files hf⟩

/-- **C161.** -/
theorem narc_works (n : Narc.NARC) (es : List Edit) :
    (∃ n', editAll editNarc n es = .ok n') ↔ ∀ e ∈ es, ∃ k, Hits n.filenames n.files.length e k := by
  rw [← editAll_files.2, editAll_narc]
  cases editAll (editFiles n.filenames) n.files es with
  | error x => exact ⟨fun ⟨_, h⟩ => (by cases h), fun ⟨_, h⟩ => (by cases h)⟩
  | ok files => exact ⟨fun _ => ⟨_, rfl⟩, fun _ => ⟨_, rfl⟩⟩

/-- **C161.** -/
theorem narc_same {n n1 n2 : Narc.NARC} {es es' : List Edit} (h1 : editAll editNarc n es = .ok n1)
    (h2 : editAll editNarc n es' = .ok n2)
    (h : ∀ k d, Last n.filenames n.files.length es k d ↔ Last n.filenames n.files.length es' k d) :
    n1 = n2 ∧ Narc.save n1 = Narc.save n2 := by
  obtain ⟨e1, g1⟩ := narc_replaced h1
  obtain ⟨e2, g2⟩ := narc_replaced h2
  have : n1 = n2 := by rw [e1, e2, replaced_unique g1 g2 h]
  exact ⟨this, by rw [this]⟩

/-- **C161.** -/
theorem narc_order {n n1 : Narc.NARC} {es es' : List Edit} (hp : es.Perm es') (hd : Different n.filenames n.files.length es)
    (h1 : editAll editNarc n es = .ok n1) : editAll editNarc n es' = .ok n1 := by
  obtain ⟨n2, h2⟩ := (narc_works n es').2 fun e he => (narc_works n es).1 ⟨n1, h1⟩ e (hp.mem_iff.2 he)
  rw [(narc_same h1 h2 fun k d => ?_).1, h2]
  rw [last_different hd, last_different (different_perm hp hd)]
  simp only [hp.mem_iff]

/-! ## Examples -/

/-- Two files `a` and `b`. -/
def two : Narc.NARC := ⟨.mk .nil [[97], [98]] 0, [[1, 2], [3]], .little⟩

example : editAll editNarc two [.byName [97] [9], .byId (-1) [8, 8]] = .ok ⟨.mk .nil [[97], [98]] 0, [[9], [8, 8]], .little⟩ ∧
    editAll editNarc two [.byId (-1) [8, 8], .byId 0 [9]] = .ok ⟨.mk .nil [[97], [98]] 0, [[9], [8, 8]], .little⟩ ∧
    editAll editNarc two [.byId (-1) [8, 8], .byName [99] [9]] = .error .valueError := by decide +kernel

theorem two_different : Different two.filenames two.files.length [.byName [97] [9], .byId (-1) [8, 8]] := by
  have idA : Fnt.idOf two.filenames [97] = .ok (some 0) := by decide +kernel
  unfold Different
  simp only [List.pairwise_cons, List.mem_singleton, List.not_mem_nil, false_implies, implies_true, List.Pairwise.nil, and_true]
  rintro e rfl k ⟨i, hi, hk⟩ hk'
  rw [idA] at hi
  cases hi
  change some 0 = some k at hk
  change some 1 = some k at hk'
  cases hk
  cases hk'

example : editAll editNarc two [.byId (-1) [8, 8], .byName [97] [9]] =
    .ok ⟨.mk .nil [[97], [98]] 0, [[9], [8, 8]], .little⟩ :=
  narc_order (List.Perm.swap _ _ _) two_different (by decide +kernel)

/-- The same file twice: the order matters. -/
example : editAll editNarc two [.byName [97] [9], .byId 0 [8]] ≠ editAll editNarc two [.byId 0 [8], .byName [97] [9]] := by
  decide +kernel

end Verif.Props.EditOrder
