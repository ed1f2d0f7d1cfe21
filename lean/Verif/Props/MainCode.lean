import Verif.Proofs.MainCode

/-!
# Properties of main code files (C17, C18, C55)
-/

namespace Verif.Props.MainCode

open Verif Verif.Model Verif.Model.Code
open Verif.Proofs.MainCode (Shape)

/-- The words of the code settings that `save` rewrites: table start, table end and data start at `cso`, and
the end of the compressed part at `cso + 0x14`. -/
def InSettings (cso i : Nat) : Prop := (cso ≤ i ∧ i < cso + 12) ∨ (cso + 0x14 ≤ i ∧ i < cso + 0x18)

/-- `d'` is `d` with the four words of the code settings set as described. -/
structure Rewritten (d d' : Bytes) (cso w1 w2 w3 w4 : Nat) : Prop where
  length : d'.length = d.length
  elsewhere : ∀ i, ¬ InSettings cso i → d'[i]? = d[i]?
  tableStart : leVal (slice d' cso (cso + 4)) = w1
  tableEnd : leVal (slice d' (cso + 4) (cso + 8)) = w2
  dataStart : leVal (slice d' (cso + 8) (cso + 12)) = w3
  compressedEnd : leVal (slice d' (cso + 0x14) (cso + 0x18)) = w4

theorem settled_rewritten {d : Bytes} {cso w1 w2 w3 w4 : Nat} (h : cso + 0x18 ≤ d.length) (h1 : w1 < 2 ^ 32)
    (h2 : w2 < 2 ^ 32) (h3 : w3 < 2 ^ 32) (h4 : w4 < 2 ^ 32) :
    Rewritten d (Proofs.MainCode.settled d cso w1 w2 w3 w4) cso w1 w2 w3 w4 := by
  obtain ⟨a123, a4⟩ := Proofs.MainCode.settled_at w1 w2 w3 w4 h
  obtain ⟨a12, a3⟩ := At.split.1 a123
  obtain ⟨a1, a2⟩ := At.split.1 a12
  rw [List.length_append, enBytes_length, enBytes_length] at a3
  rw [enBytes_length] at a2
  refine ⟨Proofs.MainCode.settled_length _ _ _ _ h, ?_, ?_, ?_, ?_, ?_⟩
  · intro i hi
    unfold InSettings at hi
    exact Proofs.MainCode.settled_getElem? _ _ _ _ h (by omega)
  · rw [a1.slice_eq (by rw [enBytes_length])]; exact enVal_enBytes (e := .little) (k := 4) h1
  · rw [a2.slice_eq (by rw [enBytes_length])]; exact enVal_enBytes (e := .little) (k := 4) h2
  · rw [a3.slice_eq (by rw [enBytes_length])]; exact enVal_enBytes (e := .little) (k := 4) h3
  · rw [a4.slice_eq (by rw [enBytes_length])]; exact enVal_enBytes (e := .little) (k := 4) h4

/-- The sum of the section lengths. -/
def totalLength (l : List Section) : Nat := (l.map fun s => s.data.length).sum

theorem body_length (s0 : Section) (rest : List Section) :
    (Proofs.MainCode.body s0 rest).length = totalLength (s0 :: rest) := by
  unfold Proofs.MainCode.body totalLength
  rw [List.length_append, List.length_flatten]
  simp [Function.comp_def]

theorem table_length {s0 : Section} {rest : List Section} {f : MainCodeFile} {cso : Nat}
    (h : Shape f s0 rest cso) : (Proofs.MainCode.table rest).length = 12 * rest.length := by
  unfold Proofs.MainCode.table
  rw [Proofs.MainCode.flat_length]
  unfold Proofs.MainCode.tableOrder
  rw [List.length_append]
  have : ∀ l : List Section, (∀ s ∈ l, s.implicit = false) →
      (l.filter fun s => !s.implicit && s.data.length != 0).length +
      (l.filter fun s => !s.implicit && s.data.length == 0).length = l.length := by
    intro l hl
    induction l with
    | nil => rfl
    | cons s l ih =>
      have hs := hl s (by simp)
      have ih := ih (fun t ht => hl t (by simp [ht]))
      by_cases hz : s.data.length = 0
      · rw [List.filter_cons_of_neg (by simp [hz]), List.filter_cons_of_pos (by simp [hs, hz])]
        simp only [List.length_cons]; omega
      · rw [List.filter_cons_of_pos (by simp [hs, hz]), List.filter_cons_of_neg (by simp [hz])]
        simp only [List.length_cons]; omega
  rw [this rest h.others]

theorem filters_eq {rest : List Section} (h : ∀ s ∈ rest, s.implicit = false) :
    Proofs.MainCode.tableOrder rest =
      (rest.filter fun s => s.data.length != 0) ++ (rest.filter fun s => s.data.length == 0) := by
  unfold Proofs.MainCode.tableOrder
  congr 1 <;>
  · apply List.filter_congr
    intro s hs
    simp [h s hs]

/-! ## C17 -/

/-- C17.  A file whose first section is the implicit one and holds the code settings, whose sections all have
lengths divisible by four, and whose saved form is not mistaken for compressed code, loads back as the same
sections: addresses, contents and BSS sizes.  Two things are adjusted: sections without contents come last,
and in the implicit section the four settings words describe the new layout.  Saving the loaded file
reproduces the bytes. -/
theorem main_code_roundtrip (f : MainCodeFile) (s0 : Section) (rest : List Section) (cso : Nat) (b : Bytes)
    (ptr : Option Nat) (hf : Shape f s0 rest cso) (hsave : f.save false = .ok b)
    (hplain : CodeCompression.decompress b = .ok b)
    (hfind : findSettings b f.ramAddress ptr = .ok (some (cso : Int))) :
    ∃ d0 f', MainCodeFile.load b f.ramAddress ptr = .ok f' ∧
      f' = ⟨⟨d0, f.ramAddress, 0, true⟩ ::
        ((rest.filter fun s => s.data.length != 0) ++ (rest.filter fun s => s.data.length == 0)),
        f.ramAddress, some (cso : Int)⟩ ∧
      Rewritten s0.data d0 cso (f.ramAddress + totalLength f.sections)
        (f.ramAddress + totalLength f.sections + 12 * rest.length) (f.ramAddress + s0.data.length) 0 ∧
      f'.save false = .ok b := by
  obtain ⟨hs, hb⟩ := (Proofs.MainCode.save_plain hf).1 hsave
  have hload := Proofs.MainCode.load_settled hf hs.fits hs.tableEnd hb hplain hfind
  obtain ⟨e1, e2, e3, e4, e5⟩ := Proofs.MainCode.loaded_bytes hf hb
  obtain ⟨g1, g2⟩ := Proofs.MainCode.loaded_settled hf hb hs
  have hend := hs.tableEnd
  have hle := Proofs.MainCode.body_le s0 rest
  refine ⟨_, _, hload, by rw [filters_eq hf.others], ?_, ?_⟩
  · rw [e1]
    rw [body_length, table_length hf] at *
    rw [hf.sections]
    exact settled_rewritten hf.inside (by omega) (by omega) (by omega) (by decide)
  · refine (Proofs.MainCode.save_plain (Proofs.MainCode.loaded_shape hf e5)).2 ⟨g1, ?_⟩
    rw [Proofs.MainCode.settled_eq]
    have hin := hf.inside
    obtain ⟨-, a4⟩ := Proofs.MainCode.settled_at (d := Proofs.MainCode.body s0 rest ++ Proofs.MainCode.table rest)
      (cso := cso) (f.ramAddress + (Proofs.MainCode.body s0 rest).length)
      (f.ramAddress + (Proofs.MainCode.body s0 rest).length + (Proofs.MainCode.table rest).length)
      (f.ramAddress + s0.data.length) 0 (by rw [List.length_append]; omega)
    rw [← hb] at a4
    have g2' := g2
    change _ = patch (Proofs.MainCode.settled3 _ _ _ _ _) _ _
    rw [show (Proofs.MainCode.loaded f s0 rest cso b).ramAddress = f.ramAddress from rfl]
    refine Eq.trans ?_ (congrArg (fun z => patch z (cso + 0x14) (enBytes .little 4 0)) g2.symm)
    exact (Proofs.MainCode.patch_same a4).symm

/-- C17: the constructor finds the code settings through the pointer, when the implicit section holds at
`q` the address of the settings, and the pointer given to the constructor points just behind it. -/
theorem main_code_pointer (f : MainCodeFile) (s0 : Section) (rest : List Section) (cso q : Nat) (b : Bytes)
    (hf : Shape f s0 rest cso) (hsave : f.save false = .ok b)
    (hq : slice s0.data q (q + 4) = leBytes 4 (f.ramAddress + cso)) (hq2 : q + 4 ≤ s0.data.length)
    (hout : ∀ i, q ≤ i → i < q + 4 → ¬ InSettings cso i) :
    findSettings b f.ramAddress (some (f.ramAddress + q + 4)) = .ok (some (cso : Int)) := by
  obtain ⟨hs, hb⟩ := (Proofs.MainCode.save_plain hf).1 hsave
  obtain ⟨e1, e2, e3, e4, e5⟩ := Proofs.MainCode.loaded_bytes hf hb
  have hin := hf.inside
  have hend := hs.tableEnd
  have hle := Proofs.MainCode.body_le s0 rest
  refine Proofs.MainCode.find_by_pointer ?_ (by omega) (by omega)
  refine At.of_slice (b := q + 4) (by omega) (by omega) ?_
  change _ = leBytes 4 (f.ramAddress + cso)
  rw [← hq]
  apply List.ext_getElem?
  intro i
  rw [getElem?_slice, getElem?_slice]
  split
  · rename_i hi
    have hi' : q + i < s0.data.length := by omega
    have t := congrArg (fun l => l[q + i]?) e1
    simp only [List.getElem?_take, hi', if_true] at t
    rw [t]
    have := hout (q + i) (by omega) (by omega)
    unfold InSettings at this
    exact Proofs.MainCode.settled_getElem? _ _ _ _ hin (by omega)
  · rfl

/-- C17: without a pointer, the constructor finds the settings through the magic number behind them, when
that is the first one in the file. -/
theorem main_code_magic (b : Bytes) (ram cso : Nat)
    (hm : slice b (cso + 0x1C) (cso + 0x24) = [0x21, 0x06, 0xC0, 0xDE, 0xDE, 0xC0, 0x06, 0x21])
    (h4 : cso % 4 = 0) (hlt : cso + 0x1C < 0x8000)
    (hfirst : ∀ i, 4 * i < cso + 0x1C →
      slice b (4 * i) (4 * i + 8) ≠ [0x21, 0x06, 0xC0, 0xDE, 0xDE, 0xC0, 0x06, 0x21]) :
    findSettings b ram none = .ok (some (cso : Int)) := by
  refine Proofs.MainCode.find_by_magic ?_ h4 hlt hfirst
  have hl := congrArg List.length hm
  rw [slice_length] at hl
  simp only [List.length_cons, List.length_nil] at hl
  exact At.of_slice (b := cso + 0x24) (by omega) (by omega) hm

/-- A file with code settings at offset 4 (the word at 0 points to them), a section with contents, one
without. -/
def exFile : MainCodeFile where
  sections := [⟨[4, 0, 0, 2] ++ List.replicate 24 7 ++ [0x21, 6, 0xC0, 0xDE, 0xDE, 0xC0, 6, 0x21] ++ zeros 4,
      0x2000000, 0, true⟩,
    ⟨[], 0x3000000, 0x100, false⟩, ⟨[1, 2, 3, 4, 5, 6, 7, 8], 0x1FF8000, 0x20, false⟩]
  ramAddress := 0x2000000
  codeSettingsOffs := some 4

/-- Its saved form. -/
def exBytes : Bytes :=
  [4, 0, 0, 2, 0x30, 0, 0, 2, 0x48, 0, 0, 2, 0x28, 0, 0, 2, 7, 7, 7, 7, 7, 7, 7, 7, 0, 0, 0, 0,
   0x21, 6, 0xC0, 0xDE, 0xDE, 0xC0, 6, 0x21, 0, 0, 0, 0, 1, 2, 3, 4, 5, 6, 7, 8,
   0, 0x80, 0xFF, 1, 8, 0, 0, 0, 0x20, 0, 0, 0, 0, 0, 0, 3, 0, 0, 0, 0, 0, 1, 0, 0]

example : Shape exFile exFile.sections[0] exFile.sections.tail 4 := by
  refine ⟨rfl, rfl, rfl, by decide, by decide, by decide⟩
example : exFile.save false = .ok exBytes ∧ CodeCompression.decompress exBytes = .ok exBytes := by decide +kernel
example : findSettings exBytes 0x2000000 (some 0x2000004) = .ok (some 4) := by decide +kernel

/-- The hypothesis on lengths is needed: an unaligned section shifts the ones behind it. -/
theorem main_code_unaligned :
    ((MainCodeFile.save ⟨[⟨[4, 0, 0, 0] ++ List.replicate 36 7, 0, 0, true⟩, ⟨[1], 100, 0, false⟩,
        ⟨[2, 3, 4, 5], 200, 0, false⟩], 0, some 4⟩ false >>= fun b =>
      MainCodeFile.load b 0 (some 4)).map fun f => f.sections.tail) =
    .ok [⟨[1], 100, 0, false⟩, ⟨[0, 0, 0, 2], 200, 0, false⟩] := by
  decide +kernel

/-! ## C55 -/

/-- C55.  The same for a compressed save, when the settings lie in the first 16 KiB, which stay uncompressed,
and compression makes the file shorter: the compressed file loads back as the same sections, and saving it
compressed again reproduces it. -/
theorem main_code_compressed_roundtrip (f : MainCodeFile) (s0 : Section) (rest : List Section) (cso : Nat)
    (b : Bytes) (ptr : Option Nat) (hf : Shape f s0 rest cso) (hsave : f.save true = .ok b)
    (hcso : cso + 0x18 ≤ 0x4000) (hshort : b.length < totalLength f.sections + 12 * rest.length)
    (h24 : b.length < 2 ^ 24)
    (hfind : ∀ u, CodeCompression.decompress b = .ok u →
      findSettings u f.ramAddress ptr = .ok (some (cso : Int))) :
    ∃ d0 f', MainCodeFile.load b f.ramAddress ptr = .ok f' ∧
      f' = ⟨⟨d0, f.ramAddress, 0, true⟩ ::
        ((rest.filter fun s => s.data.length != 0) ++ (rest.filter fun s => s.data.length == 0)),
        f.ramAddress, some (cso : Int)⟩ ∧
      Rewritten s0.data d0 cso (f.ramAddress + totalLength f.sections)
        (f.ramAddress + totalLength f.sections + 12 * rest.length) (f.ramAddress + s0.data.length)
        (f.ramAddress + b.length) ∧
      f'.save true = .ok b := by
  obtain ⟨hs, c, hc, hc32, hcl, hbc⟩ := (Proofs.MainCode.save_comp hf).1 hsave
  have hbl : b.length = c.length := by rw [hbc, patch_length (by rw [enBytes_length]; omega)]
  have hin := hf.inside
  have hend := hs.tableEnd
  have hle := Proofs.MainCode.body_le s0 rest
  have hdl : (Proofs.MainCode.settled3 (Proofs.MainCode.body s0 rest ++ Proofs.MainCode.table rest) cso
      (f.ramAddress + (Proofs.MainCode.body s0 rest).length)
      (f.ramAddress + (Proofs.MainCode.body s0 rest).length + (Proofs.MainCode.table rest).length)
      (f.ramAddress + s0.data.length)).length = totalLength f.sections + 12 * rest.length := by
    rw [Proofs.MainCode.settled3_length _ _ _ (by rw [List.length_append]; omega), List.length_append, body_length,
      table_length hf, hf.sections]
  have hlt : c.length < (Proofs.MainCode.settled3 (Proofs.MainCode.body s0 rest ++ Proofs.MainCode.table rest) cso
      (f.ramAddress + (Proofs.MainCode.body s0 rest).length)
      (f.ramAddress + (Proofs.MainCode.body s0 rest).length + (Proofs.MainCode.table rest).length)
      (f.ramAddress + s0.data.length)).length := by rw [hdl]; omega
  have hdec := Proofs.MainCode.decompress_patched (q := cso + 0x14)
    (bs := enBytes .little 4 (f.ramAddress + c.length)) hc hlt (by omega) (by rw [enBytes_length]; omega)
  rw [← hbc] at hdec
  have hload := Proofs.MainCode.load_settled hf hs.fits hs.tableEnd rfl hdec (hfind _ hdec)
  obtain ⟨e1, e2, e3, e4, e5⟩ := Proofs.MainCode.loaded_bytes hf (w4 := f.ramAddress + c.length) rfl
  obtain ⟨g1, g2⟩ := Proofs.MainCode.loaded_settled hf (w4 := f.ramAddress + c.length) rfl hs
  refine ⟨_, _, hload, by rw [filters_eq hf.others], ?_, ?_⟩
  · rw [hbl]
    refine Eq.mpr ?_ (settled_rewritten (w1 := f.ramAddress + totalLength f.sections)
      (w2 := f.ramAddress + totalLength f.sections + 12 * rest.length) (w3 := f.ramAddress + s0.data.length)
      (w4 := f.ramAddress + c.length) hf.inside ?_ ?_ (by omega) hc32)
    · refine congrFun (congrFun (congrFun (congrFun (congrFun (congrArg (Rewritten s0.data) ?_) _) _) _) _) _
      refine e1.trans ?_
      rw [body_length, table_length hf, hf.sections]
    · rw [hf.sections, ← body_length]; omega
    · rw [hf.sections, ← body_length, ← table_length hf]; omega
  · refine (Proofs.MainCode.save_comp (Proofs.MainCode.loaded_shape hf e5)).2 ⟨g1, b, ?_, ?_, ?_, ?_⟩
    · refine Eq.trans (congrArg (fun z => CodeCompression.compress z true) g2) ?_
      have := Proofs.MainCode.compress_patched (q := cso + 0x14)
        (bs := enBytes .little 4 (f.ramAddress + c.length)) hc (Proofs.MainCode.compress_shorter_length hc hlt)
        (by rw [enBytes_length]; omega)
      rw [hbc]
      exact this
    · rw [hbl]; exact hc32
    · omega
    · rw [hbl]
      refine (Proofs.MainCode.patch_same ?_).symm
      rw [hbc]
      exact At.patch_self (by omega)

/-- A file with 16 KiB of code, and a compressible rest. -/
def exLong : MainCodeFile where
  sections := [⟨[4, 0, 0, 2] ++ List.replicate 0x403C 7, 0x2000000, 0, true⟩, ⟨[1, 2, 3, 4], 0x1FF8000, 0x20, false⟩]
  ramAddress := 0x2000000
  codeSettingsOffs := some 4

example : Shape exLong exLong.sections[0] exLong.sections.tail 4 := by
  refine ⟨rfl, rfl, rfl, by decide, ?_, by decide +kernel⟩
  decide +kernel
set_option maxRecDepth 100000 in
example : ((exLong.save true).map List.length) = .ok 16428 ∧ totalLength exLong.sections + 12 * 1 = 16464 ∧
    (exLong.save true >>= fun b => CodeCompression.decompress b >>= fun u =>
      findSettings u 0x2000000 (some 0x2000004)) = .ok (some 4) := by decide +kernel

/-! ## C18 -/

/-- C18 is false: no file without code settings can be saved, compressed or not. -/
theorem main_code_without_settings_unsavable (f : MainCodeFile) (compress : Bool)
    (h : f.codeSettingsOffs = none) : ∀ b, f.save compress ≠ .ok b := by
  intro b hb
  unfold MainCodeFile.save at hb
  simp only [setCompressedEnd, h, bind_eq_ok] at hb
  obtain ⟨_, _, _, _, hb⟩ := hb
  cases compress
  · simp at hb
  · simp only [if_true, bind_eq_ok] at hb
    obtain ⟨_, _, hb⟩ := hb
    cases hb

/-- C18: in particular nothing built with `fromSections` can be saved. -/
theorem from_sections_unsavable (sections : List Section) (ram : Nat) (f : MainCodeFile) (compress : Bool)
    (h : MainCodeFile.fromSections sections ram = .ok f) : ∀ b, f.save compress ≠ .ok b := by
  apply main_code_without_settings_unsavable
  unfold MainCodeFile.fromSections MainCodeFile.load at h
  have e : CodeCompression.decompress [] = .ok [] := by decide +kernel
  have e2 : ∀ ram, findSettings [] ram none = .ok none ∨ findSettings [] ram none = .error .structError := by
    intro ram
    have hf : (List.range 0x2000).find? (fun i => decide (slice ([] : Bytes) (4 * i) (4 * i + 8) = settingsMagic)) =
        none := by
      rw [List.find?_eq_none]
      intro i _
      simp [slice, settingsMagic]
    have hs : searchForCodeSettingsOffs ram [] = .ok none ∨
        searchForCodeSettingsOffs ram [] = .error .structError := by
      unfold searchForCodeSettingsOffs
      rw [hf]
      cases hp : packU .little 4 (ram + ([] : Bytes).length) with
      | error er => right; rw [packU_err hp]; rfl
      | ok bs =>
        left
        obtain ⟨-, rfl⟩ := packU_eq_ok.1 hp
        simp only [bind_ok]
        have hne : ¬ (slice ([] : Bytes) 0 (0 + 4) = enBytes .little 4 (ram + ([] : Bytes).length)) := by
          intro h
          have := congrArg List.length h
          rw [enBytes_length] at this
          simp [slice] at this
        change searchTableEnd [] _ _ [0] = _
        unfold searchTableEnd
        rw [if_neg hne]
        rfl
    unfold findSettings
    rcases hs with hs | hs
    · left; rw [hs]; rfl
    · right; rw [hs]; rfl
  rw [e, bind_ok] at h
  rcases e2 ram with e2 | e2
  · rw [e2, bind_ok] at h
    have ht : tableBounds [] ram none = .ok (0, 0, 0) := rfl
    rw [ht, bind_ok] at h
    simp only [bind_eq_ok, pure_eq_ok] at h
    obtain ⟨_, ⟨_, _, rfl⟩, rfl⟩ := h
    rfl
  · rw [e2, bind_error] at h
    cases h

example : (MainCodeFile.fromSections [⟨[1, 2, 3, 4], 0x2000000, 0, true⟩] 0x2000000 >>= fun f => f.save false) =
    .error .typeError := by
  have : MainCodeFile.fromSections [⟨[1, 2, 3, 4], 0x2000000, 0, true⟩] 0x2000000 =
      .ok ⟨[⟨[1, 2, 3, 4], 0x2000000, 0, true⟩], 0x2000000, none⟩ := by decide +kernel
  rw [this]
  decide +kernel

end Verif.Props.MainCode
