import Verif.Props.RomCode
import Verif.Spec.Patching

/-!
# C167: patching code at a RAM address
-/

namespace Verif.Props.Patching

open Verif Verif.Model Verif.Model.Rom Verif.Model.Code Verif.Model.RomCode Verif.Spec.Patching
open Verif.Props.MainCode
open Verif.Proofs.MainCode (Shape)

/-! ## One section -/

theorem patchSection_length {o : Nat} {new : Bytes} {s : Section} (h : o + new.length ≤ s.data.length) :
    (patchSection o new s).data.length = s.data.length := by
  simp only [patchSection, List.length_append, List.length_take, List.length_drop]
  omega

theorem patchSection_inside {o : Nat} {new : Bytes} {s : Section} (h : o + new.length ≤ s.data.length) {j : Nat}
    (hj : j < new.length) : (patchSection o new s).data[o + j]? = new[j]? := by
  simp only [patchSection, List.append_assoc]
  rw [List.getElem?_append_right (by rw [List.length_take]; omega), List.length_take,
    show o + j - min o s.data.length = j by omega, List.getElem?_append_left hj]

theorem patchSection_outside {o : Nat} {new : Bytes} {s : Section} (h : o + new.length ≤ s.data.length) {k : Nat}
    (hk : ¬ (o ≤ k ∧ k < o + new.length)) : (patchSection o new s).data[k]? = s.data[k]? := by
  simp only [patchSection, List.append_assoc]
  by_cases h1 : k < o
  · rw [List.getElem?_append_left (by rw [List.length_take]; omega), List.getElem?_take_of_lt h1]
  · rw [List.getElem?_append_right (by rw [List.length_take]; omega), List.length_take,
      List.getElem?_append_right (by omega), List.getElem?_drop]
    congr 1
    omega

/-! ## The file -/

theorem patchCode_mem {f : MainCodeFile} {i o : Nat} {new : Bytes} {t : Section} :
    t ∈ (patchCode i o new f).sections ↔
      ∃ j s, f.sections[j]? = some s ∧ t = if i = j then patchSection o new s else s := by
  simp only [patchCode, List.mem_iff_getElem?, List.getElem?_modify]
  constructor
  · rintro ⟨j, hj⟩
    cases hs : f.sections[j]? with
    | none => rw [hs] at hj; cases hj
    | some s =>
      rw [hs] at hj
      refine ⟨j, s, hs, ?_⟩
      split at hj <;> rename_i hij <;> simp only [Option.map_eq_map, Option.map_some, Option.some.injEq, id] at hj <;> rw [← hj]
      · rw [if_pos hij]
      · rw [if_neg hij]
  · rintro ⟨j, s, hs, rfl⟩
    refine ⟨j, ?_⟩
    rw [hs]
    by_cases hij : i = j <;> simp [hij]

/-- A patch shows at its place. -/
theorem patchCode_new {f : MainCodeFile} {i o : Nat} {new : Bytes} {s : Section} (hs : f.sections[i]? = some s)
    (h : o + new.length ≤ s.data.length) {j : Nat} {v : UInt8} (hj : new[j]? = some v) :
    Shows (patchCode i o new f) (s.ramAddress + o + j) v := by
  refine ⟨patchSection o new s, patchCode_mem.2 ⟨i, s, hs, (if_pos rfl).symm⟩, ?_, ?_⟩
  · change s.ramAddress ≤ _; omega
  · change (patchSection o new s).data[s.ramAddress + o + j - s.ramAddress]? = _
    rw [show s.ramAddress + o + j - s.ramAddress = o + j by omega,
      patchSection_inside h (List.getElem?_eq_some_iff.1 hj).1, hj]

/-- Elsewhere nothing has changed. -/
theorem patchCode_old {f : MainCodeFile} {i o : Nat} {new : Bytes} {s : Section} (hs : f.sections[i]? = some s)
    (h : o + new.length ≤ s.data.length) {a : Nat} {v : UInt8}
    (ha : ¬ (s.ramAddress + o ≤ a ∧ a < s.ramAddress + o + new.length)) :
    Shows (patchCode i o new f) a v ↔ Shows f a v := by
  constructor
  · rintro ⟨t, ht, h1, h2⟩
    obtain ⟨j, t', hj, rfl⟩ := patchCode_mem.1 ht
    refine ⟨t', List.mem_iff_getElem?.2 ⟨j, hj⟩, ?_⟩
    split at h1
    · rename_i hij
      subst hij
      rw [hs] at hj
      cases hj
      rw [if_pos rfl] at h2
      change s.ramAddress ≤ a at h1
      change (patchSection o new s).data[a - s.ramAddress]? = _ at h2
      rw [patchSection_outside h (by omega)] at h2
      exact ⟨h1, h2⟩
    · rename_i hij
      rw [if_neg hij] at h2
      exact ⟨h1, h2⟩
  · rintro ⟨t, ht, h1, h2⟩
    obtain ⟨j, hj⟩ := List.mem_iff_getElem?.1 ht
    refine ⟨_, patchCode_mem.2 ⟨j, t, hj, rfl⟩, ?_⟩
    by_cases hij : i = j
    · subst hij
      rw [hs] at hj
      cases hj
      rw [if_pos rfl]
      refine ⟨h1, ?_⟩
      change (patchSection o new s).data[a - s.ramAddress]? = _
      rw [patchSection_outside h (by omega)]
      exact h2
    · rw [if_neg hij]
      exact ⟨h1, h2⟩

theorem patchCode_places {f : MainCodeFile} {i o : Nat} {new : Bytes} {s : Section} (hs : f.sections[i]? = some s)
    (h : o + new.length ≤ s.data.length) :
    (patchCode i o new f).sections.map place = f.sections.map place := by
  apply List.ext_getElem?
  intro j
  simp only [patchCode, List.getElem?_map, List.getElem?_modify]
  by_cases hij : i = j
  · subst hij
    rw [hs]
    simp only [Option.map_eq_map, Option.map_some, place, if_pos, patchSection_length h]
    rfl
  · cases f.sections[j]? <;> simp [hij]

/-! ## Saved and loaded -/

/-- What `main_code_roundtrip` says about the loaded file. -/
def Back (g : MainCodeFile) (d0 : Bytes) (rest : List Section) (cso : Nat) : MainCodeFile :=
  ⟨⟨d0, g.ramAddress, 0, true⟩ ::
    ((rest.filter fun s => s.data.length != 0) ++ (rest.filter fun s => s.data.length == 0)), g.ramAddress, some (cso : Int)⟩

theorem back_mem {rest : List Section} {s : Section} :
    s ∈ (rest.filter fun s => s.data.length != 0) ++ (rest.filter fun s => s.data.length == 0) ↔ s ∈ rest := by
  simp only [List.mem_append, List.mem_filter]
  constructor
  · rintro (h | h) <;> exact h.1
  · intro h
    by_cases hz : s.data.length = 0
    · exact .inr ⟨h, by simp [hz]⟩
    · exact .inl ⟨h, by simp [hz]⟩

theorem back_perm (rest : List Section) :
    ((rest.filter fun s => s.data.length != 0) ++ (rest.filter fun s => s.data.length == 0)).Perm rest := by
  have := List.filter_append_perm (fun s : Section => s.data.length != 0) rest
  simpa only [bne, Bool.not_not] using this

theorem back_shows {g : MainCodeFile} {g0 : Section} {rest : List Section} {cso w1 w2 w3 w4 : Nat} {d0 : Bytes}
    (hg : g.sections = g0 :: rest) (hram : g0.ramAddress = g.ramAddress) (hw : Rewritten g0.data d0 cso w1 w2 w3 w4)
    {a : Nat} {v : UInt8} (ha : ∀ k, InSettings cso k → a ≠ g.ramAddress + k) :
    Shows (Back g d0 rest cso) a v ↔ Shows g a v := by
  have key : g.ramAddress ≤ a → d0[a - g.ramAddress]? = g0.data[a - g.ramAddress]? := fun h =>
    hw.elsewhere _ fun hk => ha _ hk (by omega)
  constructor
  · rintro ⟨s, hs, h1, h2⟩
    rcases List.mem_cons.1 hs with rfl | hs
    · refine ⟨g0, by simp [hg], by rw [hram]; exact h1, ?_⟩
      rw [hram, ← key h1]
      exact h2
    · exact ⟨s, by rw [hg]; exact List.mem_cons_of_mem _ (back_mem.1 hs), h1, h2⟩
  · rintro ⟨s, hs, h1, h2⟩
    rw [hg] at hs
    rcases List.mem_cons.1 hs with rfl | hs
    · rw [hram] at h1 h2
      refine ⟨_, List.mem_cons_self, h1, ?_⟩
      rw [← key h1] at h2
      exact h2
    · exact ⟨s, List.mem_cons_of_mem _ (back_mem.2 hs), h1, h2⟩

/-- A file with its settings at `cso`, whose pointer to them is at `q` of the first section, and a place in it for a
patch of `n` bytes at `o` of section `i`, clear of both. -/
structure Patchable (f : MainCodeFile) (s0 : Section) (rest : List Section) (cso q i o n : Nat) (s : Section) : Prop where
  shape : Shape f s0 rest cso
  address : s0.ramAddress = f.ramAddress
  bss : s0.bssSize = 0
  pointer : slice s0.data q (q + 4) = leBytes 4 (f.ramAddress + cso)
  pointerInside : q + 4 ≤ s0.data.length
  pointerClear : ∀ k, q ≤ k → k < q + 4 → ¬ InSettings cso k
  target : f.sections[i]? = some s
  inside : o + n ≤ s.data.length
  clear : i = 0 → ∀ k, o ≤ k → k < o + n → ¬ InSettings cso k ∧ ¬ (q ≤ k ∧ k < q + 4)

/-- The sections of a patched file. -/
theorem patched_shape {f : MainCodeFile} {s0 : Section} {rest : List Section} {cso q i o : Nat} {new : Bytes} {s : Section}
    (h : Patchable f s0 rest cso q i o new.length s) :
    ∃ g0 grest, Shape (patchCode i o new f) g0 grest cso ∧ g0.ramAddress = f.ramAddress ∧ g0.bssSize = 0 ∧
      slice g0.data q (q + 4) = leBytes 4 (f.ramAddress + cso) ∧ q + 4 ≤ g0.data.length ∧
      (i ≠ 0 → patchSection o new s ∈ grest) := by
  have hsec := h.shape.sections
  have hal : ∀ t ∈ (patchCode i o new f).sections, t.data.length % 4 = 0 := by
    intro t ht
    obtain ⟨j, t', hj, rfl⟩ := patchCode_mem.1 ht
    have := h.shape.aligned t' (List.mem_iff_getElem?.2 ⟨j, hj⟩)
    split
    · rename_i hij
      subst hij
      rw [h.target] at hj
      cases hj
      rw [patchSection_length h.inside]; exact this
    · exact this
  cases i with
  | zero =>
    have hs : s = s0 := by
      have := h.target
      rw [hsec] at this
      exact (Option.some.inj this).symm
    subst hs
    have hl := patchSection_length h.inside
    refine ⟨patchSection o new s, rest, ⟨by simp [patchCode, hsec], h.shape.settings, h.shape.implicit, h.shape.others,
      hal, by rw [hl]; exact h.shape.inside⟩, h.address, h.bss, ?_, by rw [hl]; exact h.pointerInside, fun h => absurd rfl h⟩
    rw [← h.pointer]
    apply List.ext_getElem?
    intro k
    rw [getElem?_slice, getElem?_slice]
    split
    · exact patchSection_outside h.inside fun hk => (h.clear rfl _ hk.1 hk.2).2 (by omega)
    · rfl
  | succ k =>
    refine ⟨s0, rest.modify k (patchSection o new), ⟨by simp [patchCode, hsec], h.shape.settings, h.shape.implicit, ?_,
      hal, h.shape.inside⟩, h.address, h.bss, h.pointer, h.pointerInside, fun _ => ?_⟩
    · intro t ht
      have ht' : t ∈ rest.modify k (patchSection o new) := ht
      rw [List.mem_iff_getElem?] at ht'
      obtain ⟨j, hj⟩ := ht'
      rw [List.getElem?_modify] at hj
      cases hr : rest[j]? with
      | none => rw [hr] at hj; cases hj
      | some t' =>
        have := h.shape.others t' (List.mem_iff_getElem?.2 ⟨j, hr⟩)
        rw [hr] at hj
        split at hj <;> simp only [Option.map_eq_map, Option.map_some, Option.some.injEq, id] at hj <;> rw [← hj] <;> exact this
    · have ht := h.target
      rw [hsec, List.getElem?_cons_succ] at ht
      rw [List.mem_iff_getElem?]
      exact ⟨k, by rw [List.getElem?_modify, ht]; simp⟩

/-- A file loaded from a patched one. -/
theorem loaded_patch {f : MainCodeFile} {s0 g0 : Section} {rest grest : List Section} {cso q i o : Nat} {new : Bytes}
    {s : Section} {d0 : Bytes} {w1 w2 w3 w4 : Nat} (h : Patchable f s0 rest cso q i o new.length s)
    (hs : Shape (patchCode i o new f) g0 grest cso) (hr : g0.ramAddress = f.ramAddress) (hb : g0.bssSize = 0)
    (hm : i ≠ 0 → patchSection o new s ∈ grest) (h3 : Rewritten g0.data d0 cso w1 w2 w3 w4) :
    (∀ (j : Nat) v, new[j]? = some v → Shows (Back (patchCode i o new f) d0 grest cso) (s.ramAddress + o + j) v) ∧
    (∀ a v, ¬ (s.ramAddress + o ≤ a ∧ a < s.ramAddress + o + new.length) →
      (∀ k, InSettings cso k → a ≠ f.ramAddress + k) →
      (Shows (Back (patchCode i o new f) d0 grest cso) a v ↔ Shows f a v)) ∧
    SamePlaces (Back (patchCode i o new f) d0 grest cso) f := by
  have hsh : ∀ a v, (∀ k, InSettings cso k → a ≠ f.ramAddress + k) →
      (Shows (Back (patchCode i o new f) d0 grest cso) a v ↔ Shows (patchCode i o new f) a v) := fun a v ha =>
    back_shows hs.sections hr h3 ha
  refine ⟨fun j v hj => ?_, fun a v ha hset => ?_, ?_⟩
  · have hjl := (List.getElem?_eq_some_iff.1 hj).1
    by_cases hi : i = 0
    · have hss : s = s0 := by
        have := h.target
        rw [hi, h.shape.sections] at this
        exact (Option.some.inj this).symm
      refine (hsh _ v fun k hk e => ?_).2 (patchCode_new h.target h.inside hj)
      rw [hss, h.address] at e
      exact (h.clear hi (o + j) (by omega) (by omega)).1 (by rw [show o + j = k by omega]; exact hk)
    · refine ⟨patchSection o new s, List.mem_cons_of_mem _ (back_mem.2 (hm hi)), ?_, ?_⟩
      · change s.ramAddress ≤ _; omega
      · change (patchSection o new s).data[s.ramAddress + o + j - s.ramAddress]? = _
        rw [show s.ramAddress + o + j - s.ramAddress = o + j by omega, patchSection_inside h.inside hjl, hj]
  · exact (hsh a v hset).trans (patchCode_old h.target h.inside ha)
  · unfold SamePlaces
    rw [← patchCode_places h.target h.inside, hs.sections]
    simp only [Back, List.map_cons]
    have hpl : place ⟨d0, (patchCode i o new f).ramAddress, 0, true⟩ = place g0 := by
      simp only [place, h3.length, hr, hb]
      rfl
    rw [hpl]
    exact ((back_perm grest).map place).cons _

/-- C167 for a main code file: save the patched file uncompressed and load it at the same address.  The loaded file shows
the new bytes at the address of the patch, and what the original did at all other addresses but those of the four settings
words; its sections have the same places and sizes. -/
theorem patch_code (f : MainCodeFile) (s0 : Section) (rest : List Section) (cso q i o : Nat) (new : Bytes) (s : Section)
    (code : Bytes) (h : Patchable f s0 rest cso q i o new.length s)
    (hsave : (patchCode i o new f).save false = .ok code) (hplain : CodeCompression.decompress code = .ok code) :
    ∃ f', MainCodeFile.load code f.ramAddress (some (f.ramAddress + q + 4)) = .ok f' ∧
      (∀ (j : Nat) v, new[j]? = some v → Shows f' (s.ramAddress + o + j) v) ∧
      (∀ a v, ¬ (s.ramAddress + o ≤ a ∧ a < s.ramAddress + o + new.length) →
        (∀ k, InSettings cso k → a ≠ f.ramAddress + k) → (Shows f' a v ↔ Shows f a v)) ∧
      SamePlaces f' f := by
  obtain ⟨g0, grest, hs, hr, hb, hp, hpi, hm⟩ := patched_shape h
  have hfind := main_code_pointer _ g0 grest cso q code hs hsave hp hpi h.pointerClear
  obtain ⟨d0, f', h1, h2, h3, -⟩ := main_code_roundtrip _ g0 grest cso code _ hs hsave hplain hfind
  subst h2
  exact ⟨_, h1, loaded_patch h hs hr hb hm h3⟩

/-- The settings of compressed code are found through the pointer, as in `main_code_pointer`. -/
theorem compressed_pointer {f : MainCodeFile} {s0 : Section} {rest : List Section} {cso q : Nat} {b : Bytes}
    (hf : Shape f s0 rest cso) (hsave : f.save true = .ok b)
    (hcso : cso + 0x18 ≤ 0x4000) (hshort : b.length < totalLength f.sections + 12 * rest.length)
    (h24 : b.length < 2 ^ 24)
    (hq : slice s0.data q (q + 4) = leBytes 4 (f.ramAddress + cso)) (hq2 : q + 4 ≤ s0.data.length)
    (hout : ∀ i, q ≤ i → i < q + 4 → ¬ InSettings cso i) (u : Bytes) (hu : CodeCompression.decompress b = .ok u) :
    findSettings u f.ramAddress (some (f.ramAddress + q + 4)) = .ok (some (cso : Int)) := by
  obtain ⟨hs, c, hc, hc32, hcl, hbc⟩ := (Proofs.MainCode.save_comp hf).1 hsave
  have hbl : b.length = c.length := by rw [hbc, patch_length (by rw [enBytes_length]; omega)]
  have hin := hf.inside
  have hend := hs.tableEnd
  have hle := Proofs.MainCode.body_le s0 rest
  have hdl : (Proofs.MainCode.settled3 (Proofs.MainCode.body s0 rest ++ Proofs.MainCode.table rest) cso
      (f.ramAddress + (Proofs.MainCode.body s0 rest).length)
      (f.ramAddress + (Proofs.MainCode.body s0 rest).length + (Proofs.MainCode.table rest).length)
      (f.ramAddress + s0.data.length)).length = totalLength f.sections + 12 * rest.length := by
    rw [Proofs.MainCode.settled3_length _ _ _ (by rw [List.length_append]; omega), List.length_append, body_length,
      table_length hf, hf.sections]
  have hlt : c.length < (Proofs.MainCode.settled3 (Proofs.MainCode.body s0 rest ++ Proofs.MainCode.table rest) cso
      (f.ramAddress + (Proofs.MainCode.body s0 rest).length)
      (f.ramAddress + (Proofs.MainCode.body s0 rest).length + (Proofs.MainCode.table rest).length)
      (f.ramAddress + s0.data.length)).length := by rw [hdl]; omega
  have hdec := Proofs.MainCode.decompress_patched (q := cso + 0x14)
    (bs := enBytes .little 4 (f.ramAddress + c.length)) hc hlt (by omega) (by rw [enBytes_length]; omega)
  rw [← hbc, hu] at hdec
  obtain ⟨e1, e2, e3, e4, e5⟩ := Proofs.MainCode.loaded_bytes hf (w4 := f.ramAddress + c.length) (Except.ok.inj hdec)
  refine Proofs.MainCode.find_by_pointer ?_ (by omega) (by omega)
  refine At.of_slice (b := q + 4) (by omega) (by omega) ?_
  change _ = leBytes 4 (f.ramAddress + cso)
  rw [← hq]
  apply List.ext_getElem?
  intro i
  rw [getElem?_slice, getElem?_slice]
  split
  · rename_i hi
    have hi' : q + i < s0.data.length := by omega
    have t := congrArg (fun l => l[q + i]?) e1
    simp only [List.getElem?_take, hi', if_true] at t
    rw [t]
    have := hout (q + i) (by omega) (by omega)
    unfold InSettings at this
    exact Proofs.MainCode.settled_getElem? _ _ _ _ hin (by omega)
  · rfl

/-- C167 for a main code file, the same compressed. -/
theorem patch_code_compressed (f : MainCodeFile) (s0 : Section) (rest : List Section) (cso q i o : Nat) (new : Bytes)
    (s : Section) (code : Bytes) (h : Patchable f s0 rest cso q i o new.length s)
    (hsave : (patchCode i o new f).save true = .ok code) (hcso : cso + 0x18 ≤ 0x4000)
    (hshort : code.length < totalLength f.sections + 12 * rest.length) (h24 : code.length < 2 ^ 24) :
    ∃ f', MainCodeFile.load code f.ramAddress (some (f.ramAddress + q + 4)) = .ok f' ∧
      (∀ (j : Nat) v, new[j]? = some v → Shows f' (s.ramAddress + o + j) v) ∧
      (∀ a v, ¬ (s.ramAddress + o ≤ a ∧ a < s.ramAddress + o + new.length) →
        (∀ k, InSettings cso k → a ≠ f.ramAddress + k) → (Shows f' a v ↔ Shows f a v)) ∧
      SamePlaces f' f := by
  obtain ⟨g0, grest, hs, hr, hb, hp, hpi, hm⟩ := patched_shape h
  have hpl := patchCode_places h.target h.inside
  have hlen : totalLength (patchCode i o new f).sections + 12 * grest.length =
      totalLength f.sections + 12 * rest.length := by
    have e1 : ∀ l : List Section, totalLength l = ((l.map place).map fun p => p.2.1).sum := fun l => by
      rw [List.map_map]; rfl
    have e2 : (patchCode i o new f).sections.length = f.sections.length := by
      have := congrArg List.length hpl
      rwa [List.length_map, List.length_map] at this
    rw [e1, e1, hpl]
    rw [hs.sections, h.shape.sections, List.length_cons, List.length_cons] at e2
    omega
  have hfind := compressed_pointer hs hsave hcso (by rw [hlen]; exact hshort) h24 hp hpi h.pointerClear
  obtain ⟨d0, f', h1, h2, h3, -⟩ :=
    main_code_compressed_roundtrip _ g0 grest cso code _ hs hsave hcso (by rw [hlen]; exact hshort) h24 hfind
  subst h2
  exact ⟨_, h1, loaded_patch h hs hr hb hm h3⟩

/-- C167.  Patch the ARM9 code of a ROM at a RAM address, save it and the ROM, and load the image and its ARM9 code.  The
loaded code has the patch at that address and is otherwise as before, and so are all overlays, the ARM7 code and all
files. -/
theorem rom_patch (r r' : Rom) (f : MainCodeFile) (s0 : Section) (rest : List Section) (cso q i o : Nat) (new : Bytes)
    (s : Section) (code b : Bytes) (u : Bool) (limit : Nat) (hp : Patchable f s0 rest cso q i o new.length s)
    (hram : f.ramAddress = r.arm9RamAddress) (hptr : r.arm9CodeSettingsPointerAddress = f.ramAddress + q + 4)
    (hsave : (patchCode i o new f).save false = .ok code) (hplain : CodeCompression.decompress code = .ok code)
    (h : save { r with arm9 := code } u = .ok (b, r'))
    (hne : Spec.Fnt.NoEmptyFileName r.filenames) (hd : Spec.Fnt.depth r.filenames ≤ limit) :
    ∃ p f', load limit b = .ok p ∧ loadArm9 p = .ok f' ∧
      (∀ (j : Nat) v, new[j]? = some v → Shows f' (s.ramAddress + o + j) v) ∧
      (∀ a v, ¬ (s.ramAddress + o ≤ a ∧ a < s.ramAddress + o + new.length) →
        (∀ k, InSettings cso k → a ≠ f.ramAddress + k) → (Shows f' a v ↔ Shows f a v)) ∧
      SamePlaces f' f ∧ loadArm7 p = loadArm7 r ∧
      (∀ ids, loadArm9Overlays p ids = loadArm9Overlays r ids) ∧
      (∀ ids, loadArm7Overlays p ids = loadArm7Overlays r ids) ∧
      ∀ name, getFileByName p name = getFileByName r name := by
  obtain ⟨p, hq, h9, h7, o9, o7, hn⟩ := RomCode.rom_reload_code _ r' u b h limit hne hd
  obtain ⟨f', h1, h2, h3, h4⟩ := patch_code f s0 rest cso q i o new s code hp hsave hplain
  refine ⟨p, f', hq, ?_, h2, h3, h4, h7, o9, o7, hn⟩
  rw [h9]
  unfold loadArm9
  dsimp only
  rw [← hram, hptr]
  exact h1

/-- C167, the same compressed. -/
theorem rom_patch_compressed (r r' : Rom) (f : MainCodeFile) (s0 : Section) (rest : List Section) (cso q i o : Nat)
    (new : Bytes) (s : Section) (code b : Bytes) (u : Bool) (limit : Nat)
    (hp : Patchable f s0 rest cso q i o new.length s) (hram : f.ramAddress = r.arm9RamAddress)
    (hptr : r.arm9CodeSettingsPointerAddress = f.ramAddress + q + 4)
    (hsave : (patchCode i o new f).save true = .ok code) (hcso : cso + 0x18 ≤ 0x4000)
    (hshort : code.length < totalLength f.sections + 12 * rest.length) (h24 : code.length < 2 ^ 24)
    (h : save { r with arm9 := code } u = .ok (b, r'))
    (hne : Spec.Fnt.NoEmptyFileName r.filenames) (hd : Spec.Fnt.depth r.filenames ≤ limit) :
    ∃ p f', load limit b = .ok p ∧ loadArm9 p = .ok f' ∧
      (∀ (j : Nat) v, new[j]? = some v → Shows f' (s.ramAddress + o + j) v) ∧
      (∀ a v, ¬ (s.ramAddress + o ≤ a ∧ a < s.ramAddress + o + new.length) →
        (∀ k, InSettings cso k → a ≠ f.ramAddress + k) → (Shows f' a v ↔ Shows f a v)) ∧
      SamePlaces f' f ∧ loadArm7 p = loadArm7 r ∧
      (∀ ids, loadArm9Overlays p ids = loadArm9Overlays r ids) ∧
      (∀ ids, loadArm7Overlays p ids = loadArm7Overlays r ids) ∧
      ∀ name, getFileByName p name = getFileByName r name := by
  obtain ⟨p, hq, h9, h7, o9, o7, hn⟩ := RomCode.rom_reload_code _ r' u b h limit hne hd
  obtain ⟨f', h1, h2, h3, h4⟩ := patch_code_compressed f s0 rest cso q i o new s code hp hsave hcso hshort h24
  refine ⟨p, f', hq, ?_, h2, h3, h4, h7, o9, o7, hn⟩
  rw [h9]
  unfold loadArm9
  dsimp only
  rw [← hram, hptr]
  exact h1

/-- The file with 16 KiB of code, patched in the compressed part. -/
example : Patchable exLong exLong.sections[0] exLong.sections.tail 4 0 0 0x4010 2 exLong.sections[0] := by
  refine ⟨⟨rfl, rfl, rfl, by decide, by decide +kernel, by decide +kernel⟩, rfl, rfl, by decide +kernel,
    by decide +kernel, ?_, rfl, by decide +kernel, ?_⟩
  · intro k _ h2
    unfold InSettings
    omega
  · intro _ k h1 h2
    unfold InSettings
    omega
set_option maxRecDepth 100000 in
example : ((patchCode 0 0x4010 [8, 9] exLong).save true).map
      (fun b => decide (b.length < totalLength exLong.sections + 12 * exLong.sections.tail.length)) = .ok true := by
  decide +kernel

/-- Three bytes of the section with contents of the file of `Props/MainCode.lean`, at 0x1FF8002. -/
example : Patchable exFile exFile.sections[0] exFile.sections.tail 4 0 2 2 3 exFile.sections[2] := by
  refine ⟨⟨rfl, rfl, rfl, by decide, by decide, by decide⟩, rfl, rfl, by decide +kernel, by decide, ?_, rfl, by decide,
    fun h => absurd h (by decide)⟩
  intro k _ h2
  unfold InSettings
  omega

/-- Four bytes of its first section, behind the settings words, at 0x2000020. -/
example : Patchable exFile exFile.sections[0] exFile.sections.tail 4 0 0 0x20 4 exFile.sections[0] := by
  refine ⟨⟨rfl, rfl, rfl, by decide, by decide, by decide⟩, rfl, rfl, by decide +kernel, by decide, ?_, rfl, by decide, ?_⟩
  · intro k _ h2
    unfold InSettings
    omega
  · intro _ k h1 h2
    unfold InSettings
    omega

/-- The saved form of the first. -/
def patchedBytes : Bytes :=
  [4, 0, 0, 2, 0x30, 0, 0, 2, 0x48, 0, 0, 2, 0x28, 0, 0, 2, 7, 7, 7, 7, 7, 7, 7, 7, 0, 0, 0, 0,
   0x21, 6, 0xC0, 0xDE, 0xDE, 0xC0, 6, 0x21, 0, 0, 0, 0, 1, 2, 9, 9, 9, 6, 7, 8,
   0, 0x80, 0xFF, 1, 8, 0, 0, 0, 0x20, 0, 0, 0, 0, 0, 0, 3, 0, 0, 0, 0, 0, 1, 0, 0]

example : (patchCode 2 2 [9, 9, 9] exFile).save false = .ok patchedBytes ∧
    CodeCompression.decompress patchedBytes = .ok patchedBytes ∧
    exFile.ramAddress = RomCode.withCode.arm9RamAddress ∧
    RomCode.withCode.arm9CodeSettingsPointerAddress = exFile.ramAddress + 0 + 4 := by decide +kernel
example : ∃ b r', save { RomCode.withCode with arm9 := patchedBytes } false = .ok (b, r') := by
  refine (Rom.saves_of (r := { RomCode.withCode with
    arm9 := patchedBytes }) (ids := [1]) (fnt := [8, 0, 0, 0, 0, 0, 1, 0, 1, 97, 1, 98, 0])
      Rom.sample_ids rfl (by decide +kernel) (by decide +kernel) (.inl rfl) ?_).2.2
  refine ⟨by decide +kernel, by decide +kernel, by decide +kernel, by decide +kernel, by decide +kernel,
    by decide +kernel, by decide +kernel, ?_, ?_, ?_⟩ <;> decide +kernel

end Verif.Props.Patching
