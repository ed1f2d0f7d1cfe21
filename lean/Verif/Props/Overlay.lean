import Verif.Proofs.Overlay
import Verif.Props.Lz

/-!
# Properties of overlays and overlay tables (C15, C16, C54)
-/

namespace Verif.Props.Overlay

open Verif Verif.Model Verif.Model.Code

/-! ## C15 -/

/-- What a file on disk must hold to become `data`: the data itself, or, if bit 0 of the flags is set,
something that decompresses to it. -/
def Holds (raw : Bytes) (flags : Nat) (data : Bytes) : Prop :=
  if flags % 2 = 1 then CodeCompression.decompress raw = .ok data else raw = data

/-- C15: a table that saves loads back with the same overlays under the same IDs, in ascending order of ID,
provided the compressed sizes fit their 24 bits and the file lookup returns the overlays' files.  `ids` is
the selection `idsToLoad`; only the selected overlays are loaded, and only their files looked up. -/
theorem overlay_table_roundtrip (t : List (Nat × Overlay)) (d : Bytes) (cb : Nat → Nat → Py Bytes)
    (ids : Option (Nat → Bool)) (hkeys : (t.map Prod.fst).Nodup) (h : saveOverlayTable t = .ok d)
    (hc : ∀ p ∈ t, p.2.compressedSize < 2 ^ 24)
    (hfile : ∀ id ov, (id, ov) ∈ t → (∀ f, ids = some f → f id = true) →
      ∃ raw, cb id ov.fileID = .ok raw ∧ Holds raw ov.flags ov.data) :
    ∃ t', loadOverlayTable d cb ids = .ok t' ∧
      (∀ id ov, (id, ov) ∈ t' ↔ (id, ov) ∈ t ∧ ∀ f, ids = some f → f id = true) ∧
      t'.Pairwise (fun a b => a.1 < b.1) := by
  have hsel : ∀ id, (ids.all (fun f => f id) = true) ↔ ∀ f, ids = some f → f id = true := by
    intro id; cases ids <;> simp
  refine ⟨_, Proofs.Overlay.loadTable_ok h hkeys hc ?_, ?_, ?_⟩
  · rintro ⟨id, ov⟩ hp hs
    exact hfile id ov hp ((hsel id).1 hs)
  · intro id ov
    rw [List.mem_filter, (sortBy_perm Prod.fst t).mem_iff, hsel]
  · exact (Proofs.Overlay.sorted_lt hkeys).sublist (List.filter_sublist)

/-- C15, continued: saving the loaded table gives the same bytes again. -/
theorem overlay_table_resave (t t' : List (Nat × Overlay)) (d : Bytes) (cb : Nat → Nat → Py Bytes)
    (hkeys : (t.map Prod.fst).Nodup) (h : saveOverlayTable t = .ok d)
    (hc : ∀ p ∈ t, p.2.compressedSize < 2 ^ 24)
    (hfile : ∀ id ov, (id, ov) ∈ t → ∃ raw, cb id ov.fileID = .ok raw ∧ Holds raw ov.flags ov.data)
    (hload : loadOverlayTable d cb none = .ok t') : saveOverlayTable t' = .ok d := by
  rw [Proofs.Overlay.loadTable_ok h hkeys hc (fun p hp _ => hfile p.1 p.2 hp)] at hload
  simp only [Option.all_none, Except.ok.injEq] at hload
  rw [List.filter_eq_self.2 (fun _ _ => rfl)] at hload
  subst hload
  obtain ⟨h1, rfl⟩ := Proofs.Overlay.saveTable_ok.1 h
  refine Proofs.Overlay.saveTable_ok.2 ⟨fun p hp => h1 p ((sortBy_perm Prod.fst t).mem_iff.1 hp), ?_⟩
  rw [sortBy_of_sorted (sortBy_sorted Prod.fst t)]

/-- C15, files first: a table whose IDs ascend, as in every retail ROM, is reproduced byte for byte by
loading and saving. -/
theorem overlay_file_resave (d : Bytes) (t : List (Nat × Overlay)) (cb : Nat → Nat → Py Bytes)
    (h : loadOverlayTable d cb none = .ok t)
    (hasc : ∀ i j, i < j → 32 * j < d.length →
      leVal (slice d (32 * i) (32 * i + 4)) < leVal (slice d (32 * j) (32 * j + 4))) :
    saveOverlayTable t = .ok d ∧ 32 * t.length = d.length := by
  unfold loadOverlayTable at h
  obtain ⟨l, hl⟩ := Proofs.Overlay.loadEntries_inv h
  rcases hl with ⟨hlen, hat, hf, hc, hfile, rfl⟩ | ⟨hn, rfl⟩
  · have hb := hat.bound
    rw [Proofs.Overlay.flat_length] at hb
    have hd : d.length = 32 * l.length := by omega
    have hat' : d = (l.map Proofs.Overlay.entryBytes).flatten := by
      have := hat.drop_eq (by rw [Proofs.Overlay.flat_length]; omega)
      simpa using this
    have hkey : ∀ i (hi : i < l.length), leVal (slice d (32 * i) (32 * i + 4)) = l[i].1 := by
      intro i hi
      have hr := flatten_at (n := 32) (parts := l.map Proofs.Overlay.entryBytes)
        (by intro p hp; obtain ⟨q, _, rfl⟩ := List.mem_map.1 hp; exact Proofs.Overlay.entryBytes_length q)
        (i := i) (by simpa using hi)
      rw [← hat', List.getElem_map, Nat.mul_comm] at hr
      unfold Proofs.Overlay.entryBytes at hr
      have a1 := (At.split.1 (At.split.1 (At.split.1 (At.split.1 (At.split.1 (At.split.1
        (At.split.1 hr).1).1).1).1).1).1).1
      rw [a1.slice_eq (by rw [enBytes_length])]
      have := (hf l[i] (List.getElem_mem hi)).1
      exact enVal_enBytes (e := .little) (k := 4) this
    have hpw : l.Pairwise (fun a b => a.1 < b.1) := by
      rw [List.pairwise_iff_getElem]
      intro i j hi hj hij
      have := hasc i j hij (by omega)
      rwa [hkey i hi, hkey j hj] at this
    have hnd : (l.map Prod.fst).Nodup := by
      rw [List.Nodup, List.pairwise_map]; exact hpw.imp fun h => Nat.ne_of_lt h
    rw [Proofs.Overlay.foldl_dictSet (by simpa using hnd), List.nil_append]
    refine ⟨Proofs.Overlay.saveTable_ok.2 ⟨hf, ?_⟩, hd.symm⟩
    rw [sortBy_of_sorted (hpw.imp fun h => Nat.le_of_lt h), ← hat']
  · have : d.length = 0 := by omega
    have hd : d = [] := List.eq_nil_of_length_eq_zero this
    subst hd
    exact ⟨rfl, rfl⟩

/-- A table with two overlays, out of order; one of them compressed. -/
def exTable : List (Nat × Overlay) :=
  [(7, ⟨[9], 0x2000000, 1, 2, 3, 4, 5, 1, 2⟩), (2, ⟨List.replicate 40 65, 0x2100000, 40, 0, 0, 0, 6, 20, 3⟩)]

/-- The file lookup for it. -/
def exFiles (_ fileID : Nat) : Py Bytes :=
  if fileID = 5 then .ok [9]
  else .ok [13, 208, 9, 144, 3, 48, 0, 0, 65, 65, 65, 30, 20, 0, 0, 8, 20, 0, 0, 0]

example : (saveOverlayTable exTable).isOk = true ∧ (exTable.map Prod.fst).Nodup ∧
    (saveOverlayTable exTable >>= fun d => loadOverlayTable d exFiles none) = .ok exTable.reverse ∧
    (saveOverlayTable exTable >>= fun d => loadOverlayTable d exFiles (some (· == 7))) =
      .ok [(7, ⟨[9], 0x2000000, 1, 2, 3, 4, 5, 1, 2⟩)] := by decide +kernel

/-- The hypothesis on sizes is needed: a larger compressed size spills into the flags. -/
example : (saveOverlayTable [(0, ⟨[], 0, 0, 0, 0, 0, 0, 0x2000001, 0⟩)] >>= fun d =>
    loadOverlayTable d (fun _ _ => .ok []) none) = .ok [(0, ⟨[], 0, 0, 0, 0, 0, 0, 1, 2⟩)] := by decide +kernel

/-! ## C16 -/

theorem andNot_testBit (x m i : Nat) : (andNot x m).testBit i = (x.testBit i && !m.testBit i) := by
  unfold andNot
  rw [Nat.testBit_xor, Nat.testBit_and]
  cases x.testBit i <;> cases m.testBit i <;> rfl

theorem compressedFlag_testBit (f : Nat) : compressedFlag f = f.testBit 0 := by
  unfold compressedFlag Nat.testBit
  rw [Nat.and_comm]; rfl

theorem verifyHashFlag_testBit (f : Nat) : verifyHashFlag f = f.testBit 1 := by
  exact Bits.and_two_pow_ne f 1

/-- C16: setting `compressed` is bit 0 and nothing else. -/
theorem set_compressed (flags : Nat) (v : Bool) :
    compressedFlag (setCompressedFlag flags v) = v ∧
    verifyHashFlag (setCompressedFlag flags v) = verifyHashFlag flags ∧
    ∀ i, (setCompressedFlag flags v).testBit i = if i = 0 then v else flags.testBit i := by
  have key : ∀ i, (setCompressedFlag flags v).testBit i = if i = 0 then v else flags.testBit i := by
    intro i
    unfold setCompressedFlag
    have h1 : Nat.testBit 1 i = decide (0 = i) := Nat.testBit_two_pow (n := 0)
    cases v
    · simp only [Bool.false_eq_true, if_false, andNot_testBit, h1]
      by_cases hi : i = 0
      · simp [hi]
      · have : ¬ 0 = i := fun e => hi e.symm
        simp [hi, this]
    · simp only [if_true, Nat.testBit_or, h1]
      by_cases hi : i = 0
      · simp [hi]
      · have : ¬ 0 = i := fun e => hi e.symm
        simp [hi, this]
  refine ⟨?_, ?_, key⟩
  · rw [compressedFlag_testBit, key, if_pos rfl]
  · rw [verifyHashFlag_testBit, verifyHashFlag_testBit, key, if_neg (by decide)]

/-- C16: setting `verifyHash` is bit 1 and nothing else. -/
theorem set_verifyHash (flags : Nat) (v : Bool) :
    verifyHashFlag (setVerifyHashFlag flags v) = v ∧
    compressedFlag (setVerifyHashFlag flags v) = compressedFlag flags ∧
    ∀ i, (setVerifyHashFlag flags v).testBit i = if i = 1 then v else flags.testBit i := by
  have key : ∀ i, (setVerifyHashFlag flags v).testBit i = if i = 1 then v else flags.testBit i := by
    intro i
    unfold setVerifyHashFlag
    have h1 : Nat.testBit 2 i = decide (1 = i) := Nat.testBit_two_pow (n := 1)
    cases v
    · simp only [Bool.false_eq_true, if_false, andNot_testBit, h1]
      by_cases hi : i = 1
      · simp [hi]
      · have : ¬ 1 = i := fun e => hi e.symm
        simp [hi, this]
    · simp only [if_true, Nat.testBit_or, h1]
      by_cases hi : i = 1
      · simp [hi]
      · have : ¬ 1 = i := fun e => hi e.symm
        simp [hi, this]
  refine ⟨?_, ?_, key⟩
  · rw [verifyHashFlag_testBit, key, if_pos rfl]
  · rw [compressedFlag_testBit, compressedFlag_testBit, key, if_neg (by decide)]

example : setCompressedFlag 0b10110 true = 0b10111 ∧ setCompressedFlag 0b10111 false = 0b10110 ∧
    setVerifyHashFlag 0b10110 false = 0b10100 ∧ setVerifyHashFlag 0b10100 true = 0b10110 := by decide

/-! ## C54 -/

/-- Build an overlay from a file and the table fields of `ov` (`Overlay.__init__`). -/
def reopen (file : Bytes) (ov : Overlay) : Py Overlay :=
  Overlay.init file ov.ramAddress ov.ramSize ov.bssSize ov.staticInitStart ov.staticInitEnd ov.fileID
    ov.compressedSize ov.flags

/-- C54: saving updates exactly the sizes and the compression flag: `ramSize` is the length of the data,
`compressedSize` the length of the file, the flag tells whether the file is compressed, and everything else
stays as it was. -/
theorem overlay_save_fields (ov ov' : Overlay) (compress : Bool) (file : Bytes)
    (h : ov.save compress = .ok (file, ov')) :
    ov'.ramSize = ov.data.length ∧ ov'.compressedSize = file.length ∧
    compressedFlag ov'.flags = compress ∧ verifyHashFlag ov'.flags = verifyHashFlag ov.flags ∧
    ov'.data = ov.data ∧ ov'.ramAddress = ov.ramAddress ∧ ov'.bssSize = ov.bssSize ∧
    ov'.staticInitStart = ov.staticInitStart ∧ ov'.staticInitEnd = ov.staticInitEnd ∧
    ov'.fileID = ov.fileID ∧ (compress = false → file = ov.data) := by
  have hs := set_compressed ov.flags compress
  unfold Overlay.save at h
  cases compress
  · simp only [Bool.false_eq_true, if_false, bind_eq_ok, pure_eq_ok, Prod.mk.injEq] at h
    obtain ⟨_, rfl, rfl, rfl⟩ := h
    exact ⟨rfl, rfl, hs.1, hs.2.1, rfl, rfl, rfl, rfl, rfl, rfl, fun _ => rfl⟩
  · simp only [if_true, bind_eq_ok, pure_eq_ok, Prod.mk.injEq] at h
    obtain ⟨_, _, rfl, rfl⟩ := h
    exact ⟨rfl, rfl, hs.1, hs.2.1, rfl, rfl, rfl, rfl, rfl, rfl, fun h => by cases h⟩

/-- C54: an uncompressed save always reopens as the saved overlay. -/
theorem overlay_reopen (ov : Overlay) :
    ∃ file ov', ov.save false = .ok (file, ov') ∧ reopen file ov' = .ok ov' ∧ ov'.data = ov.data := by
  refine ⟨_, _, rfl, ?_, rfl⟩
  have hs := (set_compressed ov.flags false).1
  unfold reopen Overlay.init
  simp only [hs]
  rfl

/-- C54: a compressed save reopens as the saved overlay whenever compression made it shorter. -/
theorem overlay_reopen_compressed (ov ov' : Overlay) (file : Bytes) (h : ov.save true = .ok (file, ov'))
    (hlt : file.length < ov.data.length) (h24 : file.length < 2 ^ 24) :
    reopen file ov' = .ok ov' ∧ ov'.data = ov.data := by
  have hf := overlay_save_fields ov ov' true file h
  have h' := h
  unfold Overlay.save at h'
  simp only [if_true, bind_eq_ok, pure_eq_ok, Prod.mk.injEq] at h'
  obtain ⟨_, hc, rfl, e⟩ := h'
  have hd := Props.Lz.code_roundtrip_of_shorter ov.data _ false hc hlt h24
  refine ⟨?_, hf.2.2.2.2.1⟩
  unfold reopen Overlay.init
  rw [hf.2.2.1, if_pos rfl, hd]
  subst e
  rfl

example : ∃ file ov', (Overlay.mk (List.replicate 40 65) 1 2 3 4 5 6 7 0xF2).save true = .ok (file, ov') ∧
    file.length = 20 ∧ ov' = ⟨List.replicate 40 65, 1, 40, 3, 4, 5, 6, 20, 0xF3⟩ ∧ reopen file ov' = .ok ov' :=
  ⟨[13, 208, 9, 144, 3, 48, 0, 0, 65, 65, 65, 30, 20, 0, 0, 8, 20, 0, 0, 0],
    ⟨List.replicate 40 65, 1, 40, 3, 4, 5, 6, 20, 0xF3⟩, by decide +kernel, rfl, rfl, by decide +kernel⟩

end Verif.Props.Overlay
