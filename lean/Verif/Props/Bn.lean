import Verif.Proofs.Bn

/-!
# Properties of BNBL and BNCL files (C23, C24)
-/

namespace Verif.Props.Bn

open Verif Verif.Model.Bn Verif.Spec.Util

/-- C23: a layout that saves loads back as the same layout, when coordinates are in range and alignments
proper; nothing after the end of the file matters. -/
theorem bnbl_roundtrip (b : BNBL) (d : Bytes) (h : b.save = .ok d)
    (hp : ∀ t ∈ b.touchAreas, (0 ≤ t.x ∧ t.x < 4096) ∧ (0 ≤ t.y ∧ t.y < 4096) ∧ ProperAlignment t.alignment) :
    BNBL.load d = .ok b ∧ d.length = 8 + 6 * b.touchAreas.length := by
  obtain ⟨h1, h2, h3, rfl⟩ := Proofs.Bn.bnbl_save_ok.1 h
  refine ⟨Proofs.Bn.bnbl_load_bytes h1 h2 fun t ht => ⟨hp t ht, h3 t ht⟩, ?_⟩
  have e : ∀ l : List TouchArea, ((l.map Proofs.Bn.areaBytes).flatten).length = 6 * l.length := by
    intro l
    induction l with
    | nil => rfl
    | cons a l ih => simp only [List.map_cons, List.flatten_cons, List.length_append, ih,
        Proofs.Bn.areaBytes_length, List.length_cons]; omega
  unfold Proofs.Bn.bnblBytes
  simp only [List.length_append, enBytes_length, e, show magicJNBL.length = 4 from rfl]

/-- C23: saving succeeds exactly when the sizes and counts fit their fields. -/
theorem bnbl_save_iff (b : BNBL) :
    (∃ d, b.save = .ok d) ↔ (0 ≤ b.unk04 ∧ b.unk04 < 65536) ∧ b.touchAreas.length < 65536 ∧
      ∀ t ∈ b.touchAreas, (0 ≤ t.width ∧ t.width < 256) ∧ (0 ≤ t.height ∧ t.height < 256) := by
  constructor
  · rintro ⟨d, h⟩
    obtain ⟨h1, h2, h3, _⟩ := Proofs.Bn.bnbl_save_ok.1 h
    exact ⟨h1, h2, h3⟩
  · rintro ⟨h1, h2, h3⟩
    exact ⟨_, Proofs.Bn.bnbl_save_ok.2 ⟨h1, h2, h3, rfl⟩⟩

/-- C23: every file that loads can be saved, and loading the result gives the same layout. -/
theorem bnbl_resave (d : Bytes) (b : BNBL) (h : BNBL.load d = .ok b) :
    ∃ d', b.save = .ok d' ∧ BNBL.load d' = .ok b := by
  obtain ⟨h1, h2, h3⟩ := Proofs.Bn.bnbl_loaded h
  exact ⟨_, Proofs.Bn.bnbl_save_ok.2 ⟨h1, h2, fun t ht => (h3 t ht).2, rfl⟩,
    Proofs.Bn.bnbl_load_bytes h1 h2 h3⟩

example : (BNBL.mk 5 [⟨100, 4095, 7, 255, 0x42⟩, ⟨0, 1, 2, 3, 0x11⟩]).save =
    .ok [0x4A, 0x4E, 0x42, 0x4C, 5, 0, 2, 0, 0x64, 0x20, 0xFF, 0x1F, 7, 255, 0, 0, 1, 0, 2, 3] := by
  decide +kernel
example : ((BNBL.mk 5 [⟨100, 4095, 7, 255, 0x42⟩, ⟨0, 1, 2, 3, 0x11⟩]).save >>= BNBL.load) =
    .ok (BNBL.mk 5 [⟨100, 4095, 7, 255, 0x42⟩, ⟨0, 1, 2, 3, 0x11⟩]) := by decide +kernel
/-- The hypotheses are needed: a negative coordinate wraps around, and an alignment of zero becomes left-top. -/
example : ((BNBL.mk 0 [⟨-1, 0, 0, 0, 0⟩]).save >>= BNBL.load) = .ok (BNBL.mk 0 [⟨4095, 0, 0, 0, 0x11⟩]) := by
  decide +kernel

/-- C24: the same for BNCL files. -/
theorem bncl_roundtrip (b : BNCL) (d : Bytes) (h : b.save = .ok d)
    (hp : ∀ t ∈ b.imagePositions, (0 ≤ t.x ∧ t.x < 4096) ∧ (0 ≤ t.y ∧ t.y < 4096) ∧ ProperAlignment t.alignment) :
    BNCL.load d = .ok b ∧ d.length = 8 + 8 * b.imagePositions.length := by
  obtain ⟨h1, h2, h3, rfl⟩ := Proofs.Bn.bncl_save_ok.1 h
  refine ⟨Proofs.Bn.bncl_load_bytes h1 h2 fun t ht => ⟨hp t ht, h3 t ht⟩, ?_⟩
  have e : ∀ l : List ImagePosition, ((l.map Proofs.Bn.posBytes).flatten).length = 8 * l.length := by
    intro l
    induction l with
    | nil => rfl
    | cons a l ih => simp only [List.map_cons, List.flatten_cons, List.length_append, ih,
        Proofs.Bn.posBytes_length, List.length_cons]; omega
  unfold Proofs.Bn.bnclBytes
  simp only [List.length_append, enBytes_length, e, show magicJNCL.length = 4 from rfl]

/-- C24: saving succeeds exactly when the image IDs and counts fit their fields. -/
theorem bncl_save_iff (b : BNCL) :
    (∃ d, b.save = .ok d) ↔ (0 ≤ b.unk04 ∧ b.unk04 < 65536) ∧ b.imagePositions.length < 65536 ∧
      ∀ t ∈ b.imagePositions, 0 ≤ t.imageID ∧ t.imageID < 2 ^ 32 := by
  constructor
  · rintro ⟨d, h⟩
    obtain ⟨h1, h2, h3, _⟩ := Proofs.Bn.bncl_save_ok.1 h
    exact ⟨h1, h2, h3⟩
  · rintro ⟨h1, h2, h3⟩
    exact ⟨_, Proofs.Bn.bncl_save_ok.2 ⟨h1, h2, h3, rfl⟩⟩

/-- C24: every file that loads can be saved, and loading the result gives the same layout. -/
theorem bncl_resave (d : Bytes) (b : BNCL) (h : BNCL.load d = .ok b) :
    ∃ d', b.save = .ok d' ∧ BNCL.load d' = .ok b := by
  obtain ⟨h1, h2, h3⟩ := Proofs.Bn.bncl_loaded h
  exact ⟨_, Proofs.Bn.bncl_save_ok.2 ⟨h1, h2, fun t ht => (h3 t ht).2, rfl⟩,
    Proofs.Bn.bncl_load_bytes h1 h2 h3⟩

example : ((BNCL.mk 5 [⟨100, 4095, 0x42, 70000⟩, ⟨0, 1, 0x11, 3⟩]).save >>= BNCL.load) =
    .ok (BNCL.mk 5 [⟨100, 4095, 0x42, 70000⟩, ⟨0, 1, 0x11, 3⟩]) := by decide +kernel

end Verif.Props.Bn
