import Verif.Model.Bn
import Verif.Proofs.Util

/-!
# Lemmas about BNBL and BNCL files
-/

namespace Verif.Proofs.Bn

open Verif Verif.Model.Bn Verif.Model.Util Verif.Spec.Util Verif.Proofs.Util

/-- The fields fit and the alignment is a proper one. -/
def AreaOk (t : TouchArea) : Prop :=
  (0 ≤ t.x ∧ t.x < 4096) ∧ (0 ≤ t.y ∧ t.y < 4096) ∧ ProperAlignment t.alignment

def areaBytes (t : TouchArea) : Bytes :=
  enBytes .little 2 (packAlignment t.x t.y t.alignment).1 ++ enBytes .little 2 (packAlignment t.x t.y t.alignment).2 ++
  enBytes .little 1 t.width.toNat ++ enBytes .little 1 t.height.toNat

theorem areaBytes_length (t : TouchArea) : (areaBytes t).length = 6 := by simp [areaBytes]

theorem area_save_ok {t : TouchArea} {b : Bytes} :
    t.save = .ok b ↔ (0 ≤ t.width ∧ t.width < 256) ∧ (0 ≤ t.height ∧ t.height < 256) ∧ b = areaBytes t := by
  unfold TouchArea.save
  have hp := pack_lt t.x t.y t.alignment
  simp only [bind_eq_ok, packU_eq_ok, packUInt_eq_ok, pure_eq_ok]
  constructor
  · rintro ⟨_, ⟨_, rfl⟩, _, ⟨_, rfl⟩, _, ⟨h1, h2, rfl⟩, _, ⟨h3, h4, rfl⟩, rfl⟩
    exact ⟨⟨h1, by omega⟩, ⟨h3, by omega⟩, rfl⟩
  · rintro ⟨⟨h1, h2⟩, ⟨h3, h4⟩, rfl⟩
    exact ⟨_, ⟨by omega, rfl⟩, _, ⟨by omega, rfl⟩, _, ⟨h1, by omega, rfl⟩, _, ⟨h3, by omega, rfl⟩, rfl⟩

theorem area_load_bytes {t : TouchArea} (h : AreaOk t) (hw : 0 ≤ t.width ∧ t.width < 256)
    (hh : 0 ≤ t.height ∧ t.height < 256) : TouchArea.fromData (areaBytes t) = .ok t := by
  have hp := pack_lt t.x t.y t.alignment
  have hat := At.refl (areaBytes t)
  conv at hat => arg 3; unfold areaBytes
  obtain ⟨hat, a4⟩ := At.split.1 hat
  obtain ⟨hat, a3⟩ := At.split.1 hat
  obtain ⟨a1, a2⟩ := At.split.1 hat
  simp only [List.length_append, enBytes_length, Nat.zero_add] at a2 a3 a4
  unfold TouchArea.fromData
  rw [a1.unpackU (by omega), bind_ok, a2.unpackU (by omega), bind_ok, a3.unpackU (by omega), bind_ok,
    a4.unpackU (by omega), bind_ok]
  have e := pack_unpack h.1 h.2.1 h.2.2
  simp only at e
  rw [e]
  obtain ⟨x, y, w, hh', a⟩ := t
  obtain ⟨h1, h2, h3⟩ := h
  simp only at hw hh h1 h2
  rw [pure_eq_ok]
  simp only [TouchArea.mk.injEq, and_true]
  omega

/-- Whatever was loaded fits again. -/
theorem area_loaded {d : Bytes} {t : TouchArea} (h : TouchArea.fromData d = .ok t) :
    AreaOk t ∧ (0 ≤ t.width ∧ t.width < 256) ∧ (0 ≤ t.height ∧ t.height < 256) := by
  unfold TouchArea.fromData at h
  simp only [bind_eq_ok, pure_eq_ok] at h
  obtain ⟨xp, h1, yp, h2, w, h3, hh, h4, rfl⟩ := h
  have l3 := unpackU_lt h3
  have l4 := unpackU_lt h4
  obtain ⟨u1, u2, u3⟩ := unpack_ok xp yp
  exact ⟨⟨⟨by simp only; omega, by simp only; omega⟩, ⟨by simp only; omega, by simp only; omega⟩, u3⟩,
    ⟨by simp only; omega, by simp only; omega⟩, by simp only; omega, by simp only; omega⟩

def bnblBytes (b : BNBL) : Bytes :=
  magicJNBL ++ enBytes .little 2 b.unk04.toNat ++ enBytes .little 2 b.touchAreas.length ++
    (b.touchAreas.map areaBytes).flatten

theorem bnbl_save_ok {b : BNBL} {d : Bytes} :
    b.save = .ok d ↔ (0 ≤ b.unk04 ∧ b.unk04 < 65536) ∧ b.touchAreas.length < 65536 ∧
      (∀ t ∈ b.touchAreas, (0 ≤ t.width ∧ t.width < 256) ∧ (0 ≤ t.height ∧ t.height < 256)) ∧
      d = bnblBytes b := by
  unfold BNBL.save
  have hm := mapE_eq_map (f := TouchArea.save) (g := areaBytes)
    (P := fun t => (0 ≤ t.width ∧ t.width < 256) ∧ (0 ≤ t.height ∧ t.height < 256))
    (fun a b => by rw [area_save_ok, ← and_assoc])
  simp only [bind_eq_ok, packU_eq_ok, packUInt_eq_ok, pure_eq_ok, hm]
  constructor
  · rintro ⟨_, ⟨h1, h2, rfl⟩, _, ⟨h3, rfl⟩, _, ⟨h4, rfl⟩, rfl⟩
    exact ⟨⟨h1, by omega⟩, by omega, h4, rfl⟩
  · rintro ⟨⟨h1, h2⟩, h3, h4, rfl⟩
    exact ⟨_, ⟨h1, by omega, rfl⟩, _, ⟨by omega, rfl⟩, _, ⟨h4, rfl⟩, rfl⟩

theorem bnbl_load_bytes {b : BNBL} (hu : 0 ≤ b.unk04 ∧ b.unk04 < 65536) (hn : b.touchAreas.length < 65536)
    (h : ∀ t ∈ b.touchAreas, AreaOk t ∧ (0 ≤ t.width ∧ t.width < 256) ∧ (0 ≤ t.height ∧ t.height < 256)) :
    BNBL.load (bnblBytes b) = .ok b := by
  have hat := At.refl (bnblBytes b)
  conv at hat => arg 3; unfold bnblBytes
  obtain ⟨hat, a4⟩ := At.split.1 hat
  obtain ⟨hat, a3⟩ := At.split.1 hat
  obtain ⟨a1, a2⟩ := At.split.1 hat
  simp only [List.length_append, enBytes_length, Nat.zero_add, show magicJNBL.length = 4 from rfl] at a2 a3 a4
  unfold BNBL.load
  rw [raiseIf_false (by rw [a1.slice_eq (by rfl)]; simp), bind_ok, a2.unpackU (by omega), bind_ok,
    a3.unpackU (by omega), bind_ok]
  have hl : mapE (fun i => TouchArea.fromData (slice (bnblBytes b) (8 + i * 6) (8 + i * 6 + 6)))
      (List.range b.touchAreas.length) = .ok b.touchAreas := by
    apply mapE_range_eq rfl
    intro i hi
    have hp := flatten_at (n := 6) (parts := b.touchAreas.map areaBytes)
      (by intro p hp; rw [List.mem_map] at hp; obtain ⟨t, _, rfl⟩ := hp; exact areaBytes_length t)
      (i := i) (by simpa using hi)
    have := a4.sub hp
    rw [List.getElem_map] at this
    rw [this.slice_eq (by rw [areaBytes_length])]
    obtain ⟨h1, h2, h3⟩ := h _ (List.getElem_mem hi)
    exact area_load_bytes h1 h2 h3
  rw [hl, bind_ok, pure_eq_ok]
  obtain ⟨u, ts⟩ := b
  simp only at hu
  simp only [BNBL.mk.injEq, and_true]
  omega

theorem bnbl_loaded {d : Bytes} {b : BNBL} (h : BNBL.load d = .ok b) :
    (0 ≤ b.unk04 ∧ b.unk04 < 65536) ∧ b.touchAreas.length < 65536 ∧
    ∀ t ∈ b.touchAreas, AreaOk t ∧ (0 ≤ t.width ∧ t.width < 256) ∧ (0 ≤ t.height ∧ t.height < 256) := by
  unfold BNBL.load at h
  simp only [bind_eq_ok, pure_eq_ok] at h
  obtain ⟨_, _, u, h1, n, h2, l, h3, rfl⟩ := h
  have l1 := unpackU_lt h1
  have l2 := unpackU_lt h2
  have hlen := mapE_length h3
  rw [List.length_range] at hlen
  refine ⟨⟨by simp only; omega, by simp only; omega⟩, by simp only; omega, ?_⟩
  exact mapE_forall (fun a b hb => area_loaded hb) h3

/-! ## BNCL -/

/-- The fields fit and the alignment is a proper one. -/
def PosOk (t : ImagePosition) : Prop :=
  (0 ≤ t.x ∧ t.x < 4096) ∧ (0 ≤ t.y ∧ t.y < 4096) ∧ ProperAlignment t.alignment

def posBytes (t : ImagePosition) : Bytes :=
  enBytes .little 2 (packAlignment t.x t.y t.alignment).1 ++ enBytes .little 2 (packAlignment t.x t.y t.alignment).2 ++
  enBytes .little 4 t.imageID.toNat

theorem posBytes_length (t : ImagePosition) : (posBytes t).length = 8 := by simp [posBytes]

theorem pos_save_ok {t : ImagePosition} {b : Bytes} :
    t.save = .ok b ↔ (0 ≤ t.imageID ∧ t.imageID < 2 ^ 32) ∧ b = posBytes t := by
  unfold ImagePosition.save
  have hp := pack_lt t.x t.y t.alignment
  simp only [bind_eq_ok, packU_eq_ok, packUInt_eq_ok, pure_eq_ok]
  constructor
  · rintro ⟨_, ⟨_, rfl⟩, _, ⟨_, rfl⟩, _, ⟨h1, h2, rfl⟩, rfl⟩
    exact ⟨⟨h1, by omega⟩, rfl⟩
  · rintro ⟨⟨h1, h2⟩, rfl⟩
    exact ⟨_, ⟨by omega, rfl⟩, _, ⟨by omega, rfl⟩, _, ⟨h1, by omega, rfl⟩, rfl⟩

theorem pos_load_bytes {t : ImagePosition} (h : PosOk t) (hw : 0 ≤ t.imageID ∧ t.imageID < 2 ^ 32) :
    ImagePosition.fromData (posBytes t) = .ok t := by
  have hp := pack_lt t.x t.y t.alignment
  have hat := At.refl (posBytes t)
  conv at hat => arg 3; unfold posBytes
  obtain ⟨hat, a3⟩ := At.split.1 hat
  obtain ⟨a1, a2⟩ := At.split.1 hat
  simp only [List.length_append, enBytes_length, Nat.zero_add] at a2 a3
  unfold ImagePosition.fromData
  rw [a1.unpackU (by omega), bind_ok, a2.unpackU (by omega), bind_ok, a3.unpackU (by omega), bind_ok]
  have e := pack_unpack h.1 h.2.1 h.2.2
  simp only at e
  rw [e]
  obtain ⟨x, y, a, w⟩ := t
  obtain ⟨h1, h2, h3⟩ := h
  simp only at hw h1 h2
  rw [pure_eq_ok]
  simp only [ImagePosition.mk.injEq, true_and]
  omega

theorem pos_loaded {d : Bytes} {t : ImagePosition} (h : ImagePosition.fromData d = .ok t) :
    PosOk t ∧ (0 ≤ t.imageID ∧ t.imageID < 2 ^ 32) := by
  unfold ImagePosition.fromData at h
  simp only [bind_eq_ok, pure_eq_ok] at h
  obtain ⟨xp, h1, yp, h2, w, h3, rfl⟩ := h
  have l3 := unpackU_lt h3
  obtain ⟨u1, u2, u3⟩ := unpack_ok xp yp
  exact ⟨⟨⟨by simp only; omega, by simp only; omega⟩, ⟨by simp only; omega, by simp only; omega⟩, u3⟩,
    by simp only; omega, by simp only; omega⟩

def bnclBytes (b : BNCL) : Bytes :=
  magicJNCL ++ enBytes .little 2 b.unk04.toNat ++ enBytes .little 2 b.imagePositions.length ++
    (b.imagePositions.map posBytes).flatten

theorem bncl_save_ok {b : BNCL} {d : Bytes} :
    b.save = .ok d ↔ (0 ≤ b.unk04 ∧ b.unk04 < 65536) ∧ b.imagePositions.length < 65536 ∧
      (∀ t ∈ b.imagePositions, 0 ≤ t.imageID ∧ t.imageID < 2 ^ 32) ∧ d = bnclBytes b := by
  unfold BNCL.save
  have hm := mapE_eq_map (f := ImagePosition.save) (g := posBytes)
    (P := fun t => 0 ≤ t.imageID ∧ t.imageID < 2 ^ 32) (fun a b => pos_save_ok)
  simp only [bind_eq_ok, packU_eq_ok, packUInt_eq_ok, pure_eq_ok, hm]
  constructor
  · rintro ⟨_, ⟨h1, h2, rfl⟩, _, ⟨h3, rfl⟩, _, ⟨h4, rfl⟩, rfl⟩
    exact ⟨⟨h1, by omega⟩, by omega, h4, rfl⟩
  · rintro ⟨⟨h1, h2⟩, h3, h4, rfl⟩
    exact ⟨_, ⟨h1, by omega, rfl⟩, _, ⟨by omega, rfl⟩, _, ⟨h4, rfl⟩, rfl⟩

theorem bncl_load_bytes {b : BNCL} (hu : 0 ≤ b.unk04 ∧ b.unk04 < 65536) (hn : b.imagePositions.length < 65536)
    (h : ∀ t ∈ b.imagePositions, PosOk t ∧ (0 ≤ t.imageID ∧ t.imageID < 2 ^ 32)) :
    BNCL.load (bnclBytes b) = .ok b := by
  have hat := At.refl (bnclBytes b)
  conv at hat => arg 3; unfold bnclBytes
  obtain ⟨hat, a4⟩ := At.split.1 hat
  obtain ⟨hat, a3⟩ := At.split.1 hat
  obtain ⟨a1, a2⟩ := At.split.1 hat
  simp only [List.length_append, enBytes_length, Nat.zero_add, show magicJNCL.length = 4 from rfl] at a2 a3 a4
  unfold BNCL.load
  rw [raiseIf_false (by rw [a1.slice_eq (by rfl)]; simp), bind_ok, a2.unpackU (by omega), bind_ok,
    a3.unpackU (by omega), bind_ok]
  have hl : mapE (fun i => ImagePosition.fromData (slice (bnclBytes b) (8 + i * 8) (8 + i * 8 + 8)))
      (List.range b.imagePositions.length) = .ok b.imagePositions := by
    apply mapE_range_eq rfl
    intro i hi
    have hp := flatten_at (n := 8) (parts := b.imagePositions.map posBytes)
      (by intro p hp; rw [List.mem_map] at hp; obtain ⟨t, _, rfl⟩ := hp; exact posBytes_length t)
      (i := i) (by simpa using hi)
    have := a4.sub hp
    rw [List.getElem_map] at this
    rw [this.slice_eq (by rw [posBytes_length])]
    obtain ⟨h1, h2⟩ := h _ (List.getElem_mem hi)
    exact pos_load_bytes h1 h2
  rw [hl, bind_ok, pure_eq_ok]
  obtain ⟨u, ts⟩ := b
  simp only at hu
  simp only [BNCL.mk.injEq, and_true]
  omega

theorem bncl_loaded {d : Bytes} {b : BNCL} (h : BNCL.load d = .ok b) :
    (0 ≤ b.unk04 ∧ b.unk04 < 65536) ∧ b.imagePositions.length < 65536 ∧
    ∀ t ∈ b.imagePositions, PosOk t ∧ (0 ≤ t.imageID ∧ t.imageID < 2 ^ 32) := by
  unfold BNCL.load at h
  simp only [bind_eq_ok, pure_eq_ok] at h
  obtain ⟨_, _, u, h1, n, h2, l, h3, rfl⟩ := h
  have l1 := unpackU_lt h1
  have l2 := unpackU_lt h2
  have hlen := mapE_length h3
  rw [List.length_range] at hlen
  refine ⟨⟨by simp only; omega, by simp only; omega⟩, by simp only; omega, ?_⟩
  exact mapE_forall (fun a b hb => pos_loaded hb) h3

end Verif.Proofs.Bn
