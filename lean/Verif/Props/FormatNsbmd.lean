import Verif.Props.FormatHeader
import Verif.Spec.FormatNsbmd
import Verif.Props.Nsbmd

/-!
# The model block of NSBMD files, byte by byte (C101)
-/

namespace Verif.Props.FormatNsbmd

open Verif Verif.Model.InfoBlock Verif.Model.Nsbmd Verif.Spec.Reader Verif.Spec.FormatFnt Verif.Spec.FormatNsbmd
open Verif.Proofs.Reader Verif.Props.FormatFnt

theorem stripped_map (b : Bytes) : latin1Decode (rstripZero b) = stripped (b.map UInt8.toNat) := by
  unfold latin1Decode rstripZero stripped
  rw [List.map_reverse, ← List.map_reverse (l := b)]
  congr 1
  induction b.reverse with
  | nil => rfl
  | cons x l ih =>
    have : (x = 0) ↔ x.toNat = 0 := by
      rw [← UInt8.toNat_inj]; rfl
    simp only [List.dropWhile_cons, List.map_cons, decide_eq_true_eq, this]
    split
    · exact ih
    · rfl

theorem section_eq (d : Bytes) (o : Nat) :
    (⟨(List.range (count d o)).map fun i => u32 d (o + 16 + 4 * count d o + 4 * i), (List.range (count d o)).map fun i =>
      latin1Decode (rstripZero (slice d (o + 16 + 8 * count d o + 16 * i) (o + 16 + 8 * count d o + 16 * i + 16))),
      o + 16 + 8 * count d o + 16 * count d o⟩ : Section) =
    ⟨words d o, (List.range (count d o)).map fun i => stripped (text d (namesOf d o + 16 * i) 16), stopOf d o⟩ := by
  have e1 : wordsOf d o = o + 16 + 4 * count d o := by unfold wordsOf; omega
  have e2 : namesOf d o = o + 16 + 8 * count d o := by unfold namesOf; rw [e1]; omega
  simp only [words, stopOf, e1, e2, slice_bytesAt, stripped_map]
  rfl

theorem readSection_iff (c : Bool) (d : Bytes) (o : Nat) (s : Section) :
    readSection c d o = .ok s ↔ (ListOk d o ∧ (c = true → u16 d (o + 12 + 4 * count d o) = 4)) ∧
      s = ⟨words d o, (List.range (count d o)).map fun i => stripped (text d (namesOf d o + 16 * i) 16), stopOf d o⟩ := by
  have hp := fun r => mapE_eq_map (f := fun i => unpackUs .little [2, 2] d (o + 12 + 4 * i))
    (P := fun i => o + 12 + 4 * i + 4 ≤ d.length) (g := fun i => readAll d [2, 2] (o + 12 + 4 * i))
    (fun i b => unpackUs_iff (by decide) (by decide)) (List.range (count d o)) r
  have hw := fun r => mapE_eq_map (f := fun i => unpackU .little 4 d (o + 16 + 4 * count d o + 4 * i))
    (P := fun i => o + 16 + 4 * count d o + 4 * i + 4 ≤ d.length) (g := fun i => u32 d (o + 16 + 4 * count d o + 4 * i))
    (fun i b => unpack4) (List.range (count d o)) r
  unfold readSection
  simp only [bind_eq_ok, unpackUs_iff (ks := [1, 1, 2]) (by decide) (by decide),
    unpackUs_iff (ks := [2, 2, 4]) (by decide) (by decide)]
  constructor
  · rintro ⟨_, ⟨h1, rfl⟩, _, ⟨h2, rfl⟩, h⟩
    simp only [readAll, uN, bind_eq_ok, pyAssert_iff] at h
    obtain ⟨_, h3, _, h4, _, h5, h⟩ := h
    rw [show u8 d (o + 1) = count d o from rfl] at h5 h
    obtain ⟨h5, -⟩ := (hp _).1 h5
    obtain ⟨_, h6, h⟩ := h
    obtain ⟨h6', rfl⟩ := (unpackUs_iff (by decide) (by decide)).1 h6
    simp only [readAll, uN, bind_eq_ok, pyAssert_iff, pure_eq_ok] at h
    obtain ⟨_, h7, _, h8, rfl⟩ := h
    obtain ⟨h8', rfl⟩ := (hw _).1 h8
    have h9 := (records_end (n := count d o) (k := 4) (s := o + 16 + 4 * count d o) (len := d.length)
      (by simp at h6'; omega)).1 (fun i hi => by have := h8' i hi; omega)
    refine ⟨⟨⟨h3, h4, by unfold namesOf wordsOf; omega⟩, h7⟩, ?_⟩
    exact section_eq d o
  · rintro ⟨⟨⟨h1, h2, h3⟩, h4⟩, rfl⟩
    unfold namesOf wordsOf at h3
    refine ⟨_, ⟨by simp; omega, rfl⟩, _, ⟨by simp; omega, rfl⟩, ?_⟩
    simp only [readAll, uN, bind_eq_ok, pyAssert_iff]
    refine ⟨⟨⟩, h1, ⟨⟩, h2, _, (hp _).2 ⟨fun i hi => ?_, rfl⟩, _, (unpackUs_iff (by decide) (by decide)).2 ⟨?_, rfl⟩, ?_⟩
    · rw [List.mem_range] at hi; omega
    · rw [show u8 d (o + 1) = count d o from rfl]; simp; omega
    · simp only [readAll, uN, bind_eq_ok, pyAssert_iff, pure_eq_ok]
      refine ⟨⟨⟩, h4, _, (hw _).2 ⟨fun i hi => ?_, rfl⟩, ?_⟩
      · rw [List.mem_range] at hi; omega
      · exact section_eq d o

theorem inner_iff (d : Bytes) (o : Nat) (s : Section) : readSection true d o = .ok s ↔ InnerOk d o ∧
    s = ⟨words d o, (List.range (count d o)).map fun i => stripped (text d (namesOf d o + 16 * i) 16), stopOf d o⟩ := by
  rw [readSection_iff]
  unfold InnerOk
  simp only [true_implies]

theorem readPolygon_iff (d : Bytes) (o : Nat) (u : Unit) : readPolygon d o = .ok u ↔ o + 16 ≤ d.length ∧ u = () := by
  unfold readPolygon
  simp only [bind_eq_ok, unpackUs_iff (ks := [4, 4, 4, 4]) (by decide) (by decide)]
  constructor
  · rintro ⟨_, ⟨h1, _⟩, _⟩; exact ⟨h1, trivial⟩
  · rintro ⟨h1, _⟩
    refine ⟨_, ⟨h1, rfl⟩, ?_⟩
    simp only [readAll, uN, bind_eq_ok, pure_eq_ok]
    obtain ⟨l, hl⟩ := Nsbmd.display_list_total (slice d (o + u32 d (o + 4 + 4)) (o + u32 d (o + 4 + 4) + u32 d (o + 4 + 4 + 4)))
    exact ⟨l, hl.1, trivial⟩

theorem readModel_iff (d : Bytes) (m : Nat) (u : Unit) : readModel d m = .ok u ↔ ModelOk d m ∧ u = () := by
  have hq := fun r => mapE_eq_map (fun w u => readPolygon_iff d (polygons d m + w) u) (words d (polygons d m)) r
  unfold readModel
  simp only [bind_eq_ok, unpackStr_iff, unpackUs_iff (ks := [4, 4, 4, 4, 4]) (by decide) (by decide)]
  constructor
  · rintro ⟨_, ⟨h1, rfl⟩, _, ⟨h2, _⟩, h⟩
    simp only [readAll, uN, bind_eq_ok, pure_eq_ok, inner_iff] at h
    obtain ⟨_, ⟨h3, rfl⟩, _, ⟨h4, rfl⟩, _, ⟨h5, _⟩, _, ⟨h6, rfl⟩, _, h7, _⟩ := h
    exact ⟨⟨by omega, h3, h4, h5, h6, ((hq _).1 h7).1⟩, trivial⟩
  · rintro ⟨⟨h1, h3, h4, h5, h6, h7⟩, _⟩
    refine ⟨_, ⟨by simp; omega, rfl⟩, _, ⟨by omega, rfl⟩, ?_⟩
    simp only [readAll, uN, bind_eq_ok, pure_eq_ok, inner_iff]
    exact ⟨_, ⟨h3, rfl⟩, _, ⟨h4, rfl⟩, _, ⟨h5, rfl⟩, _, ⟨h6, rfl⟩, _, (hq _).2 ⟨h7, rfl⟩, trivial⟩

/-- C101: a model block can be parsed exactly if its lists are all right; the names of the models are those in the first one. -/
theorem mdl0_load_iff (d : Bytes) (names : List Str) : readMDL0 d = .ok names ↔ BlockOk d ∧ names = modelNames d := by
  have hq := fun r => mapE_eq_map (fun w u => readModel_iff d w u) (words d 8) r
  unfold readMDL0
  simp only [bind_eq_ok, pure_eq_ok, pyAssert_iff, readSection_iff]
  constructor
  · rintro ⟨_, h1, _, ⟨⟨h2, _⟩, rfl⟩, _, h3, rfl⟩
    exact ⟨⟨h1, h2, ((hq _).1 h3).1⟩, rfl⟩
  · rintro ⟨⟨h1, h2, h3⟩, rfl⟩
    exact ⟨⟨⟩, h1, _, ⟨⟨h2, fun h => by cases h⟩, rfl⟩, _, (hq _).2 ⟨h3, rfl⟩, rfl⟩

example : Spec.FormatNsbmd.BlockOk Props.Nsbmd.oneModel ∧ [[0x61, 0x62]] = Spec.FormatNsbmd.modelNames Props.Nsbmd.oneModel :=
  (mdl0_load_iff _ _).1 (by decide +kernel)

end Verif.Props.FormatNsbmd
