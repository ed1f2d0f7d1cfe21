import Verif.Model.SoundSequenceArchive
import Verif.Proofs.SeqReread

/-!
# SSAR: helper lemmas
-/

namespace Verif.Proofs.SoundSequenceArchive

open Verif Verif.Model.SoundSequenceArchive Verif.Model.SoundSequence Verif.Model.Common Verif.Spec.Sequence

/-- The attributes fit the fields of the table. -/
def SeqFits (s : Sequence) : Prop :=
  s.bankID < 2 ^ 16 ∧ s.volume < 2 ^ 8 ∧ s.channelPressure < 2 ^ 8 ∧ s.polyphonicPressure < 2 ^ 8 ∧ s.playerID < 2 ^ 8

def I32 (z : Int) : Prop := -2 ^ 31 ≤ z ∧ z < 2 ^ 31

def fieldsOf (s : Sequence) : List (Nat × Nat) :=
  [(2, s.bankID), (1, s.volume), (1, s.channelPressure), (1, s.polyphonicPressure), (1, s.playerID)]

def recBytes (o : Int) (s : Sequence) : Bytes :=
  enBytes .little 4 (signedRep 4 o) ++ structBytes .little (fieldsOf s) ++ [0, 0]

@[simp] theorem recBytes_length (o : Int) (s : Sequence) : (recBytes o s).length = 12 := by
  simp [recBytes, structBytes_length, fieldsOf]

theorem fits_iff (s : Sequence) : Fits (fieldsOf s) ↔ SeqFits s := by
  unfold SeqFits fieldsOf
  simp only [Fits]
  constructor
  · rintro ⟨h1, h2, h3, h4, h5, _⟩
    exact ⟨by omega, by omega, by omega, by omega, by omega⟩
  · rintro ⟨h1, h2, h3, h4, h5⟩
    exact ⟨by omega, by omega, by omega, by omega, by omega, trivial⟩

theorem packSequence_ok {o : Int} {s : Sequence} {b : Bytes} :
    packSequence o s = .ok b ↔ (I32 o ∧ SeqFits s) ∧ b = recBytes o s := by
  unfold packSequence recBytes I32
  simp only [bind_eq_ok, pure_eq_ok, packS_eq_ok, packUs_eq_ok]
  rw [← fits_iff]
  constructor
  · rintro ⟨_, ⟨⟨h1, h2⟩, rfl⟩, _, ⟨h3, rfl⟩, rfl⟩
    exact ⟨⟨⟨by omega, by omega⟩, h3⟩, rfl⟩
  · rintro ⟨⟨⟨h1, h2⟩, h3⟩, rfl⟩
    exact ⟨_, ⟨⟨by omega, by omega⟩, rfl⟩, _, ⟨h3, rfl⟩, rfl⟩

theorem loadSequence_at {d : Bytes} {p : Nat} {o : Int} {s : Sequence} (h : At d p (recBytes o s)) (ho : I32 o)
    (hs : SeqFits s) : loadSequence d p = .ok { s with first := firstOf o } := by
  unfold recBytes at h
  simp only [At.split, enBytes_length] at h
  obtain ⟨⟨a1, a2⟩, _⟩ := h
  unfold loadSequence
  have hu := unpackUs_at a2 ((fits_iff s).2 hs)
  simp only [fieldsOf, List.map_cons, List.map_nil] at hu
  rw [a1.unpackS (by have := ho.1; omega) (by have := ho.2; omega), bind_ok, hu, bind_ok]
  rfl

def valueOf (off : Sequence → Py Int) (s : Sequence) : Int :=
  match off s with
  | .ok o => o
  | .error _ => 0

theorem record_ok {off : Sequence → Py Int} (s : Option Str × Sequence) (b : Bytes) :
    record off s = .ok b ↔ (off s.2 = .ok (valueOf off s.2) ∧ I32 (valueOf off s.2) ∧ SeqFits s.2) ∧
      b = recBytes (valueOf off s.2) s.2 := by
  unfold record valueOf
  cases off s.2 with
  | ok o => rw [bind_ok, packSequence_ok]; simp
  | error e => simp [bind_error]

def headerOf (n len : Nat) : StdHeader := ⟨magicSSAR, 0xFEFF, 0x100, 0x20 + n * 0xC + len, 0x10, 1⟩

def fileBytes (recs : List Bytes) (data : Bytes) : Bytes :=
  stdHeaderBytes (headerOf recs.length data.length) ++
    (magicDATA ++ enBytes .little 4 (0x20 + recs.length * 0xC + data.length - 0x10) ++
      enBytes .little 4 (0x20 + recs.length * 0xC) ++ enBytes .little 4 recs.length) ++ recs.flatten ++ data

theorem save_of_parts {a : SSAR} {recs : List Bytes} {data : Bytes} (hp : a.parts = .ok (data, recs.flatten))
    (hl : recs.length = a.sequences.length) {r : Bytes × Nat × List (Option Str)} :
    a.save = .ok r ↔ 0x20 + a.sequences.length * 0xC + data.length < 2 ^ 32 ∧
      r = (fileBytes recs data, a.unk02, a.sequences.map Prod.fst) := by
  unfold SSAR.save fileBytes headerOf
  rw [hp, bind_ok, hl]
  simp only [bind_eq_ok, pure_eq_ok, packU_eq_ok, packStdHeader_eq_ok]
  constructor
  · rintro ⟨_, ⟨h0, rfl⟩, _, ⟨h1, rfl⟩, _, ⟨h2, rfl⟩, _, ⟨h3, rfl⟩, rfl⟩
    exact ⟨h0.2.2.1, rfl⟩
  · rintro ⟨h, rfl⟩
    exact ⟨_, ⟨StdHeader.ok_mk h, rfl⟩, _, ⟨by omega, rfl⟩, _, ⟨by omega, rfl⟩, _, ⟨by omega, rfl⟩, rfl⟩

/-- What is read from a file with a given table and given data. -/
theorem load_file {recs : List (Int × Sequence)} {data extra : Bytes}
    (hlen : 0x20 + recs.length * 0xC + data.length < 2 ^ 32) (hr : ∀ r ∈ recs, I32 r.1 ∧ SeqFits r.2)
    (unk02 : Nat) (names : List (Option Str)) :
    SSAR.load (fileBytes (recs.map fun r => recBytes r.1 r.2) data ++ extra) unk02 names =
      .ok ⟨unk02, (List.range recs.length).zip (recs.map fun r => { r.2 with first := firstOf r.1 }) |>.map
        (fun p => (names.getD p.1 none, p.2)), .unparsed data⟩ := by
  generalize hf : fileBytes (recs.map fun r => recBytes r.1 r.2) data ++ extra = file
  have hat : At file 0 (fileBytes (recs.map fun r => recBytes r.1 r.2) data) := by
    rw [← hf]; exact At.first _ _
  unfold fileBytes at hat
  simp only [At.split, List.length_append, stdHeaderBytes_length, enBytes_length, List.length_map] at hat
  obtain ⟨⟨⟨a0, ⟨⟨a1, a2⟩, a3⟩, a4⟩, a5⟩, a6⟩ := hat
  have ml : magicDATA.length = 4 := rfl
  have hflat : ((recs.map fun r => recBytes r.1 r.2).flatten).length = recs.length * 12 := by
    rw [flatten_length_const (n := 12) (by
      intro p hp
      obtain ⟨r, _, rfl⟩ := List.mem_map.1 hp
      simp)]
    simp
  rw [ml] at a2 a3 a4 a5 a6
  rw [hflat] at a6
  have hh := unpackStdHeader_at a0 (StdHeader.ok_mk hlen) rfl
  have m4 : file.take 4 = magicSSAR := by
    have := a0
    unfold stdHeaderBytes at this
    simp only [At.split, headerOf] at this
    have := this.1.1.1.1.1.slice_eq (b := 4) (by simp)
    rw [slice_zero] at this
    rw [this]; decide
  unfold SSAR.load
  rw [raiseIf_false (by simp [m4]), bind_ok, hh, bind_ok, raiseIf_false (by simp [headerOf]), bind_ok,
    pyAssert_true (by simp [headerOf]), bind_ok, a1.unpackStr ml, bind_ok, At.unpackU (e := .little) (k := 4) a2 (by omega), bind_ok,
    At.unpackU (e := .little) (k := 4) a3 (by omega), bind_ok, At.unpackU (e := .little) (k := 4) a4 (by omega), bind_ok,
    pyAssert_true (by simp), bind_ok]
  have hseqs : mapE (fun i => loadSequence file (0x20 + 0xC * i)) (List.range recs.length) =
      .ok (recs.map fun r => { r.2 with first := firstOf r.1 }) := by
    refine mapE_range_eq (by simp) ?_
    intro i hi
    rw [List.length_map] at hi
    rw [List.getElem_map]
    refine loadSequence_at ?_ (hr _ (List.getElem_mem hi)).1 (hr _ (List.getElem_mem hi)).2
    have := flatten_at (n := 12) (parts := recs.map fun r => recBytes r.1 r.2) (by
      intro p hp
      obtain ⟨r, _, rfl⟩ := List.mem_map.1 hp
      simp) (i := i) (by simpa using hi)
    have := a5.sub this
    rw [List.getElem_map] at this
    exact this.cast (by omega)
  rw [hseqs, bind_ok]
  have hd : slice file (0x20 + recs.length * 0xC) (headerOf recs.length data.length).fileSize = data := by
    exact (a6.cast (p := 0x20 + recs.length * 0xC) (by omega)).slice_eq rfl
  rw [hd]
  rfl

theorem zip_range {α : Type} (names : List (Option Str)) : ∀ (l : List α) (k : Nat), k + l.length ≤ names.length →
    ((List.range' k l.length).zip l).map (fun p => (names.getD p.1 none, p.2)) = (names.drop k).zip l
  | [], k, _ => by simp
  | x :: l, k, h => by
    rw [List.length_cons] at h
    have hk : k < names.length := by omega
    rw [List.length_cons, List.range'_succ, List.zip_cons_cons, List.map_cons, zip_range names l (k + 1) (by omega),
      List.drop_eq_getElem_cons hk, List.zip_cons_cons]
    congr 2
    simp [List.getD, List.getElem?_eq_getElem hk]

/-- With the right number of names. -/
theorem load_named {seqs : List (Option Str × Sequence)} {val : Sequence → Int} {data extra : Bytes}
    (hlen : 0x20 + seqs.length * 0xC + data.length < 2 ^ 32) (hr : ∀ s ∈ seqs, I32 (val s.2) ∧ SeqFits s.2)
    (unk02 : Nat) :
    SSAR.load (fileBytes (seqs.map fun s => recBytes (val s.2) s.2) data ++ extra) unk02 (seqs.map Prod.fst) =
      .ok ⟨unk02, seqs.map fun s => (s.1, { s.2 with first := firstOf (val s.2) }), .unparsed data⟩ := by
  have h := load_file (recs := seqs.map fun s => (val s.2, s.2)) (data := data) (extra := extra) (by simpa using hlen)
    (by
      intro r hr'
      obtain ⟨s, hs, rfl⟩ := List.mem_map.1 hr'
      exact hr s hs) unk02 (seqs.map Prod.fst)
  rw [List.map_map, List.map_map, List.length_map] at h
  have e : (fun r : Int × Sequence => recBytes r.1 r.2) ∘ (fun s : Option Str × Sequence => (val s.2, s.2)) =
      fun s => recBytes (val s.2) s.2 := rfl
  have e' : (fun r : Int × Sequence => ({ r.2 with first := firstOf r.1 } : Sequence)) ∘
      (fun s : Option Str × Sequence => (val s.2, s.2)) = fun s => { s.2 with first := firstOf (val s.2) } := rfl
  rw [e, e'] at h
  rw [h]
  congr 2
  have := zip_range (seqs.map Prod.fst) (seqs.map fun s => ({ s.2 with first := firstOf (val s.2) } : Sequence)) 0
    (by simp)
  rw [List.length_map, ← List.range_eq_range', List.drop_zero] at this
  rw [this, List.zip_map']

end Verif.Proofs.SoundSequenceArchive
