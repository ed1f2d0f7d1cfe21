import Verif.Model.Narc
import Verif.Proofs.Fnt

/-!
# Lemmas about NARC archives
-/

namespace Verif.Proofs.Narc

open Verif Verif.Model.Common Verif.Model.Narc

/-- The contents of the FIMG block: every file padded to four bytes. -/
def bodies (files : List Bytes) : Bytes := (files.map (padTo · 4 0)).flatten

/-- The entries of the FAT block. -/
def fat : List Bytes → Nat → Bytes
  | [], _ => []
  | fd :: rest, o =>
    enBytes .little 4 o ++ enBytes .little 4 (o + fd.length) ++ fat rest (o + (padTo fd 4 0).length)

/-- Start of the `i`-th file. -/
def startOff (files : List Bytes) (i : Nat) : Nat := (bodies (files.take i)).length

theorem fat_length : ∀ (files : List Bytes) (o : Nat), (fat files o).length = 8 * files.length
  | [], _ => rfl
  | fd :: rest, o => by simp [fat, fat_length rest]; omega

theorem bodies_mod (files : List Bytes) : (bodies files).length % 4 = 0 := by
  induction files with
  | nil => rfl
  | cons fd rest ih =>
    have := padTo_mod fd (a := 4) 0 (by decide)
    simp only [bodies, List.map_cons, List.flatten_cons, List.length_append] at ih ⊢
    omega

theorem padTo_append {a b : Bytes} (h : a.length % 4 = 0) : padTo (a ++ b) 4 0 = a ++ padTo b 4 0 := by
  unfold padTo
  have : padLen (a ++ b).length 4 = padLen b.length 4 := by
    unfold padLen; simp; omega
  rw [this, List.append_assoc]

theorem startOff_zero (files : List Bytes) : startOff files 0 = 0 := by simp [startOff, bodies]

theorem startOff_succ (fd : Bytes) (rest : List Bytes) (i : Nat) :
    startOff (fd :: rest) (i + 1) = (padTo fd 4 0).length + startOff rest i := by
  simp [startOff, bodies]

theorem writeFiles_inv : ∀ {files : List Bytes} {fimg fatb : Bytes} {r : Bytes × Bytes},
    fimg.length % 4 = 0 → 8 ≤ fimg.length → writeFiles files fimg fatb = .ok r →
    r = (fimg ++ bodies files, fatb ++ fat files (fimg.length - 8)) ∧
    ∀ i (hi : i < files.length), fimg.length - 8 + startOff files i + files[i].length < 2 ^ 32
  | [], fimg, fatb, r, _, _, h => by
    unfold writeFiles at h; cases h; simp [bodies, fat]
  | fd :: rest, fimg, fatb, r, hm, h8, h => by
    unfold writeFiles at h
    simp only [bind_eq_ok, packU_eq_ok] at h
    obtain ⟨_, ⟨h1, rfl⟩, _, ⟨h2, rfl⟩, h⟩ := h
    rw [padTo_append hm] at h
    have hp := padTo_mod fd (a := 4) 0 (by decide)
    obtain ⟨rfl, ih⟩ := writeFiles_inv (by rw [List.length_append]; omega)
      (by rw [List.length_append]; omega) h
    refine ⟨?_, ?_⟩
    · simp only [bodies, List.map_cons, List.flatten_cons, fat, List.append_assoc, List.length_append]
      rw [show fimg.length + (padTo fd 4 0).length - 8 = fimg.length - 8 + (padTo fd 4 0).length by omega]
    · intro i hi
      cases i with
      | zero => rw [startOff_zero]; simp; omega
      | succ i =>
        have := ih i (by simp at hi; omega)
        rw [startOff_succ]
        simp only [List.length_append] at this
        simp only [List.getElem_cons_succ]
        omega

theorem fat_at : ∀ {files : List Bytes} {o i : Nat} (hi : i < files.length),
    At (fat files o) (8 * i) (enBytes .little 4 (o + startOff files i) ++
      enBytes .little 4 (o + startOff files i + files[i].length))
  | [], _, _, hi => by simp at hi
  | fd :: rest, o, 0, _ => by
    simp only [fat, startOff_zero, Nat.add_zero, List.getElem_cons_zero, Nat.mul_zero]
    exact At.first _ _
  | fd :: rest, o, i + 1, hi => by
    have := fat_at (files := rest) (o := o + (padTo fd 4 0).length) (i := i) (by simpa using hi)
    rw [startOff_succ]
    simp only [fat, List.getElem_cons_succ]
    have h := this.append_left' (e := enBytes .little 4 o ++ enBytes .little 4 (o + fd.length))
      (p := 8 * (i + 1)) (by simp; omega)
    simpa only [Nat.add_assoc] using h

theorem bodies_at : ∀ {files : List Bytes} {i : Nat} (hi : i < files.length),
    At (bodies files) (startOff files i) files[i]
  | [], _, hi => by simp at hi
  | fd :: rest, 0, _ => by
    rw [startOff_zero]
    have : At (fd ++ (List.replicate (padLen fd.length 4) 0 ++ bodies rest)) 0 fd := At.first _ _
    simpa [bodies, padTo] using this
  | fd :: rest, i + 1, hi => by
    rw [startOff_succ]
    have := (bodies_at (files := rest) (i := i) (by simpa using hi)).append_left (padTo fd 4 0)
    simpa [bodies] using this

/-- The whole file. -/
def narcBytes (n : NARC) (names : Bytes) : Bytes :=
  let nt := padTo names 4 0xFF
  let blocks := magicFATB ++ enBytes .little 4 (0x0C + 8 * n.files.length) ++ enBytes .little 4 n.files.length ++
    fat n.files 0 ++ (magicFNTB ++ enBytes .little 4 (nt.length + 8) ++ nt) ++
    (magicFIMG ++ enBytes .little 4 (8 + (bodies n.files).length) ++ bodies n.files)
  stdHeaderBytes ⟨magicNARC, if n.beginning = .big then 0xFFFE else 0xFEFF,
    if n.beginning = .big then 0x100 else 1, 0x10 + blocks.length, 0x10, 3⟩ ++ blocks

theorem patch_zeros {n : Nat} {bs d : Bytes} (h : bs.length = n) : patch (zeros n ++ d) 0 bs = bs ++ d := by
  unfold patch
  rw [List.take_zero, List.nil_append, Nat.zero_add, h, List.drop_append, List.drop_eq_nil_of_le (by simp)]
  simp

/-- What follows from a successful save. -/
structure Saved (n : NARC) (names b : Bytes) : Prop where
  names_ok : Model.Fnt.save n.filenames = .ok names
  bytes : b = narcBytes n names
  count : 0x0C + 8 * n.files.length < 2 ^ 32
  nameLen : (padTo names 4 0xFF).length + 8 < 2 ^ 32
  fimgLen : 8 + (bodies n.files).length < 2 ^ 32
  total : b.length < 2 ^ 32
  range : ∀ i (hi : i < n.files.length), startOff n.files i + n.files[i].length < 2 ^ 32

theorem save_inv {n : NARC} {b : Bytes} (h : save n = .ok b) : ∃ names, Saved n names b := by
  unfold save at h
  simp only [bind_eq_ok, packU_eq_ok] at h
  obtain ⟨_, ⟨h1, rfl⟩, _, ⟨h2, rfl⟩, r, hr, _, ⟨h3, rfl⟩, fimg, hf, names, hn, _, ⟨h4, rfl⟩, hd, hh, h⟩ := h
  obtain ⟨rfl, hrange⟩ := writeFiles_inv (by simp) (by simp) hr
  obtain ⟨hf1, rfl⟩ := packInto_eq_ok.1 hf
  obtain ⟨hok, rfl⟩ := packStdHeader_eq_ok.1 hh
  obtain ⟨h5, rfl⟩ := packInto_eq_ok.1 h
  have hp : patch (zeros 8 ++ bodies n.files) 0
      (magicFIMG ++ enBytes .little 4 (zeros 8 ++ bodies n.files).length) =
      magicFIMG ++ enBytes .little 4 (8 + (bodies n.files).length) ++ bodies n.files := by
    rw [patch_zeros (by simp [magicFIMG])]; simp
  simp only [hp] at hok ⊢
  have hzero : (zeros 8).length - 8 = 0 := rfl
  simp only [hzero] at hok ⊢
  refine ⟨names, hn, ?_, h1, h4, ?_, ?_, ?_⟩
  · unfold narcBytes
    simp only [List.append_assoc]
    rw [patch_zeros (by simp)]
    simp only [List.length_append, zeros_length, enBytes_length]
  · simpa using h3
  · rw [patch_length (by simp)]
    exact hok.2.2.1
  · intro i hi
    have := hrange i hi
    simpa using this

/-- Positions of the parts of a saved file. -/
structure Layout (n : NARC) (nt b : Bytes) : Prop where
  header : At b 0 (stdHeaderBytes ⟨magicNARC, if n.beginning = .big then 0xFFFE else 0xFEFF,
    if n.beginning = .big then 0x100 else 1, b.length, 0x10, 3⟩)
  fatb : At b 0x10 (magicFATB ++ enBytes .little 4 (0x0C + 8 * n.files.length) ++
    enBytes .little 4 n.files.length)
  fat : At b 0x1C (fat n.files 0)
  fntb : At b (0x1C + 8 * n.files.length) (magicFNTB ++ enBytes .little 4 (nt.length + 8))
  names : At b (0x24 + 8 * n.files.length) nt
  fimg : At b (0x24 + 8 * n.files.length + nt.length)
    (magicFIMG ++ enBytes .little 4 (8 + (bodies n.files).length))
  bodies : At b (0x2C + 8 * n.files.length + nt.length) (bodies n.files)
  length : b.length = 0x2C + 8 * n.files.length + nt.length + (Narc.bodies n.files).length

theorem layout (n : NARC) (names : Bytes) : Layout n (padTo names 4 0xFF) (narcBytes n names) := by
  have hl : (narcBytes n names).length =
      0x2C + 8 * n.files.length + (padTo names 4 0xFF).length + (bodies n.files).length := by
    simp [narcBytes, fat_length, magicFATB, magicFNTB, magicFIMG]; omega
  have h := At.refl (narcBytes n names)
  conv at h => arg 3; unfold narcBytes
  rw [At.split] at h
  obtain ⟨h0, h⟩ := h
  simp only [stdHeaderBytes_length, Nat.zero_add] at h
  have h1 := (At.split.1 h).2
  have h := (At.split.1 h).1
  have h2 := (At.split.1 h).2
  have h := (At.split.1 h).1
  have h3 := (At.split.1 h).2
  have h := (At.split.1 h).1
  have h1a := (At.split.1 h1).1
  have h1b := (At.split.1 h1).2
  have h2a := (At.split.1 h2).1
  have h2b := (At.split.1 h2).2
  have hM1 : magicFATB.length = 4 := rfl
  have hM2 : magicFNTB.length = 4 := rfl
  have hM3 : magicFIMG.length = 4 := rfl
  simp only [List.length_append, enBytes_length, fat_length, hM1, hM2, hM3] at h1a h1b h2a h2b h3
  refine ⟨?_, h, h3.cast (by omega), h2a.cast (by omega), h2b.cast (by omega), h1a.cast (by omega),
    h1b.cast (by omega), hl⟩
  have hE : ∀ x, x = (narcBytes n names).length → At (narcBytes n names) 0 (stdHeaderBytes ⟨magicNARC,
      if n.beginning = .big then 0xFFFE else 0xFEFF, if n.beginning = .big then 0x100 else 1, x, 0x10, 3⟩) →
      At (narcBytes n names) 0 (stdHeaderBytes ⟨magicNARC,
      if n.beginning = .big then 0xFFFE else 0xFEFF, if n.beginning = .big then 0x100 else 1,
      (narcBytes n names).length, 0x10, 3⟩) := by
    intro x hx h; rw [← hx]; exact h
  refine hE _ ?_ h0
  rw [hl]; simp only [List.length_append, enBytes_length, fat_length, hM1, hM2, hM3]; omega

theorem load_save {n : NARC} {b : Bytes} (h : save n = .ok b)
    (hne : Spec.Fnt.NoEmptyFileName n.filenames) {limit : Nat} (hd : Spec.Fnt.depth n.filenames ≤ limit) :
    load limit b = .ok n := by
  obtain ⟨names, hs⟩ := save_inv h
  have hl := layout n names
  rw [← hs.bytes] at hl
  obtain ⟨l1, l2, l3, l4, l5, l6, l7, l8⟩ := hl
  have s1 := hs.count
  have s2 := hs.nameLen
  have s3 := hs.fimgLen
  have s4 := hs.total
  simp only [At.split, enBytes_length, List.length_append] at l2 l4 l6
  obtain ⟨⟨f1, f2⟩, f3⟩ := l2
  obtain ⟨n1, n2⟩ := l4
  obtain ⟨i1, i2⟩ := l6
  unfold load
  rw [unpackStdHeader_at l1 ?_ rfl, bind_ok]
  · dsimp only
    have hv : (if (if n.beginning = .big then 0xFFFE else 0xFEFF) = 0xFFFE then
        (if n.beginning = .big then 0x100 else 1) % 256 * 256 + (if n.beginning = .big then 0x100 else 1) / 256
        else if n.beginning = .big then 0x100 else 1) = 1 := by
      cases n.beginning <;> rfl
    rw [raiseIf_false (by rw [hv]; simp), bind_ok, raiseIf_false (by simp), bind_ok,
      f1.unpackStr (n := 4) rfl, bind_ok, (f2.cast rfl : At b 0x14 _).unpackU (by omega), bind_ok,
      (f3.cast rfl : At b 0x18 _).unpackU (by omega), bind_ok, pyAssert_true rfl, bind_ok]
    have e1 : 0x10 + (0x0C + 8 * n.files.length) = 0x1C + 8 * n.files.length := by omega
    have e2 : 0x1C + 8 * n.files.length + ((padTo names 4 0xFF).length + 8) =
      0x24 + 8 * n.files.length + (padTo names 4 0xFF).length := by omega
    rw [e1, n1.unpackStr (n := 4) rfl, bind_ok,
      (n2.cast rfl : At b (0x1C + 8 * n.files.length + 4) _).unpackU (by omega), bind_ok,
      pyAssert_true rfl, bind_ok, e2, i1.unpackStr (n := 4) rfl, bind_ok,
      (i2.cast rfl : At b (0x24 + 8 * n.files.length + (padTo names 4 0xFF).length + 4) _).unpackU (by omega),
      bind_ok, pyAssert_true rfl, bind_ok]
    rw [mapE_range_eq (l := n.files) rfl, bind_ok]
    · have hsl : slice b (0x1C + 8 * n.files.length + 8)
          (0x24 + 8 * n.files.length + (padTo names 4 0xFF).length) = padTo names 4 0xFF :=
        (l5.cast (by omega)).slice_eq (by omega)
      rw [hsl, padTo, Fnt.load_save hs.names_ok hne _ hd, bind_ok, pure_def]
      congr 1
      obtain ⟨a, b, c⟩ := n
      cases c <;> rfl
    · intro i hi
      have hf := l3.sub (fat_at (o := 0) hi)
      have hb := l7.sub (bodies_at hi)
      have hr := hs.range i hi
      simp only [Nat.zero_add] at hf
      obtain ⟨hf1, hf2⟩ := At.split.1 hf
      simp only [enBytes_length] at hf2
      unfold loadFile
      rw [hf1.unpackU (by omega), bind_ok, hf2.unpackU (by omega), bind_ok, pure_def]
      congr 1
      exact (hb.cast (by omega)).slice_eq (by omega)
  · refine ⟨?_, ?_, s4, by simp, by simp⟩ <;> cases n.beginning <;> simp

end Verif.Proofs.Narc
