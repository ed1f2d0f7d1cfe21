import Verif.Proofs.Narc
import Verif.Props.Fnt

/-!
# Properties of NARC archives (C12–C14)
-/

namespace Verif.Props.Narc

open Verif Verif.Model.Common Verif.Model.Narc Verif.Spec.Fnt
open Verif.Model.Fnt (Folder idOf)

/-- A small archive: two files, one of them empty, with names, and a big-endian beginning. -/
def sample : NARC := ⟨.mk .nil [[97], [98]] 0, [[1, 2, 3, 4, 5], []], .big⟩

/-- C12: whatever is saved successfully (without empty file names) loads back exactly. -/
theorem narc_roundtrip (n : NARC) (b : Bytes) (h : save n = .ok b) (hne : NoEmptyFileName n.filenames)
    (limit : Nat) (hd : depth n.filenames ≤ limit) : load limit b = .ok n :=
  Proofs.Narc.load_save h hne hd

example : NoEmptyFileName sample.filenames ∧ depth sample.filenames = 1 := by
  unfold sample NoEmptyFileName
  simp [All, AllIn, Folder.files, depth, depthIn]
example : (save sample >>= load 1) = .ok sample := by decide +kernel

/-- C13: after a successful `setFileByName`, reading the same name gives the new data; reading a name that
denotes another position gives what it gave before; every other file, the names and the byte order are
untouched. -/
theorem narc_set_get (n n' : NARC) (name : Str) (data : Bytes) (h : setFileByName n name data = .ok n') :
    getFileByName n' name = .ok data ∧
    n'.filenames = n.filenames ∧ n'.beginning = n.beginning ∧ n'.files.length = n.files.length ∧
    ∃ id k, idOf n.filenames name = .ok (some id) ∧ pyPos n.files.length id = some k ∧
      (∀ j, j ≠ k → n'.files[j]? = n.files[j]?) ∧
      ∀ name' id', idOf n.filenames name' = .ok (some id') → pyPos n.files.length id' ≠ some k →
        getFileByName n' name' = getFileByName n name' := by
  unfold setFileByName at h
  rw [bind_eq_ok] at h
  obtain ⟨r, hr, h⟩ := h
  cases r with
  | none => cases h
  | some id =>
    simp only [bind_eq_ok, pure_eq_ok] at h
    obtain ⟨files, hf, rfl⟩ := h
    unfold pySetI at hf
    split at hf
    · rename_i k hk
      cases hf
      have hlt := pyPos_lt hk
      refine ⟨?_, rfl, rfl, by simp, id, k, hr, hk, ?_, ?_⟩
      · unfold getFileByName
        simp only [hr, bind_ok]
        rw [pyIdxI_eq, List.length_set, hk]
        simp [pyIdx, hlt]
      · intro j hj
        simp only
        rw [List.getElem?_set_ne (by omega)]
      · intro name' id' hid' hne
        unfold getFileByName
        simp only [hid', bind_ok]
        rw [pyIdxI_eq, pyIdxI_eq, List.length_set]
        split
        · rename_i k' hk'
          have : k' ≠ k := by rintro rfl; exact hne hk'
          unfold pyIdx
          rw [List.getElem?_set_ne (by omega)]
        · rfl
    · cases hf

/-- C13: a name that is not in the table raises `ValueError` in both directions. -/
theorem narc_unknown_name (n : NARC) (name : Str) (data : Bytes) (h : idOf n.filenames name = .ok none) :
    getFileByName n name = .error .valueError ∧ setFileByName n name data = .error .valueError := by
  unfold getFileByName setFileByName
  simp only [h, bind_ok]
  simp

example : (setFileByName sample [98] [9, 9]).toOption.map (·.files) = some [[1, 2, 3, 4, 5], [9, 9]] ∧
    idOf sample.filenames [99] = .ok none := by decide +kernel

/-- The 32-bit little-endian word at an offset. -/
def u32 (b : Bytes) (o : Nat) : Nat := leVal (slice b o (o + 4))

theorem u32_at {b : Bytes} {o v : Nat} (h : At b o (enBytes .little 4 v)) (hv : v < 2 ^ 32) : u32 b o = v := by
  unfold u32
  rw [h.slice_eq (by simp)]
  exact leVal_leBytes_of_lt (by omega)

/-- C14: the layout of a saved archive, in terms of its bytes only.  The header holds the length; three blocks
with the right names tile the file; their sizes are multiples of four; and the allocation entries are aligned,
in range, in increasing order without overlap, and delimit exactly the contents of the files. -/
theorem narc_layout (n : NARC) (b : Bytes) (h : save n = .ok b) :
    slice b 0 4 = [0x4E, 0x41, 0x52, 0x43] ∧ u32 b 8 = b.length ∧
    slice b 0x10 0x14 = [0x42, 0x54, 0x41, 0x46] ∧ u32 b 0x18 = n.files.length ∧
    u32 b 0x14 = 12 + 8 * n.files.length ∧
    let fntb := 0x10 + u32 b 0x14
    slice b fntb (fntb + 4) = [0x42, 0x54, 0x4E, 0x46] ∧
    let fimg := fntb + u32 b (fntb + 4)
    slice b fimg (fimg + 4) = [0x47, 0x4D, 0x49, 0x46] ∧ fimg + u32 b (fimg + 4) = b.length ∧
    fntb % 4 = 0 ∧ fimg % 4 = 0 ∧ b.length % 4 = 0 ∧
    (∀ i (hi : i < n.files.length),
      let s := u32 b (0x1C + 8 * i)
      let e := u32 b (0x1C + 8 * i + 4)
      s % 4 = 0 ∧ s ≤ e ∧ fimg + 8 + e ≤ b.length ∧ slice b (fimg + 8 + s) (fimg + 8 + e) = n.files[i]) ∧
    (∀ i j, i < j → j < n.files.length → u32 b (0x1C + 8 * i + 4) ≤ u32 b (0x1C + 8 * j)) := by
  obtain ⟨names, hs⟩ := Proofs.Narc.save_inv h
  have hl := Proofs.Narc.layout n names
  rw [← hs.bytes] at hl
  obtain ⟨l1, l2, l3, l4, l5, l6, l7, l8⟩ := hl
  have s1 := hs.count
  have s2 := hs.nameLen
  have s3 := hs.fimgLen
  have s4 := hs.total
  have hpm := padTo_mod names (a := 4) 0xFF (by decide)
  have hbm := Proofs.Narc.bodies_mod n.files
  unfold stdHeaderBytes at l1
  simp only [At.split, enBytes_length, List.length_append, packStr_length, Nat.zero_add] at l1 l2 l4 l6
  obtain ⟨⟨⟨⟨⟨m1, _⟩, _⟩, m2⟩, _⟩, _⟩ := l1
  obtain ⟨⟨f1, f2⟩, f3⟩ := l2
  obtain ⟨n1, n2⟩ := l4
  obtain ⟨i1, i2⟩ := l6
  have e1 : u32 b 0x14 = 0x0C + 8 * n.files.length := u32_at f2 (by omega)
  have e2 : u32 b (0x10 + u32 b 0x14 + 4) = (padTo names 4 0xFF).length + 8 := by
    rw [e1]; exact u32_at (n2.cast (by simp [magicFNTB]; omega)) (by omega)
  have e3 : u32 b (0x10 + u32 b 0x14 + u32 b (0x10 + u32 b 0x14 + 4) + 4) =
      8 + (Proofs.Narc.bodies n.files).length := by
    rw [e2, e1]; exact u32_at (i2.cast (by simp [magicFIMG]; omega)) (by omega)
  have hfat : ∀ i (hi : i < n.files.length), u32 b (0x1C + 8 * i) = Proofs.Narc.startOff n.files i ∧
      u32 b (0x1C + 8 * i + 4) = Proofs.Narc.startOff n.files i + n.files[i].length := by
    intro i hi
    have hf := l3.sub (Proofs.Narc.fat_at (o := 0) hi)
    have hr := hs.range i hi
    simp only [Nat.zero_add, At.split, enBytes_length] at hf
    exact ⟨u32_at hf.1 (by omega), u32_at hf.2 hr⟩
  refine ⟨m1.slice_eq (b := 4) rfl, u32_at m2 (by omega), f1.slice_eq rfl, u32_at f3 (by omega), e1, ?_, ?_, ?_,
    ?_, ?_, by omega, ?_, ?_⟩
  · exact (n1.cast (by omega)).slice_eq rfl
  · exact (i1.cast (by omega)).slice_eq rfl
  · omega
  · omega
  · omega
  · intro i hi
    obtain ⟨h1, h2⟩ := hfat i hi
    have hb := l7.sub (Proofs.Narc.bodies_at hi)
    have hbb := (Proofs.Narc.bodies_at hi).bound
    dsimp only
    rw [h1, h2, e2, e1]
    refine ⟨Proofs.Narc.bodies_mod _, by omega, by omega, ?_⟩
    exact (hb.cast (by omega)).slice_eq (by omega)
  · intro i j hij hj
    rw [(hfat i (by omega)).2, (hfat j hj).1]
    have hsucc : ∀ i (hi : i < n.files.length),
        Proofs.Narc.startOff n.files i + n.files[i].length ≤ Proofs.Narc.startOff n.files (i + 1) := by
      intro i hi
      unfold Proofs.Narc.startOff
      rw [List.take_succ_eq_append_getElem hi]
      simp only [Proofs.Narc.bodies, List.map_append, List.flatten_append, List.length_append,
        List.map_cons, List.map_nil, List.flatten_cons, List.flatten_nil, List.append_nil, padTo_length]
      omega
    have hmono : ∀ k, i + 1 + k ≤ n.files.length →
        Proofs.Narc.startOff n.files (i + 1) ≤ Proofs.Narc.startOff n.files (i + 1 + k) := by
      intro k
      induction k with
      | zero => intro _; exact Nat.le_refl _
      | succ k ih =>
        intro hk
        have h1 := ih (by omega)
        have h2 := hsucc (i + 1 + k) (by omega)
        rw [show i + 1 + (k + 1) = i + 1 + k + 1 by omega]
        omega
    have h1 := hsucc i (by omega)
    have h2 := hmono (j - (i + 1)) (by omega)
    rw [show i + 1 + (j - (i + 1)) = j by omega] at h2
    omega

example : (save sample).toOption.map (·.length) = some 84 := by decide +kernel

end Verif.Props.Narc
