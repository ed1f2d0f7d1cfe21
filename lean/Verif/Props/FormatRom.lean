import Verif.Proofs.FormatRom
import Verif.Props.RomLoad

/-!
# ROM images, byte by byte (C112)
-/

namespace Verif.Props.FormatRom

open Verif Verif.Model.Rom Verif.Spec.Reader Verif.Spec.FormatRom Verif.Proofs.Reader Verif.Proofs.FormatRom
open Verif.Proofs.Rom

/-- C112: what loading an image gives, byte by byte, and when it succeeds.  (A field of `q` that nothing on the right hand
side determines does not exist, so the image has at most one meaning.) -/
theorem rom_any (limit : Nat) (raw : Bytes) (q : Rom) : load limit raw = .ok q ↔
    (u32 (image raw) 0x68 = 0 ∨ u32 (image raw) 0x68 + 2 ≤ (image raw).length) ∧
    HeaderAt (image raw) q ∧ PartsAt (image raw) q ∧ OtherAt (image raw) q ∧
    (nameTable (image raw) = [] → q.filenames = .mk .nil [] 0) ∧
    (nameTable (image raw) ≠ [] → Model.Fnt.load limit (nameTable (image raw)) = .ok q.filenames) := by
  rw [load_iff]
  have hl : 0x200 ≤ (image raw).length := by unfold image; rw [List.length_append, List.length_replicate]; omega
  generalize image raw = d at hl ⊢
  have hn : (bytesAt d 0 12).length = 12 := by rw [bytesAt_length]; omega
  have hsd : (bytesAt d 0x78 8).length = 8 := by rw [bytesAt_length]; omega
  refine and_congr_right fun _ => ?_
  constructor
  · rintro ⟨f, hf, rfl⟩
    obtain ⟨n1, n2, n3⟩ := (name_iff hn).2 rfl
    refine ⟨⟨n3, rfl, rfl, rfl, rfl, rfl, rfl, rfl, rfl, rfl, rfl, rfl, rfl, rfl, rfl, rfl, rfl, rfl, rfl, rfl, rfl, rfl,
      rfl, rfl, rfl, rfl, rfl, ?_, rfl, rfl, rfl, rfl⟩, ⟨rfl, rfl, rfl, rfl, rfl, rfl, rfl⟩,
      ⟨n1, n2, hsd, rfl, rfl, postData_at d _ _ (by omega), sortIds_at d⟩, ?_, ?_⟩
    · show bytesAt d 0x78 8 = (bytesAt d 0x78 8 ++ _).take 8
      rw [List.take_append_of_le_length (by omega), List.take_of_length_le (by omega)]
    · intro h
      unfold Names at hf
      rw [if_pos h] at hf
      cases hf; rfl
    · intro h
      unfold Names at hf
      rw [if_neg h] at hf
      exact hf
  · rintro ⟨hh, hp, ho, h1, h2⟩
    refine ⟨q.filenames, ?_, ?_⟩
    · unfold Names
      split
      · rename_i h; rw [h1 h]; rfl
      · rename_i h; exact h2 h
    · have e1 := (name_iff hn).1 ⟨ho.name_short, ho.name_end, hh.name⟩
      have e2 : q.secureAreaDisable = bytesAt d 0x78 8 := by
        have h8 := ho.secureAreaDisable
        rw [hh.secureAreaDisable, List.take_append_of_le_length (by omega), List.take_of_length_le (by omega)]
      have e3 := postData_unique ho.postData (postData_at d d.length _ (by omega))
      have e4 := sorted_at.1 ho.order
      obtain ⟨_, _, _, _, _, _, _, _, _, _, _, _, _, _, _, _, _, _, _, _, _, _, _, _, _, _, _, _, _, _, _, _⟩ := hh
      obtain ⟨_, _, _, _, _, _, _⟩ := hp
      obtain ⟨_, _, _, _, _, _, _⟩ := ho
      cases q
      dsimp only at *
      subst_vars
      rfl

theorem at_bytesAt {b p : Bytes} {o : Nat} (h : At b o p) : bytesAt b o p.length = p := by
  rw [← slice_bytesAt]; exact h.slice_eq rfl

theorem at_u16 {b : Bytes} {o n : Nat} (h : At b o (leBytes 2 n)) (hn : n < 2 ^ 16) : u16 b o = n :=
  (unpack2.1 (h.unpackU (e := .little) hn)).2.symm

theorem at_u32 {b : Bytes} {o n : Nat} (h : At b o (leBytes 4 n)) (hn : n < 2 ^ 32) : u32 b o = n :=
  (unpack4.1 (h.unpackU (e := .little) hn)).2.symm

theorem bytesAt_ifAny {b part : Bytes} {off : Nat} (h : At b off part) :
    bytesAt b (ifAny part off) part.length = part := by
  rw [← slice_bytesAt]; exact slice_ifAny h

/-- C112: what a saved image looks like: every attribute, every part and every file is at the place in it where `rom_any`
reads it, the name table is the saved one, the data behind ARM9 follows ARM9, both places for the offset of the signature
agree, and the two checksums are those of the logo and of the header before the checksum. -/
theorem rom_saved_bytes (r r' : Rom) (u : Bool) (b : Bytes) (h : save r u = .ok (b, r')) :
    HeaderAt b r' ∧ PartsAt b r' ∧ Model.Fnt.save r'.filenames = .ok (nameTable b) ∧
    bytesAt b (u32 b 0x20 + u32 b 0x2C) r'.arm9PostData.length = r'.arm9PostData ∧
    u32 b 0x80 = signaturePlace b ∧ bytesAt b (signaturePlace b) r'.rsaSignature.length = r'.rsaSignature ∧
    u32 b 0x84 = 0x4000 ∧ u16 b 0x15C = Model.Util.crc16 (bytesAt b 0xC0 0x9C) ∧
    u16 b 0x15E = Model.Util.crc16 (bytesAt b 0 0x15E) := by
  obtain ⟨fnt, ids9, ids7, es9, es7, es, starts, hdr, hs, hr'⟩ := save_inv h
  have e : r' = { r with deviceCapacity := r'.deviceCapacity } := by rw [hr']
  clear hr' h
  generalize r'.deviceCapacity = c at hs e
  subst e
  have hlen := hs.len_ge
  have hh := hs.hdr_ok
  have hhs := hh.small
  simp only [headerSmall, List.mem_cons, List.not_mem_nil, or_false, forall_eq_or_imp, forall_eq] at hhs
  have hc : (c.toNat : Int) = c := by omega
  have hsm : Fits (smallFields r c) := by
    simp only [smallFields, headerSmall, List.map_cons, List.map_nil, Fits, and_true]
    omega
  have u0 := ((unpackUs_iff (ks := [1, 1, 1, 1, 1, 1, 1, 1, 1, 1, 1, 1, 1, 1]) (by decide) (by decide)).1 (unpackUs_at (hs.at_hdr hh.at012) hsm)).2
  have u1 := ((unpackUs_iff (ks := [4, 4, 4, 4, 4, 4, 4, 4, 4, 4, 4, 4, 4, 4, 4, 4]) (by decide) (by decide)).1 (unpackUs_at (hs.at_hdr hh.at020) hh.fits1)).2
  have u2 := ((unpackUs_iff (ks := [4, 4, 4, 2, 2, 4, 4]) (by decide) (by decide)).1 (unpackUs_at (hs.at_hdr hh.at060) hh.fits2)).2
  have u3 := ((unpackUs_iff (ks := [4, 4]) (by decide) (by decide)).1 (unpackUs_at (hs.at_hdr hh.at080)
    (by simp only [Fits, and_true]; exact ⟨hh.fitsSig, by decide⟩))).2
  have u4 := ((unpackUs_iff (ks := [4, 4, 4]) (by decide) (by decide)).1 (unpackUs_at (hs.at_hdr hh.at160) hh.fits3)).2
  simp only [smallFields, headerSmall, headerWords1, headerWords2, headerWords3, List.map_cons, List.map_nil, readAll, uN,
    List.cons.injEq, Nat.reduceAdd, and_true, Int.toNat_natCast, offsetsOf] at u0 u1 u2 u3 u4
  obtain ⟨a0, a1, a2, a3, a4, a5, a6, a7, a8, a9, a10, a11, a12, a13⟩ := u0
  obtain ⟨b0, b1, b2, b3, b4, b5, b6, b7, b8, b9, b10, b11, b12, b13, b14, b15⟩ := u1
  obtain ⟨c0, c1, c2, c3, c4, c5, c6⟩ := u2
  obtain ⟨d0, d1⟩ := u3
  obtain ⟨e0, e1, e2⟩ := u4
  have q1 : bytesAt b 0 12 = fixed 12 r.name := by
    have := at_bytesAt (hs.at_hdr hh.at000); rwa [fixed_length] at this
  have q2 : bytesAt b 12 4 = r.idCode := by have := at_bytesAt (hs.at_hdr hh.at00C); rwa [hh.idCode] at this
  have q3 : bytesAt b 16 2 = r.developerCode := by
    have := at_bytesAt (hs.at_hdr hh.at010); rwa [hh.developerCode] at this
  have q4 : bytesAt b 0x78 8 = fixed 8 r.secureAreaDisable := by
    have := at_bytesAt (hs.at_hdr hh.at078); rwa [fixed_length] at this
  have q5 : bytesAt b 0x88 0x38 = r.pad088 := by have := at_bytesAt (hs.at_hdr hh.at088); rwa [hh.pad088] at this
  have q6 : bytesAt b 0xC0 0x9C = r.nintendoLogo := by have := at_bytesAt (hs.at_hdr hh.at0C0); rwa [hh.logo] at this
  have q7 : bytesAt b 0x16C 0x94 = r.pad16C := by have := at_bytesAt (hs.at_hdr hh.at16C); rwa [hh.pad16C] at this
  have hfat : fat b = fatOf r starts := by
    unfold fat
    have := at_bytesAt hs.at_fat
    rw [Proofs.Rom.fatBytes_length, entriesOf_length hs.starts_len, Nat.mul_comm, b11, b10] at this
    exact this
  have hfl : (fatOf r starts).length / 8 = r.files.length := by
    rw [fatBytes_length, entriesOf_length hs.starts_len]; omega
  have hsig : signaturePlace b = sigPos (full r es9 es7 es fnt (fatOf r starts)).length := by
    have h1 := at_u32 hs.at_sig hs.sigLt
    have h3 := full_ge (r := r) (es9 := es9) (es7 := es7) (es := es) (fnt := fnt) (fat := fatOf r starts)
    unfold signaturePlace
    rw [h1, if_neg]
    unfold sigPos
    omega
  refine ⟨⟨?_, q2.symm, q3.symm, a0, a1, ?_, a3, a4, a5, a6, a7, a8, a9, a10, a11, a12, a13, b1, b2, b5, b6, c0, c1, c3, c4,
    c5, c6, ?_, q5.symm, q6.symm, e2, q7.symm⟩, ⟨?_, ?_, ?_, ?_, ?_, ?_, ?_⟩, ?_, ?_, ?_, ?_, d1.symm, ?_, ?_⟩
  · rw [q1, fixed_take]
  · rw [← a2]; exact hc.symm
  · rw [q4, fixed_take]
  · rw [← b0, ← b3]; exact (at_bytesAt (At.split.1 hs.at_arm9).1).symm
  · rw [← b4, ← b7]; exact (at_bytesAt hs.at_arm7).symm
  · rw [← b12, ← b13]; exact (bytesAt_ifAny hs.at_ovt9).symm
  · rw [← b14, ← b15]; exact (bytesAt_ifAny hs.at_ovt7).symm
  · rw [← c2]
    have h6 := sec6_ge r es9 es7 fnt (fatOf r starts)
    exact (banner_iff.1 (readIconBanner_eq hs.at_icon (by omega) hs.icon)).2
  · rw [← e0, ← e1]
    have h7 := sec7_ge r es9 es7 fnt (fatOf r starts)
    show r.debugRom = _
    rw [bytesAt_ifAny hs.at_debug]
    unfold ifAny
    by_cases he : r.debugRom = []
    · rw [if_pos he, if_pos rfl, he]
    · rw [if_neg he, if_neg (by omega)]
  · rw [hfat, hfl]
    apply List.ext_getElem
    · simp
    · intro i h1 h2
      rw [List.getElem_map, List.getElem_range]
      have hi : i < starts.length := by rw [hs.starts_len]; exact h1
      have := Proofs.Rom.readFile_eq hs (List.getElem?_eq_getElem hi) (List.getElem?_eq_getElem h1)
      rw [Proofs.FormatRom.readFile_eq (by
        have : i < r.files.length := h1
        rw [← hfl] at this
        omega)] at this
      have := Except.ok.inj this
      unfold start
      rw [hfat]
      exact (Prod.mk.inj this).2.symm
  · unfold nameTable
    rw [← b8, ← b9, at_bytesAt hs.at_fnt]
    exact hs.fnt_ok
  · rw [← b0, ← b3]; exact at_bytesAt (At.split.1 hs.at_arm9).2
  · rw [hsig, d0]
  · rw [hsig]; exact at_bytesAt hs.at_rsa
  · rw [q6]; exact at_u16 (hs.at_hdr hh.at15C) (Props.Util.crc16_lt _)
  · have h1 := at_u16 (hs.at_hdr hh.at15E) (Props.Util.crc16_lt _)
    rw [h1]
    have h2 : At b 0 (hdr.take 0x15E) := by
      refine hs.at_hdr ?_
      exact ⟨[], hdr.drop 0x15E, by simp, rfl⟩
    have h3 := at_bytesAt h2
    rw [List.length_take, hh.len] at h3
    rw [show bytesAt b 0 0x15E = hdr.take 0x15E from h3]

/-- A short image with a name and a unit code. -/
example : load 1 ([65, 66, 0, 67] ++ zeros 14 ++ [2]) = .ok { Model.Rom.new with
    name := [65, 66, 0, 67], unitCode := 2,
    idCode := zeros 4, deviceCapacity := 0, arm9EntryAddress := 0, arm9RamAddress := 0, arm7EntryAddress := 0,
    arm7RamAddress := 0, normalCardControlRegisterSettings := 0, secureCardControlRegisterSettings := 0,
    secureTransferDelay := 0, nintendoLogo := zeros 0x9C, pad200 := [] } := by decide +kernel

/-- The sample can be saved, and the image has the meaning that `rom_any` asks for. -/
example : ∃ b q, save Props.Rom.sample false = .ok (b, Props.Rom.sample) ∧ HeaderAt b Props.Rom.sample ∧
    PartsAt b Props.Rom.sample ∧ load 1 b = .ok q := by
  obtain ⟨b, q, h, hq⟩ := Props.Rom.sample_loads
  have := rom_saved_bytes _ _ _ _ h
  exact ⟨b, q, h, this.1, this.2.1, hq⟩

/-- Records behind ARM9: two that count, and one that does not. -/
example : PostDataAt ([1] ++ [0x21, 0x06, 0xC0, 0xDE] ++ zeros 8 ++ [0x21, 0x06, 0xC0, 0xDE, 9]) 1
    ([0x21, 0x06, 0xC0, 0xDE] ++ zeros 8 ++ [0x21, 0x06, 0xC0, 0xDE, 9]) :=
  ⟨2, by decide, by decide, by decide⟩

end Verif.Props.FormatRom
