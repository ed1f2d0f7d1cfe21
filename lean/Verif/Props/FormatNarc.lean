import Verif.Props.FormatFnt
import Verif.Props.FormatSound
import Verif.Spec.FormatNarc
import Verif.Props.Narc

/-!
# NARC archives, byte by byte (C99)
-/

namespace Verif.Props.FormatNarc

open Verif Verif.Model.Common Verif.Model.Narc Verif.Spec.Fnt Verif.Spec.Reader Verif.Spec.FormatFnt Verif.Spec.FormatNarc
open Verif.Proofs.Reader Verif.Props.FormatFnt

theorem loadFile_iff (d : Bytes) (raw i : Nat) (b : Bytes) : loadFile d raw i = .ok b ↔
    0x1C + 8 * i + 8 ≤ d.length ∧ b = span d (raw + u32 d (0x1C + 8 * i)) (raw + u32 d (0x1C + 8 * i + 4)) := by
  unfold loadFile
  simp only [bind_eq_ok, pure_eq_ok, unpack4, slice_span]
  constructor
  · rintro ⟨_, ⟨_, rfl⟩, _, ⟨h, rfl⟩, rfl⟩
    exact ⟨by omega, rfl⟩
  · rintro ⟨h, rfl⟩
    exact ⟨_, ⟨by omega, rfl⟩, _, ⟨by omega, rfl⟩, rfl⟩

theorem version_iff (v b : Nat) (hv : v < 65536) :
    (if b = 0xFFFE then v % 256 * 256 + v / 256 else v) = 1 ↔ (b = 0xFFFE ∧ v = 0x100 ∨ b ≠ 0xFFFE ∧ v = 1) := by
  split <;> omega

theorem headerIs {d : Bytes} {h : StdHeader} (hat : At d 0 (stdHeaderBytes h)) (hok : h.Ok) (hm : h.magic.length = 4)
    (hs : h.fileSize = d.length) (hh : h.headerSize = 16) : HeaderIs d h.magic h.bom h.version h.numBlocks := by
  obtain ⟨_, e⟩ := stdHeader_iff.1 (unpackStdHeader_at hat hok hm)
  simp only [Nat.zero_add] at e
  obtain ⟨magic, bom, version, size, headerSize, blocks⟩ := h
  dsimp only at hs hh ⊢
  injection e with e1 e2 e3 e4 e5 e6
  exact ⟨e1.symm, e2.symm, e3.symm, by rw [← e4, hs], by rw [← e5, hh], e6.symm⟩

/-- C99: what is loaded from any bytes. -/
theorem narc_load_iff (limit : Nat) (d : Bytes) (n : NARC) :
    load limit d = .ok n ↔ Valid d ∧ FolderAt (span d (fntb d + 8) (fimg d)) 0xF000 n.filenames ∧
      depth n.filenames ≤ limit ∧ n.files = (List.range (u32 d 0x18)).map (fileAt d) ∧
      n.beginning = if u16 d 4 = 0xFFFE then .big else .little := by
  have hm := fun raw r => mapE_eq_map (loadFile_iff d raw) (List.range (u32 d 0x18)) r
  have hv := version_iff (u16 d 6) (u16 d 4) (u16_lt d 6)
  have hr := fun h => records_end (n := u32 d 0x18) (k := 8) (s := 28) (len := d.length) h
  unfold load
  simp only [bind_eq_ok, pure_eq_ok, raiseIf_iff, pyAssert_iff, stdHeader_iff, unpackStr_iff, unpack4, Decidable.not_not,
    Nat.zero_add, slice_span, fnt_load_iff]
  constructor
  · rintro ⟨_, ⟨h0, rfl⟩, _, h1, _, h2, _, ⟨h3, rfl⟩, _, ⟨h4, rfl⟩, _, ⟨h5, rfl⟩, _, h6, _, ⟨h7, rfl⟩, _, ⟨h8, rfl⟩, _, h9,
      _, ⟨h10, rfl⟩, _, ⟨h11, rfl⟩, _, h12, files, h13, names, ⟨h14, h15⟩, rfl⟩
    obtain ⟨h16, rfl⟩ := (hm _ _).1 h13
    have h17 := (hr (by omega)).1 (fun i hi => by have := h16 i hi; omega)
    exact ⟨⟨by omega, h2, hv.1 h1, h6, by unfold fntb; omega, h9, by unfold fimg fntb; omega, h12, h17⟩, h14, h15, rfl, rfl⟩
  · rintro ⟨⟨h0, h1, h2, h3, h4, h5, h6, h7, h8⟩, h9, h10, h11, h12⟩
    obtain ⟨names, files, beginning⟩ := n
    dsimp only at h9 h10 h11 h12
    subst h11 h12
    unfold fimg at h6
    unfold fntb at h4 h6
    exact ⟨_, ⟨by omega, rfl⟩, ⟨⟩, hv.2 h2, ⟨⟩, h1, _, ⟨by omega, rfl⟩, _, ⟨by omega, rfl⟩, _, ⟨by omega, rfl⟩, ⟨⟩, h3,
      _, ⟨by omega, rfl⟩, _, ⟨by omega, rfl⟩, ⟨⟩, h5, _, ⟨by omega, rfl⟩, _, ⟨by omega, rfl⟩, ⟨⟩, h7, _,
      (hm _ _).2 ⟨fun i hi => by have := (hr (by omega)).2 h8 i hi; omega, rfl⟩, names, ⟨h9, h10⟩, rfl⟩

/-- C99: the header of a saved archive, and the table of names in it. -/
theorem narc_saved (n : NARC) (b : Bytes) (h : save n = .ok b) :
    HeaderIs b [0x4E, 0x41, 0x52, 0x43] (if n.beginning = .big then 0xFFFE else 0xFEFF)
      (if n.beginning = .big then 0x100 else 1) 3 ∧
    Holds (span b (fntb b + 8) (fimg b)) n.filenames 0xF000 (folderCount n.filenames) := by
  obtain ⟨names, hs⟩ := Proofs.Narc.save_inv h
  have hl := Proofs.Narc.layout n names
  have htot := hs.total
  rw [← hs.bytes] at hl
  have hat := hl.header
  have s1 := hs.count
  have s2 := hs.nameLen
  have hf : At b 0x14 _ := (At.split.1 (At.split.1 hl.fatb).1).2
  have hn : At b (0x1C + 8 * n.files.length + 4) _ := (At.split.1 hl.fntb).2
  have hx := (hl.names).slice_eq rfl
  have e1 : fntb b = 0x1C + 8 * n.files.length := by
    unfold fntb; rw [u32_at hf (by omega)]; omega
  have e2 : fimg b = 0x24 + 8 * n.files.length + (padTo names 4 0xFF).length := by
    unfold fimg; rw [e1, u32_at (n := (padTo names 4 0xFF).length + 8) hn (by omega)]; omega
  refine ⟨?_, ?_⟩
  · have hok : StdHeader.Ok ⟨magicNARC, if n.beginning = .big then 0xFFFE else 0xFEFF,
        if n.beginning = .big then 0x100 else 1, b.length, 0x10, 3⟩ := by
      refine ⟨?_, ?_, htot, (by decide : 0x10 < 2 ^ 16), (by decide : 3 < 2 ^ 16)⟩ <;> dsimp only <;> split <;> decide
    exact headerIs hat hok rfl rfl rfl
  · rw [e2, show fntb b + 8 = 0x24 + 8 * n.files.length by omega, ← slice_span, hx]
    exact fnt_save_layout _ _ _ hs.names_ok

/-- A small archive with a folder. -/
def sample : NARC := ⟨.mk (.cons [100] (.mk .nil [[98], [99]] 1) .nil) [[97]] 0, [[1, 2, 3, 4, 5], [], [7]], .big⟩

example : ∃ b, save sample = .ok b ∧ load 5 b = .ok sample ∧ Valid b ∧ fntb b = 52 ∧ fimg b = 88 ∧ fileAt b 2 = [7] ∧
    u16 (span b 60 88) 6 = 2 ∧ u16 (span b 60 88) 14 = 0xF000 := by
  have h : ∃ b, save sample = .ok b ∧ load 5 b = .ok sample ∧ fntb b = 52 ∧ fimg b = 88 ∧ fileAt b 2 = [7] ∧
      u16 (span b 60 88) 6 = 2 ∧ u16 (span b 60 88) 14 = 0xF000 := by
    refine ⟨(save sample).toOption.getD [], ?_⟩
    decide +kernel
  obtain ⟨b, h1, h2, h3⟩ := h
  exact ⟨b, h1, h2, ((narc_load_iff 5 b sample).1 h2).1, h3⟩

end Verif.Props.FormatNarc
