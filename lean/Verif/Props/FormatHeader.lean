import Verif.Props.FormatNarc
import Verif.Props.Sequence
import Verif.Props.SequenceArchive
import Verif.Props.SoundBank
import Verif.Props.Texture

/-!
# The headers of saved files, byte by byte (C100)
-/

namespace Verif.Props.FormatHeader

open Verif Verif.Model.Common Verif.Spec.Reader Verif.Spec.FormatNarc
open Verif.Proofs.Reader Verif.Props.FormatFnt Verif.Props.FormatNarc

/-- A block: its name and its size. -/
def BlockIs (d : Bytes) (o : Nat) (name : Bytes) (size : Nat) : Prop := bytesAt d o 4 = name ∧ u32 d (o + 4) = size

theorem blockIs {d name : Bytes} {o size : Nat} (hat : At d o (name ++ enBytes .little 4 size)) (hm : name.length = 4)
    (hs : size < 2 ^ 32) : BlockIs d o name size := by
  obtain ⟨h1, h2⟩ := At.split.1 hat
  rw [hm] at h2
  exact ⟨by rw [← slice_bytesAt]; exact h1.slice_eq (by omega), u32_at h2 hs⟩

theorem bytesAt_at {d s : Bytes} {o : Nat} (h : At d o s) : bytesAt d o s.length = s := by
  rw [← slice_bytesAt]; exact h.slice_eq rfl

/-- The header and the first block. -/
theorem header_block {d m name rest : Bytes} {v size blocks block : Nat}
    (hd : d = stdHeaderBytes ⟨m, 0xFEFF, v, size, 0x10, blocks⟩ ++ (name ++ enBytes .little 4 block ++ rest))
    (hm : m.length = 4) (hn : name.length = 4) (hok : StdHeader.Ok ⟨m, 0xFEFF, v, size, 0x10, blocks⟩)
    (hs : size = 0x18 + rest.length) (hb : block < 2 ^ 32) :
    HeaderIs d m 0xFEFF v blocks ∧ BlockIs d 0x10 name block := by
  have hat : At d 0 (stdHeaderBytes ⟨m, 0xFEFF, v, size, 0x10, blocks⟩ ++ (name ++ enBytes .little 4 block ++ rest)) := by
    rw [hd]; exact At.refl _
  obtain ⟨h1, h2⟩ := At.split.1 hat
  obtain ⟨h2, _⟩ := At.split.1 h2
  rw [stdHeaderBytes_length] at h2
  refine ⟨headerIs h1 hok hm ?_ rfl, blockIs h2 hn hb⟩
  rw [hd]
  simp only [List.length_append, stdHeaderBytes_length, enBytes_length, hn]
  omega

/-- C100: waves. -/
theorem swav_header (w w' : Model.SoundWave.SWAV) (b : Bytes) (u v : Bool) (h : w.save u v = .ok (b, w')) :
    HeaderIs b [0x53, 0x57, 0x41, 0x56] 0xFEFF 0x100 1 ∧ BlockIs b 0x10 [0x44, 0x41, 0x54, 0x41] (b.length - 0x10) := by
  unfold Model.SoundWave.SWAV.save at h
  simp only [bind_eq_ok, pure_eq_ok, Proofs.SoundWave.saveBytes_ok, Prod.mk.injEq] at h
  obtain ⟨w1, _, b1, ⟨⟨_, h1, _⟩, rfl⟩, rfl, e⟩ := h
  subst e
  have := header_block (d := Proofs.SoundWave.swavBytes w1) (m := [0x53, 0x57, 0x41, 0x56])
    (name := [0x44, 0x41, 0x54, 0x41]) (rest := Proofs.SoundWave.infoBytes w1 ++ w1.data) (v := 0x100)
    (size := 0x24 + w1.data.length) (blocks := 1) (block := 0x14 + w1.data.length)
    (by unfold Proofs.SoundWave.swavBytes; simp only [List.append_assoc]; rfl) rfl rfl (StdHeader.ok_mk h1)
    (by simp; omega) (by omega)
  have hl : (Proofs.SoundWave.swavBytes w1).length = 0x24 + w1.data.length := by
    unfold Proofs.SoundWave.swavBytes; simp [Model.SoundWave.magicDATA]; omega
  rw [hl, show 0x24 + w1.data.length - 0x10 = 0x14 + w1.data.length by omega]
  exact this

/-- C100: archives of waves; the eight words behind the block's header are reserved. -/
theorem swar_header (ws : List Model.SoundWave.SWAV) (b : Bytes) (h : Model.SoundWave.saveSWAR ws = .ok b) :
    HeaderIs b [0x53, 0x57, 0x41, 0x52] 0xFEFF 0x100 1 ∧ BlockIs b 0x10 [0x44, 0x41, 0x54, 0x41] (b.length - 0x10) ∧
    bytesAt b 0x18 32 = zeros 32 ∧ u32 b 0x38 = ws.length := by
  obtain ⟨_, h1, rfl⟩ := Proofs.SoundWave.saveSWAR_ok.1 h
  have hl := Proofs.SoundWave.recs_length ws
  have hlen : (Proofs.SoundWave.swarBytes ws).length = Proofs.SoundWave.fileLen ws := by
    unfold Proofs.SoundWave.swarBytes
    rw [← hl]
    simp only [List.length_append, stdHeaderBytes_length, enBytes_length, zeros_length, Proofs.SoundWave.offsetTable_length,
      show Model.SoundWave.magicDATA.length = 4 from rfl]
  have := header_block (d := Proofs.SoundWave.swarBytes ws) (m := [0x53, 0x57, 0x41, 0x52])
    (name := [0x44, 0x41, 0x54, 0x41]) (rest := zeros 32 ++ (enBytes .little 4 ws.length ++
      (Proofs.SoundWave.offsetTable ws ++ (ws.map Proofs.SoundWave.waveRec).flatten))) (v := 0x100)
    (size := Proofs.SoundWave.fileLen ws) (blocks := 1) (block := Proofs.SoundWave.fileLen ws - 0x10)
    (by unfold Proofs.SoundWave.swarBytes; simp only [List.append_assoc]; rfl) rfl rfl (StdHeader.ok_mk h1)
    (by simp only [List.length_append, zeros_length, enBytes_length, Proofs.SoundWave.offsetTable_length]; omega) (by omega)
  rw [hlen]
  refine ⟨this.1, this.2, ?_⟩
  have hat : At (Proofs.SoundWave.swarBytes ws) 0 (Proofs.SoundWave.swarBytes ws) := At.refl _
  conv at hat => arg 3; unfold Proofs.SoundWave.swarBytes
  simp only [At.split, stdHeaderBytes_length, List.length_append, enBytes_length, zeros_length,
    show Model.SoundWave.magicDATA.length = 4 from rfl] at hat
  obtain ⟨⟨⟨_, ⟨⟨_, _⟩, a1⟩, a2⟩, _⟩, _⟩ := hat
  exact ⟨by simpa using bytesAt_at a1, u32_at a2 (by omega)⟩

/-- C100: streams; there are two blocks. -/
theorem strm_header (s : Model.SoundStream.STRM) (b : Bytes) (h : s.save = .ok b) :
    HeaderIs b [0x53, 0x54, 0x52, 0x4D] 0xFEFF 0x100 2 ∧ BlockIs b 0x10 [0x48, 0x45, 0x41, 0x44] 0x50 ∧
    BlockIs b 0x60 [0x44, 0x41, 0x54, 0x41] (b.length - 0x60) := by
  obtain ⟨n, bpb, last, _, _, h1, rfl⟩ := Proofs.SoundStream.save_ok.1 h
  generalize Proofs.SoundStream.wave s.channels n = w at h1 ⊢
  have hlen : (Proofs.SoundStream.strmBytes s n bpb last w).length = 0x68 + w.length := by
    unfold Proofs.SoundStream.strmBytes
    simp [Model.SoundStream.magicHEAD, Model.SoundWave.magicDATA]; omega
  have := header_block (d := Proofs.SoundStream.strmBytes s n bpb last w) (m := [0x53, 0x54, 0x52, 0x4D])
    (name := [0x48, 0x45, 0x41, 0x44]) (rest := Proofs.SoundStream.headBytes s n bpb last ++
      (Model.SoundWave.magicDATA ++ (enBytes .little 4 (8 + w.length) ++ w))) (v := 0x100)
    (size := 0x68 + w.length) (blocks := 2) (block := 0x50)
    (by unfold Proofs.SoundStream.strmBytes; simp only [List.append_assoc]; rfl) rfl rfl (StdHeader.ok_mk h1)
    (by simp [Model.SoundWave.magicDATA]; omega) (by omega)
  refine ⟨this.1, this.2, ?_⟩
  have hat : At (Proofs.SoundStream.strmBytes s n bpb last w) 0 (Proofs.SoundStream.strmBytes s n bpb last w) := At.refl _
  conv at hat => arg 3; unfold Proofs.SoundStream.strmBytes
  obtain ⟨⟨_, a1⟩, _⟩ := (At.split.1 hat).imp_left At.split.1
  simp only [stdHeaderBytes_length, List.length_append, enBytes_length, Proofs.SoundStream.headBytes_length,
    show Model.SoundStream.magicHEAD.length = 4 from rfl] at a1
  rw [hlen, show 0x68 + w.length - 0x60 = 8 + w.length by omega]
  exact blockIs a1 rfl (by omega)

theorem size_of_unpack {b : Bytes} {h : StdHeader} (hat : At b 0 (stdHeaderBytes h)) (hok : h.Ok) (hm : h.magic.length = 4)
    (hu : unpackU .little 4 b 8 = .ok b.length) : h.fileSize = b.length := by
  obtain ⟨_, e⟩ := stdHeader_iff.1 (unpackStdHeader_at hat hok hm)
  rw [e]
  exact (unpack4.1 hu).2.symm

theorem header_at {b rest : Bytes} {h : StdHeader} (hb : b = stdHeaderBytes h ++ rest) : At b 0 (stdHeaderBytes h) := by
  rw [hb]; exact At.first _ _

/-- C100: sequences. -/
theorem sseq_header (s : Model.SoundSequence.SSEQ) (b : Bytes) (h : s.save = .ok b) :
    HeaderIs b [0x53, 0x53, 0x45, 0x51] 0xFEFF 0x100 1 ∧ BlockIs b 0x10 [0x44, 0x41, 0x54, 0x41] (b.length - 0x10) ∧
    u32 b 0x18 = 0x1C := by
  obtain ⟨_, g1, g2, g3, g4, _⟩ := Sequence.sseq_header s b h
  unfold Model.SoundSequence.SSEQ.save at h
  simp only [bind_eq_ok, pure_eq_ok, packStdHeader_eq_ok, packU_eq_ok] at h
  obtain ⟨d, hd, _, ⟨hok, rfl⟩, _, ⟨h1, rfl⟩, _, ⟨h2, rfl⟩, rfl⟩ := h
  have hat := (At.first (stdHeaderBytes ⟨Model.SoundSequence.magicSSEQ, 0xFEFF, 0x100, 0x1C + d.length, 0x10, 1⟩)
    (Model.SoundSequence.magicDATA ++ enBytes .little 4 (0x1C + d.length - 0x10) ++ enBytes .little 4 0x1C)).append_right d
  refine ⟨headerIs hat hok rfl (size_of_unpack hat hok rfl g1) rfl, ⟨?_, (unpack4.1 g3).2.symm⟩, (unpack4.1 g4).2.symm⟩
  rw [← slice_bytesAt]; exact g2

/-- C100: archives of sequences. -/
theorem ssar_header (a : Model.SoundSequenceArchive.SSAR) (b : Bytes) (u : Nat) (names : List (Option Str))
    (h : a.save = .ok (b, u, names)) :
    HeaderIs b [0x53, 0x53, 0x41, 0x52] 0xFEFF 0x100 1 ∧ BlockIs b 0x10 [0x44, 0x41, 0x54, 0x41] (b.length - 0x10) ∧
    u32 b 0x18 = 0x20 + 12 * a.sequences.length ∧ u32 b 0x1C = a.sequences.length := by
  obtain ⟨_, g1, g2, g3, g4, g5, _⟩ := SequenceArchive.ssar_header a b u names h
  unfold Model.SoundSequenceArchive.SSAR.save at h
  simp only [bind_eq_ok, pure_eq_ok, packStdHeader_eq_ok, packU_eq_ok, Prod.mk.injEq] at h
  obtain ⟨⟨data, table⟩, hp, _, ⟨hok, rfl⟩, _, ⟨h1, rfl⟩, _, ⟨h2, rfl⟩, _, ⟨h3, rfl⟩, hb, rfl, rfl⟩ := h
  have hat := header_at (hb.symm.trans (by rw [List.append_assoc, List.append_assoc]))
  refine ⟨headerIs hat hok rfl (size_of_unpack hat hok rfl g1) rfl, ⟨?_, (unpack4.1 g3).2.symm⟩, (unpack4.1 g4).2.symm,
    (unpack4.1 g5).2.symm⟩
  rw [← slice_bytesAt]; exact g2

/-- C100: banks; the eight words behind the block's header are reserved. -/
theorem sbnk_header (s : Model.SoundBank.SBNK) (b : Bytes) (u : Nat) (ids : List (Option Int)) (h : s.save = .ok (b, u, ids)) :
    HeaderIs b [0x53, 0x42, 0x4E, 0x4B] 0xFEFF 0x100 1 ∧ BlockIs b 0x10 [0x44, 0x41, 0x54, 0x41] (b.length - 0x10) ∧
    bytesAt b 0x18 32 = zeros 32 ∧ u32 b 0x38 = s.instruments.length := by
  obtain ⟨hs, e⟩ := Proofs.SoundBank.save_ok.1 h
  cases e
  have hl := Proofs.SoundBank.fileOf_length s
  have ht := hs.2.2
  have hat : At (Proofs.SoundBank.fileOf s) 0 (Proofs.SoundBank.fileOf s) := At.refl _
  conv at hat => arg 3; unfold Proofs.SoundBank.fileOf Proofs.SoundBank.headOf
  have hb : Proofs.SoundBank.baseOf s ≤ Proofs.SoundBank.totalOf s := by unfold Proofs.SoundBank.totalOf; omega
  unfold Proofs.SoundBank.baseOf at hb
  have a := At.split.1 (At.split.1 (At.split.1 (At.split.1 hat).1).1).1
  obtain ⟨a0, a1⟩ := a
  obtain ⟨⟨a1, a2⟩, a3⟩ := (At.split.1 a1).imp_left At.split.1
  simp only [stdHeaderBytes_length, List.length_append, enBytes_length, zeros_length,
    show Model.SoundBank.magicDATA.length = 4 from rfl] at a1 a2 a3
  rw [hl]
  exact ⟨headerIs a0 (StdHeader.ok_mk ht) rfl hl.symm rfl, blockIs a1 rfl (by omega), by simpa using bytesAt_at a2,
    u32_at a3 (by omega)⟩

/-- C100: textures; the only block is a texture block. -/
theorem nsbtx_header (t : Model.Texture.NSBTX) (b : Bytes) (h : Model.Texture.save t = .ok b) :
    HeaderIs b [0x42, 0x54, 0x58, 0x30] 0xFEFF 1 1 ∧ u32 b 0x10 = 0x14 ∧
    BlockIs b 0x14 [0x54, 0x45, 0x58, 0x30] (b.length - 0x14) := by
  unfold Model.Texture.save at h
  simp only [bind_eq_ok, pure_eq_ok, packStdHeader_eq_ok] at h
  obtain ⟨tex0, h1, _, ⟨hok, rfl⟩, rfl⟩ := h
  obtain ⟨tex, ti, pal, pi, size, _, _, _, _, hsize, hfit, hb⟩ := Proofs.Texture.saveTEX0_eq_ok h1
  have hlen : tex0.length = size := by
    rw [hb]
    simp only [List.length_append, structBytes_length, Model.Texture.headerFields, List.map_cons, List.map_nil, List.sum_cons,
      List.sum_nil, show Model.Texture.TEX0.length = 4 from rfl]
    omega
  have hsz : size < 2 ^ 32 := hfit.1
  generalize hH : stdHeaderBytes ⟨Model.Texture.BTX0, 0xFEFF, 1, 0x14 + tex0.length, 0x10, 1⟩ = H
  have hHl : H.length = 0x10 := by rw [← hH]; exact stdHeaderBytes_length _
  generalize hd : H ++ [0x14, 0, 0, 0] ++ tex0 = d
  have hat : At d 0 (H ++ [0x14, 0, 0, 0] ++ tex0) := by rw [hd]; exact At.refl _
  rw [hb, structBytes] at hat
  obtain ⟨hat, h2⟩ := At.split.1 hat
  obtain ⟨a1, a2⟩ := At.split.1 hat
  have h3 := (At.split.1 (At.split.1 h2).1)
  have h4 := (At.split.1 h3.2).1
  simp only [List.length_append, hHl, List.length_cons, List.length_nil, show Model.Texture.TEX0.length = 4 from rfl] at h3 h4 a2
  have hdl : d.length = 0x14 + tex0.length := by rw [← hd]; simp [hHl]; omega
  rw [hdl, hlen, Nat.add_sub_cancel_left]
  refine ⟨?_, ?_, ?_, ?_⟩
  · subst hH
    exact headerIs a1 hok rfl hdl.symm rfl
  · exact u32_at (n := 0x14) a2 (by decide)
  · exact bytesAt_at h3.1
  · exact u32_at h4 hsz

/-! ## Examples: what is saved in the examples of the other modules -/

example : ∃ b, Props.SoundBank.exBank.save = .ok (b, 0, [some 3, none, some 5]) ∧ u32 b 8 = 148 ∧ u32 b 0x14 = 132 ∧
    u32 b 0x38 = 5 := by
  refine ⟨(Props.SoundBank.exBank.save.toOption.map (·.1)).getD [], ?_⟩
  decide +kernel

example : ∃ b, Model.Texture.save Props.Texture.sample = .ok b := by
  have h : (Model.Texture.save Props.Texture.sample).toOption.isSome := by decide +kernel
  cases e : Model.Texture.save Props.Texture.sample with
  | ok b => exact ⟨b, rfl⟩
  | error _ => rw [e] at h; cases h

example : ∃ b, Props.SoundStream.exStream.save = .ok b ∧ BlockIs b 0x60 [0x44, 0x41, 0x54, 0x41] 28 := by
  refine ⟨(Props.SoundStream.exStream.save.toOption).getD [], ?_⟩
  unfold BlockIs
  decide +kernel

end Verif.Props.FormatHeader
