import Verif.Proofs.SoundArchiveResave2
import Verif.Model.SoundBank

/-!
# Saving the objects of a loaded sound archive again

The same as for `readBack`, with the difference that the objects drop the padding of their files, and banks the empty slots
at the end.
-/

namespace Verif.Proofs.SoundArchive

open Verif Verif.Model.Common Verif.Model.SoundArchive Verif.Model.SoundStream Verif.Spec.SoundArchive

attribute [local irreducible] saved loadedFiles loadedFile fileID fatState firstUses allUses

def renewSeq (s : SDAT) (x : SeqItem) : SeqItem := { x with mergeID := (fileID s (x.file, x.mergeID) : Int) }
def renewSsar (s : SDAT) (x : SsarItem) : SsarItem := { x with mergeID := (fileID s (x.file, x.mergeID) : Int) }
def renewBank (s : SDAT) (x : BankItem) : BankItem := { x with
  mergeID := (fileID s (x.file, x.mergeID) : Int), waveArchiveIDs := Model.SoundBank.dropNones (fourSwars x.waveArchiveIDs) }
def renewSwar (s : SDAT) (x : SwarItem) : SwarItem := { x with mergeID := (fileID s (x.file, x.mergeID) : Int) }
def renewStrm (s : SDAT) (x : StrmItem) : StrmItem := { x with mergeID := (fileID s (x.file, x.mergeID) : Int) }

/-- What the objects of a loaded archive save to. -/
def renew (s : SDAT) (k : Nat) : SDAT := { readBack s k with
  sequences := s.sequences.map fun p => (p.1, p.2.map (renewSeq s))
  sequenceArchives := s.sequenceArchives.map fun p => (p.1, p.2.map (renewSsar s))
  banks := s.banks.map fun p => (p.1, p.2.map (renewBank s))
  waveArchives := s.waveArchives.map fun p => (p.1, p.2.map (renewSwar s))
  streams := s.streams.map fun p => (p.1, p.2.map (renewStrm s)) }

/-- What becomes of a use. -/
def renewUse (s : SDAT) (u : Bytes × Int) : Bytes × Int := (u.1, (fileID s u : Int))

theorem dropNones_split (l : List (Option Int)) : ∃ k, l = Model.SoundBank.dropNones l ++ List.replicate k none := by
  have key : ∀ l : List (Option Int), ∃ k, l = List.replicate k none ++ l.dropWhile Option.isNone := by
    intro l
    induction l with
    | nil => exact ⟨0, rfl⟩
    | cons x l ih =>
      cases x with
      | some z => exact ⟨0, rfl⟩
      | none =>
        obtain ⟨k, h1⟩ := ih
        refine ⟨k + 1, ?_⟩
        rw [List.replicate_succ, List.cons_append]
        simp only [List.dropWhile_cons, Option.isNone_none, if_true]
        rw [← h1]
  obtain ⟨k, h1⟩ := key l.reverse
  refine ⟨k, ?_⟩
  have := congrArg List.reverse h1
  rw [List.reverse_reverse, List.reverse_append, List.reverse_replicate] at this
  exact this

theorem fourIDs_renew {l : List (Option Int)} (h : l.length ≤ 4) :
    fourIDs (Model.SoundBank.dropNones (fourSwars l)) = fourIDs l ∧ (Model.SoundBank.dropNones (fourSwars l)).length ≤ 4 := by
  have h4 : (fourSwars l).length = 4 := by unfold fourSwars; rw [List.length_map, fourIDs_length h]
  have he := fourIDs_back h
  obtain ⟨k, hk⟩ := dropNones_split (fourSwars l)
  generalize Model.SoundBank.dropNones (fourSwars l) = m at hk
  have hl : m.length + k = 4 := by
    have := congrArg List.length hk
    rw [h4, List.length_append, List.length_replicate] at this
    omega
  refine ⟨?_, by omega⟩
  rw [← he, hk]
  unfold fourIDs
  rw [List.map_append, List.map_replicate, List.append_assoc, List.length_append, List.length_replicate]
  congr 1
  show _ = List.replicate k (-1) ++ _
  rw [List.replicate_append_replicate]
  congr 1
  omega

theorem renewUse_inj {s : SDAT} : ∀ a ∈ allUses s, ∀ b ∈ allUses s, renewUse s a = renewUse s b → a = b := by
  intro a ha b hb h
  have h' : fileID s a = fileID s b := by
    have := congrArg Prod.snd h
    have : ((fileID s a : Nat) : Int) = (fileID s b : Nat) := this
    omega
  unfold fileID at h'
  exact idxOf_inj (mem_firstUses.2 ha) h' (mem_firstUses.2 hb)

theorem allUses_renew (s : SDAT) (k : Nat) : allUses (renew s k) = (allUses s).map (renewUse s) := by
  have h0 : uses0 (renew s k) = (uses0 s).map (renewUse s) := usesOf_map (f := renewSeq s) (fun _ => rfl) _
  have h1 : uses1 (renew s k) = (uses1 s).map (renewUse s) :=
    usesOf_map (f := renewSsar s) (fun _ => rfl) _
  have h2 : uses2 (renew s k) = (uses2 s).map (renewUse s) := usesOf_map (f := renewBank s) (fun _ => rfl) _
  have h3 : uses3 (renew s k) = (uses3 s).map (renewUse s) := usesOf_map (f := renewSwar s) (fun _ => rfl) _
  have h4 : uses4 (renew s k) = (uses4 s).map (renewUse s) := usesOf_map (f := backPlayer) (fun _ => rfl) _
  have h5 : uses5 (renew s k) = [] := usesOf_nil (fun _ => rfl) _
  have h5' : uses5 s = [] := usesOf_nil (fun _ => rfl) _
  have h6 : uses6 (renew s k) = [] := usesOf_nil (fun _ => rfl) _
  have h6' : uses6 s = [] := usesOf_nil (fun _ => rfl) _
  have h7 : uses7 (renew s k) = (uses7 s).map (renewUse s) := usesOf_map (f := renewStrm s) (fun _ => rfl) _
  rw [allUses, allUses, h0, h1, h2, h3, h4, h5, h6, h7, h5', h6']
  simp only [List.map_append, List.map_nil]

theorem filesOf_renew (s : SDAT) (k : Nat) : filesOf (renew s k) = filesOf s := by
  unfold filesOf
  rw [allUses_renew, firstUses_map renewUse_inj, List.map_map]
  rfl

theorem idIn_renew {s : SDAT} {k : Nat} {u : Bytes × Int} (h : u ∈ allUses s) :
    (firstUses (allUses (renew s k))).idxOf (renewUse s u) = (firstUses (allUses s)).idxOf u := by
  rw [allUses_renew, firstUses_map renewUse_inj]
  refine idxOf_map fun a ha e => ?_
  exact renewUse_inj a (mem_firstUses.1 ha) u h e

section
variable {s : SDAT} {k : Nat}

theorem part0_renew : part0 (renew s k) = part0 s := by
  refine encAll_map (f := renewSeq s) fun x hx => ?_
  have : idIn (allUses (renew s k)) (seqCodec.use (renewSeq s x)) = _ := idIn_renew (mem_uses0 x hx)
  rw [this]; rfl

theorem part1_renew : part1 (renew s k) = part1 s := by
  refine encAll_map (f := renewSsar s) fun x hx => ?_
  have : idIn (allUses (renew s k)) (ssarCodec.use (renewSsar s x)) = _ :=
    idIn_renew (mem_uses1 x hx)
  rw [this]; rfl

theorem part2_renew (hI : ItemsFit s) : part2 (renew s k) = part2 s := by
  refine encAll_map (f := renewBank s) fun x hx => ?_
  have : idIn (allUses (renew s k)) (bankCodec.use (renewBank s x)) = _ := idIn_renew (mem_uses2 x hx)
  rw [this]
  have h4 : fourIDs (renewBank s x).waveArchiveIDs = fourIDs x.waveArchiveIDs := (fourIDs_renew (hI.f2 x hx).2.1).1
  show structBytes .little (bankFields _ _) ++ ((fourIDs (renewBank s x).waveArchiveIDs).map _).flatten = _
  rw [h4]; rfl

theorem part3_renew : part3 (renew s k) = part3 s := by
  refine encAll_map (f := renewSwar s) fun x hx => ?_
  have : idIn (allUses (renew s k)) (swarCodec.use (renewSwar s x)) = _ := idIn_renew (mem_uses3 x hx)
  rw [this]; rfl

theorem part4_renew : part4 (renew s k) = part4 s := by
  refine encAll_map (f := backPlayer) fun x hx => ?_
  show structBytes .little [_, (2, channelMask ((List.range 16).filter fun i => i ∈ x.channels)), _] = _
  rw [channelMask_back]; rfl

theorem part5_renew : part5 (renew s k) = part5 s := by
  refine List.map_congr_left fun x _ => ?_
  cases x <;> rfl

theorem part6_renew : part6 (renew s k) = part6 s := by
  refine List.map_congr_left fun x _ => ?_
  cases x <;> rfl

theorem part7_renew : part7 (renew s k) = part7 s := by
  refine encAll_map (f := renewStrm s) fun x hx => ?_
  have : idIn (allUses (renew s k)) (strmCodec.use (renewStrm s x)) = _ := idIn_renew (mem_uses7 x hx)
  rw [this]; rfl

theorem bodies_renew (hI : ItemsFit s) : body1 (renew s k) = body1 s ∧ body2 (renew s k) = body2 s ∧ body3 (renew s k) = body3 s ∧
    body4 (renew s k) = body4 s ∧ body5 (renew s k) = body5 s ∧ body6 (renew s k) = body6 s ∧
    body7 (renew s k) = body7 s ∧ body8 (renew s k) = body8 s := by
  have b1 : body1 (renew s k) = body1 s := by unfold body1; rw [part0_renew]
  have b2 : body2 (renew s k) = body2 s := by unfold body2; rw [b1, part1_renew]
  have b3 : body3 (renew s k) = body3 s := by unfold body3; rw [b2, part2_renew hI]
  have b4 : body4 (renew s k) = body4 s := by unfold body4; rw [b3, part3_renew]
  have b5 : body5 (renew s k) = body5 s := by unfold body5; rw [b4, part4_renew]
  have b6 : body6 (renew s k) = body6 s := by unfold body6; rw [b5, part5_renew]
  have b7 : body7 (renew s k) = body7 s := by unfold body7; rw [b6, part6_renew]
  have b8 : body8 (renew s k) = body8 s := by unfold body8; rw [b7, part7_renew]
  exact ⟨b1, b2, b3, b4, b5, b6, b7, b8⟩

theorem infoBytes_renew (hI : ItemsFit s) : infoBytes (renew s k) = infoBytes s := by
  obtain ⟨b1, b2, b3, b4, b5, b6, b7, b8⟩ := bodies_renew (k := k) hI
  unfold infoBytes infoHeads
  rw [b1, b2, b3, b4, b5, b6, b7, b8]

theorem partsFit_renew (hI : ItemsFit s) (hP : PartsFit s) : PartsFit (renew s k) := by
  obtain ⟨b1, b2, b3, b4, b5, b6, b7, b8⟩ := bodies_renew (k := k) hI
  constructor
  · rw [part0_renew]; exact hP.p0
  · rw [b1, part1_renew]; exact hP.p1
  · rw [b2, part2_renew hI]; exact hP.p2
  · rw [b3, part3_renew]; exact hP.p3
  · rw [b4, part4_renew]; exact hP.p4
  · rw [b5, part5_renew]; exact hP.p5
  · rw [b6, part6_renew]; exact hP.p6
  · rw [b7, part7_renew]; exact hP.p7
  · rw [b8]; exact hP.total

theorem itemsFit_renew (hI : ItemsFit s) : ItemsFit (renew s k) := by
  constructor
  · intro y hy
    obtain ⟨x, hx, rfl⟩ := mem_map_snd (f := renewSeq s) hy
    have : idIn (allUses (renew s k)) (seqCodec.use (renewSeq s x)) = _ := idIn_renew (mem_uses0 x hx)
    rw [this]; exact hI.f0 x hx
  · intro y hy
    obtain ⟨x, hx, rfl⟩ := mem_map_snd (f := renewSsar s) hy
    have : idIn (allUses (renew s k)) (ssarCodec.use (renewSsar s x)) = _ :=
      idIn_renew (mem_uses1 x hx)
    rw [this]; exact hI.f1 x hx
  · intro y hy
    obtain ⟨x, hx, rfl⟩ := mem_map_snd (f := renewBank s) hy
    have : idIn (allUses (renew s k)) (bankCodec.use (renewBank s x)) = _ := idIn_renew (mem_uses2 x hx)
    rw [this]
    obtain ⟨f1, f2, f3⟩ := hI.f2 x hx
    have h4 : fourIDs (renewBank s x).waveArchiveIDs = fourIDs x.waveArchiveIDs := (fourIDs_renew f2).1
    refine ⟨f1, ?_, ?_⟩
    · exact (fourIDs_renew f2).2
    · rw [h4]; exact f3
  · intro y hy
    obtain ⟨x, hx, rfl⟩ := mem_map_snd (f := renewSwar s) hy
    have : idIn (allUses (renew s k)) (swarCodec.use (renewSwar s x)) = _ := idIn_renew (mem_uses3 x hx)
    rw [this]; exact hI.f3 x hx
  · intro y hy
    obtain ⟨x, hx, rfl⟩ := mem_map_snd (f := backPlayer) hy
    have := hI.f4 x hx
    show Fits [_, (2, channelMask ((List.range 16).filter fun i => i ∈ x.channels)), _]
    rw [channelMask_back]; exact this
  · intro y hy
    exact hI.f5 y hy
  · intro y hy
    exact hI.f6 y hy
  · intro y hy
    obtain ⟨x, hx, rfl⟩ := mem_map_snd (f := renewStrm s) hy
    have : idIn (allUses (renew s k)) (strmCodec.use (renewStrm s x)) = _ := idIn_renew (mem_uses7 x hx)
    rw [this]; exact hI.f7 x hx

theorem ssarNames_renew : ssarNames (renew s k) = ssarNames s := by
  unfold ssarNames renew
  rw [List.map_map]
  refine List.map_congr_left fun p _ => ?_
  simp only [Function.comp_apply, Option.map_map]
  rfl

theorem syms_renew : symbolsOf (renew s k).sequences = symbolsOf s.sequences ∧
    symbolsOf (renew s k).banks = symbolsOf s.banks ∧ symbolsOf (renew s k).waveArchives = symbolsOf s.waveArchives ∧
    symbolsOf (renew s k).sequencePlayers = symbolsOf s.sequencePlayers ∧
    symbolsOf (renew s k).streams = symbolsOf s.streams :=
  ⟨symbolsOf_map _ _, symbolsOf_map _ _, symbolsOf_map _ _, symbolsOf_map _ _, symbolsOf_map _ _⟩

theorem allSyms_renew : allSyms (renew s k) = allSyms s := by
  obtain ⟨e0, e2, e3, e4, e7⟩ := syms_renew (s := s) (k := k)
  unfold allSyms
  rw [e0, e2, e3, e4, e7, ssarNames_renew]
  rfl

theorem hasSyms_renew : hasSyms (renew s k) = hasSyms s := by
  unfold hasSyms; rw [allSyms_renew]

theorem symb8_renew : symb8 (renew s k) = symb8 s ∧ symbHeads (renew s k) = symbHeads s := by
  obtain ⟨e0, e2, e3, e4, e7⟩ := syms_renew (s := s) (k := k)
  have s1 : symb1 (renew s k) = symb1 s := by unfold symb1; rw [e0]
  have s2 : symb2 (renew s k) = symb2 s := by unfold symb2; rw [s1, ssarNames_renew]
  have s3 : symb3 (renew s k) = symb3 s := by unfold symb3; rw [s2, e2]
  have s4 : symb4 (renew s k) = symb4 s := by unfold symb4; rw [s3, e3]
  have s5 : symb5 (renew s k) = symb5 s := by unfold symb5; rw [s4, e4]
  have s6 : symb6 (renew s k) = symb6 s := by unfold symb6; rw [s5]; rfl
  have s7 : symb7 (renew s k) = symb7 s := by unfold symb7; rw [s6]; rfl
  have s8 : symb8 (renew s k) = symb8 s := by unfold symb8; rw [s7, e7]
  refine ⟨s8, ?_⟩
  unfold symbHeads
  rw [s1, s2, s3, s4, s5, s6, s7]

theorem symbSize_renew : symbSize (renew s k) = symbSize s := by
  unfold symbSize symbT
  rw [symb8_renew.1]

theorem symbData_renew : symbData (renew s k) = symbData s := by
  unfold symbData
  rw [hasSyms_renew]
  unfold symbBytes symbSize symbT
  rw [symb8_renew.1, symb8_renew.2]

theorem symbHeadSize_renew : symbHeadSize (renew s (if hasSyms s = true then symbSize s else 0)) = symbHeadSize s := by
  by_cases h : hasSyms s = true
  · have e1 : (renew s (if hasSyms s = true then symbSize s else 0)).padSymbSizeTo4InSDATHeader =
        decide (symbHeadSize s % 4 = 0 ∧ symbSize s % 4 ≠ 0) := by rw [if_pos h]; rfl
    have e2 : symbHeadSize s = if s.padSymbSizeTo4InSDATHeader = true then ceilTo 4 (symbSize s) else symbSize s := by
      unfold symbHeadSize; rw [if_pos h]
    have e3 : symbHeadSize (renew s (if hasSyms s = true then symbSize s else 0)) =
        if (renew s (if hasSyms s = true then symbSize s else 0)).padSymbSizeTo4InSDATHeader = true
          then ceilTo 4 (symbSize s) else symbSize s := by
      conv => lhs; unfold symbHeadSize
      rw [hasSyms_renew, if_pos h, symbSize_renew]
    rw [e3, e1]
    simp only [decide_eq_true_eq]
    have h4 : ceilTo 4 (symbSize s) % 4 = 0 := Nat.mod_eq_zero_of_dvd (ceilTo_dvd 4 _)
    by_cases hs : s.padSymbSizeTo4InSDATHeader = true
    · rw [if_pos hs] at e2
      rw [e2]
      by_cases h5 : symbSize s % 4 = 0
      · rw [if_neg (fun h => h.2 h5)]
        exact (ceilTo_eq (by omega) (Nat.dvd_of_mod_eq_zero h5) (Nat.le_refl _) (by omega)).symm
      · rw [if_pos ⟨h4, h5⟩]
    · rw [if_neg hs] at e2
      rw [e2, if_neg (fun h => h.2 h.1)]
  · unfold symbHeadSize
    rw [hasSyms_renew, if_neg h, if_neg h]

end

end Verif.Proofs.SoundArchive
