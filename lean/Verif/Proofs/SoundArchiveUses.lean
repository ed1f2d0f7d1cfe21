import Verif.Proofs.SoundArchiveBack

/-!
# A loaded sound archive refers to its files as the saved one did
-/

namespace Verif.Proofs.SoundArchive

open Verif Verif.Model.Common Verif.Model.SoundArchive Verif.Model.SoundStream Verif.Spec.SoundArchive

attribute [local irreducible] saved loadedFiles loadedFile fileID fatState firstUses allUses

/-! ## Images of lists without repetitions -/

theorem mem_map_inj {α β : Type} {g : α → β} {l : List α} {x : α} (hg : ∀ a ∈ l, g a = g x → a = x) : g x ∈ l.map g ↔ x ∈ l := by
  constructor
  · intro h
    obtain ⟨a, ha, e⟩ := List.mem_map.1 h
    rw [← hg a ha e]; exact ha
  · exact List.mem_map_of_mem

theorem firstUses_map {α β : Type} [DecidableEq α] [DecidableEq β] {g : α → β} {l : List α}
    (hg : ∀ a ∈ l, ∀ b ∈ l, g a = g b → a = b) : firstUses (l.map g) = (firstUses l).map g := by
  induction l using snocInduction with
  | nil => rw [List.map_nil, firstUses_nil, firstUses_nil]; rfl
  | append_singleton l x ih =>
    have ih := ih fun a ha b hb => hg a (by simp [ha]) b (by simp [hb])
    rw [List.map_append, List.map_singleton, firstUses_snoc, firstUses_snoc, ih]
    have hm : g x ∈ l.map g ↔ x ∈ l := mem_map_inj fun a ha e => hg a (by simp [ha]) x (by simp) e
    by_cases h : x ∈ l
    · rw [if_pos h, if_pos (hm.2 h)]
    · rw [if_neg h, if_neg (fun h' => h (hm.1 h')), List.map_append]; rfl

theorem idxOf_map {α β : Type} [BEq α] [LawfulBEq α] [BEq β] [LawfulBEq β] {g : α → β} {x : α} : ∀ {l : List α},
    (∀ a ∈ l, g a = g x → a = x) → (l.map g).idxOf (g x) = l.idxOf x
  | [], _ => rfl
  | a :: l, h => by
    rw [List.map_cons, List.idxOf_cons, List.idxOf_cons]
    by_cases e : a = x
    · subst e; simp
    · have e' : g a ≠ g x := fun e' => e (h a (by simp) e')
      rw [idxOf_map fun b hb => h b (by simp [hb])]
      have b1 : (a == x) = false := beq_false_of_ne e
      have b2 : (g a == g x) = false := beq_false_of_ne e'
      rw [b1, b2]

theorem idxOf_inj {α : Type} [BEq α] [LawfulBEq α] {l : List α} {a b : α} (ha : a ∈ l) (h : l.idxOf a = l.idxOf b)
    (hb : b ∈ l) : a = b := by
  have h1 := List.getElem_idxOf (List.idxOf_lt_length_of_mem ha)
  have h2 := List.getElem_idxOf (List.idxOf_lt_length_of_mem hb)
  rw [← h1, ← h2]
  congr 1

theorem idxOf_getElem_nodup {α : Type} [BEq α] [LawfulBEq α] {l : List α} (hn : l.Nodup) {i : Nat} (hi : i < l.length) :
    l.idxOf l[i] = i := by
  have h1 := List.idxOf_lt_length_of_mem (List.getElem_mem hi)
  have h2 := List.getElem_idxOf h1
  exact (List.getElem_inj hn).1 h2

/-! ## The uses of a loaded archive -/

/-- What becomes of a use. -/
def backUse (s : SDAT) (u : Bytes × Int) : Bytes × Int := (loadedFile s u, (fileID s u : Int))

theorem backUse_inj {s : SDAT} : ∀ a ∈ allUses s, ∀ b ∈ allUses s, backUse s a = backUse s b → a = b := by
  intro a ha b hb h
  have h' : fileID s a = fileID s b := by
    have := congrArg Prod.snd h
    have : ((fileID s a : Nat) : Int) = (fileID s b : Nat) := this
    omega
  unfold fileID at h'
  exact idxOf_inj (mem_firstUses.2 ha) h' (mem_firstUses.2 hb)

theorem usesOf_map {α : Type} {c : Codec α} {g : Bytes × Int → Bytes × Int} {f : α → α} (h : ∀ x, c.use (f x) = (c.use x).map g)
    (items : List (Symbol × Option α)) :
    usesOf c ((items.map fun p => (p.1, p.2.map f)).map Prod.snd) = (usesOf c (items.map Prod.snd)).map g := by
  induction items with
  | nil => rfl
  | cons p items ih =>
    obtain ⟨n, x⟩ := p
    cases x with
    | none => exact ih
    | some x =>
      simp only [List.map_cons, Option.map_some] at ih ⊢
      rw [usesOf_some, usesOf_some, ih, List.map_append, h]

theorem usesOf_nil {α : Type} {c : Codec α} (h : ∀ x, c.use x = []) (items : List (Option α)) : usesOf c items = [] := by
  induction items with
  | nil => rfl
  | cons x items ih =>
    cases x with
    | none => rw [usesOf_none, ih]
    | some x => rw [usesOf_some, ih, h]; rfl

theorem allUses_back (s : SDAT) (k : Nat) : allUses (readBack s k) = (allUses s).map (backUse s) := by
  have h0 : uses0 (readBack s k) = (uses0 s).map (backUse s) := usesOf_map (f := backSeq s) (fun _ => rfl) _
  have h1 : uses1 (readBack s k) = (uses1 s).map (backUse s) :=
    usesOf_map (f := fun x => backSsar s (if hasSyms s = true then x.names else []) x) (fun _ => rfl) _
  have h2 : uses2 (readBack s k) = (uses2 s).map (backUse s) := usesOf_map (f := backBank s) (fun _ => rfl) _
  have h3 : uses3 (readBack s k) = (uses3 s).map (backUse s) := usesOf_map (f := backSwar s) (fun _ => rfl) _
  have h4 : uses4 (readBack s k) = (uses4 s).map (backUse s) := usesOf_map (f := backPlayer) (fun _ => rfl) _
  have h5 : uses5 (readBack s k) = [] := usesOf_nil (fun _ => rfl) _
  have h5' : uses5 s = [] := usesOf_nil (fun _ => rfl) _
  have h6 : uses6 (readBack s k) = [] := usesOf_nil (fun _ => rfl) _
  have h6' : uses6 s = [] := usesOf_nil (fun _ => rfl) _
  have h7 : uses7 (readBack s k) = (uses7 s).map (backUse s) := usesOf_map (f := backStrm s) (fun _ => rfl) _
  rw [allUses, allUses, h0, h1, h2, h3, h4, h5, h6, h7, h5', h6']
  simp only [List.map_append, List.map_nil]

theorem filesOf_back (s : SDAT) (k : Nat) : filesOf (readBack s k) = loadedFiles s := by
  unfold filesOf
  rw [allUses_back, firstUses_map backUse_inj, List.map_map]
  refine List.ext_getElem (by simp [loadedFiles_length]) ?_
  intro i h1 h2
  rw [List.getElem_map]
  rw [List.length_map] at h1
  show loadedFile s _ = _
  unfold loadedFile
  rw [idxOf_getElem_nodup (firstUses_nodup _) h1, List.getElem?_eq_getElem h2]
  rfl

theorem idIn_back {s : SDAT} {k : Nat} {u : Bytes × Int} (h : u ∈ allUses s) :
    (firstUses (allUses (readBack s k))).idxOf (backUse s u) = (firstUses (allUses s)).idxOf u := by
  rw [allUses_back, firstUses_map backUse_inj]
  refine idxOf_map fun a ha e => ?_
  exact backUse_inj a (mem_firstUses.1 ha) u h e

/-! ## The INFO block of a loaded archive -/

theorem encAll_map {α : Type} {c : Codec α} {L L' : Uses} {f : α → α} {items : List (Symbol × Option α)}
    (h : ∀ x, some x ∈ items.map Prod.snd → c.enc (idIn L' (c.use (f x))) (f x) = c.enc (idIn L (c.use x)) x) :
    encAll c L' ((items.map fun p => (p.1, p.2.map f)).map Prod.snd) = encAll c L (items.map Prod.snd) := by
  unfold encAll
  rw [List.map_map, List.map_map, List.map_map]
  refine List.map_congr_left fun p hp => ?_
  simp only [Function.comp_apply, Option.map_map]
  cases hx : p.2 with
  | none => rfl
  | some x =>
    simp only [Option.map_some, Function.comp_apply]
    rw [h x (by rw [← hx]; exact List.mem_map_of_mem hp)]

theorem fourIDs_back {l : List (Option Int)} (h : l.length ≤ 4) : fourIDs (fourSwars l) = fourIDs l := by
  have h1 := fourIDs_length h
  unfold fourSwars
  generalize fourIDs l = m at h1
  unfold fourIDs
  rw [List.length_map, h1, Nat.sub_self, List.replicate_zero, List.append_nil, List.map_map]
  conv => rhs; rw [← List.map_id m]
  refine List.map_congr_left fun z _ => ?_
  simp only [Function.comp_apply, id]
  split
  · rename_i h; rw [h]; rfl
  · rfl

theorem channelMask_back (cs : List Nat) : channelMask ((List.range 16).filter fun i => i ∈ cs) = channelMask cs := by
  refine Nat.eq_of_testBit_eq fun i => ?_
  rw [channelMask_testBit, channelMask_testBit]
  by_cases h : i < 16 <;> simp [h]

section
variable {s : SDAT} {k : Nat}

theorem part0_back : part0 (readBack s k) = part0 s := by
  refine encAll_map (f := backSeq s) fun x hx => ?_
  have : idIn (allUses (readBack s k)) (seqCodec.use (backSeq s x)) = _ := idIn_back (mem_uses0 x hx)
  rw [this]; rfl

theorem part1_back : part1 (readBack s k) = part1 s := by
  refine encAll_map (f := fun x => backSsar s (if hasSyms s = true then x.names else []) x) fun x hx => ?_
  have : idIn (allUses (readBack s k)) (ssarCodec.use (backSsar s (if hasSyms s = true then x.names else []) x)) = _ :=
    idIn_back (mem_uses1 x hx)
  rw [this]; rfl

theorem part2_back (hI : ItemsFit s) : part2 (readBack s k) = part2 s := by
  refine encAll_map (f := backBank s) fun x hx => ?_
  have : idIn (allUses (readBack s k)) (bankCodec.use (backBank s x)) = _ := idIn_back (mem_uses2 x hx)
  rw [this]
  have h4 : fourIDs (backBank s x).waveArchiveIDs = fourIDs x.waveArchiveIDs := fourIDs_back (hI.f2 x hx).2.1
  show structBytes .little (bankFields _ _) ++ ((fourIDs (backBank s x).waveArchiveIDs).map _).flatten = _
  rw [h4]; rfl

theorem part3_back : part3 (readBack s k) = part3 s := by
  refine encAll_map (f := backSwar s) fun x hx => ?_
  have : idIn (allUses (readBack s k)) (swarCodec.use (backSwar s x)) = _ := idIn_back (mem_uses3 x hx)
  rw [this]; rfl

theorem part4_back : part4 (readBack s k) = part4 s := by
  refine encAll_map (f := backPlayer) fun x hx => ?_
  show structBytes .little [_, (2, channelMask ((List.range 16).filter fun i => i ∈ x.channels)), _] = _
  rw [channelMask_back]; rfl

theorem part5_back : part5 (readBack s k) = part5 s := by
  refine List.map_congr_left fun x _ => ?_
  cases x <;> rfl

theorem part6_back : part6 (readBack s k) = part6 s := by
  refine List.map_congr_left fun x _ => ?_
  cases x <;> rfl

theorem part7_back : part7 (readBack s k) = part7 s := by
  refine encAll_map (f := backStrm s) fun x hx => ?_
  have : idIn (allUses (readBack s k)) (strmCodec.use (backStrm s x)) = _ := idIn_back (mem_uses7 x hx)
  rw [this]; rfl

theorem bodies_back (hI : ItemsFit s) : body1 (readBack s k) = body1 s ∧ body2 (readBack s k) = body2 s ∧ body3 (readBack s k) = body3 s ∧
    body4 (readBack s k) = body4 s ∧ body5 (readBack s k) = body5 s ∧ body6 (readBack s k) = body6 s ∧
    body7 (readBack s k) = body7 s ∧ body8 (readBack s k) = body8 s := by
  have b1 : body1 (readBack s k) = body1 s := by unfold body1; rw [part0_back]
  have b2 : body2 (readBack s k) = body2 s := by unfold body2; rw [b1, part1_back]
  have b3 : body3 (readBack s k) = body3 s := by unfold body3; rw [b2, part2_back hI]
  have b4 : body4 (readBack s k) = body4 s := by unfold body4; rw [b3, part3_back]
  have b5 : body5 (readBack s k) = body5 s := by unfold body5; rw [b4, part4_back]
  have b6 : body6 (readBack s k) = body6 s := by unfold body6; rw [b5, part5_back]
  have b7 : body7 (readBack s k) = body7 s := by unfold body7; rw [b6, part6_back]
  have b8 : body8 (readBack s k) = body8 s := by unfold body8; rw [b7, part7_back]
  exact ⟨b1, b2, b3, b4, b5, b6, b7, b8⟩

theorem infoBytes_back (hI : ItemsFit s) : infoBytes (readBack s k) = infoBytes s := by
  obtain ⟨b1, b2, b3, b4, b5, b6, b7, b8⟩ := bodies_back (k := k) hI
  unfold infoBytes infoHeads
  rw [b1, b2, b3, b4, b5, b6, b7, b8]

theorem partsFit_back (hI : ItemsFit s) (hP : PartsFit s) : PartsFit (readBack s k) := by
  obtain ⟨b1, b2, b3, b4, b5, b6, b7, b8⟩ := bodies_back (k := k) hI
  constructor
  · rw [part0_back]; exact hP.p0
  · rw [b1, part1_back]; exact hP.p1
  · rw [b2, part2_back hI]; exact hP.p2
  · rw [b3, part3_back]; exact hP.p3
  · rw [b4, part4_back]; exact hP.p4
  · rw [b5, part5_back]; exact hP.p5
  · rw [b6, part6_back]; exact hP.p6
  · rw [b7, part7_back]; exact hP.p7
  · rw [b8]; exact hP.total

theorem mem_map_snd {α : Type} {f : α → α} {items : List (Symbol × Option α)} {y : α}
    (h : some y ∈ (items.map fun p => (p.1, p.2.map f)).map Prod.snd) : ∃ x, some x ∈ items.map Prod.snd ∧ y = f x := by
  rw [List.map_map] at h
  obtain ⟨p, hp, e⟩ := List.mem_map.1 h
  simp only [Function.comp_apply] at e
  cases hx : p.2 with
  | none => rw [hx] at e; cases e
  | some x => rw [hx] at e; cases e; exact ⟨x, by rw [← hx]; exact List.mem_map_of_mem hp, rfl⟩

theorem itemsFit_back (hI : ItemsFit s) : ItemsFit (readBack s k) := by
  constructor
  · intro y hy
    obtain ⟨x, hx, rfl⟩ := mem_map_snd (f := backSeq s) hy
    have : idIn (allUses (readBack s k)) (seqCodec.use (backSeq s x)) = _ := idIn_back (mem_uses0 x hx)
    rw [this]; exact hI.f0 x hx
  · intro y hy
    obtain ⟨x, hx, rfl⟩ := mem_map_snd (f := fun x => backSsar s (if hasSyms s = true then x.names else []) x) hy
    have : idIn (allUses (readBack s k)) (ssarCodec.use (backSsar s (if hasSyms s = true then x.names else []) x)) = _ :=
      idIn_back (mem_uses1 x hx)
    rw [this]; exact hI.f1 x hx
  · intro y hy
    obtain ⟨x, hx, rfl⟩ := mem_map_snd (f := backBank s) hy
    have : idIn (allUses (readBack s k)) (bankCodec.use (backBank s x)) = _ := idIn_back (mem_uses2 x hx)
    rw [this]
    obtain ⟨f1, f2, f3⟩ := hI.f2 x hx
    have h4 : fourIDs (backBank s x).waveArchiveIDs = fourIDs x.waveArchiveIDs := fourIDs_back f2
    refine ⟨f1, ?_, ?_⟩
    · show (fourSwars x.waveArchiveIDs).length ≤ 4
      unfold fourSwars
      rw [List.length_map, fourIDs_length f2]
      omega
    · rw [h4]; exact f3
  · intro y hy
    obtain ⟨x, hx, rfl⟩ := mem_map_snd (f := backSwar s) hy
    have : idIn (allUses (readBack s k)) (swarCodec.use (backSwar s x)) = _ := idIn_back (mem_uses3 x hx)
    rw [this]; exact hI.f3 x hx
  · intro y hy
    obtain ⟨x, hx, rfl⟩ := mem_map_snd (f := backPlayer) hy
    have := hI.f4 x hx
    show Fits [_, (2, channelMask ((List.range 16).filter fun i => i ∈ x.channels)), _]
    rw [channelMask_back]; exact this
  · intro y hy
    exact hI.f5 y hy
  · intro y hy
    exact hI.f6 y hy
  · intro y hy
    obtain ⟨x, hx, rfl⟩ := mem_map_snd (f := backStrm s) hy
    have : idIn (allUses (readBack s k)) (strmCodec.use (backStrm s x)) = _ := idIn_back (mem_uses7 x hx)
    rw [this]; exact hI.f7 x hx

end

end Verif.Proofs.SoundArchive
