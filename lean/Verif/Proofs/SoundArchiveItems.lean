import Verif.Proofs.SoundArchiveInfo

/-!
# The items of a sound archive: what is stored, and what is read again
-/

namespace Verif.Proofs.SoundArchive

open Verif Verif.Model.SoundArchive Verif.Model.SoundStream Verif.Spec.SoundArchive

theorem idIn_single (l : Uses) (u : Bytes × Int) (x : Uses) : idIn l (u :: x) = (firstUses l).idxOf u := rfl

/-! ## Sequences -/

def seqFields (id : Nat) (x : SeqItem) : List (Nat × Nat) :=
  [(2, id), (2, x.unk02), (2, x.bankID), (1, x.volume), (1, x.channelPressure), (1, x.polyphonicPressure), (1, x.playerID)]

def seqCodec : Codec SeqItem where
  use x := [(x.file, x.mergeID)]
  enc id x := structBytes .little (seqFields id x) ++ zeros 2
  fits id x := Fits (seqFields id x)

theorem seqCodec_describes : seqCodec.Describes packSeq := by
  intro l x r
  unfold packSeq
  simp only [addFile_eq, bind_eq_ok, pure_eq_ok, packUs_eq_ok]
  constructor
  · rintro ⟨_, ⟨h, rfl⟩, rfl⟩; exact ⟨h, rfl⟩
  · rintro ⟨h, rfl⟩; exact ⟨_, ⟨h, rfl⟩, rfl⟩

theorem readSeq_at {data : Bytes} {F : List Bytes} {o id : Nat} {x : SeqItem} {f : Bytes}
    (h : At data o (seqCodec.enc id x)) (hf : seqCodec.fits id x) (hF : F[id]? = some f) :
    readSeq data F o = .ok { x with file := f, mergeID := (id : Int) } := by
  have h1 : At data o (structBytes .little (seqFields id x)) := (At.split.1 h).1
  have h2 : unpackUs .little [2, 2, 2, 1, 1, 1, 1] data o = _ := unpackUs_at h1 hf
  unfold readSeq
  rw [h2, bind_ok]
  show (pyIdx F id >>= _) = _
  rw [pyIdx_eq_ok.2 hF, bind_ok]
  rfl

/-! ## Sequence archives -/

def ssarFields (id : Nat) (x : SsarItem) : List (Nat × Nat) := [(2, id), (2, x.unk02)]

def ssarCodec : Codec SsarItem where
  use x := [(x.file, x.mergeID)]
  enc id x := structBytes .little (ssarFields id x)
  fits id x := Fits (ssarFields id x)

theorem ssarCodec_describes : ssarCodec.Describes packSsar := by
  intro l x r
  unfold packSsar
  simp only [addFile_eq, bind_eq_ok, pure_eq_ok, packUs_eq_ok]
  constructor
  · rintro ⟨_, ⟨h, rfl⟩, rfl⟩; exact ⟨h, rfl⟩
  · rintro ⟨h, rfl⟩; exact ⟨_, ⟨h, rfl⟩, rfl⟩

theorem readSsar_at {data : Bytes} {F : List Bytes} {names : List Symbol} {o id : Nat} {x : SsarItem} {f : Bytes}
    (h : At data o (ssarCodec.enc id x)) (hf : ssarCodec.fits id x) (hF : F[id]? = some f) :
    readSsar data F names o = .ok { x with file := f, mergeID := (id : Int), names := names } := by
  have h2 : unpackUs .little [2, 2] data o = _ := unpackUs_at (fs := ssarFields id x) h hf
  unfold readSsar
  rw [h2, bind_ok]
  show (pyIdx F id >>= _) = _
  rw [pyIdx_eq_ok.2 hF, bind_ok]
  rfl

/-! ## Banks -/

def bankFields (id : Nat) (x : BankItem) : List (Nat × Nat) := [(2, id), (2, x.unk02)]

/-- The four numbers of wave archives. -/
def fourIDs (l : List (Option Int)) : List Int := l.map (fun x => x.getD (-1)) ++ List.replicate (4 - l.length) (-1)

def bankCodec : Codec BankItem where
  use x := [(x.file, x.mergeID)]
  enc id x := structBytes .little (bankFields id x) ++
    ((fourIDs x.waveArchiveIDs).map fun z => enBytes .little 2 (signedRep 2 z)).flatten
  fits id x := Fits (bankFields id x) ∧ x.waveArchiveIDs.length ≤ 4 ∧
    ∀ z ∈ fourIDs x.waveArchiveIDs, -(256 ^ 2 : Nat) ≤ 2 * z ∧ 2 * z < (256 ^ 2 : Nat)

theorem fourIDs_length {l : List (Option Int)} (h : l.length ≤ 4) : (fourIDs l).length = 4 := by
  simp only [fourIDs, List.length_append, List.length_map, List.length_replicate]; omega

theorem swarIDs_eq_ok {l : List (Option Int)} {r : List Int} : swarIDs l = .ok r ↔ l.length ≤ 4 ∧ r = fourIDs l := by
  unfold swarIDs fourIDs
  dsimp only
  rw [List.length_map]
  constructor
  · intro h
    split at h
    · cases h
    · rename_i hn
      simp only [List.length_append, List.length_map, List.length_replicate] at hn
      cases h
      exact ⟨by omega, rfl⟩
  · rintro ⟨h, rfl⟩
    rw [if_neg (by simp only [List.length_append, List.length_map, List.length_replicate]; omega)]

theorem bankCodec_describes : bankCodec.Describes packBank := by
  intro l x r
  unfold packBank
  simp only [addFile_eq, bind_eq_ok, pure_eq_ok, packUs_eq_ok, swarIDs_eq_ok,
    mapE_eq_map (fun a b => packS_eq_ok (e := .little) (k := 2) (z := a) (bs := b))]
  constructor
  · rintro ⟨_, ⟨h1, rfl⟩, _, ⟨h2, rfl⟩, _, ⟨h3, rfl⟩, rfl⟩
    exact ⟨⟨h2, h1, h3⟩, rfl⟩
  · rintro ⟨⟨h2, h1, h3⟩, rfl⟩
    exact ⟨_, ⟨h1, rfl⟩, _, ⟨h2, rfl⟩, _, ⟨h3, rfl⟩, rfl⟩

/-- The wave archives of a bank as they are read again. -/
def fourSwars (l : List (Option Int)) : List (Option Int) :=
  (fourIDs l).map fun z => if z = -1 then none else some z

theorem readBank_at {data : Bytes} {F : List Bytes} {o id : Nat} {x : BankItem} {f : Bytes}
    (h : At data o (bankCodec.enc id x)) (hf : bankCodec.fits id x) (hF : F[id]? = some f) :
    readBank data F o = .ok { x with file := f, mergeID := (id : Int), waveArchiveIDs := fourSwars x.waveArchiveIDs } := by
  obtain ⟨hf1, hf2, hf3⟩ := hf
  have hs := At.split.1 h
  have h2 : unpackUs .little [2, 2] data o = _ := unpackUs_at (fs := bankFields id x) hs.1 hf1
  have h3 := hs.2
  rw [structBytes_length] at h3
  unfold readBank
  rw [h2, bind_ok]
  show (mapE _ (List.range 4) >>= fun ids => pyIdx F id >>= _) = _
  rw [mapE_range_eq (l := fourIDs x.waveArchiveIDs) (fourIDs_length hf2).symm (by
    intro i hi
    have := flatten_at (n := 2) (parts := (fourIDs x.waveArchiveIDs).map fun z => enBytes .little 2 (signedRep 2 z))
      (by intro p hp; obtain ⟨e, _, rfl⟩ := List.mem_map.1 hp; simp) (i := i) (by simpa using hi)
    have hz := h3.sub this
    rw [List.getElem_map] at hz
    obtain ⟨b1, b2⟩ := hf3 _ (List.getElem_mem hi)
    refine At.unpackS (hz.cast ?_) b1 b2
    show o + 4 + i * 2 = _
    omega), bind_ok, pyIdx_eq_ok.2 hF, bind_ok]
  rfl

/-! ## Wave archives -/

def swarFields (id : Nat) (x : SwarItem) : List (Nat × Nat) := [(2, id), (2, x.unk02)]

def swarCodec : Codec SwarItem where
  use x := [(x.file, x.mergeID)]
  enc id x := structBytes .little (swarFields id x)
  fits id x := Fits (swarFields id x)

theorem swarCodec_describes : swarCodec.Describes packSwar := by
  intro l x r
  unfold packSwar
  simp only [addFile_eq, bind_eq_ok, pure_eq_ok, packUs_eq_ok]
  constructor
  · rintro ⟨_, ⟨h, rfl⟩, rfl⟩; exact ⟨h, rfl⟩
  · rintro ⟨h, rfl⟩; exact ⟨_, ⟨h, rfl⟩, rfl⟩

theorem readSwar_at {data : Bytes} {F : List Bytes} {o id : Nat} {x : SwarItem} {f : Bytes}
    (h : At data o (swarCodec.enc id x)) (hf : swarCodec.fits id x) (hF : F[id]? = some f) :
    readSwar data F o = .ok { x with file := f, mergeID := (id : Int) } := by
  have h2 : unpackUs .little [2, 2] data o = _ := unpackUs_at (fs := swarFields id x) h hf
  unfold readSwar
  rw [h2, bind_ok]
  show (pyIdx F id >>= _) = _
  rw [pyIdx_eq_ok.2 hF, bind_ok]
  rfl

/-! ## Sequence players -/

def playerFields (x : SeqPlayer) : List (Nat × Nat) := [(2, x.maxSequences), (2, channelMask x.channels), (4, x.heapSize)]

def playerCodec : Codec SeqPlayer where
  use _ := []
  enc _ x := structBytes .little (playerFields x)
  fits _ x := Fits (playerFields x)

theorem playerCodec_describes : playerCodec.Describes packPlayer := by
  intro l x r
  unfold packPlayer
  simp only [bind_eq_ok, pure_eq_ok, packUs_eq_ok]
  have he : l ++ playerCodec.use x = l := List.append_nil l
  rw [he]
  constructor
  · rintro ⟨_, ⟨h, rfl⟩, rfl⟩; exact ⟨h, rfl⟩
  · rintro ⟨h, rfl⟩; exact ⟨_, ⟨h, rfl⟩, rfl⟩

theorem mask_testBit (cs : List Nat) (i : Nat) : ∀ (js : List Nat) (m : Nat),
    (js.foldl (fun m j => if j ∈ cs then m ||| (1 <<< j) else m) m).testBit i =
      (m.testBit i || (decide (i ∈ js) && decide (i ∈ cs)))
  | [], m => by simp
  | j :: js, m => by
    rw [List.foldl_cons, mask_testBit cs i js]
    by_cases hj : j ∈ cs
    · rw [if_pos hj, Nat.testBit_or, Nat.one_shiftLeft, Nat.testBit_two_pow]
      by_cases hij : j = i
      · subst hij; simp [hj]
      · have : ¬ i = j := fun h => hij h.symm
        simp [hij, this]
    · rw [if_neg hj]
      by_cases hij : i = j
      · subst hij; simp [hj]
      · simp [hij]

theorem channelMask_testBit (cs : List Nat) (i : Nat) : (channelMask cs).testBit i = (decide (i < 16) && decide (i ∈ cs)) := by
  unfold channelMask
  rw [mask_testBit]
  simp

theorem channelMask_lt (cs : List Nat) : channelMask cs < 2 ^ 16 := by
  apply Nat.lt_pow_two_of_testBit
  intro i hi
  rw [channelMask_testBit]
  have : ¬ i < 16 := by omega
  simp [this]

theorem readPlayer_at {data : Bytes} {o id : Nat} {x : SeqPlayer} (h : At data o (playerCodec.enc id x))
    (hf : playerCodec.fits id x) :
    readPlayer data o = .ok { x with channels := (List.range 16).filter fun i => i ∈ x.channels } := by
  have h2 : unpackUs .little [2, 2, 4] data o = _ := unpackUs_at (fs := playerFields x) h hf
  unfold readPlayer
  rw [h2, bind_ok]
  show Except.ok _ = Except.ok _
  congr 2
  refine List.filter_congr fun i hi => ?_
  have h3 := channelMask_testBit x.channels i
  have h4 : i < 16 := by simpa using hi
  rw [show decide (i < 16) = true by simpa using h4, Bool.true_and] at h3
  rw [← h3, Nat.testBit, Nat.and_comm]
  generalize 1 &&& channelMask x.channels >>> i = q
  by_cases hq : q = 0 <;> simp [hq]

/-! ## Groups -/

def groupCodec : Codec (List GroupEntry) where
  use _ := []
  enc _ g := enBytes .little 4 g.length ++
    (g.map fun e => enBytes .little 1 e.type ++ enBytes .little 2 e.save.2.1 ++ zeros 1 ++ enBytes .little 4 e.id).flatten
  fits _ g := g.length < 2 ^ 32 ∧ ∀ e ∈ g, e.type < 256 ∧ e.id < 2 ^ 32

theorem groupCodec_describes : groupCodec.Describes packGroupEntry := by
  intro l x r
  unfold packGroupEntry
  simp only [bind_eq_ok, pure_eq_ok, Verif.Proofs.SoundStream.packGroup_ok]
  have he : l ++ groupCodec.use x = l := List.append_nil l
  rw [he]
  constructor
  · rintro ⟨_, ⟨h, rfl⟩, rfl⟩; exact ⟨h, rfl⟩
  · rintro ⟨h, rfl⟩; exact ⟨_, ⟨h, rfl⟩, rfl⟩

theorem readGroup_at {data : Bytes} {o id : Nat} {g : List GroupEntry} (h : At data o (groupCodec.enc id g))
    (hf : groupCodec.fits id g) (hv : ∀ e ∈ g, e.type ≤ 3 ∧ e.loadSBNKSWARsFrom ≤ 1) : unpackGroup data o = .ok g :=
  Verif.Proofs.SoundStream.unpackGroup_at (Verif.Proofs.SoundStream.packGroup_ok.2 ⟨hf, rfl⟩) h hv

/-! ## Stream players -/

def channelBytes (cs : List Nat) : Bytes := (cs ++ List.replicate (16 - cs.length) 0xFF).map UInt8.ofNat

def streamPlayerCodec : Codec (List Nat) where
  use _ := []
  enc _ cs := padTo (UInt8.ofNat cs.length :: channelBytes cs ++ zeros 4) 4 0
  fits _ cs := cs.length < 256 ∧ ∀ c ∈ cs, c < 256

theorem streamPlayerCodec_describes : streamPlayerCodec.Describes packStreamPlayer := by
  intro l x r
  unfold packStreamPlayer
  simp only [bind_eq_ok, pure_eq_ok, byteOf_eq_ok, mapE_eq_map (fun _ _ => byteOf_eq_ok)]
  have he : l ++ streamPlayerCodec.use x = l := List.append_nil l
  rw [he]
  constructor
  · rintro ⟨_, ⟨h1, rfl⟩, _, ⟨h2, rfl⟩, rfl⟩
    exact ⟨⟨h1, fun c hc => h2 c (List.mem_append_left _ hc)⟩, rfl⟩
  · rintro ⟨⟨h1, h2⟩, rfl⟩
    refine ⟨_, ⟨h1, rfl⟩, _, ⟨?_, rfl⟩, rfl⟩
    intro c hc
    rcases List.mem_append.1 hc with hc | hc
    · exact h2 c hc
    · rw [List.eq_of_mem_replicate hc]; decide

theorem readBytes_at {data : Bytes} : ∀ {cs : List Nat} {o : Nat}, At data o (cs.map UInt8.ofNat) → (∀ c ∈ cs, c < 256) →
    unpackUs .little (List.replicate cs.length 1) data o = .ok cs
  | [], _, _, _ => rfl
  | c :: cs, o, h, hc => by
    have h' : At data o (enBytes .little 1 c ++ cs.map UInt8.ofNat) := h
    rw [At.split, enBytes_length] at h'
    rw [List.length_cons, List.replicate_succ, unpackUs, h'.1.unpackU (by have := hc c (by simp); omega), bind_ok,
      readBytes_at h'.2 (fun m hm => hc m (by simp [hm])), bind_ok]
    rfl

theorem readStreamPlayer_at {data : Bytes} {o id : Nat} {cs : List Nat} (h : At data o (streamPlayerCodec.enc id cs))
    (hf : streamPlayerCodec.fits id cs) : readStreamPlayer data o = .ok cs := by
  obtain ⟨h1, h2⟩ := hf
  have h' : At data o ((enBytes .little 1 cs.length ++ (cs.map UInt8.ofNat ++
      (List.replicate (16 - cs.length) 0xFF).map UInt8.ofNat)) ++ zeros 4 ++
      List.replicate (padLen (UInt8.ofNat cs.length :: channelBytes cs ++ zeros 4).length 4) 0) := by
    rw [← List.map_append]
    exact h
  rw [At.split, At.split, At.split, At.split, enBytes_length] at h'
  unfold readStreamPlayer
  rw [h'.1.1.1.unpackU (by omega), bind_ok]
  exact readBytes_at h'.1.1.2.1 h2

/-! ## Streams -/

def strmFields (id : Nat) (x : StrmItem) : List (Nat × Nat) :=
  [(2, id), (2, x.unk02), (1, x.volume), (1, x.priority), (1, x.playerID), (1, x.unk07)]

def strmCodec : Codec StrmItem where
  use x := [(x.file, x.mergeID)]
  enc id x := structBytes .little (strmFields id x) ++ zeros 4
  fits id x := Fits (strmFields id x)

theorem strmCodec_describes : strmCodec.Describes packStrm := by
  intro l x r
  unfold packStrm
  simp only [addFile_eq, bind_eq_ok, pure_eq_ok, packUs_eq_ok]
  constructor
  · rintro ⟨_, ⟨h, rfl⟩, rfl⟩; exact ⟨h, rfl⟩
  · rintro ⟨h, rfl⟩; exact ⟨_, ⟨h, rfl⟩, rfl⟩

theorem readStrm_at {data : Bytes} {F : List Bytes} {o id : Nat} {x : StrmItem} {f : Bytes}
    (h : At data o (strmCodec.enc id x)) (hf : strmCodec.fits id x) (hF : F[id]? = some f) :
    readStrm data F o = .ok { x with file := f, mergeID := (id : Int) } := by
  have h1 : At data o (structBytes .little (strmFields id x)) := (At.split.1 h).1
  have h2 : unpackUs .little [2, 2, 1, 1, 1, 1] data o = _ := unpackUs_at h1 hf
  unfold readStrm
  rw [h2, bind_ok]
  show (pyIdx F id >>= _) = _
  rw [pyIdx_eq_ok.2 hF, bind_ok]
  rfl

/-! ## The part of the sequence archives -/

/-- Reading the part with lists inside. -/
theorem readSsars_at {L : Uses} {items : List (Symbol × Option SsarItem)} {norm : List Symbol → SsarItem → SsarItem}
    {F : List Bytes} {data : Bytes} {B base start last last' : Nat} {symbOff : Option Nat} {syms : List (Symbol × List Symbol)}
    (hsym : readNestedOpt data B symbOff last = .ok (syms, last'))
    (hs : syms = items.map (fun p => (p.1, (p.2.map SsarItem.names).getD [])) ∨
      (syms = [] ∧ ∀ p ∈ items, p.1 = none))
    (hat : At data (base + start) (partBytes start (encAll ssarCodec L (items.map Prod.snd))))
    (hf : PartFits start (encAll ssarCodec L (items.map Prod.snd)))
    (hread : ∀ x, some x ∈ items.map Prod.snd → ∀ names o, At data o (ssarCodec.enc (idIn L (ssarCodec.use x)) x) →
      readSsar data F names o = .ok (norm names x)) :
    readSsars data F B symbOff base start last =
      .ok (items.map fun p => (p.1, p.2.map fun x => norm (if syms = [] then [] else x.names) x), last') := by
  unfold readSsars
  rw [hsym, bind_ok, entryOffsets_at hat hf, bind_ok]
  have hat' := hat
  unfold partBytes at hat'
  rw [At.split, List.length_append, enBytes_length, table_length, entryPlaces_length] at hat'
  have hat2 : At data (base + (start + 4 + 4 * (encAll ssarCodec L (items.map Prod.snd)).length))
      (entryBytes (encAll ssarCodec L (items.map Prod.snd))) := hat'.2.cast (by omega)
  dsimp only
  have hname : ∀ (i : Nat) p, items[i]? = some p → ((syms[i]?).map Prod.fst).getD none = p.1 := by
    intro i p hp
    rcases hs with rfl | ⟨rfl, hn⟩
    · simp [hp]
    · rw [hn p (List.mem_of_getElem? hp)]; rfl
  rw [part_loop (items := items.map Prod.snd)
    (r := items.map fun p => (p.1, p.2.map fun x => norm (if syms = [] then [] else x.names) x)) (by omega)
    hat2 (by simp [encAll]) (by simp) (by
      rcases hs with rfl | ⟨rfl, _⟩
      · left; simp
      · right; rfl), bind_ok]
  · rfl
  · intro i y hi
    have hi' := hi
    rw [List.getElem?_map, Option.map_eq_some_iff] at hi'
    obtain ⟨p, hp, hp2⟩ := hi'
    refine ⟨by simp [encAll, hp, hp2], ?_⟩
    intro hy
    rw [List.getElem?_map, hp] at hy
    cases hy
    dsimp only
    rw [hp2]
    simp only [readEntry, bind_ok, pure_def, hname i p hp]
    rfl
  · intro i x y hi
    have hi' := hi
    rw [List.getElem?_map, Option.map_eq_some_iff] at hi'
    obtain ⟨p, hp, hp2⟩ := hi'
    refine ⟨ssarCodec.enc (idIn L (ssarCodec.use x)) x, by simp [encAll, hp, hp2], ?_⟩
    intro o ho hato hy
    rw [List.getElem?_map, hp] at hy
    cases hy
    dsimp only
    rw [hp2]
    have hmem : some x ∈ items.map Prod.snd := List.mem_of_getElem? hi
    have hnames : ((syms[i]?).map Prod.snd).getD [] = if syms = [] then [] else x.names := by
      rcases hs with rfl | ⟨rfl, hn⟩
      · have : items ≠ [] := by rintro rfl; simp at hp
        simp [hp, hp2, this]
      · rfl
    obtain ⟨k, rfl⟩ := Nat.exists_eq_succ_of_ne_zero (by omega : o ≠ 0)
    simp only [readEntry, hread x hmem _ _ hato, bind_ok, pure_def, hname i p hp, hnames]
    rfl

end Verif.Proofs.SoundArchive
