import Verif.Props.SoundArchiveSave
import Verif.Spec.SoundArchiveReader

/-!
# Everything that is loaded from any sound archive (C90)
-/

namespace Verif.Props.SoundArchive

open Verif Verif.Model.Common Verif.Model.SoundArchive Verif.Model.SoundStream Verif.Spec.SoundArchive Verif.Proofs.SoundArchive

theorem leVal_of_unpack {d : Bytes} {k o n : Nat} (h : unpackU .little k d o = .ok n) : n = leVal (slice d o (o + k)) :=
  (unpackU_eq_ok.1 h).2

theorem unpackUs_replicate {d : Bytes} {k : Nat} : ∀ {n o : Nat} {x : List Nat}, unpackUs .little (List.replicate n k) d o = .ok x →
    x = (List.range n).map fun i => leVal (slice d (o + k * i) (o + k * i + k))
  | 0, o, x, h => by cases h; rfl
  | n + 1, o, x, h => by
    rw [List.replicate_succ, unpackUs] at h
    simp only [bind_eq_ok, pure_eq_ok] at h
    obtain ⟨v, hv, vs, hvs, rfl⟩ := h
    rw [unpackUs_replicate hvs, leVal_of_unpack hv, List.range_succ_eq_map, List.map_cons, List.map_map]
    congr 1
    refine List.map_congr_left fun i _ => ?_
    simp only [Function.comp_apply, Nat.succ_eq_add_one, Nat.mul_add, Nat.mul_one]
    rw [show o + k + k * i = o + (k * i + k) by omega]

theorem loadString_eq (d : Bytes) (o : Nat) : loadString d o = Reader.textAt d o := by
  unfold loadString Reader.textAt latin1Decode
  congr 1
  split
  · rfl
  · unfold slice
    rw [List.dropLast_eq_take, List.length_drop]
    congr 1
    omega

theorem readSymbol_eq {d : Bytes} {block off last : Nat} {r : Symbol × Nat} (h : readSymbol d block off last = .ok r)
    (hb : block = Reader.symbBlock d) : r.1 = Reader.nameOf d (Reader.u32 d off) := by
  unfold readSymbol at h
  rw [bind_eq_ok] at h
  obtain ⟨o, ho, h⟩ := h
  have ho : o = Reader.u32 d off := leVal_of_unpack ho
  subst ho
  unfold Reader.nameOf
  split at h
  · cases h; rw [if_pos ‹_›]
  · cases h
    rw [if_neg ‹_›, loadString_eq, hb]

theorem readSymbols_eq {d : Bytes} {block : Nat} (hb : block = Reader.symbBlock d) : ∀ {n off last : Nat} {r : List Symbol × Nat},
    readSymbols d block n off last = .ok r → r.1 = (List.range n).map fun i => Reader.nameOf d (Reader.u32 d (off + 4 * i))
  | 0, _, _, r, h => by cases h; rfl
  | n + 1, off, last, r, h => by
    rw [readSymbols] at h
    simp only [bind_eq_ok, pure_eq_ok] at h
    obtain ⟨r1, h1, r2, h2, rfl⟩ := h
    dsimp only
    rw [readSymbols_eq hb h2, readSymbol_eq h1 hb, List.range_succ_eq_map, List.map_cons, List.map_map]
    congr 1
    refine List.map_congr_left fun i _ => ?_
    simp only [Function.comp_apply, Nat.succ_eq_add_one, Nat.mul_add, Nat.mul_one]
    rw [show off + 4 + 4 * i = off + (4 * i + 4) by omega]

theorem readSymbolsList_eq {d : Bytes} {block off last : Nat} {r : List Symbol × Nat} (hb : block = Reader.symbBlock d)
    (h : readSymbolsList d block off last = .ok r) : r.1 = Reader.nameTable d off := by
  unfold readSymbolsList at h
  rw [bind_eq_ok] at h
  obtain ⟨n, hn, h⟩ := h
  have hn : n = Reader.u32 d (block + off) := leVal_of_unpack hn
  subst hn
  rw [readSymbols_eq hb h, hb]
  rfl

theorem readNested_eq {d : Bytes} {block : Nat} (hb : block = Reader.symbBlock d) : ∀ {n off last : Nat} {r : List (Symbol × List Symbol) × Nat},
    readNested d block n off last = .ok r → r.1 = (List.range n).map fun i =>
      (Reader.nameOf d (Reader.u32 d (off + 8 * i)), if Reader.u32 d (off + 8 * i + 4) = 0 then [] else
        Reader.nameTable d (Reader.u32 d (off + 8 * i + 4)))
  | 0, _, _, r, h => by cases h; rfl
  | n + 1, off, last, r, h => by
    rw [readNested, bind_eq_ok] at h
    obtain ⟨r1, h1, h⟩ := h
    rw [bind_eq_ok] at h
    obtain ⟨o, ho, h⟩ := h
    have ho : o = Reader.u32 d (off + 4) := leVal_of_unpack ho
    subst ho
    have key : ∃ (q : List Symbol × Nat) (rs : List (Symbol × List Symbol) × Nat), q.1 = (if Reader.u32 d (off + 4) = 0 then [] else Reader.nameTable d (Reader.u32 d (off + 4))) ∧
        readNested d block n (off + 8) q.2 = .ok rs ∧ r = ((r1.1, q.1) :: rs.1, rs.2) := by
      dsimp only at h
      split at h
      · simp only [bind_eq_ok, pure_eq_ok] at h
        obtain ⟨q, hq, rs, hrs, rfl⟩ := h
        cases hq
        exact ⟨_, rs, by rw [if_pos ‹_›], hrs, rfl⟩
      · simp only [bind_eq_ok, pure_eq_ok] at h
        obtain ⟨q, hq, rs, hrs, rfl⟩ := h
        exact ⟨q, rs, by rw [if_neg ‹_›, readSymbolsList_eq hb hq], hrs, rfl⟩
    obtain ⟨q, rs, hq', hrs, rfl⟩ := key
    dsimp only
    rw [readNested_eq hb hrs, readSymbol_eq h1 hb, hq', List.range_succ_eq_map, List.map_cons, List.map_map]
    congr 1
    refine List.map_congr_left fun i _ => ?_
    simp only [Function.comp_apply, Nat.succ_eq_add_one, Nat.mul_add, Nat.mul_one]
    rw [show off + 8 + 8 * i = off + (8 * i + 8) by omega]

/-- The offsets of the tables of names. -/
def SymbOffs (d : Bytes) (so : List Nat) : Prop :=
  (Reader.symbBlock d = 0 ∧ so = []) ∨
    (Reader.symbBlock d ≠ 0 ∧ so = (List.range 8).map fun i => Reader.u32 d (Reader.symbBlock d + 8 + 4 * i))

theorem readSymbolsOpt_eq {d : Bytes} {block last kind : Nat} {so : List Nat} {r : List Symbol × Nat} (hb : block = Reader.symbBlock d)
    (hs : SymbOffs d so) (hk : kind < 8) (h : readSymbolsOpt d block so[kind]? last = .ok r) : r.1 = Reader.names d kind := by
  unfold Reader.names
  rcases hs with ⟨h0, rfl⟩ | ⟨h0, rfl⟩
  · rw [if_pos h0]
    cases h; rfl
  · rw [if_neg h0]
    rw [List.getElem?_map, List.getElem?_range hk] at h
    exact readSymbolsList_eq hb h

theorem readNestedOpt_eq {d : Bytes} {block last : Nat} {so : List Nat} {r : List (Symbol × List Symbol) × Nat}
    (hb : block = Reader.symbBlock d) (hs : SymbOffs d so) (h : readNestedOpt d block so[1]? last = .ok r) :
    r.1 = Reader.ssarNames d := by
  unfold Reader.ssarNames
  rcases hs with ⟨h0, rfl⟩ | ⟨h0, rfl⟩
  · rw [if_pos h0]
    cases h; rfl
  · rw [if_neg h0]
    have h : readNestedList d block (Reader.u32 d (Reader.symbBlock d + 8 + 4 * 1)) last = .ok r := h
    unfold readNestedList at h
    rw [bind_eq_ok] at h
    obtain ⟨n, hn, h⟩ := h
    have hn := leVal_of_unpack hn
    rw [readNested_eq hb h, hn, hb]
    rfl

theorem entryOffsets_eq {d : Bytes} {info off : Nat} {x : List Nat} (h : entryOffsets d info off = .ok x) :
    x = (List.range (Reader.u32 d (info + off))).map fun i => Reader.u32 d (info + off + 4 + 4 * i) := by
  unfold entryOffsets at h
  rw [bind_eq_ok] at h
  obtain ⟨n, hn, h⟩ := h
  have hn := leVal_of_unpack hn
  rw [unpackUs_replicate h, hn]
  rfl

theorem readEntry_eq {α : Type} {read : Nat → Py α} {itemAt : Nat → α} (hr : ∀ o x, read o = .ok x → x = itemAt o) {info : Nat}
    {w : Option Nat} {x : Option α} (h : readEntry read info w = .ok x) :
    x = (w.bind fun o => if o = 0 then none else some (info + o)).map itemAt := by
  unfold readEntry at h
  split at h
  · cases h; rfl
  · cases h; rfl
  · rename_i o hne
    simp only [bind_eq_ok, pure_eq_ok] at h
    obtain ⟨y, hy, rfl⟩ := h
    have : o ≠ 0 := fun e => hne (by rw [e])
    rw [Option.bind_some, if_neg this, Option.map_some, hr _ _ hy]

theorem mapE_get {α β : Type} {f : α → Py β} {l : List α} {r : List β} (h : mapE f l = .ok r) (i : Nat) {b : β} (hb : r[i]? = some b) :
    ∃ a, l[i]? = some a ∧ f a = .ok b := by
  obtain ⟨hi, rfl⟩ := List.getElem?_eq_some_iff.1 hb
  have hl := mapE_length h
  exact ⟨l[i]'(by omega), List.getElem?_eq_getElem _, mapE_getElem h i (by omega) hi⟩

theorem mapE_zip {α β γ : Type} {f : Option α × Option β → Py γ} {g : Option α → Option β → γ}
    (hf : ∀ p c, f p = .ok c → c = g p.1 p.2) {as : List α} {bs : List β} {r : List γ} (h : mapE f (zipLongest as bs) = .ok r) :
    r = (List.range (max as.length bs.length)).map fun i => g as[i]? bs[i]? := by
  have hlen : r.length = max as.length bs.length := by rw [mapE_length h, zipLongest_length]
  refine List.ext_getElem? fun i => ?_
  rw [List.getElem?_map]
  by_cases hi : i < max as.length bs.length
  · rw [List.getElem?_range hi]
    have hi' : i < r.length := by omega
    obtain ⟨p, hp, hp2⟩ := mapE_get h i (List.getElem?_eq_getElem hi')
    rw [zipLongest_getElem?, if_pos hi] at hp
    cases hp
    rw [List.getElem?_eq_getElem hi', hf _ _ hp2]
    rfl
  · rw [List.getElem?_eq_none (by omega), List.getElem?_eq_none (by rw [List.length_range]; omega)]
    rfl

theorem places_get {d : Bytes} {kind : Nat} {x : List Nat}
    (hx : x = (List.range (Reader.u32 d (Reader.infoBlock d + Reader.u32 d (Reader.infoBlock d + 8 + 4 * kind)))).map fun i =>
      Reader.u32 d (Reader.infoBlock d + Reader.u32 d (Reader.infoBlock d + 8 + 4 * kind) + 4 + 4 * i)) :
    (Reader.places d kind).length = x.length ∧ ∀ i : Nat, (Reader.places d kind)[i]?.getD none =
      x[i]?.bind fun o => if o = 0 then none else some (Reader.infoBlock d + o) := by
  subst hx
  unfold Reader.places
  constructor
  · rw [List.length_map, List.length_map]
  · intro i
    rw [List.getElem?_map, List.getElem?_map]
    cases (List.range _)[i]? with
    | none => rfl
    | some j => rfl

theorem readPart_eq {α : Type} {read : Nat → Py α} {itemAt : Nat → α} {d : Bytes} (hr : ∀ o x, read o = .ok x → x = itemAt o)
    {block kind info off last : Nat} {so : List Nat} {r : List (Symbol × Option α) × Nat} (hb : block = Reader.symbBlock d)
    (hs : SymbOffs d so) (hk : kind < 8) (hi : info = Reader.infoBlock d)
    (ho : off = Reader.u32 d (Reader.infoBlock d + 8 + 4 * kind))
    (h : readPart read d block so[kind]? info off last = .ok r) : r.1 = Reader.items d kind itemAt := by
  unfold readPart at h
  simp only [bind_eq_ok, pure_eq_ok] at h
  obtain ⟨s, h1, offs, h2, l, h3, rfl⟩ := h
  have e1 := readSymbolsOpt_eq hb hs hk h1
  have e2 := entryOffsets_eq h2
  rw [hi, ho] at e2
  obtain ⟨p1, p2⟩ := places_get e2
  have := mapE_zip (g := fun w n => (n.getD none, (w.bind fun o => if o = 0 then none else some (info + o)).map itemAt)) (by
    intro p c hc
    simp only [bind_eq_ok, pure_eq_ok] at hc
    obtain ⟨x, hx, rfl⟩ := hc
    rw [readEntry_eq hr hx]) h3
  show l = _
  rw [this]
  unfold Reader.items
  rw [p1, e1]
  refine List.map_congr_left fun i _ => ?_
  rw [p2 i, hi]

theorem readSsars_eq {d : Bytes} {files : List Bytes} {block info off last : Nat} {so : List Nat}
    {r : List (Symbol × Option SsarItem) × Nat} (hr : ∀ names o x, readSsar d files names o = .ok x → x = Reader.ssarAt d names o)
    (hb : block = Reader.symbBlock d) (hs : SymbOffs d so) (hi : info = Reader.infoBlock d)
    (ho : off = Reader.u32 d (Reader.infoBlock d + 8 + 4 * 1))
    (h : readSsars d files block so[1]? info off last = .ok r) : r.1 = Reader.ssars d := by
  unfold readSsars at h
  simp only [bind_eq_ok, pure_eq_ok] at h
  obtain ⟨s, h1, offs, h2, l, h3, rfl⟩ := h
  have e1 := readNestedOpt_eq hb hs h1
  have e2 := entryOffsets_eq h2
  rw [hi, ho] at e2
  obtain ⟨p1, p2⟩ := places_get e2
  have := mapE_zip (g := fun w n => ((n.map Prod.fst).getD none,
      (w.bind fun o => if o = 0 then none else some (info + o)).map (Reader.ssarAt d ((n.map Prod.snd).getD [])))) (by
    intro p c hc
    simp only [bind_eq_ok, pure_eq_ok] at hc
    obtain ⟨x, hx, rfl⟩ := hc
    rw [readEntry_eq (hr _) hx]) h3
  show l = _
  rw [this]
  unfold Reader.ssars
  rw [p1, e1]
  refine List.map_congr_left fun i _ => ?_
  rw [p2 i, hi]
  cases (Reader.ssarNames d)[i]? with
  | none => rfl
  | some n => rfl

/-! ## Items -/

theorem bit_eq (n k : Nat) : decide ((n >>> k) &&& 1 ≠ 0) = Reader.bit n k := by
  unfold Reader.bit
  rw [Nat.and_one_is_mod, Nat.shiftRight_eq_div_pow]
  rw [decide_eq_decide]
  omega

theorem pyIdx_file {d : Bytes} {files : List Bytes} (hf : files = (List.range (tableCount d)).map (tableFile d)) {k : Nat} {f : Bytes}
    (h : pyIdx files k = .ok f) : f = Reader.fileAt d k := by
  obtain ⟨j, _, h1, h2⟩ := fromTable_of hf h
  have : k = j := by omega
  subst this
  exact h2

section Items
variable {d : Bytes} {files : List Bytes} (hf : files = (List.range (tableCount d)).map (tableFile d))
include hf

theorem readSeq_eq (o : Nat) (x : SeqItem) (h : readSeq d files o = .ok x) : x = Reader.seqAt d o := by
  unfold readSeq at h
  rw [bind_eq_ok] at h
  obtain ⟨l, hl, h⟩ := h
  simp only [unpackUs, bind_eq_ok, pure_eq_ok] at hl
  obtain ⟨a1, h1, _, ⟨a2, h2, _, ⟨a3, h3, _, ⟨a4, h4, _, ⟨a5, h5, _, ⟨a6, h6, _, ⟨a7, h7, _, e, rfl⟩, rfl⟩, rfl⟩, rfl⟩,
    rfl⟩, rfl⟩, rfl⟩ := hl
  cases e
  simp only [bind_eq_ok, pure_eq_ok] at h
  obtain ⟨f, hff, rfl⟩ := h
  have hff := pyIdx_file hf hff
  subst hff
  rw [leVal_of_unpack h1, leVal_of_unpack h2, leVal_of_unpack h3, leVal_of_unpack h4, leVal_of_unpack h5, leVal_of_unpack h6,
    leVal_of_unpack h7]
  rfl

theorem readSsar_eq (names : List Symbol) (o : Nat) (x : SsarItem) (h : readSsar d files names o = .ok x) :
    x = Reader.ssarAt d names o := by
  unfold readSsar at h
  rw [bind_eq_ok] at h
  obtain ⟨l, hl, h⟩ := h
  simp only [unpackUs, bind_eq_ok, pure_eq_ok] at hl
  obtain ⟨a1, h1, _, ⟨a2, h2, _, e, rfl⟩, rfl⟩ := hl
  cases e
  simp only [bind_eq_ok, pure_eq_ok] at h
  obtain ⟨f, hff, rfl⟩ := h
  have hff := pyIdx_file hf hff
  subst hff
  rw [leVal_of_unpack h1, leVal_of_unpack h2]
  rfl

theorem readSwar_eq (o : Nat) (x : SwarItem) (h : readSwar d files o = .ok x) : x = Reader.swarAt d o := by
  unfold readSwar at h
  rw [bind_eq_ok] at h
  obtain ⟨l, hl, h⟩ := h
  simp only [unpackUs, bind_eq_ok, pure_eq_ok] at hl
  obtain ⟨a1, h1, _, ⟨a2, h2, _, e, rfl⟩, rfl⟩ := hl
  cases e
  simp only [bind_eq_ok, pure_eq_ok] at h
  obtain ⟨f, hff, rfl⟩ := h
  have hff := pyIdx_file hf hff
  subst hff
  rw [leVal_of_unpack h1, leVal_of_unpack h2]
  rfl

theorem readStrm_eq (o : Nat) (x : StrmItem) (h : readStrm d files o = .ok x) : x = Reader.strmAt d o := by
  unfold readStrm at h
  rw [bind_eq_ok] at h
  obtain ⟨l, hl, h⟩ := h
  simp only [unpackUs, bind_eq_ok, pure_eq_ok] at hl
  obtain ⟨a1, h1, _, ⟨a2, h2, _, ⟨a3, h3, _, ⟨a4, h4, _, ⟨a5, h5, _, ⟨a6, h6, _, e, rfl⟩, rfl⟩, rfl⟩, rfl⟩, rfl⟩, rfl⟩ := hl
  cases e
  simp only [bind_eq_ok, pure_eq_ok] at h
  obtain ⟨f, hff, rfl⟩ := h
  have hff := pyIdx_file hf hff
  subst hff
  rw [leVal_of_unpack h1, leVal_of_unpack h2, leVal_of_unpack h3, leVal_of_unpack h4, leVal_of_unpack h5, leVal_of_unpack h6]
  rfl

end Items

theorem mapE_range_inv {α : Type} {f : Nat → Py α} {g : Nat → α} (hg : ∀ i x, f i = .ok x → x = g i) : ∀ {l : List Nat} {r : List α},
    mapE f l = .ok r → r = l.map g
  | [], r, h => by cases h; rfl
  | a :: l, r, h => by
    obtain ⟨b, bs, h1, h2, rfl⟩ := mapE_cons_ok.1 h
    rw [hg a b h1, mapE_range_inv hg h2]; rfl

theorem unpackS_i16 {d : Bytes} {o : Nat} {z : Int} (h : unpackS .little 2 d o = .ok z) : z = Reader.i16 d o := by
  unfold unpackS at h
  simp only [bind_eq_ok, pure_eq_ok] at h
  obtain ⟨n, hn, rfl⟩ := h
  rw [leVal_of_unpack hn]
  unfold signedVal Reader.i16 Reader.u16
  have e : (2 * leVal (slice d o (o + 2)) < 256 ^ 2) ↔ leVal (slice d o (o + 2)) < 0x8000 := by omega
  simp only [e]
  rfl

theorem readBank_eq {d : Bytes} {files : List Bytes} (hf : files = (List.range (tableCount d)).map (tableFile d)) (o : Nat)
    (x : BankItem) (h : readBank d files o = .ok x) : x = Reader.bankAt d o := by
  unfold readBank at h
  rw [bind_eq_ok] at h
  obtain ⟨l, hl, h⟩ := h
  simp only [unpackUs, bind_eq_ok, pure_eq_ok] at hl
  obtain ⟨a1, h1, _, ⟨a2, h2, _, e, rfl⟩, rfl⟩ := hl
  cases e
  simp only [bind_eq_ok, pure_eq_ok] at h
  obtain ⟨ids, hids, f, hff, rfl⟩ := h
  have hff := pyIdx_file hf hff
  subst hff
  rw [leVal_of_unpack h1, leVal_of_unpack h2, mapE_range_inv (fun i z hz => unpackS_i16 hz) hids, List.map_map]
  rfl

theorem readPlayer_eq {d : Bytes} (o : Nat) (x : SeqPlayer) (h : readPlayer d o = .ok x) : x = Reader.playerAt d o := by
  unfold readPlayer at h
  rw [bind_eq_ok] at h
  obtain ⟨l, hl, h⟩ := h
  simp only [unpackUs, bind_eq_ok, pure_eq_ok] at hl
  obtain ⟨a1, h1, _, ⟨a2, h2, _, ⟨a3, h3, _, e, rfl⟩, rfl⟩, rfl⟩ := hl
  cases e
  cases h
  rw [leVal_of_unpack h1, leVal_of_unpack h2, leVal_of_unpack h3]
  unfold Reader.playerAt
  congr 1
  congr 1
  funext i
  exact bit_eq _ i

theorem readStreamPlayer_eq {d : Bytes} (o : Nat) (x : List Nat) (h : readStreamPlayer d o = .ok x) : x = Reader.streamPlayerAt d o := by
  unfold readStreamPlayer at h
  rw [bind_eq_ok] at h
  obtain ⟨n, hn, h⟩ := h
  rw [unpackUs_replicate h, leVal_of_unpack hn]
  unfold Reader.streamPlayerAt Reader.u8
  refine List.map_congr_left fun i _ => ?_
  rw [Nat.one_mul]

theorem bit_zero (n : Nat) : decide (n &&& 1 ≠ 0) = Reader.bit n 0 := bit_eq n 0

theorem and_pow (n k : Nat) : decide (n &&& 2 ^ k ≠ 0) = Reader.bit n k := by
  have h1 : (n &&& 2 ^ k ≠ 0) ↔ n.testBit k = true := by
    constructor
    · intro hne
      cases h : n.testBit k with
      | true => rfl
      | false =>
        refine absurd (Nat.eq_of_testBit_eq fun i => ?_) hne
        rw [Nat.testBit_and, Nat.testBit_two_pow, Nat.zero_testBit]
        by_cases e : k = i
        · subst e; rw [h]; rfl
        · simp [e]
    · intro h e
      have := congrArg (Nat.testBit · k) e
      simp only [Nat.testBit_and, Nat.testBit_two_pow, Nat.zero_testBit, h] at this
      simp at this
  have h2 : Reader.bit n k = n.testBit k := by
    unfold Reader.bit
    rw [Nat.testBit_eq_decide_div_mod_eq]
  rw [h2]
  cases h : n.testBit k with
  | true => exact decide_eq_true (h1.2 h)
  | false => exact decide_eq_false (fun e => by rw [h1.1 e] at h; cases h)

theorem unpackGroup_eq {d : Bytes} (o : Nat) (x : List GroupEntry) (h : unpackGroup d o = .ok x) : x = Reader.groupAt d o := by
  unfold unpackGroup at h
  rw [bind_eq_ok] at h
  obtain ⟨n, hn, h⟩ := h
  rw [leVal_of_unpack hn] at h
  refine mapE_range_inv ?_ h
  intro i e he
  unfold unpackGroupEntry GroupEntry.init at he
  simp only [bind_eq_ok, pure_eq_ok] at he
  obtain ⟨t, ht, op, hop, id, hid, _, _, rfl⟩ := he
  rw [leVal_of_unpack ht, leVal_of_unpack hid]
  have hop := leVal_of_unpack hop
  have hop : op = Reader.u16 d (o + 4 + 8 * i + 1) := hop
  subst hop
  have b0 := and_pow (Reader.u16 d (o + 4 + 8 * i + 1)) 0
  have b1 := and_pow (Reader.u16 d (o + 4 + 8 * i + 1)) 1
  have b2 := and_pow (Reader.u16 d (o + 4 + 8 * i + 1)) 2
  have b3 := and_pow (Reader.u16 d (o + 4 + 8 * i + 1)) 3
  simp only [Nat.reducePow] at b0 b1 b2 b3
  dsimp only
  rw [← b0, ← b1, ← b2, ← b3]
  simp only [decide_eq_true_eq]
  rfl

theorem symbolOffsets_eq {d m : Bytes} {so : List Nat} (h : symbolOffsets d (u32 d 0x10) m = .ok so) : SymbOffs d so := by
  unfold symbolOffsets at h
  split at h
  · cases h
    exact Or.inl ⟨‹_›, rfl⟩
  · simp only [bind_eq_ok, pure_eq_ok] at h
    obtain ⟨l, hl, _, _, rfl⟩ := h
    refine Or.inr ⟨‹_›, ?_⟩
    have := unpack8 hl
    rw [this]
    rfl

/-- **C90.** Whatever data an archive is loaded from, its items are those that the tables point at, field by field. -/
theorem archive_load_items {d : Bytes} {t : SDAT} (h : SDAT.load d = .ok t) :
    t.sequences = Reader.items d 0 (Reader.seqAt d) ∧ t.sequenceArchives = Reader.ssars d ∧
    t.banks = Reader.items d 2 (Reader.bankAt d) ∧ t.waveArchives = Reader.items d 3 (Reader.swarAt d) ∧
    t.sequencePlayers = Reader.items d 4 (Reader.playerAt d) ∧ t.groups = Reader.items d 5 (Reader.groupAt d) ∧
    t.streamPlayers = Reader.items d 6 (Reader.streamPlayerAt d) ∧ t.streams = Reader.items d 7 (Reader.strmAt d) := by
  unfold SDAT.load at h
  rw [bind_eq_ok] at h
  obtain ⟨hd, _, h⟩ := h
  rw [bind_eq_ok] at h
  obtain ⟨_, _, h⟩ := h
  rw [bind_eq_ok] at h
  obtain ⟨_, _, h⟩ := h
  rw [bind_eq_ok] at h
  obtain ⟨bl, hbl, h⟩ := h
  have hbl := unpack8 hbl
  subst hbl
  dsimp only at h
  simp only [bind_eq_ok] at h
  obtain ⟨sm, _, _, _, so, hso, fm, _, _, _, fc, hfc, _, _, fs, hfs, im, _, _, _, io, hio, _, _, h⟩ := h
  have hio := unpack8 hio
  subst hio
  dsimp only at h
  simp only [bind_eq_ok, pure_eq_ok] at h
  obtain ⟨p0, h0, p1, h1, p2, h2, p3, h3, p4, h4, p5, h5, p6, h6, p7, h7, e⟩ := h
  have hc : fc = tableCount d := (u32_of_unpack hfc).symm
  subst hc
  have hr := readFiles_all hfs
  have hfiles : fs.files = (List.range (tableCount d)).map (tableFile d) := by
    rw [hr]
    unfold fatResult
    rw [List.nil_append, List.map_map]
    refine List.map_congr_left fun k _ => ?_
    show slice d _ _ = _
    unfold slice tableFile tableEntry
    rw [Nat.add_sub_cancel_left]
  have hS := symbolOffsets_eq hso
  subst e
  exact ⟨readPart_eq (readSeq_eq hfiles) rfl hS (by decide) rfl rfl h0, readSsars_eq (readSsar_eq hfiles) rfl hS rfl rfl h1,
    readPart_eq (readBank_eq hfiles) rfl hS (by decide) rfl rfl h2, readPart_eq (readSwar_eq hfiles) rfl hS (by decide) rfl rfl h3,
    readPart_eq readPlayer_eq rfl hS (by decide) rfl rfl h4, readPart_eq unpackGroup_eq rfl hS (by decide) rfl rfl h5,
    readPart_eq readStreamPlayer_eq rfl hS (by decide) rfl rfl h6, readPart_eq (readStrm_eq hfiles) rfl hS (by decide) rfl rfl h7⟩

/-- The tables of the saved `demo` and the items they point at. -/
example : Reader.names demoData 0 = [some [0x41], none, none] ∧ Reader.ssarNames demoData = [(some [0x42, 0x43], [none, some [0x44]])] ∧
    (Reader.places demoData 0).map Option.isSome = [true, false, true] ∧
    Reader.items demoData 4 (Reader.playerAt demoData) = [(none, some ⟨1, [2, 15], 0x1000⟩)] ∧
    Reader.items demoData 2 (Reader.bankAt demoData) = [(some [0xE9], some ⟨[6], 2, 0, [some 0, none, none, none]⟩)] ∧
    demoBack.sequences = Reader.items demoData 0 (Reader.seqAt demoData) := by decide +kernel

theorem u16_at {d : Bytes} {o n : Nat} (h : At d o (enBytes .little 2 n)) (hn : n < 2 ^ 16) : Reader.u16 d o = n := by
  have h1 := h.unpackU (by omega)
  exact (leVal_of_unpack h1).symm

theorem magic_at {d m : Bytes} {o : Nat} (h : At d o m) (hm : m.length = 4) : slice d o (o + 4) = m := by
  exact h.slice_eq (by omega)

/-- **C86.** The header has the usual marks, counts the blocks, and every block starts with its own name and size. -/
theorem archive_block_headers {s : SDAT} {d : Bytes} (h : s.save = .ok d) :
    (Reader.u16 d 4 = 0xFEFF ∧ Reader.u16 d 6 = 0x100 ∧ Reader.u16 d 0xC = 0x40 ∧ Reader.u16 d 0xE = if Named s then 4 else 3) ∧
    (Named s → slice d 0x40 0x44 = [0x53, 0x59, 0x4D, 0x42] ∧ u32 d 0x44 = symbolBlockSize s) ∧
    (slice d (infoStart s) (infoStart s + 4) = [0x49, 0x4E, 0x46, 0x4F] ∧ u32 d (infoStart s + 4) = infoBlockSize s) ∧
    (slice d (fatStart s) (fatStart s + 4) = [0x46, 0x41, 0x54, 0x20] ∧ u32 d (fatStart s + 4) = 0xC + 0x10 * (storedFiles s).length ∧
      u32 d (fatStart s + 8) = (storedFiles s).length) ∧
    (slice d (filesStart s) (filesStart s + 4) = [0x46, 0x49, 0x4C, 0x45] ∧ u32 d (filesStart s + 4) = d.length - filesStart s ∧
      u32 d (filesStart s + 8) = (storedFiles s).length) := by
  obtain ⟨hS, rfl⟩ := save_eq_ok.1 h
  have hb := banksOk_of (fieldsFit_of hS.items)
  have hlen : (saved s).length = total s := saved_length hS.align
  have hsz := hS.size
  have sg := segments s
  have hN := hasSyms_iff s
  have hF := hS.blocks
  unfold blockFields at hF
  obtain ⟨f1, f2, f3, f4, f5, f6, f7, f8, _⟩ := hF
  have hn : fileCount s = (storedFiles s).length := by unfold fileCount; rw [filesOf_eq]
  refine ⟨?_, ?_, ?_, ?_, ?_⟩
  · have hH := sg.header
    unfold stdHeaderBytes at hH
    simp only [At.split, List.length_append, packStr_length, enBytes_length] at hH
    obtain ⟨⟨⟨⟨⟨_, h1⟩, h2⟩, _⟩, h4⟩, h5⟩ := hH
    refine ⟨u16_at (h1.cast (by omega)) (by decide), u16_at (h2.cast (by omega)) (by decide), u16_at (h4.cast (by omega)) (by decide), ?_⟩
    rw [u16_at (h5.cast (by omega)) (by unfold stdHeader; dsimp only; split <;> decide)]
    unfold stdHeader
    dsimp only
    by_cases hs : hasSyms s = true
    · rw [if_pos hs, if_pos (hN.1 hs)]
    · rw [if_neg hs, if_neg (fun h => hs (hN.2 h))]
  · intro hNamed
    have hs := hN.2 hNamed
    have h1 := sg.symb
    unfold symbData symbBytes at h1
    rw [if_pos hs] at h1
    simp only [At.split, List.length_append, enBytes_length] at h1
    obtain ⟨⟨⟨⟨⟨⟨m, z⟩, _⟩, _⟩, _⟩, _⟩, _⟩ := h1
    refine ⟨magic_at m rfl, ?_⟩
    have z : At (saved s) 0x44 _ := z
    rw [u32_at z (hS.symb hs).2.1]
    unfold symbolBlockSize
    rw [if_pos hNamed, symbSize_eq]
  · have h1 := infoSegments sg.info
    have e : infoOff s = infoStart s := infoOff_eq s
    have e2 : 0x40 + (body8 s).length = (infoBytes s).length := by
      unfold infoBytes
      simp only [List.length_append, enBytes_length, table_length, zeros_length]
      rfl
    rw [← e]
    refine ⟨magic_at h1.magic rfl, ?_⟩
    rw [u32_at h1.size (by rw [e2]; exact f4), e2, infoBytes_length s hb]
  · have h1 := sg.fat
    unfold fatBytes at h1
    simp only [structBytes, At.split, List.length_append, enBytes_length] at h1
    rw [← fatOff_eq s hb, ← hn]
    obtain ⟨⟨m, z, c, _⟩, _⟩ := h1
    exact ⟨magic_at m rfl, u32_at z f6, u32_at c (by have : 0xC + 0x10 * fileCount s < 256 ^ 4 := f6; omega)⟩
  · have h1 := sg.file
    unfold fileBytes at h1
    simp only [structBytes, At.split, List.length_append, enBytes_length] at h1
    rw [← fileOff_eq s hb, ← hn, hlen]
    obtain ⟨⟨⟨⟨m, z, c, _⟩, _⟩, _⟩, _⟩ := h1
    exact ⟨magic_at m rfl, u32_at z f8, u32_at c (by have : 0xC + 0x10 * fileCount s < 256 ^ 4 := f6; omega)⟩

example : Named demo ∧ Reader.u16 demoData 0xE = 4 ∧ slice demoData 0x40 0x44 = [0x53, 0x59, 0x4D, 0x42] :=
  ⟨⟨[0x41], by decide +kernel⟩, by decide +kernel⟩

end Verif.Props.SoundArchive
