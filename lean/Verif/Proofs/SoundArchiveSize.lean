import Verif.Proofs.SoundArchiveLoad
import Verif.Spec.SoundArchiveLayout

/-!
# The sizes in a saved sound archive, and when saving works
-/

namespace Verif.Proofs.SoundArchive

open Verif Verif.Model.Common Verif.Model.SoundArchive Verif.Model.SoundStream Verif.Spec.SoundArchive

/-! ## The files -/

theorem usesOf_filterMap {α : Type} {c : Codec α} {g : α → Bytes × Int} (h : ∀ x, c.use x = [g x]) (items : List (Symbol × Option α)) :
    usesOf c (items.map Prod.snd) = items.filterMap fun p => p.2.map g := by
  induction items with
  | nil => rfl
  | cons p items ih =>
    obtain ⟨n, x⟩ := p
    cases x with
    | none => rw [List.map_cons, usesOf_none, ih]; rfl
    | some x => rw [List.map_cons, usesOf_some, ih, h]; rfl

theorem usesOf_empty {α : Type} {c : Codec α} (h : ∀ x, c.use x = []) (items : List (Option α)) : usesOf c items = [] := by
  induction items with
  | nil => rfl
  | cons x items ih =>
    cases x with
    | none => rw [usesOf_none, ih]
    | some x => rw [usesOf_some, ih, h]; rfl

theorem allUses_eq (s : SDAT) : allUses s = usedFiles s := by
  have h0 : uses0 s = s.sequences.filterMap fun p => p.2.map fun x => (x.file, x.mergeID) := usesOf_filterMap (fun _ => rfl) _
  have h1 : uses1 s = s.sequenceArchives.filterMap fun p => p.2.map fun x => (x.file, x.mergeID) :=
    usesOf_filterMap (fun _ => rfl) _
  have h2 : uses2 s = s.banks.filterMap fun p => p.2.map fun x => (x.file, x.mergeID) := usesOf_filterMap (fun _ => rfl) _
  have h3 : uses3 s = s.waveArchives.filterMap fun p => p.2.map fun x => (x.file, x.mergeID) := usesOf_filterMap (fun _ => rfl) _
  have h4 : uses4 s = [] := usesOf_empty (fun _ => rfl) _
  have h5 : uses5 s = [] := usesOf_empty (fun _ => rfl) _
  have h6 : uses6 s = [] := usesOf_empty (fun _ => rfl) _
  have h7 : uses7 s = s.streams.filterMap fun p => p.2.map fun x => (x.file, x.mergeID) := usesOf_filterMap (fun _ => rfl) _
  unfold allUses usedFiles
  rw [h0, h1, h2, h3, h4, h5, h6, h7, List.append_nil, List.append_nil, List.append_nil]

theorem filesOf_eq (s : SDAT) : filesOf s = storedFiles s := by
  unfold filesOf storedFiles
  rw [allUses_eq]

/-! ## The names -/

theorem flatSyms_eq (s : SDAT) : flatSyms (ssarNames s) = s.sequenceArchives.flatMap fun p => p.1 :: innerNames p.2 := by
  unfold flatSyms ssarNames
  rw [List.flatMap_map]
  congr 1
  funext p
  cases p.2 <;> rfl

theorem allSyms_eq (s : SDAT) : allSyms s = namesIn s := by
  unfold allSyms namesIn symbolsOf
  rw [flatSyms_eq]

theorem hasSyms_iff (s : SDAT) : hasSyms s = true ↔ Named s := by
  unfold hasSyms Named
  rw [allSyms_eq, List.any_eq_true]
  constructor
  · rintro ⟨x, hx, h⟩
    cases x with
    | none => cases h
    | some n => exact ⟨n, hx⟩
  · rintro ⟨n, hn⟩
    exact ⟨_, hn, rfl⟩

theorem stringsOf_length (l : List Symbol) : (stringsOf l).length = (l.map nameSize).sum := by
  induction l with
  | nil => rfl
  | cons x l ih =>
    rw [stringsOf_cons, List.length_append, ih, List.map_cons, List.sum_cons]
    cases x with
    | none => rfl
    | some n => simp [symbolBytes, nameSize]

theorem nestedSub_length : ∀ {es : Nested} {off : Nat}, (nestedSub off es).length =
    (es.map fun e => sizeOr0 (fun n => 1 + n.length) e.2).sum
  | [], _ => rfl
  | (s, none) :: es, off => by
    rw [nestedSub, nestedSub_length, List.map_cons, List.sum_cons]; exact (Nat.zero_add _).symm
  | (s, some n) :: es, off => by
    rw [nestedSub, List.length_append, nestedSub_length, List.map_cons, List.sum_cons, List.length_cons, symbolVals_length]
    show n.length + 1 + _ = 1 + n.length + _
    omega

theorem afterList_length (ss : List Symbol) (st : Symb) : (afterList ss st).table.length = st.table.length + (1 + ss.length) := by
  unfold afterList
  dsimp only
  rw [List.length_append, List.length_cons, symbolVals_length]
  omega

theorem afterNested_length (es : Nested) (st : Symb) : (afterNested es st).table.length = st.table.length + (1 + 2 * es.length +
    (es.map fun e => sizeOr0 (fun n => 1 + n.length) e.2).sum) := by
  unfold afterNested
  dsimp only
  rw [List.length_append, List.length_append, List.length_cons, nestedMain_length, nestedSub_length]
  omega

theorem symbSize_eq (s : SDAT) : symbSize s = symbolsSize s := by
  unfold symbSize symbT symbolsSize
  rw [symb8_strings, stringsOf_length, allSyms_eq]
  have hn : ((ssarNames s).map fun e => sizeOr0 (fun n => 1 + n.length) e.2).sum =
      (s.sequenceArchives.map fun p => sizeOr0 (fun x => 1 + x.names.length) p.2).sum := by
    unfold ssarNames
    rw [List.map_map]
    congr 1
    refine List.map_congr_left fun p _ => ?_
    obtain ⟨n, x⟩ := p
    cases x <;> rfl
  have hl : (ssarNames s).length = s.sequenceArchives.length := by unfold ssarNames; rw [List.length_map]
  have h : (symb8 s).table.length = (1 + s.sequences.length) + (1 + 2 * s.sequenceArchives.length +
      (s.sequenceArchives.map fun p => sizeOr0 (fun x => 1 + x.names.length) p.2).sum) +
    (1 + s.banks.length) + (1 + s.waveArchives.length) + (1 + s.sequencePlayers.length) + (1 + s.groups.length) +
    (1 + s.streamPlayers.length) + (1 + s.streams.length) := by
    unfold symb8 symb7 symb6 symb5 symb4 symb3 symb2 symb1 symb0
    rw [afterList_length, afterList_length, afterList_length, afterList_length, afterList_length, afterList_length,
      afterNested_length, afterList_length, hn, hl]
    unfold symbolsOf
    simp only [List.length_map, List.length_nil, Nat.zero_add]
  rw [h]
  omega

theorem symbData_length (s : SDAT) : (symbData s).length = symbolBlockSize s := by
  unfold symbData symbolBlockSize
  have h := hasSyms_iff s
  by_cases hs : hasSyms s = true
  · rw [if_pos hs, if_pos (h.1 hs), List.length_append, zeros_length, symbBytes_length, symbSize_eq]
    have := le_ceilTo (n := symbolsSize s) (a := 4) (by decide)
    omega
  · rw [if_neg hs, if_neg (fun hn => hs (h.2 hn))]
    rfl

/-! ## The information -/

theorem partBytes_length (start : Nat) (es : List (Option Bytes)) :
    (partBytes start es).length = 4 + 4 * es.length + (entryBytes es).length := by
  unfold partBytes
  rw [List.length_append, List.length_append, enBytes_length, table_length, entryPlaces_length]

theorem entryBytes_length {α : Type} {c : Codec α} {L : Uses} {size : α → Nat} (items : List (Symbol × Option α))
    (h : ∀ id x, some x ∈ items.map Prod.snd → (c.enc id x).length = size x) :
    (entryBytes (encAll c L (items.map Prod.snd))).length = (items.map fun p => sizeOr0 size p.2).sum := by
  induction items with
  | nil => rfl
  | cons p items ih =>
    have ih := ih fun id x hx => h id x (by rw [List.map_cons]; exact List.mem_cons_of_mem _ hx)
    obtain ⟨n, x⟩ := p
    cases x with
    | none =>
      rw [List.map_cons, List.map_cons, List.sum_cons, ← ih]
      show _ = 0 + _
      rw [Nat.zero_add]
      rfl
    | some x =>
      rw [List.map_cons, List.map_cons, List.sum_cons, ← ih]
      have := h (idIn L (c.use x)) x (by simp)
      show (c.enc (idIn L (c.use x)) x ++ entryBytes (encAll c L (items.map Prod.snd))).length = _
      rw [List.length_append, this]
      rfl

theorem part_length {α : Type} {c : Codec α} {L : Uses} {size : α → Nat} (items : List (Symbol × Option α))
    (h : ∀ id x, some x ∈ items.map Prod.snd → (c.enc id x).length = size x) (start : Nat) :
    (partBytes start (encAll c L (items.map Prod.snd))).length = partSize size items := by
  rw [partBytes_length, entryBytes_length items h]
  unfold partSize encAll
  rw [List.length_map, List.length_map]

theorem bankEnc_length {id : Nat} {x : BankItem} (h : x.waveArchiveIDs.length ≤ 4) : (bankCodec.enc id x).length = 12 := by
  show (structBytes .little (bankFields id x) ++ _).length = _
  rw [List.length_append, structBytes_length, flatten_length_const (n := 2) (by
    intro p hp; obtain ⟨e, _, rfl⟩ := List.mem_map.1 hp; simp), List.length_map, fourIDs_length h]
  rfl

theorem groupEnc_length {id : Nat} {g : List GroupEntry} : (groupCodec.enc id g).length = 4 + 8 * g.length := by
  show (enBytes .little 4 g.length ++ _).length = _
  rw [List.length_append, enBytes_length, flatten_length_const (n := 8) (by
    intro p hp; obtain ⟨e, _, rfl⟩ := List.mem_map.1 hp; simp), List.length_map]
  omega

theorem streamPlayerEnc_length {id : Nat} {c : List Nat} :
    (streamPlayerCodec.enc id c).length = ceilTo 4 (1 + max 16 c.length + 4) := by
  show (padTo (UInt8.ofNat c.length :: channelBytes c ++ zeros 4) 4 0).length = _
  rw [padTo_length, padLen_ceil (by decide)]
  congr 1
  simp only [channelBytes, List.cons_append, List.length_cons, List.length_append, List.length_map, List.length_replicate,
    zeros_length]
  omega

theorem infoBytes_length' (s : SDAT) : (infoBytes s).length = 0x40 + (body8 s).length := by
  unfold infoBytes
  simp only [List.length_append, enBytes_length, table_length, zeros_length, infoHeads, List.length_cons, List.length_nil]
  show 4 + 4 + _ + _ + _ = _
  omega

/-- The banks have not too many wave archives. -/
def BanksOk (s : SDAT) : Prop := ∀ x, some x ∈ s.banks.map Prod.snd → x.waveArchiveIDs.length ≤ 4

theorem body8_length (s : SDAT) : (body8 s).length = (partBytes (0x40 + body0.length) (part0 s)).length +
    (partBytes (0x40 + (body1 s).length) (part1 s)).length + (partBytes (0x40 + (body2 s).length) (part2 s)).length +
    (partBytes (0x40 + (body3 s).length) (part3 s)).length + (partBytes (0x40 + (body4 s).length) (part4 s)).length +
    (partBytes (0x40 + (body5 s).length) (part5 s)).length + (partBytes (0x40 + (body6 s).length) (part6 s)).length +
    (partBytes (0x40 + (body7 s).length) (part7 s)).length := by
  have h1 : (body1 s).length = body0.length + (partBytes (0x40 + body0.length) (part0 s)).length := by
    conv => lhs; unfold body1
    rw [List.length_append]
  have h2 : (body2 s).length = (body1 s).length + (partBytes (0x40 + (body1 s).length) (part1 s)).length := by
    conv => lhs; unfold body2
    rw [List.length_append]
  have h3 : (body3 s).length = (body2 s).length + (partBytes (0x40 + (body2 s).length) (part2 s)).length := by
    conv => lhs; unfold body3
    rw [List.length_append]
  have h4 : (body4 s).length = (body3 s).length + (partBytes (0x40 + (body3 s).length) (part3 s)).length := by
    conv => lhs; unfold body4
    rw [List.length_append]
  have h5 : (body5 s).length = (body4 s).length + (partBytes (0x40 + (body4 s).length) (part4 s)).length := by
    conv => lhs; unfold body5
    rw [List.length_append]
  have h6 : (body6 s).length = (body5 s).length + (partBytes (0x40 + (body5 s).length) (part5 s)).length := by
    conv => lhs; unfold body6
    rw [List.length_append]
  have h7 : (body7 s).length = (body6 s).length + (partBytes (0x40 + (body6 s).length) (part6 s)).length := by
    conv => lhs; unfold body7
    rw [List.length_append]
  have h8 : (body8 s).length = (body7 s).length + (partBytes (0x40 + (body7 s).length) (part7 s)).length := by
    conv => lhs; unfold body8
    rw [List.length_append]
  have h0 : body0.length = 0 := rfl
  omega

theorem infoBytes_length (s : SDAT) (h : BanksOk s) : (infoBytes s).length = infoBlockSize s := by
  rw [infoBytes_length', body8_length]
  generalize (0x40 + body0.length) = q0
  generalize (0x40 + (body1 s).length) = q1
  generalize (0x40 + (body2 s).length) = q2
  generalize (0x40 + (body3 s).length) = q3
  generalize (0x40 + (body4 s).length) = q4
  generalize (0x40 + (body5 s).length) = q5
  generalize (0x40 + (body6 s).length) = q6
  generalize (0x40 + (body7 s).length) = q7
  unfold part0 part1 part2 part3 part4 part5 part6 part7
  generalize allUses s = L
  rw [part_length (c := seqCodec) (size := fun _ => 12) s.sequences (fun id x _ => by
    show (structBytes .little (seqFields id x) ++ zeros 2).length = 12
    rw [List.length_append, structBytes_length]; rfl)]
  rw [part_length (c := ssarCodec) (size := fun _ => 4) s.sequenceArchives (fun id x _ => by
    show (structBytes .little (ssarFields id x)).length = 4
    rw [structBytes_length]; rfl)]
  rw [part_length (c := bankCodec) (size := fun _ => 12) s.banks (fun id x hx => bankEnc_length (h x hx))]
  rw [part_length (c := swarCodec) (size := fun _ => 4) s.waveArchives (fun id x _ => by
    show (structBytes .little (swarFields id x)).length = 4
    rw [structBytes_length]; rfl)]
  rw [part_length (c := playerCodec) (size := fun _ => 8) s.sequencePlayers (fun id x _ => by
    show (structBytes .little (playerFields x)).length = 8
    rw [structBytes_length]; rfl)]
  rw [part_length (c := groupCodec) (size := fun g => 4 + 8 * g.length) s.groups (fun id x _ => groupEnc_length)]
  rw [part_length (c := streamPlayerCodec) (size := fun c => ceilTo 4 (1 + max 16 c.length + 4)) s.streamPlayers (fun id x _ => streamPlayerEnc_length)]
  rw [part_length (c := strmCodec) (size := fun _ => 12) s.streams (fun id x _ => by
    show (structBytes .little (strmFields id x) ++ zeros 4).length = 12
    rw [List.length_append, structBytes_length]; rfl)]
  unfold infoBlockSize
  omega

/-! ## Everything -/

theorem infoOff_eq (s : SDAT) : infoOff s = infoStart s := by
  unfold infoOff infoStart
  rw [symbData_length]

theorem fatOff_eq (s : SDAT) (h : BanksOk s) : fatOff s = fatStart s := by
  unfold fatOff fatStart
  rw [infoOff_eq, infoBytes_length s h]

theorem fileOff_eq (s : SDAT) (h : BanksOk s) : fileOff s = filesStart s := by
  unfold fileOff filesStart fileCount
  rw [fatOff_eq s h, filesOf_eq]

theorem firstPos_eq (s : SDAT) (h : BanksOk s) : firstPos s = dataStart s := by
  unfold firstPos dataStart
  rw [fileOff_eq s h]
  rfl

theorem offs_eq (s : SDAT) (h : BanksOk s) : offs s = filePlaces s := by
  unfold offs filePlaces
  rw [firstPos_eq s h, filesOf_eq]

theorem bodyEnd_last' {a : Nat} : ∀ {fs : List Bytes} {p : Nat}, bodyEnd a p fs =
    match (places a p fs).getLast?, fs.getLast? with
    | some o, some f => o + f.length
    | _, _ => p
  | [], _ => rfl
  | [f], p => rfl
  | f :: g :: fs, p => by
    have := bodyEnd_last' (a := a) (fs := g :: fs) (p := ceilTo a p + f.length)
    have e1 : (places a p (f :: g :: fs)).getLast? = (places a (ceilTo a p + f.length) (g :: fs)).getLast? := by
      rw [places, places, List.getLast?_cons_cons]
    rw [bodyEnd, this, e1, List.getLast?_cons_cons (a := f)]
    have h1 : (places a (ceilTo a p + f.length) (g :: fs)).getLast? ≠ none := by
      rw [places]; simp
    have h2 : (g :: fs).getLast? ≠ none := by simp
    generalize (places a (ceilTo a p + f.length) (g :: fs)).getLast? = u at *
    generalize (g :: fs).getLast? = v at *
    cases u with
    | none => exact absurd rfl h1
    | some u =>
      cases v with
      | none => exact absurd rfl h2
      | some v => rfl

theorem endPos_eq (s : SDAT) (h : BanksOk s) : endPos s = dataEnd s := by
  unfold endPos dataEnd filePlaces
  rw [bodyEnd_last', firstPos_eq s h, filesOf_eq]
  rfl

theorem total_eq (s : SDAT) (h : BanksOk s) : total s = archiveSize s := by
  unfold total archiveSize
  rw [endPos_eq s h]

theorem fatLen_eq (s : SDAT) (f : Bytes) : fatLen s f = tableLength s f := rfl

/-! ## When saving works -/

theorem anyNested_iff : ∀ {es : Nested} {b : Bool}, (∃ c, anyNested es b = .ok c) ↔
    ∀ before after, es = before ++ (none, none) :: after → ∃ n x, (some n, x) ∈ before
  | [], b => by
    constructor
    · intro _ before after h
      cases before <;> cases h
    · intro _; exact ⟨b, rfl⟩
  | (some n, x) :: es, b => by
    constructor
    · intro _ before after h
      cases before with
      | nil => cases h
      | cons e before => cases h; exact ⟨n, x, List.mem_cons_self ..⟩
    · intro _; exact ⟨true, rfl⟩
  | (none, none) :: es, b => by
    constructor
    · rintro ⟨c, hc⟩; cases hc
    · intro h
      obtain ⟨n, x, hm⟩ := h [] es rfl
      cases hm
  | (none, some names) :: es, b => by
    rw [anyNested, anyNested_iff]
    constructor
    · intro h before after he
      cases before with
      | nil => cases he
      | cons e before =>
        rw [List.cons_append, List.cons.injEq] at he
        obtain ⟨n, x, hm⟩ := h before after he.2
        exact ⟨n, x, List.mem_cons_of_mem _ hm⟩
    · intro h before after he
      obtain ⟨n, x, hm⟩ := h ((none, some names) :: before) after (by rw [he]; rfl)
      rcases List.mem_cons.1 hm with hm | hm
      · cases hm
      · exact ⟨n, x, hm⟩

theorem nested_iff (s : SDAT) : (∃ b, anyNested (ssarNames s) false = .ok b) ↔ NoEmptySlotFirst s := by
  rw [anyNested_iff]
  unfold NoEmptySlotFirst ssarNames
  constructor
  · intro h before after he
    obtain ⟨n, x, hm⟩ := h (before.map fun p => (p.1, p.2.map SsarItem.names)) (after.map fun p => (p.1, p.2.map SsarItem.names))
      (by rw [he, List.map_append]; rfl)
    obtain ⟨p, hp, e⟩ := List.mem_map.1 hm
    obtain ⟨m, y⟩ := p
    cases e
    exact ⟨n, y, hp⟩
  · intro h before after he
    obtain ⟨b1, r, e1, e2, e3⟩ := List.map_eq_append_iff.1 he
    obtain ⟨p, a1, rfl, e4, e5⟩ := List.map_eq_cons_iff.1 e3
    obtain ⟨m, y⟩ := p
    cases y with
    | some y => cases e4
    | none =>
      cases e4
      obtain ⟨n, x, hm⟩ := h b1 a1 e1
      refine ⟨n, x.map SsarItem.names, ?_⟩
      rw [← e2]
      exact List.mem_map.2 ⟨_, hm, rfl⟩

theorem latin_iff (s : SDAT) : (∀ x ∈ allSyms s, Latin1 x) ↔ ∀ n, some n ∈ namesIn s → ∀ c ∈ n, c < 256 := by
  rw [allSyms_eq]
  constructor
  · intro h n hn; exact h _ hn n rfl
  · rintro h x hx n rfl; exact h n hx

theorem mem_snd {α : Type} {l : List (Symbol × Option α)} {x : α} : some x ∈ l.map Prod.snd ↔ ∃ n, (n, some x) ∈ l := by
  rw [List.mem_map]
  constructor
  · rintro ⟨⟨n, y⟩, h, rfl⟩; exact ⟨n, h⟩
  · rintro ⟨n, h⟩; exact ⟨_, h, rfl⟩

theorem partSize_mem {α : Type} {size : α → Nat} {l : List (Symbol × Option α)} {x : α} (h : some x ∈ l.map Prod.snd) :
    size x ≤ partSize size l := by
  unfold partSize
  have : size x ≤ (l.map fun p => sizeOr0 size p.2).sum := by
    obtain ⟨n, hn⟩ := mem_snd.1 h
    clear h
    induction l with
    | nil => cases hn
    | cons p l ih =>
      rw [List.map_cons, List.sum_cons]
      rcases List.mem_cons.1 hn with rfl | hn
      · show size x ≤ size x + _; omega
      · have := ih hn; omega
  omega

theorem four_iff {l : List (Option Int)} : (∀ z ∈ fourIDs l, -(256 ^ 2 : Nat) ≤ 2 * z ∧ 2 * z < (256 ^ 2 : Nat)) ↔
    ∀ z, some z ∈ l → -(2 ^ 15) ≤ z ∧ z < 2 ^ 15 := by
  constructor
  · intro h z hz
    have := h z (List.mem_append_left _ (List.mem_map.2 ⟨_, hz, rfl⟩))
    omega
  · intro h z hz
    rcases List.mem_append.1 hz with hz | hz
    · obtain ⟨y, hy, rfl⟩ := List.mem_map.1 hz
      cases y with
      | none => decide
      | some y => have := h y hy; show _ ≤ 2 * y ∧ 2 * y < _; omega
    · rw [List.eq_of_mem_replicate hz]; decide

theorem fileNumber_eq (s : SDAT) (u : Bytes × Int) : (firstUses (allUses s)).idxOf u = fileNumber s u := by
  unfold fileNumber; rw [allUses_eq]

theorem fieldsFit_of {s : SDAT} (h : ItemsFit s) : FieldsFit s := by
  constructor
  · intro n x hx
    obtain ⟨h1, h2, h3, h4, h5, h6, h7, _⟩ := h.f0 x (mem_snd.2 ⟨n, hx⟩)
    rw [← fileNumber_eq]
    exact ⟨h1, h2, h3, h4, h5, h6, h7⟩
  · intro n x hx
    obtain ⟨h1, h2, _⟩ := h.f1 x (mem_snd.2 ⟨n, hx⟩)
    rw [← fileNumber_eq]
    exact ⟨h1, h2⟩
  · intro n x hx
    obtain ⟨⟨h1, h2, _⟩, h3, h4⟩ := h.f2 x (mem_snd.2 ⟨n, hx⟩)
    rw [← fileNumber_eq]
    exact ⟨h1, h2, h3, four_iff.1 h4⟩
  · intro n x hx
    obtain ⟨h1, h2, _⟩ := h.f3 x (mem_snd.2 ⟨n, hx⟩)
    rw [← fileNumber_eq]
    exact ⟨h1, h2⟩
  · intro n x hx
    obtain ⟨h1, _, h2, _⟩ := h.f4 x (mem_snd.2 ⟨n, hx⟩)
    exact ⟨h1, h2⟩
  · intro n g hx e he
    exact (h.f5 g (mem_snd.2 ⟨n, hx⟩)).2 e he
  · intro n c hx
    exact h.f6 c (mem_snd.2 ⟨n, hx⟩)
  · intro n x hx
    obtain ⟨h1, h2, h3, h4, h5, h6, _⟩ := h.f7 x (mem_snd.2 ⟨n, hx⟩)
    rw [← fileNumber_eq]
    exact ⟨h1, h2, h3, h4, h5, h6⟩

theorem itemsFit_of {s : SDAT} (h : FieldsFit s) (hz : infoBlockSize s < 2 ^ 32) : ItemsFit s := by
  constructor
  · intro x hx
    obtain ⟨n, hx⟩ := mem_snd.1 hx
    obtain ⟨h1, h2, h3, h4, h5, h6, h7⟩ := h.sequences n x hx
    rw [← fileNumber_eq] at h1
    exact ⟨h1, h2, h3, h4, h5, h6, h7, trivial⟩
  · intro x hx
    obtain ⟨n, hx⟩ := mem_snd.1 hx
    obtain ⟨h1, h2⟩ := h.sequenceArchives n x hx
    rw [← fileNumber_eq] at h1
    exact ⟨h1, h2, trivial⟩
  · intro x hx
    obtain ⟨n, hx⟩ := mem_snd.1 hx
    obtain ⟨h1, h2, h3, h4⟩ := h.banks n x hx
    rw [← fileNumber_eq] at h1
    exact ⟨⟨h1, h2, trivial⟩, h3, four_iff.2 h4⟩
  · intro x hx
    obtain ⟨n, hx⟩ := mem_snd.1 hx
    obtain ⟨h1, h2⟩ := h.waveArchives n x hx
    rw [← fileNumber_eq] at h1
    exact ⟨h1, h2, trivial⟩
  · intro x hx
    obtain ⟨n, hx⟩ := mem_snd.1 hx
    obtain ⟨h1, h2⟩ := h.sequencePlayers n x hx
    exact ⟨h1, channelMask_lt _, h2, trivial⟩
  · intro g hg
    have := partSize_mem (size := fun g : List GroupEntry => 4 + 8 * g.length) hg
    obtain ⟨n, hg⟩ := mem_snd.1 hg
    refine ⟨?_, h.groups n g hg⟩
    unfold infoBlockSize at hz
    omega
  · intro c hc
    obtain ⟨n, hc⟩ := mem_snd.1 hc
    exact h.streamPlayers n c hc
  · intro x hx
    obtain ⟨n, hx⟩ := mem_snd.1 hx
    obtain ⟨h1, h2, h3, h4, h5, h6⟩ := h.streams n x hx
    rw [← fileNumber_eq] at h1
    exact ⟨h1, h2, h3, h4, h5, h6, trivial⟩

theorem entryPlaces_le : ∀ {es : List (Option Bytes)} {pos : Nat}, ∀ o ∈ entryPlaces pos es, o ≤ pos + (entryBytes es).length
  | [], _ => by simp [entryPlaces]
  | none :: es, pos => by
    intro o ho
    have e : entryBytes (none :: es) = entryBytes es := rfl
    rw [e]
    rcases List.mem_cons.1 ho with rfl | ho
    · omega
    · exact entryPlaces_le o ho
  | some b :: es, pos => by
    intro o ho
    have e : entryBytes (some b :: es) = b ++ entryBytes es := rfl
    rw [e, List.length_append]
    rcases List.mem_cons.1 ho with rfl | ho
    · omega
    · have := entryPlaces_le o ho; omega

theorem partFits_of {start : Nat} {es : List (Option Bytes)} (h : start + (partBytes start es).length < 2 ^ 32) :
    PartFits start es := by
  rw [partBytes_length] at h
  refine ⟨by omega, by omega, fun o ho => ?_⟩
  have := entryPlaces_le o ho
  omega

theorem partsFit_of {s : SDAT} (h : 0x40 + (body8 s).length < 2 ^ 32) : PartsFit s := by
  have h1 : (body1 s).length = body0.length + (partBytes (0x40 + body0.length) (part0 s)).length := by
    conv => lhs; unfold body1
    rw [List.length_append]
  have h2 : (body2 s).length = (body1 s).length + (partBytes (0x40 + (body1 s).length) (part1 s)).length := by
    conv => lhs; unfold body2
    rw [List.length_append]
  have h3 : (body3 s).length = (body2 s).length + (partBytes (0x40 + (body2 s).length) (part2 s)).length := by
    conv => lhs; unfold body3
    rw [List.length_append]
  have h4 : (body4 s).length = (body3 s).length + (partBytes (0x40 + (body3 s).length) (part3 s)).length := by
    conv => lhs; unfold body4
    rw [List.length_append]
  have h5 : (body5 s).length = (body4 s).length + (partBytes (0x40 + (body4 s).length) (part4 s)).length := by
    conv => lhs; unfold body5
    rw [List.length_append]
  have h6 : (body6 s).length = (body5 s).length + (partBytes (0x40 + (body5 s).length) (part5 s)).length := by
    conv => lhs; unfold body6
    rw [List.length_append]
  have h7 : (body7 s).length = (body6 s).length + (partBytes (0x40 + (body6 s).length) (part6 s)).length := by
    conv => lhs; unfold body7
    rw [List.length_append]
  have h8 : (body8 s).length = (body7 s).length + (partBytes (0x40 + (body7 s).length) (part7 s)).length := by
    conv => lhs; unfold body8
    rw [List.length_append]
  exact ⟨partFits_of (by omega), partFits_of (by omega), partFits_of (by omega), partFits_of (by omega), partFits_of (by omega),
    partFits_of (by omega), partFits_of (by omega), partFits_of (by omega), h⟩

/-- The values of a table stay below these bounds. -/
def ValOk (N S : Nat) (v : Int × Bool) : Prop := (v.2 = true → v.1 ≤ (S : Int)) ∧ (v.2 = false → v.1 ≤ ((4 * N + 0x40 : Nat) : Int))

theorem ValOk.mono {N S N' S' : Nat} {v : Int × Bool} (h : ValOk N S v) (hN : N ≤ N') (hS : S ≤ S') : ValOk N' S' v :=
  ⟨fun e => Int.le_trans (h.1 e) (by omega), fun e => Int.le_trans (h.2 e) (by omega)⟩

theorem symbolVal_le (off : Nat) (s : Symbol) : symbolVal off s ≤ (off : Int) := by
  cases s with
  | none => show (-1 : Int) ≤ _; omega
  | some n => exact Int.le_refl _

theorem symbolVals_ok {N : Nat} : ∀ {ss : List Symbol} {off S : Nat}, off + (stringsOf ss).length ≤ S →
    ∀ v ∈ symbolVals off ss, ValOk N S v
  | [], _, _, _ => by simp [symbolVals]
  | s :: ss, off, S, h => by
    rw [stringsOf_cons, List.length_append] at h
    intro v hv
    rw [symbolVals, List.mem_cons] at hv
    rcases hv with rfl | hv
    · refine ⟨fun _ => Int.le_trans (symbolVal_le off s) (by omega), fun e => by cases e⟩
    · exact symbolVals_ok (by omega) v hv

theorem nestedMain_ok {area N : Nat} : ∀ {es : Nested} {k off S : Nat}, off + (stringsOf (flatSyms es)).length ≤ S →
    area + 4 * (k + (nestedSub off es).length) ≤ 4 * N + 0x40 → ∀ v ∈ nestedMain area k off es, ValOk N S v
  | [], _, _, _, _, _ => by simp [nestedMain]
  | (s, none) :: es, k, off, S, h, ha => by
    rw [flatSyms_none, stringsOf_cons, List.length_append] at h
    rw [nestedSub] at ha
    intro v hv
    rw [nestedMain, List.mem_cons, List.mem_cons] at hv
    rcases hv with rfl | rfl | hv
    · exact ⟨fun _ => Int.le_trans (symbolVal_le off s) (by omega), fun e => by cases e⟩
    · exact ⟨fun e => (by cases e), fun _ => by show (0 : Int) ≤ _; omega⟩
    · exact nestedMain_ok (by omega) ha v hv
  | (s, some names) :: es, k, off, S, h, ha => by
    rw [flatSyms_some, stringsOf_cons, stringsOf_append, List.length_append, List.length_append] at h
    rw [nestedSub, List.length_append, List.length_cons, symbolVals_length] at ha
    intro v hv
    rw [nestedMain, List.mem_cons, List.mem_cons] at hv
    rcases hv with rfl | rfl | hv
    · exact ⟨fun _ => Int.le_trans (symbolVal_le off s) (by omega), fun e => by cases e⟩
    · exact ⟨fun e => (by cases e), fun _ => by show ((area + k * 4 : Nat) : Int) ≤ _; omega⟩
    · exact nestedMain_ok (by omega) (by omega) v hv

theorem nestedSub_ok {N : Nat} : ∀ {es : Nested} {off S : Nat}, off + (stringsOf (flatSyms es)).length ≤ S →
    (nestedSub off es).length ≤ N → ∀ v ∈ nestedSub off es, ValOk N S v
  | [], _, _, _, _ => by simp [nestedSub]
  | (s, none) :: es, off, S, h, hN => by
    rw [flatSyms_none, stringsOf_cons, List.length_append] at h
    rw [nestedSub] at hN ⊢
    exact nestedSub_ok (by omega) hN
  | (s, some names) :: es, off, S, h, hN => by
    rw [flatSyms_some, stringsOf_cons, stringsOf_append, List.length_append, List.length_append] at h
    rw [nestedSub, List.length_append, List.length_cons, symbolVals_length] at hN
    intro v hv
    rw [nestedSub, List.mem_append, List.mem_cons] at hv
    rcases hv with (rfl | hv) | hv
    · exact ⟨fun e => (by cases e), fun _ => by show ((names.length : Nat) : Int) ≤ _; omega⟩
    · exact symbolVals_ok (by omega) v hv
    · exact nestedSub_ok (by omega) (by omega) v hv

/-- All values are below the bounds. -/
def TableOk (st : Symb) : Prop := ∀ v ∈ st.table, ValOk st.table.length st.strings.length v

theorem afterList_ok {ss : List Symbol} {st : Symb} (h : TableOk st) : TableOk (afterList ss st) := by
  intro v hv
  have hl := afterList_length ss st
  have hs : (afterList ss st).strings.length = st.strings.length + (stringsOf ss).length := List.length_append ..
  rw [hl, hs]
  unfold afterList at hv
  rcases List.mem_append.1 hv with hv | hv
  · exact (h v hv).mono (by omega) (by omega)
  · rcases List.mem_cons.1 hv with rfl | hv
    · exact ⟨fun e => (by cases e), fun _ => by show ((ss.length : Nat) : Int) ≤ _; omega⟩
    · exact symbolVals_ok (Nat.le_refl _) v hv

theorem afterNested_ok {es : Nested} {st : Symb} (h : TableOk st) : TableOk (afterNested es st) := by
  intro v hv
  have hl : (afterNested es st).table.length = st.table.length + (1 + 2 * es.length + (nestedSub st.strings.length es).length) := by
    rw [afterNested_length, nestedSub_length]
  have hs : (afterNested es st).strings.length = st.strings.length + (stringsOf (flatSyms es)).length := List.length_append ..
  rw [hl, hs]
  unfold afterNested at hv
  rcases List.mem_append.1 hv with hv | hv
  · rcases List.mem_append.1 hv with hv | hv
    · exact (h v hv).mono (by omega) (by omega)
    · rcases List.mem_cons.1 hv with rfl | hv
      · exact ⟨fun e => (by cases e), fun _ => by show ((es.length : Nat) : Int) ≤ _; omega⟩
      · exact nestedMain_ok (Nat.le_refl _) (by omega) v hv
  · exact nestedSub_ok (Nat.le_refl _) (by omega) v hv

theorem symb8_ok (s : SDAT) : TableOk (symb8 s) := by
  unfold symb8 symb7 symb6 symb5 symb4 symb3 symb2 symb1
  exact afterList_ok (afterList_ok (afterList_ok (afterList_ok (afterList_ok (afterList_ok (afterNested_ok (afterList_ok
    (by intro v hv; simp [symb0] at hv))))))))

theorem symbHeads_le (s : SDAT) : ∀ h ∈ symbHeads s, h ≤ (symb8 s).table.length * 4 := by
  have l2 : (symb1 s).table.length ≤ (symb2 s).table.length := by unfold symb2; rw [afterNested_length]; omega
  have l3 : (symb2 s).table.length ≤ (symb3 s).table.length := by unfold symb3; rw [afterList_length]; omega
  have l4 : (symb3 s).table.length ≤ (symb4 s).table.length := by unfold symb4; rw [afterList_length]; omega
  have l5 : (symb4 s).table.length ≤ (symb5 s).table.length := by unfold symb5; rw [afterList_length]; omega
  have l6 : (symb5 s).table.length ≤ (symb6 s).table.length := by unfold symb6; rw [afterList_length]; omega
  have l7 : (symb6 s).table.length ≤ (symb7 s).table.length := by unfold symb7; rw [afterList_length]; omega
  have l8 : (symb7 s).table.length ≤ (symb8 s).table.length := by unfold symb8; rw [afterList_length]; omega
  intro h hh
  simp only [symbHeads, List.mem_cons, List.not_mem_nil, or_false] at hh
  rcases hh with rfl | rfl | rfl | rfl | rfl | rfl | rfl | rfl <;> omega

theorem symbFits_of {s : SDAT} (h : ceilTo 4 (symbSize s) < 2 ^ 32) : SymbFits s := by
  have hle := le_ceilTo (n := symbSize s) (a := 4) (by decide)
  have hsz : symbSize s = (symb8 s).table.length * 4 + 0x40 + (symb8 s).strings.length := rfl
  refine ⟨fun v hv => ?_, h, fun x hx => ?_⟩
  · refine ⟨symb8_ge s v hv, ?_⟩
    obtain ⟨h1, h2⟩ := symb8_ok s v hv
    have hT : symbT s = (symb8 s).table.length * 4 + 0x40 := rfl
    unfold word
    split
    · decide
    · cases hb : v.2 with
      | true => have := h1 hb; rw [if_pos rfl]; omega
      | false => have := h2 hb; rw [if_neg (by decide)]; omega
  · have := symbHeads_le s x hx
    omega

theorem bodyEnd_ge {a : Nat} (ha : 0 < a) : ∀ {fs : List Bytes} {p : Nat}, p ≤ bodyEnd a p fs ∧ ∀ o ∈ places a p fs, o ≤ bodyEnd a p fs
  | [], p => ⟨Nat.le_refl _, by simp [places]⟩
  | f :: fs, p => by
    have h1 := le_ceilTo (n := p) ha
    obtain ⟨h2, h3⟩ := bodyEnd_ge ha (fs := fs) (p := ceilTo a p + f.length)
    rw [bodyEnd, places]
    refine ⟨by omega, fun o ho => ?_⟩
    rcases List.mem_cons.1 ho with rfl | ho
    · omega
    · exact h3 o ho

theorem alignOk_iff (s : SDAT) : AlignOk s ↔ AlignmentsUsable s := by
  have h : filesOf s ≠ [] ↔ usedFiles s ≠ [] := by
    rw [filesOf_eq]
    unfold storedFiles
    constructor
    · intro h e; rw [e] at h; exact h rfl
    · intro h e
      cases hu : usedFiles s with
      | nil => exact h hu
      | cons u us =>
        have h1 : u ∈ firstUses (usedFiles s) := mem_firstUses.2 (by rw [hu]; exact List.mem_cons_self ..)
        rw [List.map_eq_nil_iff] at e
        rw [e] at h1
        cases h1
  unfold AlignOk AlignmentsUsable
  rw [h]
  constructor
  · rintro ⟨h1, h2, h3⟩
    exact ⟨h1, fun h => h.elim h2 h3⟩
  · rintro ⟨h1, h2⟩
    exact ⟨h1, fun h => h2 (Or.inl h), fun h => h2 (Or.inr h)⟩

theorem banksOk_of {s : SDAT} (h : FieldsFit s) : BanksOk s := by
  intro x hx
  obtain ⟨n, hx⟩ := mem_snd.1 hx
  exact (h.banks n x hx).2.2.1

/-- When saving works, without any reference to how it works. -/
theorem saveable_iff (s : SDAT) : Saveable s ↔ NoEmptySlotFirst s ∧ (∀ n, some n ∈ namesIn s → ∀ c ∈ n, c < 256) ∧ FieldsFit s ∧
    AlignmentsUsable s ∧ (∀ f ∈ storedFiles s, tableLength s f < 2 ^ 32) ∧ archiveSize s < 2 ^ 32 := by
  constructor
  · intro h
    have hf := fieldsFit_of h.items
    refine ⟨(nested_iff s).1 h.nested, (latin_iff s).1 h.latin, hf, (alignOk_iff s).1 h.align, ?_, ?_⟩
    · intro f hf
      rw [← filesOf_eq] at hf
      have : ∃ o, (o, f) ∈ (offs s).zip (filesOf s) := by
        obtain ⟨i, hi, rfl⟩ := List.getElem_of_mem hf
        have hi' : i < (offs s).length := by unfold offs; rw [places_length]; exact hi
        refine ⟨(offs s)[i], ?_⟩
        rw [List.mem_iff_getElem]
        exact ⟨i, by rw [List.length_zip]; omega, List.getElem_zip ..⟩
      obtain ⟨o, ho⟩ := this
      exact (h.entries _ (List.mem_map.2 ⟨_, ho, rfl⟩)).2
    · rw [← total_eq s (banksOk_of hf)]; exact h.size
  · rintro ⟨h1, h2, h3, h4, h5, h6⟩
    have hb := banksOk_of h3
    have hA := (alignOk_iff s).2 h4
    rw [← total_eq s hb] at h6
    have g1 := fileOff_le_total hA
    have g2 : fileOff s = 0x40 + (symbData s).length + (infoBytes s).length + (0xC + 0x10 * fileCount s) := rfl
    have g3 : infoOff s = 0x40 + (symbData s).length := rfl
    have g4 : fatOff s = 0x40 + (symbData s).length + (infoBytes s).length := rfl
    have g5 := infoBytes_length s hb
    have g6 := infoBytes_length' s
    have g7 : hasSyms s = true → (symbData s).length = ceilTo 4 (symbSize s) := by
      intro h
      rw [symbData_length, symbSize_eq]
      unfold symbolBlockSize
      rw [if_pos ((hasSyms_iff s).1 h)]
    have g8 : symbHeadSize s < 2 ^ 32 := by
      unfold symbHeadSize
      split
      · rename_i h
        have := g7 h
        have := le_ceilTo (n := symbSize s) (a := 4) (by decide)
        split <;> omega
      · decide
    refine ⟨(nested_iff s).2 h1, (latin_iff s).2 h2, fun h => symbFits_of (by have := g7 h; omega), itemsFit_of h3 (by omega),
      partsFit_of (by omega), hA, ?_, ?_, h6⟩
    · intro e he
      obtain ⟨p, hp, rfl⟩ := List.mem_map.1 he
      obtain ⟨o, f⟩ := p
      obtain ⟨hp1, hp2⟩ := List.of_mem_zip hp
      refine ⟨?_, h5 f (by rw [← filesOf_eq]; exact hp2)⟩
      have ha : 0 < s.fileAlignment := hA.2.2 (by intro h; rw [h] at hp2; cases hp2)
      have h7 := (bodyEnd_ge ha (fs := filesOf s) (p := firstPos s)).2 o hp1
      have h8 : endPos s ≤ total s := by
        unfold total
        split
        · exact le_ceilTo ha
        · exact Nat.le_refl _
      have h9 : endPos s = bodyEnd s.fileAlignment (firstPos s) (filesOf s) := rfl
      show o < _
      omega
    · refine ⟨?_, g8, ?_, ?_, ?_, ?_, ?_, ?_, trivial⟩
      · show (if hasSyms s = true then 0x40 else 0) < 256 ^ 4
        split <;> decide
      · show infoOff s < 256 ^ 4; omega
      · show (infoBytes s).length < 256 ^ 4; omega
      · show fatOff s < 256 ^ 4; omega
      · show 0xC + 0x10 * fileCount s < 256 ^ 4; omega
      · show fileOff s < 256 ^ 4; omega
      · show total s - fileOff s < 256 ^ 4; omega

end Verif.Proofs.SoundArchive
