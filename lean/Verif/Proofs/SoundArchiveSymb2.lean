import Verif.Proofs.SoundArchiveSymb
import Verif.Proofs.SoundArchiveFiles

/-!
# The block of the symbols
-/

namespace Verif.Proofs.SoundArchive

open Verif Verif.Model.SoundArchive Verif.Spec.SoundArchive

/-- What `addSymbolsFrom` makes of the state. -/
def afterList (ss : List Symbol) (st : Symb) : Symb :=
  ⟨st.strings ++ stringsOf ss, st.table ++ ((ss.length : Int), false) :: symbolVals st.strings.length ss,
    st.heads ++ [st.table.length * 4], st.any || ss.any Option.isSome⟩

theorem addSymbolsFrom_eq_ok {ss : List Symbol} {st st' : Symb} :
    addSymbolsFrom ss st = .ok st' ↔ (∀ s ∈ ss, Latin1 s) ∧ st' = afterList ss st := by
  unfold addSymbolsFrom
  simp only [bind_eq_ok, pure_eq_ok, addSymbols_eq_ok]
  constructor
  · rintro ⟨_, ⟨h, rfl⟩, rfl⟩; exact ⟨h, rfl⟩
  · rintro ⟨h, rfl⟩; exact ⟨_, ⟨h, rfl⟩, rfl⟩

def afterNested (es : Nested) (st : Symb) : Symb :=
  ⟨st.strings ++ stringsOf (flatSyms es), st.table ++ (((es.length : Int), false) ::
      nestedMain (0x40 + st.table.length * 4 + (1 + 2 * es.length) * 4) 0 st.strings.length es) ++
        nestedSub st.strings.length es,
    st.heads ++ [st.table.length * 4], st.any || (flatSyms es).any Option.isSome⟩

theorem addSymbolsNested_eq_ok {es : Nested} {st st' : Symb} :
    addSymbolsNested es st = .ok st' ↔
      (∃ b, anyNested es false = .ok b) ∧ (∀ s ∈ flatSyms es, Latin1 s) ∧ st' = afterNested es st := by
  unfold addSymbolsNested
  simp only [bind_eq_ok, pure_eq_ok, addNested_eq_ok]
  constructor
  · rintro ⟨b, hb, _, ⟨h, rfl⟩, rfl⟩
    refine ⟨⟨b, hb⟩, h, ?_⟩
    rw [anyNested_ok hb]
    rfl
  · rintro ⟨⟨b, hb⟩, h, rfl⟩
    refine ⟨b, hb, _, ⟨h, rfl⟩, ?_⟩
    rw [anyNested_ok hb]
    rfl

/-- The tables and the strings are in the data. -/
structure Stored (data : Bytes) (B T : Nat) (st : Symb) : Prop where
  table : At data (B + 0x40) (words T st.table)
  strings : At data (B + T) st.strings
  ok : ∀ v ∈ st.table, WordOk T v

theorem Stored.mono {data : Bytes} {B T : Nat} {st st' : Symb} (h : Stored data B T st') (ht : st.table <+: st'.table)
    (hs : st.strings <+: st'.strings) : Stored data B T st := by
  obtain ⟨t, ht⟩ := ht
  obtain ⟨u, hu⟩ := hs
  refine ⟨?_, ?_, ?_⟩
  · have := h.table
    rw [← ht, words_append, At.split] at this
    exact this.1
  · have := h.strings
    rw [← hu, At.split] at this
    exact this.1
  · intro v hv
    exact h.ok v (by rw [← ht]; exact List.mem_append_left _ hv)

theorem afterList_mono (ss : List Symbol) (st : Symb) :
    st.table <+: (afterList ss st).table ∧ st.strings <+: (afterList ss st).strings :=
  ⟨List.prefix_append _ _, List.prefix_append _ _⟩

theorem afterNested_mono (es : Nested) (st : Symb) :
    st.table <+: (afterNested es st).table ∧ st.strings <+: (afterNested es st).strings :=
  ⟨⟨_, (List.append_assoc ..).symm⟩, List.prefix_append _ _⟩

/-- Where the last string ends. -/
def endOf (T : Nat) (st : Symb) : Nat := if st.any = true then T + st.strings.length else 0

theorem readList_stored {data : Bytes} {B T : Nat} {ss : List Symbol} {st : Symb} (hT : 0 < T)
    (hl : ∀ s ∈ ss, Latin1 s) (hn : ∀ s ∈ ss, NameOk s) (h : Stored data B T (afterList ss st)) :
    readSymbolsList data B (st.table.length * 4 + 0x40) (endOf T st) = .ok (ss, endOf T (afterList ss st)) := by
  have ht := h.table
  have hs := h.strings
  have hv := h.ok
  unfold afterList at ht hs hv
  dsimp only at ht hs hv
  rw [words_append, At.split, words_length] at ht
  rw [At.split] at hs
  rw [readSymbolsList_at hT hl hn hs.2 (ht.2.cast (by omega)) fun v h => hv v (List.mem_append_right _ h)]
  congr 2
  unfold lastEnd endOf afterList
  dsimp only
  rw [List.length_append]
  cases hany : ss.any Option.isSome with
  | true => simp
  | false => rw [stringsOf_of_none hany]; simp

theorem readNested_stored {data : Bytes} {B T : Nat} {es : Nested} {st : Symb} (hT : 0 < T)
    (hl : ∀ s ∈ flatSyms es, Latin1 s) (hn : ∀ s ∈ flatSyms es, NameOk s) (h : Stored data B T (afterNested es st)) :
    readNestedList data B (st.table.length * 4 + 0x40) (endOf T st) =
      .ok (es.map fun e => (e.1, e.2.getD []), endOf T (afterNested es st)) := by
  have ht := h.table
  have hs := h.strings
  have hv := h.ok
  unfold afterNested at ht hs hv
  dsimp only at ht hs hv
  rw [words_append, At.split, words_append, At.split, List.length_append, words_length, words_length, words_cons, At.split,
    enBytes_length, List.length_cons, nestedMain_length] at ht
  obtain ⟨⟨_, ht1, ht2⟩, ht3⟩ := ht
  rw [At.split] at hs
  have hword : word T ((es.length : Int), false) = es.length := by
    unfold word
    rw [if_neg (by show ¬ ((es.length : Int) = -1); omega)]
    simp
  have hlt := (hv ((es.length : Int), false) (by simp)).2
  rw [hword] at hlt ht1
  unfold readNestedList
  rw [show B + (st.table.length * 4 + 0x40) = B + 0x40 + 4 * st.table.length by omega]
  rw [ht1.unpackU (by omega), bind_ok]
  rw [readNested_at (T := T) (k := 0) hT (by omega) hl hn hs.2 (ht2.cast (by omega))
    (ht3.cast (by omega)) (fun v h => hv v (by simp [h])) (fun v h => hv v (by simp [h]))]
  congr 2
  unfold lastEnd endOf afterNested
  dsimp only
  rw [List.length_append]
  cases hany : (flatSyms es).any Option.isSome with
  | true => simp
  | false => rw [stringsOf_of_none hany]; simp

/-! ## All symbols -/

/-- The names of the sequence archives and of the sequences in them. -/
def ssarNames (s : SDAT) : Nested := s.sequenceArchives.map fun p => (p.1, p.2.map SsarItem.names)

def symb0 : Symb := ⟨[], [], [], false⟩
def symb1 (s : SDAT) : Symb := afterList (symbolsOf s.sequences) symb0
def symb2 (s : SDAT) : Symb := afterNested (ssarNames s) (symb1 s)
def symb3 (s : SDAT) : Symb := afterList (symbolsOf s.banks) (symb2 s)
def symb4 (s : SDAT) : Symb := afterList (symbolsOf s.waveArchives) (symb3 s)
def symb5 (s : SDAT) : Symb := afterList (symbolsOf s.sequencePlayers) (symb4 s)
def symb6 (s : SDAT) : Symb := afterList (symbolsOf s.groups) (symb5 s)
def symb7 (s : SDAT) : Symb := afterList (symbolsOf s.streamPlayers) (symb6 s)
def symb8 (s : SDAT) : Symb := afterList (symbolsOf s.streams) (symb7 s)

/-- All symbols of an archive. -/
def allSyms (s : SDAT) : List Symbol :=
  symbolsOf s.sequences ++ flatSyms (ssarNames s) ++ symbolsOf s.banks ++ symbolsOf s.waveArchives ++
    symbolsOf s.sequencePlayers ++ symbolsOf s.groups ++ symbolsOf s.streamPlayers ++ symbolsOf s.streams

theorem allSymbols_eq_ok {s : SDAT} {st : Symb} :
    allSymbols s = .ok st ↔ (∃ b, anyNested (ssarNames s) false = .ok b) ∧ (∀ x ∈ allSyms s, Latin1 x) ∧ st = symb8 s := by
  unfold allSymbols
  simp only [bind_eq_ok, addSymbolsFrom_eq_ok, addSymbolsNested_eq_ok]
  constructor
  · rintro ⟨_, ⟨h1, rfl⟩, _, ⟨h2, h3, rfl⟩, _, ⟨h4, rfl⟩, _, ⟨h5, rfl⟩, _, ⟨h6, rfl⟩, _, ⟨h7, rfl⟩, _, ⟨h8, rfl⟩, h9, rfl⟩
    refine ⟨h2, ?_, rfl⟩
    intro x hx
    simp only [allSyms, List.mem_append] at hx
    rcases hx with ((((((hx | hx) | hx) | hx) | hx) | hx) | hx) | hx
    · exact h1 x hx
    · exact h3 x hx
    · exact h4 x hx
    · exact h5 x hx
    · exact h6 x hx
    · exact h7 x hx
    · exact h8 x hx
    · exact h9 x hx
  · rintro ⟨h1, h2, rfl⟩
    simp only [allSyms, List.mem_append] at h2
    have k0 : ∀ x ∈ symbolsOf s.sequences, Latin1 x := fun x hx => h2 x (by simp [hx])
    have k1 : ∀ x ∈ flatSyms (ssarNames s), Latin1 x := fun x hx => h2 x (by simp [hx])
    have k2 : ∀ x ∈ symbolsOf s.banks, Latin1 x := fun x hx => h2 x (by simp [hx])
    have k3 : ∀ x ∈ symbolsOf s.waveArchives, Latin1 x := fun x hx => h2 x (by simp [hx])
    have k4 : ∀ x ∈ symbolsOf s.sequencePlayers, Latin1 x := fun x hx => h2 x (by simp [hx])
    have k5 : ∀ x ∈ symbolsOf s.groups, Latin1 x := fun x hx => h2 x (by simp [hx])
    have k6 : ∀ x ∈ symbolsOf s.streamPlayers, Latin1 x := fun x hx => h2 x (by simp [hx])
    have k7 : ∀ x ∈ symbolsOf s.streams, Latin1 x := fun x hx => h2 x (by simp [hx])
    exact ⟨_, ⟨k0, rfl⟩, _, ⟨h1, k1, rfl⟩, _, ⟨k2, rfl⟩, _, ⟨k3, rfl⟩, _, ⟨k4, rfl⟩, _, ⟨k5, rfl⟩, _, ⟨k6, rfl⟩, k7, rfl⟩

theorem symb8_any (s : SDAT) : (symb8 s).any = (allSyms s).any Option.isSome := by
  simp only [symb8, symb7, symb6, symb5, symb4, symb3, symb2, symb1, symb0, afterList, afterNested, allSyms, List.any_append,
    Bool.false_or]

theorem symb8_strings (s : SDAT) : (symb8 s).strings = stringsOf (allSyms s) := by
  simp only [symb8, symb7, symb6, symb5, symb4, symb3, symb2, symb1, symb0, afterList, afterNested, allSyms, stringsOf_append,
    List.nil_append]

theorem afterList_ge {ss : List Symbol} {st : Symb} (h : ∀ v ∈ st.table, -1 ≤ v.1) :
    ∀ v ∈ (afterList ss st).table, -1 ≤ v.1 := by
  intro v hv
  rw [afterList] at hv
  rcases List.mem_append.1 hv with hv | hv
  · exact h v hv
  · rcases List.mem_cons.1 hv with rfl | hv
    · show -1 ≤ ((ss.length : Nat) : Int); omega
    · exact symbolVals_ge v hv

theorem afterNested_ge {es : Nested} {st : Symb} (h : ∀ v ∈ st.table, -1 ≤ v.1) :
    ∀ v ∈ (afterNested es st).table, -1 ≤ v.1 := by
  intro v hv
  rw [afterNested] at hv
  rcases List.mem_append.1 hv with hv | hv
  · rcases List.mem_append.1 hv with hv | hv
    · exact h v hv
    · rcases List.mem_cons.1 hv with rfl | hv
      · show -1 ≤ ((es.length : Nat) : Int); omega
      · exact nestedMain_ge v hv
  · exact nestedSub_ge v hv

theorem symb8_ge (s : SDAT) : ∀ v ∈ (symb8 s).table, -1 ≤ v.1 := by
  unfold symb8 symb7 symb6 symb5 symb4 symb3 symb2 symb1
  exact afterList_ge (afterList_ge (afterList_ge (afterList_ge (afterList_ge (afterList_ge (afterNested_ge (afterList_ge
    (by simp [symb0]))))))))

/-- The offsets of the eight lists. -/
def symbHeads (s : SDAT) : List Nat :=
  [0, (symb1 s).table.length * 4, (symb2 s).table.length * 4, (symb3 s).table.length * 4, (symb4 s).table.length * 4,
    (symb5 s).table.length * 4, (symb6 s).table.length * 4, (symb7 s).table.length * 4]

theorem symb8_heads (s : SDAT) : (symb8 s).heads = symbHeads s := rfl

/-- The length of the table and the header. -/
def symbT (s : SDAT) : Nat := (symb8 s).table.length * 4 + 0x40

/-- The size of the block without padding. -/
def symbSize (s : SDAT) : Nat := symbT s + (symb8 s).strings.length

/-- The block without padding. -/
def symbBytes (s : SDAT) : Bytes :=
  magicSYMB ++ enBytes .little 4 (ceilTo 4 (symbSize s)) ++
    structBytes .little ((symbHeads s).map fun h => (4, h + 0x40)) ++ zeros 0x18 ++ words (symbT s) (symb8 s).table ++
    (symb8 s).strings

/-- All that has to fit. -/
def SymbFits (s : SDAT) : Prop :=
  (∀ v ∈ (symb8 s).table, WordOk (symbT s) v) ∧ ceilTo 4 (symbSize s) < 2 ^ 32 ∧ ∀ h ∈ symbHeads s, h + 0x40 < 2 ^ 32

theorem mapE_packU {l : List Nat} {r : List Bytes} :
    mapE (fun v => packU .little 4 (v + 0x40)) l = .ok r ↔
      (∀ h ∈ l, h + 0x40 < 2 ^ 32) ∧ r = l.map fun h => enBytes .little 4 (h + 0x40) :=
  mapE_eq_map (P := fun h => h + 0x40 < 2 ^ 32) (g := fun h => enBytes .little 4 (h + 0x40))
    (fun a b => by rw [packU_eq_ok]) l r

theorem structBytes_map (l : List Nat) :
    structBytes .little (l.map fun h => (4, h + 0x40)) = (l.map fun h => enBytes .little 4 (h + 0x40)).flatten := by
  induction l with
  | nil => rfl
  | cons a l ih => rw [List.map_cons, structBytes, ih]; rfl

theorem symbBytes_length (s : SDAT) : (symbBytes s).length = symbSize s := by
  unfold symbBytes symbSize symbT
  simp only [List.length_append, enBytes_length, structBytes_length, zeros_length, words_length, symbHeads, List.map_cons,
    List.map_nil, List.sum_cons, List.sum_nil]
  show 4 + 4 + _ + _ + _ + _ = _
  omega

theorem symbBlock_eq_ok {s : SDAT} {r : Option (Bytes × Nat)} :
    symbBlock s = .ok r ↔ (∃ b, anyNested (ssarNames s) false = .ok b) ∧ (∀ x ∈ allSyms s, Latin1 x) ∧
      (((allSyms s).any Option.isSome = true ∧ SymbFits s ∧
          r = some (symbBytes s, if s.padSymbSizeTo4InSDATHeader = true then ceilTo 4 (symbSize s) else symbSize s)) ∨
        ((allSyms s).any Option.isSome = false ∧ r = none)) := by
  unfold symbBlock
  rw [bind_eq_ok]
  simp only [allSymbols_eq_ok]
  have hsz : ∀ {ws : List Bytes}, mapE (symbolWord ((symb8 s).table.length * 4)) (symb8 s).table = .ok ws →
      0x40 + ws.flatten.length + (symb8 s).strings.length = symbSize s := by
    intro ws hws
    rw [(table_ok (symb8_ge s) hws).2, words_length]
    unfold symbSize symbT
    omega
  constructor
  · rintro ⟨_, ⟨h1, h2, rfl⟩, h⟩
    refine ⟨h1, h2, ?_⟩
    by_cases hany : (symb8 s).any = true
    · left
      rw [if_pos hany] at h
      rw [symb8_any] at hany
      simp only [bind_eq_ok, pure_eq_ok] at h
      obtain ⟨ws, hws, hs, hhs, hd, hhd, rfl⟩ := h
      have hsz := hsz hws
      rw [hsz, padLen_ceil (by decide)] at hhd
      rw [hsz, padLen_ceil (by decide)]
      rw [symb8_heads, mapE_packU] at hhs
      rw [packU_eq_ok] at hhd
      obtain ⟨h3, h4⟩ := table_ok (symb8_ge s) hws
      refine ⟨hany, ⟨h3, hhd.1, hhs.1⟩, ?_⟩
      rw [h4, hhd.2, hhs.2]
      unfold symbBytes
      rw [structBytes_map]
      rfl
    · rw [if_neg hany] at h
      right
      rw [symb8_any] at hany
      exact ⟨by simpa using hany, (pure_eq_ok.1 h).symm⟩
  · rintro ⟨h1, h2, h⟩
    refine ⟨_, ⟨h1, h2, rfl⟩, ?_⟩
    rcases h with ⟨hany, ⟨h3, h4, h5⟩, rfl⟩ | ⟨hany, rfl⟩
    · rw [if_pos (by rw [symb8_any]; exact hany)]
      have hws := table_of (n := (symb8 s).table.length * 4) h3
      have hsz := hsz hws
      simp only [bind_eq_ok, pure_eq_ok]
      refine ⟨_, hws, _, mapE_packU.2 ⟨h5, rfl⟩, _, packU_eq_ok.2 ⟨?_, rfl⟩, ?_⟩
      · rw [hsz, padLen_ceil (by decide)]; exact h4
      · rw [hsz, padLen_ceil (by decide)]
        unfold symbBytes
        rw [structBytes_map]
        rfl
    · rw [if_neg (by rw [symb8_any]; simp [hany])]
      rfl

end Verif.Proofs.SoundArchive
