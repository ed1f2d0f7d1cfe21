import Verif.Proofs.SoundBankPool
import Verif.Proofs.SoundBankLoad

/-!
# Bank files: layout, loading what was saved, saving what was loaded
-/

namespace Verif.Proofs.SoundBank

open Verif Verif.Model.SoundBank Verif.Model.Common Verif.Spec.SoundBank

/-! ## The file -/

/-- Where the instrument data starts. -/
def baseOf (s : SBNK) : Nat := 0x3C + 4 * s.instruments.length

/-- The instrument data. -/
def blobOf (s : SBNK) : Bytes := ((dataOf s).map Prod.fst).flatten

def padOf (s : SBNK) : Nat := padLen (baseOf s + (blobOf s).length) 4

def totalOf (s : SBNK) : Nat := baseOf s + (blobOf s).length + padOf s

/-- The type in the table. -/
def typeNum (i : Option Inst) : Nat := match i with | none => 0 | some i => i.kind.type

/-- The offset in the table. -/
def offNum (s : SBNK) (slot : Nat) : Nat := match (offsOf s).lookup slot with | none => 0 | some o => o + baseOf s

def entryBytes (s : SBNK) (p : Nat × Option Inst) : Bytes :=
  enBytes .little 1 (typeNum p.2) ++ enBytes .little 2 (offNum s p.1) ++ [0]

@[simp] theorem entryBytes_length (s : SBNK) (p : Nat × Option Inst) : (entryBytes s p).length = 4 := by
  simp [entryBytes]

def slots (s : SBNK) : List (Nat × Option Inst) := (List.range s.instruments.length).zip s.instruments

@[simp] theorem slots_length (s : SBNK) : (slots s).length = s.instruments.length := by simp [slots]

def tableBytes (s : SBNK) : Bytes := ((slots s).map (entryBytes s)).flatten

theorem tableBytes_length (s : SBNK) : (tableBytes s).length = 4 * s.instruments.length := by
  rw [tableBytes, flatten_length_const (n := 4) (by
    intro p hp; obtain ⟨r, _, rfl⟩ := List.mem_map.1 hp; simp), List.length_map, slots_length, Nat.mul_comm]

def headOf (s : SBNK) : Bytes :=
  stdHeaderBytes ⟨magicSBNK, 0xFEFF, 0x100, totalOf s, 0x10, 1⟩ ++
    (magicDATA ++ enBytes .little 4 (totalOf s - 0x10) ++ zeros 32 ++ enBytes .little 4 s.instruments.length)

def fileOf (s : SBNK) : Bytes := headOf s ++ tableBytes s ++ blobOf s ++ zeros (padOf s)

/-- When a bank can be saved. -/
def Savable (s : SBNK) : Prop :=
  (∀ j ∈ orderOf s, KindFits j.2.kind) ∧ (∀ p ∈ slots s, typeNum p.2 < 256 ∧ offNum s p.1 < 65536) ∧
    totalOf s < 2 ^ 32

theorem entry_ok {s : SBNK} (p : Nat × Option Inst) (b : Bytes) :
    entry (baseOf s) (offsOf s) p.1 p.2 = .ok b ↔
      (typeNum p.2 < 256 ∧ offNum s p.1 < 65536) ∧ b = entryBytes s p := by
  unfold entry
  simp only [bind_eq_ok, pure_eq_ok, packU_eq_ok, entryBytes, typeNum, offNum]
  constructor
  · rintro ⟨_, ⟨h1, rfl⟩, _, ⟨h2, rfl⟩, rfl⟩
    exact ⟨⟨h1, h2⟩, rfl⟩
  · rintro ⟨⟨h1, h2⟩, rfl⟩
    exact ⟨_, ⟨h1, rfl⟩, _, ⟨h2, rfl⟩, rfl⟩

theorem addAll_nil {l : List (Option Nat × Inst)} {r : List (Nat × Nat) × Pool} :
    addAll l ⟨[], []⟩ = .ok r ↔ (∀ j ∈ l, KindFits j.2.kind) ∧
      r = (l.filterMap fun j => j.1.map fun n => (n, offOf (nubInto [] (l.map fun j => keyOf j.2)) (keyOf j.2)),
        poolOf (nubInto [] (l.map fun j => keyOf j.2))) :=
  addAll_ok (D := [])

theorem save_ok {s : SBNK} {r : Bytes × Nat × List (Option Int)} :
    s.save = .ok r ↔ Savable s ∧ r = (fileOf s, s.unk02, s.waveArchiveIDs) := by
  rw [SBNK.save]
  simp only [bind_eq_ok, pure_eq_ok, addAll_nil]
  constructor
  · rintro ⟨_, ⟨h1, rfl⟩, t, ht, h, hh, a, ha, b, hb, rfl⟩
    have ht' := (mapE_eq_map (entry_ok (s := s)) (slots s) t).1 ht
    obtain ⟨h2, rfl⟩ := ht'
    have hh' := packStdHeader_eq_ok.1 hh
    obtain ⟨h3, rfl⟩ := hh'
    obtain ⟨h4, rfl⟩ := packU_eq_ok.1 ha
    obtain ⟨h5, rfl⟩ := packU_eq_ok.1 hb
    exact ⟨⟨h1, h2, h3.2.2.1⟩, rfl⟩
  · rintro ⟨⟨h1, h2, h3⟩, rfl⟩
    refine ⟨_, ⟨h1, rfl⟩, _, (mapE_eq_map (entry_ok (s := s)) (slots s) _).2 ⟨h2, rfl⟩, _,
      packStdHeader_eq_ok.2 ⟨StdHeader.ok_mk (by exact h3), rfl⟩, _, packU_eq_ok.2 ⟨?_, rfl⟩, _,
      packU_eq_ok.2 ⟨?_, rfl⟩, rfl⟩
    · have : totalOf s - 0x10 < 256 ^ 4 := by omega
      exact this
    · have : s.instruments.length ≤ totalOf s := by simp only [totalOf, baseOf]; omega
      omega

/-! ## Loading -/

/-- A table entry. -/
def slotBytes (x : Option (Kind × Nat)) : Bytes :=
  enBytes .little 1 (match x with | none => 0 | some p => p.1.type) ++
    enBytes .little 2 (match x with | none => 0 | some p => p.2) ++ [0]

@[simp] theorem slotBytes_length (x : Option (Kind × Nat)) : (slotBytes x).length = 4 := by simp [slotBytes]

/-- The instrument made from a table entry. -/
def slotInst (x : Option (Kind × Nat)) : Option Inst := x.map fun p => ⟨p.1, p.2, p.2⟩

theorem loadable_type {k : Kind} (h : Loadable k) : 0 < k.type ∧ k.type ≤ 17 := by
  cases k with
  | single n => exact ⟨h.1, by have := h.2; rw [Kind.type]; omega⟩
  | range f ns => rw [Kind.type]; omega
  | regional rs => rw [Kind.type]; omega

theorem loadTable_at {d : Bytes} : ∀ {l : List (Option (Kind × Nat))} {id : Nat} {u : List Nat},
    At d (0x3C + 4 * id) (l.map slotBytes).flatten →
    (∀ p, some p ∈ l → KindFits p.1 ∧ Loadable p.1 ∧ p.2 < 65536 ∧ At d p.2 (kindBytes p.1)) →
    ∃ u' ids, loadTable d l.length id u = .ok (l.map slotInst, u', ids) ∧
      ∀ x, x ∈ u' ↔ x ∈ u ∧ ∀ p, some p ∈ l → ¬ (p.2 ≤ x ∧ x < p.2 + (kindBytes p.1).length)
  | [], id, u, _, _ => ⟨u, [], rfl, by simp⟩
  | x :: l, id, u, h, hl => by
    rw [List.map_cons, List.flatten_cons, At.split, slotBytes_length] at h
    obtain ⟨h1, h2⟩ := h
    unfold slotBytes at h1
    simp only [At.split, List.length_append, enBytes_length] at h1
    obtain ⟨⟨ha, hb⟩, hc⟩ := h1
    have hz : unpackU .little 1 d (0x3C + 4 * id + 3) = .ok 0 := At.unpackU (e := .little) (k := 1) hc (by omega)
    rw [List.length_cons, loadTable]
    cases x with
    | none =>
      obtain ⟨u', ids, e1, e2⟩ := loadTable_at (id := id + 1) (u := consume u 0 0) (h2.cast (by omega))
        (fun p hp => hl p (List.mem_cons_of_mem _ hp))
      rw [ha.unpackU (by dsimp only; omega), bind_ok, hb.unpackU (by dsimp only; omega), bind_ok, hz, bind_ok, makeInstrumentAt, kindAt,
        if_pos rfl, bind_ok, pure_def, bind_ok]
      dsimp only
      rw [e1, bind_ok]
      refine ⟨u', ids, rfl, ?_⟩
      intro y
      rw [e2, consume_mem]
      simp
    | some p =>
      obtain ⟨k, o⟩ := p
      obtain ⟨f1, f2, f3, f4⟩ := hl (k, o) (by simp)
      have ht : 0 < k.type ∧ k.type ≤ 17 := loadable_type f2
      obtain ⟨u', ids, e1, e2⟩ := loadTable_at (id := id + 1) (u := consume u o (kindBytes k).length)
        (h2.cast (by omega)) (fun p hp => hl p (List.mem_cons_of_mem _ hp))
      rw [ha.unpackU (by dsimp only; omega), bind_ok, hb.unpackU (by dsimp only at f3 ⊢; omega), bind_ok, hz, bind_ok,
        makeInstrumentAt]
      dsimp only at f1 f2 f4 ⊢
      rw [kindAt_at f1 f2 f4, bind_ok, pure_def, bind_ok]
      dsimp only
      rw [e1, bind_ok]
      refine ⟨u', (id, o) :: ids, rfl, ?_⟩
      intro y
      rw [e2, consume_mem]
      constructor
      · rintro ⟨⟨g1, g2⟩, g3⟩
        refine ⟨g1, ?_⟩
        intro q hq
        rcases List.mem_cons.1 hq with hq | hq
        · cases hq; exact g2
        · exact g3 q hq
      · rintro ⟨g1, g2⟩
        exact ⟨⟨g1, g2 (k, o) (by simp)⟩, fun q hq => g2 q (List.mem_cons_of_mem _ hq)⟩

theorem loadTable_loadable {d : Bytes} : ∀ {n id : Nat} {u : List Nat}
    {r : List (Option Inst) × List Nat × List (Nat × Nat)}, loadTable d n id u = .ok r →
      ∀ i, some i ∈ r.1 → Loadable i.kind
  | 0, _, _, _, h => by cases h; simp
  | n + 1, id, u, r, h => by
    rw [loadTable] at h
    simp only [bind_eq_ok, pure_eq_ok] at h
    obtain ⟨t, _, o, _, _, _, m, hm, r', hr, rfl⟩ := h
    intro i hi
    rcases List.mem_cons.1 hi with hi | hi
    · rw [makeInstrumentAt] at hm
      simp only [bind_eq_ok, pure_eq_ok] at hm
      obtain ⟨⟨k, c⟩, hk, rfl⟩ := hm
      cases k with
      | none => cases hi
      | some k =>
        cases hi
        exact (kindAt_inv hk).1
    · exact loadTable_loadable hr i hi

/-- The slots of a saved bank with the offsets of their data. -/
def placed (s : SBNK) : List (Option (Kind × Nat)) :=
  (slots s).map fun p => p.2.map fun i => (i.kind, offNum s p.1)

/-- The instruments after saving and loading. -/
def reloaded (s : SBNK) : List (Option Inst) := (placed s).map slotInst

/-- Every instrument of the list can come out of loading. -/
def AllLoadable (s : SBNK) : Prop := ∀ i, some i ∈ s.instruments → Loadable i.kind

theorem mem_slots {s : SBNK} {k : Nat} {x : Option Inst} : (k, x) ∈ slots s ↔ s.instruments[k]? = some x := by
  rw [slots]
  constructor
  · intro hm
    obtain ⟨j, hj, hje⟩ := List.getElem_of_mem hm
    rw [List.getElem_zip, Prod.mk.injEq, List.getElem_range] at hje
    obtain ⟨rfl, h2⟩ := hje
    rw [List.getElem?_eq_getElem, h2]
    simpa using hj
  · intro h
    obtain ⟨hk, he⟩ := List.getElem?_eq_some_iff.1 h
    have : ((List.range s.instruments.length).zip s.instruments)[k]'(by simp [hk]) = (k, x) := by simp [he]
    rw [← this]
    exact List.getElem_mem _

theorem slots_map_snd (s : SBNK) : (slots s).map Prod.snd = s.instruments := by
  rw [slots]
  exact List.map_snd_zip (by simp)

theorem reloaded_kinds (s : SBNK) :
    (reloaded s).map (Option.map Inst.kind) = s.instruments.map (Option.map Inst.kind) := by
  rw [reloaded, placed, List.map_map, List.map_map]
  conv => rhs; rw [← slots_map_snd s, List.map_map]
  refine List.map_congr_left ?_
  rintro ⟨n, x⟩ _
  cases x <;> rfl

theorem slot_offNum {s : SBNK} (hl : AllLoadable s) {k : Nat} {i : Inst} (h : s.instruments[k]? = some (some i)) :
    offNum s k = offOf (dataOf s) (keyOf i) + baseOf s := by
  rw [offNum, offs_lookup h (loadable_type (hl i (List.mem_of_getElem? h))).2]

theorem key_mem {s : SBNK} (hl : AllLoadable s) {k : Nat} {i : Inst} (h : s.instruments[k]? = some (some i)) :
    keyOf i ∈ dataOf s := by
  rw [dataOf, mem_nubInto]
  exact .inr (List.mem_map.2 ⟨(some k, i),
    mem_order.2 ⟨h, (loadable_type (hl i (List.mem_of_getElem? h))).2⟩, rfl⟩)

theorem entry_slotBytes {s : SBNK} : ((slots s).map (entryBytes s)) = (placed s).map slotBytes := by
  rw [placed, List.map_map]
  refine List.map_congr_left ?_
  rintro ⟨k, x⟩ hm
  have h := mem_slots.1 hm
  cases x with
  | none =>
    simp only [entryBytes, typeNum, Function.comp, slotBytes, Option.map_none, offNum, offs_lookup_none h]
  | some i => rfl

theorem headOf_length (s : SBNK) : (headOf s).length = 0x3C := by
  simp [headOf, magicDATA, zeros]

theorem fileOf_length (s : SBNK) : (fileOf s).length = totalOf s := by
  simp only [fileOf, List.length_append, headOf_length, tableBytes_length, zeros, List.length_replicate, totalOf,
    baseOf]

theorem blob_at (s : SBNK) : At (fileOf s) (baseOf s) (blobOf s) := by
  rw [fileOf]
  refine At.append_right (At.last' ?_) _
  rw [List.length_append, headOf_length, tableBytes_length, baseOf]

theorem key_data_at {s : SBNK} {k : Key} (h : k ∈ dataOf s) :
    At (fileOf s) (offOf (dataOf s) k + baseOf s) k.1 :=
  ((blob_at s).sub (off_at h)).cast (by omega)

theorem mem_placed {s : SBNK} {p : Kind × Nat} (h : some p ∈ placed s) :
    ∃ k i, s.instruments[k]? = some (some i) ∧ p = (i.kind, offNum s k) := by
  obtain ⟨⟨k, x⟩, hm, he⟩ := List.mem_map.1 h
  cases x with
  | none => cases he
  | some i =>
    cases he
    exact ⟨k, i, mem_slots.1 hm, rfl⟩

theorem placed_of_slot {s : SBNK} {k : Nat} {i : Inst} (h : s.instruments[k]? = some (some i)) :
    some (i.kind, offNum s k) ∈ placed s :=
  List.mem_map.2 ⟨(k, some i), mem_slots.2 h, rfl⟩

theorem order_plain {s : SBNK} (hi : s.inaccessible = []) {j : Option Nat × Inst} (h : j ∈ orderOf s) :
    ∃ k, j.1 = some k := by
  unfold orderOf at h
  simp only [hi, List.lookup_nil, Option.getD_none, List.map_nil, List.filterMap_nil, List.filter_nil,
    sortBy, List.flatMap_nil, List.append_nil, List.nil_append, List.mem_append, List.mem_flatMap,
    List.mem_singleton] at h
  rcases h with (⟨p, _, rfl⟩ | ⟨p, _, rfl⟩) | ⟨p, _, rfl⟩ <;> exact ⟨_, rfl⟩

theorem kindBytes_even (k : Kind) (h : KindFits k) : (kindBytes k).length % 2 = 0 := by
  rw [kindBytes_length k h]
  cases k <;> dsimp only <;> omega

theorem flatten_even : ∀ {l : List Bytes}, (∀ b ∈ l, b.length % 2 = 0) → l.flatten.length % 2 = 0
  | [], _ => rfl
  | b :: l, h => by
    have h1 := h b (by simp)
    have h2 := flatten_even (fun c hc => h c (List.mem_cons_of_mem _ hc))
    rw [List.flatten_cons, List.length_append]; omega

theorem data_fits {s : SBNK} (hs : Savable s) {k : Key} (h : k ∈ dataOf s) :
    ∃ j ∈ orderOf s, k = keyOf j.2 ∧ KindFits j.2.kind := by
  rw [dataOf, mem_nubInto] at h
  obtain ⟨j, hj, rfl⟩ := List.mem_map.1 (h.resolve_left (by simp))
  exact ⟨j, hj, rfl, hs.1 j hj⟩

theorem blob_even {s : SBNK} (hs : Savable s) : (blobOf s).length % 2 = 0 := by
  refine flatten_even ?_
  intro b hb
  obtain ⟨k, hk, rfl⟩ := List.mem_map.1 hb
  obtain ⟨j, _, rfl, hf⟩ := data_fits hs hk
  exact kindBytes_even _ hf

theorem pad_cases {s : SBNK} (hs : Savable s) : padOf s = 0 ∨ (padOf s = 2 ∧ 2 ≤ (blobOf s).length) := by
  have h1 := blob_even hs
  have h2 : padOf s < 4 := padLen_lt (by decide)
  have h3 : (baseOf s + (blobOf s).length + padOf s) % 4 = 0 := add_padLen_mod _ (by decide)
  simp only [baseOf] at h3
  omega

theorem data_nodup (s : SBNK) : (dataOf s).Nodup := nodup_nubInto List.nodup_nil

theorem data_ne {s : SBNK} (hs : Savable s) : ∀ k ∈ dataOf s, k.1 ≠ [] := by
  intro k hk
  obtain ⟨j, _, rfl, hf⟩ := data_fits hs hk
  exact kindBytes_ne _ hf

theorem load_file_any {s : SBNK} {d : Bytes} (hf0 : At d 0 (fileOf s)) (choose : List Nat → Nat) (unk02 : Nat) (wa : List (Option Int)) (hs : Savable s)
    (hl : AllLoadable s) : ∃ inacc, SBNK.load choose d unk02 wa =
      .ok ⟨unk02, dropNones wa, reloaded s, inacc⟩ ∧ (s.inaccessible = [] → inacc = []) := by
  have hfl := fileOf_length s
  have hlen0 := hf0.bound
  have h0 : At d 0 (headOf s) := hf0.sub (p := 0) (by
    rw [fileOf, List.append_assoc, List.append_assoc]; exact At.first _ _)
  have ht : At d 0x3C (tableBytes s) := hf0.sub (p := 0x3C) (by
    rw [fileOf, List.append_assoc]; exact At.mk' (headOf_length s))
  have h0' := h0
  rw [headOf] at h0
  simp only [At.split, stdHeaderBytes_length, List.length_append, enBytes_length, zeros, List.length_replicate] at h0
  obtain ⟨hh, ⟨⟨hd, hsz⟩, _⟩, hcnt⟩ := h0
  have hml : magicDATA.length = 4 := rfl
  rw [hml] at hsz hcnt
  have hm4 : d.take 4 = magicSBNK := by
    have : At d 0 magicSBNK := hh.sub (p := 0) (by
      rw [stdHeaderBytes]
      simp only [List.append_assoc]
      exact At.first _ _)
    simpa [slice] using this.slice_eq (b := 4) rfl
  have hn : s.instruments.length < 2 ^ 32 := by
    have := hs.2.2
    simp only [totalOf, baseOf] at this
    omega
  have hplaced : ∀ p, some p ∈ placed s →
      KindFits p.1 ∧ Loadable p.1 ∧ p.2 < 65536 ∧ At d p.2 (kindBytes p.1) := by
    intro p hp
    obtain ⟨k, i, hk, rfl⟩ := mem_placed hp
    have hty := loadable_type (hl i (List.mem_of_getElem? hk))
    refine ⟨hs.1 _ (mem_order.2 ⟨hk, hty.2⟩), hl i (List.mem_of_getElem? hk),
      (hs.2.1 _ (mem_slots.2 hk)).2, ?_⟩
    dsimp only
    rw [slot_offNum hl hk]
    exact (hf0.sub (key_data_at (key_mem hl hk))).cast (by omega)
  have hlen : (placed s).length = s.instruments.length := by rw [placed, List.length_map, slots_length]
  rw [tableBytes, entry_slotBytes] at ht
  obtain ⟨u', ids, e1, e2⟩ := loadTable_at (d := d) (id := 0)
    (u := List.range' (0x3C + s.instruments.length * 4) (totalOf s - (0x3C + s.instruments.length * 4))) ht hplaced
  rw [hlen] at e1
  have hu : ∀ x ∈ u', x < d.length := by
    intro x hx
    have := ((e2 x).1 hx).1
    rw [List.mem_range'_1] at this
    omega
  obtain ⟨inacc, hin⟩ := recover_ok (choose := choose) (d := d) (totalOf s) (reloaded s) ids u'.length (u := u') []
    (Nat.le_refl _) hu
  refine ⟨inacc, ?_, ?_⟩
  · rw [SBNK.load, raiseIf_false (by simp [hm4]), bind_ok, unpackStdHeader_at hh (StdHeader.ok_mk hs.2.2) rfl, bind_ok,
      pyAssert_true rfl, bind_ok, raiseIf_false (by simp), bind_ok, At.unpackStr (n := 4) (hd.cast (by omega)) rfl, bind_ok,
      At.unpackU (e := .little) (k := 4) (hsz.cast (by omega)) (by have := hs.2.2; omega), bind_ok,
      At.unpackU (e := .little) (k := 4) (hcnt.cast (by omega)) (by omega), bind_ok, pyAssert_true rfl, bind_ok]
    dsimp only
    rw [e1, bind_ok]
    dsimp only
    have : (placed s).map slotInst = reloaded s := rfl
    rw [this, hin, bind_ok]
    rfl
  · intro hi
    have hmem : ∀ x, x ∈ u' ↔ baseOf s + (blobOf s).length ≤ x ∧ x < totalOf s := by
      intro x
      rw [e2, List.mem_range'_1]
      have hb : baseOf s = 0x3C + 4 * s.instruments.length := rfl
      have htot : totalOf s = baseOf s + (blobOf s).length + padOf s := rfl
      constructor
      · rintro ⟨⟨g1, g2⟩, g3⟩
        refine ⟨?_, by omega⟩
        apply Nat.le_of_not_lt
        intro hlt
        obtain ⟨k, hk, c1, c2⟩ := off_cover (D := dataOf s) (x := x - baseOf s) (data_nodup s) (by
          have : ((dataOf s).map Prod.fst).flatten = blobOf s := rfl
          rw [this]; omega)
        obtain ⟨j, hj, rfl, _⟩ := data_fits hs hk
        obtain ⟨n, hn⟩ := order_plain hi hj
        obtain ⟨n', i⟩ := j
        cases hn
        have hsl := (mem_order.1 hj).1
        have := g3 _ (placed_of_slot hsl)
        dsimp only at this c1 c2
        rw [slot_offNum hl hsl] at this
        simp only [keyOf] at this c1 c2
        omega
      · rintro ⟨g1, g2⟩
        refine ⟨by omega, ?_⟩
        intro p hp hc
        obtain ⟨k, i, hk, rfl⟩ := mem_placed hp
        dsimp only at hc
        rw [slot_offNum hl hk] at hc
        have := (off_at (key_mem hl hk)).bound
        have hbl : ((dataOf s).map Prod.fst).flatten = blobOf s := rfl
        rw [hbl] at this
        simp only [keyOf] at this hc
        omega
    have hdrop : dropPadding (totalOf s) u' = [] := by
      have htot : totalOf s = baseOf s + (blobOf s).length + padOf s := rfl
      have hb : baseOf s = 0x3C + 4 * s.instruments.length := rfl
      rcases pad_cases hs with hp | ⟨hp, hp2⟩
      · have : u' = [] := by
          apply List.eq_nil_iff_forall_not_mem.2
          intro x hx
          have := (hmem x).1 hx
          omega
        rw [this]; simp [dropPadding]
      · rw [dropPadding, if_pos]
        · apply List.eq_nil_iff_forall_not_mem.2
          intro x hx
          obtain ⟨hx1, hx2⟩ := List.mem_filter.1 hx
          have := (hmem x).1 hx1
          have hx3 := of_decide_eq_true hx2
          omega
        · rw [hmem, hmem, hmem]
          omega
    cases hul : u'.length with
    | zero => rw [hul, recover, hdrop] at hin; cases hin; rfl
    | succ n => rw [hul, recover, hdrop] at hin; cases hin; rfl
theorem load_file {s : SBNK} (choose : List Nat → Nat) (unk02 : Nat) (wa : List (Option Int)) (hs : Savable s)
    (hl : AllLoadable s) : ∃ inacc, SBNK.load choose (fileOf s) unk02 wa =
      .ok ⟨unk02, dropNones wa, reloaded s, inacc⟩ ∧ (s.inaccessible = [] → inacc = []) :=
  load_file_any (by simpa using At.first (fileOf s) []) choose unk02 wa hs hl

end Verif.Proofs.SoundBank
