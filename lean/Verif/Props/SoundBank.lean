import Verif.Proofs.SoundBankResave

/-!
# Properties of instrument banks (C34, C35, C62, C63, C64)
-/

namespace Verif.Props.SoundBank

open Verif Verif.Model.SoundBank Verif.Model.Common Verif.Spec.SoundBank

/-! ## C34 -/

/-- C34: an instrument that saves loads back equal, from any position in any file, if it is loadable. -/
theorem instrument_roundtrip_partial (k : Kind) (d b : Bytes) (o : Nat) (h : k.save = .ok b) (hl : Loadable k)
    (hat : At d o b) : kindAt d k.type o = .ok (some k, b.length) := by
  obtain ⟨hf, rfl⟩ := Proofs.SoundBank.kind_save_ok.1 h
  exact Proofs.SoundBank.kindAt_at hf hl hat

/-- C34: loadable instruments are the only ones: nothing else ever comes out of any file. -/
theorem instrument_loadable (k : Kind) (d : Bytes) (t o n : Nat) (h : kindAt d t o = .ok (some k, n)) :
    Loadable k ∧ k.type = t :=
  ⟨(Proofs.SoundBank.kindAt_inv h).1, (Proofs.SoundBank.kindAt_inv h).2.1⟩

/-- C34, files first: an instrument that was loaded saves to as many bytes as it took in the file, which load to an
equal instrument.  They are the same bytes for single notes and for ranges that are not empty. -/
theorem instrument_resave (k : Kind) (d : Bytes) (t o n : Nat) (h : kindAt d t o = .ok (some k, n)) :
    ∃ b, k.save = .ok b ∧ b.length = n ∧ kindAt b t 0 = .ok (some k, n) ∧
      ((∀ rs, k ≠ .regional rs) → (∀ f, k ≠ .range f []) → At d o b) := by
  obtain ⟨h1, h2, _, h4⟩ := Proofs.SoundBank.kindAt_fits h
  obtain ⟨hl, ht, _⟩ := Proofs.SoundBank.kindAt_inv h
  refine ⟨Proofs.SoundBank.kindBytes k, Proofs.SoundBank.kind_save_ok.2 ⟨h1, rfl⟩, h2.symm, ?_, h4⟩
  rw [h2, ← ht]
  exact Proofs.SoundBank.kindAt_at h1 hl (At.refl _)

/-- C34: a regional instrument without regions saves, and does not load back: `fromData` insists on a first region
and takes the bytes that follow for its note. -/
theorem empty_regional_lost (d : Bytes) (o : Nat) :
    (Kind.regional []).save = .ok (zeros 8) ∧ ∀ n, kindAt d 17 o ≠ .ok (some (.regional []), n) := by
  refine ⟨rfl, fun n h => ?_⟩
  exact (instrument_loadable _ _ _ _ _ h).1.1 rfl

/-- C34: a region that ends at pitch 0 and is not the first cuts off the regions from there on. -/
theorem zero_region_lost : ∃ (rs : List (Nat × Note)) (b : Bytes), (Kind.regional rs).save = .ok b ∧
    kindAt b 17 0 = .ok (some (.regional (rs.take 1)), 20) ∧ rs.length = 2 :=
  ⟨[(60, ⟨0, 0, 60, 127, 127, 127, 127, 64, 1⟩), (0, ⟨1, 0, 60, 127, 127, 127, 127, 64, 1⟩)], _, rfl, rfl, rfl⟩

/-- C34: a range instrument without notes that starts at pitch 0 cannot be saved. -/
theorem empty_range_unsavable : (Kind.range 0 []).save = .error .structError := rfl

-- a regional instrument whose first region ends at 0
example : ∃ b, (Kind.regional [(0, ⟨3, 0, 60, 127, 127, 127, 127, 64, 2⟩), (127, ⟨4, 1, 60, 1, 2, 3, 4, 5, 1⟩)]).save
    = .ok b ∧ Loadable (Kind.regional [(0, ⟨3, 0, 60, 127, 127, 127, 127, 64, 2⟩), (127, ⟨4, 1, 60, 1, 2, 3, 4, 5, 1⟩)]) ∧
    At ([7, 7] ++ b ++ [9]) 2 b :=
  ⟨_, rfl, ⟨by simp, by simp⟩, At.mk' rfl⟩

/-! ## C35 -/

/-- C35: a bank that saves loads back with the same instrument list, including the empty slots, exactly if all its
instruments are loadable.  `unk02` and the wave archive IDs, which are not part of the file, are what is passed along
with it, without trailing `None`s.  It does not matter what `guessInstrumentType` picks. -/
theorem bank_roundtrip_partial (choose : List Nat → Nat) (s : SBNK) (b : Bytes) (unk02 : Nat)
    (wa : List (Option Int)) (h : s.save = .ok (b, unk02, wa)) :
    (∃ s', SBNK.load choose b unk02 wa = .ok s' ∧
      s'.instruments.map (Option.map Inst.kind) = s.instruments.map (Option.map Inst.kind)) ↔
    ∀ i, some i ∈ s.instruments → Loadable i.kind := by
  obtain ⟨hs, he⟩ := Proofs.SoundBank.save_ok.1 h
  cases he
  constructor
  · rintro ⟨s', h1, h2⟩ i hi
    rw [SBNK.load] at h1
    simp only [bind_eq_ok, pure_eq_ok] at h1
    obtain ⟨_, _, _, _, _, _, _, _, _, _, _, _, _, _, _, _, r, hr, _, _, rfl⟩ := h1
    have hm : some i.kind ∈ s.instruments.map (Option.map Inst.kind) := List.mem_map.2 ⟨some i, hi, rfl⟩
    rw [← h2] at hm
    obtain ⟨x, hx, hxe⟩ := List.mem_map.1 hm
    cases x with
    | none => cases hxe
    | some j =>
      simp only [Option.map_some, Option.some.injEq] at hxe
      rw [← hxe]
      exact Proofs.SoundBank.loadTable_loadable hr j hx
  · intro hl
    obtain ⟨inacc, h1, _⟩ := Proofs.SoundBank.load_file choose s.unk02 s.waveArchiveIDs hs hl
    exact ⟨_, h1, Proofs.SoundBank.reloaded_kinds s⟩

/-- C35: what a loaded bank has for attributes that are not in the file; and if the saved bank had no inaccessible
instruments, none are found. -/
theorem bank_roundtrip_rest (choose : List Nat → Nat) (s s' : SBNK) (b : Bytes) (unk02 : Nat)
    (wa : List (Option Int)) (h : s.save = .ok (b, unk02, wa)) (hl : ∀ i, some i ∈ s.instruments → Loadable i.kind)
    (h' : SBNK.load choose b unk02 wa = .ok s') :
    s'.unk02 = s.unk02 ∧ (s.waveArchiveIDs.getLast? ≠ some none → s'.waveArchiveIDs = s.waveArchiveIDs) ∧
      (s.inaccessible = [] → s'.inaccessible = []) := by
  obtain ⟨hs, he⟩ := Proofs.SoundBank.save_ok.1 h
  cases he
  obtain ⟨inacc, h1, h2⟩ := Proofs.SoundBank.load_file choose s.unk02 s.waveArchiveIDs hs hl
  rw [h'] at h1
  cases h1
  refine ⟨rfl, ?_, h2⟩
  intro hw
  show dropNones s.waveArchiveIDs = s.waveArchiveIDs
  unfold dropNones
  rw [← List.head?_reverse] at hw
  cases hr : s.waveArchiveIDs.reverse with
  | nil => simpa using hr.symm
  | cons a l =>
    rw [hr] at hw
    cases a with
    | none => exact absurd rfl hw
    | some a =>
      rw [List.dropWhile_cons_of_neg (by simp), ← hr, List.reverse_reverse]

/-- C35, for banks that come from files: if a loaded bank can be saved, the result loads back with the same
instrument list. -/
theorem bank_file_roundtrip (choose choose' : List Nat → Nat) (d b : Bytes) (s : SBNK) (unk02 : Nat)
    (wa : List (Option Int)) (h : SBNK.load choose d unk02 wa = .ok s) (hs : s.save = .ok (b, s.unk02, s.waveArchiveIDs)) :
    ∃ s', SBNK.load choose' b s.unk02 s.waveArchiveIDs = .ok s' ∧
      s'.instruments.map (Option.map Inst.kind) = s.instruments.map (Option.map Inst.kind) := by
  refine (bank_roundtrip_partial choose' s b _ _ hs).2 ?_
  rw [SBNK.load] at h
  simp only [bind_eq_ok, pure_eq_ok] at h
  obtain ⟨_, _, _, _, _, _, _, _, _, _, _, _, _, _, _, _, r, hr, _, _, rfl⟩ := h
  exact Proofs.SoundBank.loadTable_loadable hr

/-- A note to build examples from. -/
def exNote (w t : Nat) : Note := ⟨w, 0, 60, 127, 127, 127, 127, 64, t⟩

/-- A bank with a shared single note, an empty slot, a range and a regional instrument. -/
def exBank : SBNK where
  unk02 := 0
  waveArchiveIDs := [some 3, none, some 5]
  instruments := [some ⟨.range 60 [exNote 1 1, exNote 2 2], 5, 5⟩, none, some ⟨.single (exNote 7 1), 2, 1⟩,
    some ⟨.regional [(50, exNote 3 1), (127, exNote 4 3)], 0, 0⟩, some ⟨.single (exNote 7 2), 1, 1⟩]
  inaccessible := []

example : (exBank.save.toOption.map fun r => r.1.length) = some 148 ∧
    (∀ i, some i ∈ exBank.instruments → Loadable i.kind) := by
  refine ⟨by decide +kernel, ?_⟩
  intro i hi
  simp only [exBank, List.mem_cons, Option.some.injEq, reduceCtorEq, List.not_mem_nil, or_false, false_or] at hi
  rcases hi with rfl | rfl | rfl | rfl <;> simp [Loadable, exNote]

/-! ## C62 -/

/-- C62: loading a bank ends for every byte string: with a bank, or with one of four exceptions. -/
theorem bank_load_total (choose : List Nat → Nat) (d : Bytes) (unk02 : Nat) (wa : List (Option Int)) (err : PyErr)
    (h : SBNK.load choose d unk02 wa = .error err) :
    err = .structError ∨ err = .valueError ∨ err = .indexError ∨ err = .assertionError := by
  rw [SBNK.load] at h
  rw [raiseIf] at h
  split at h
  · cases h; exact .inr (.inl rfl)
  rw [bind_ok] at h
  simp only [bind_eq_error] at h
  have hassert : ∀ {c : Prop} [Decidable c], pyAssert c = .error err → err = .assertionError := by
    intro c _ h
    unfold pyAssert at h
    split at h
    · cases h
    · cases h; rfl
  have hraise : ∀ {c : Prop} [Decidable c] {e : PyErr}, raiseIf c e = .error err → err = e := by
    intro c _ e h
    unfold raiseIf at h
    split at h
    · cases h; rfl
    · cases h
  rcases h with h | ⟨hd, _, h⟩
  · unfold unpackStdHeader at h
    simp only [bind_eq_error] at h
    rcases h with h | ⟨_, _, h | ⟨_, _, h | ⟨_, _, h | ⟨_, _, h | ⟨_, _, h | ⟨_, _, h⟩⟩⟩⟩⟩⟩
    · exact .inl (Proofs.SoundBank.unpackStr_err h)
    · exact .inl (unpackU_err h)
    · exact .inl (unpackU_err h)
    · exact .inl (unpackU_err h)
    · exact .inl (unpackU_err h)
    · exact .inl (unpackU_err h)
    · cases h
  rcases h with h | ⟨_, _, h⟩
  · exact .inr (.inr (.inr (hassert h)))
  rcases h with h | ⟨_, _, h⟩
  · exact .inr (.inl (hraise h))
  rcases h with h | ⟨_, _, h⟩
  · exact .inl (Proofs.SoundBank.unpackStr_err h)
  rcases h with h | ⟨_, _, h⟩
  · exact .inl (unpackU_err h)
  rcases h with h | ⟨_, _, h⟩
  · exact .inl (unpackU_err h)
  rcases h with h | ⟨_, _, h⟩
  · exact .inr (.inr (.inr (hassert h)))
  rcases h with h | ⟨_, _, h⟩
  · rcases Proofs.SoundBank.loadTable_err h with h | h
    · exact .inl h
    · exact .inr (.inl h)
  rcases h with h | ⟨_, _, h⟩
  · rcases Proofs.SoundBank.recover_err (Nat.le_refl _) h with h | h
    · exact .inr (.inr (.inl h))
    · exact .inr (.inl h)
  · cases h

-- a file with bytes that belong to no instrument: they are skipped two at a time, or found to be instruments
example : ((SBNK.load (fun _ => 16) ([0x53, 0x42, 0x4E, 0x4B, 0xFF, 0xFE, 0, 1, 0x60, 0, 0, 0, 0x10, 0, 1, 0] ++
    magicDATA ++ zeros 40 ++ List.replicate 36 5) 0 []).toOption.map fun s =>
      (s.instruments.length, s.inaccessible.map fun p => p.2.length)) = some (0, [2]) := by decide +kernel

/-! ## C63 -/

/-- C63: saving a bank that was saved and loaded gives the same file, if there are no inaccessible instruments:
the order and the sharing of the instrument data survive. -/
theorem bank_resave (choose : List Nat → Nat) (s : SBNK) (b : Bytes) (unk02 : Nat) (wa : List (Option Int))
    (h : s.save = .ok (b, unk02, wa)) (hl : ∀ i, some i ∈ s.instruments → Loadable i.kind)
    (hi : s.inaccessible = []) :
    ∃ s', SBNK.load choose b unk02 wa = .ok s' ∧ s'.save = .ok (b, s'.unk02, s'.waveArchiveIDs) := by
  obtain ⟨hs, he⟩ := Proofs.SoundBank.save_ok.1 h
  cases he
  obtain ⟨inacc, h1, h2⟩ := Proofs.SoundBank.load_file choose s.unk02 s.waveArchiveIDs hs hl
  have := h2 hi
  subst this
  obtain ⟨h3, h4⟩ := Proofs.SoundBank.resave s.unk02 s.waveArchiveIDs hi hs hl
  refine ⟨_, h1, Proofs.SoundBank.save_ok.2 ⟨h3, ?_⟩⟩
  rw [← h4]
  rfl

/-! ## C64 -/

/-- C64: the table of a saved bank.  Slot `k` occupies the four bytes at 0x3C + 4k: the type, the offset of the
data, and a zero; all zero if the slot is empty.  The data of an instrument of type at most 17 lies behind the table,
at the offset. -/
theorem bank_layout (s : SBNK) (b : Bytes) (unk02 : Nat) (wa : List (Option Int)) (h : s.save = .ok (b, unk02, wa))
    (k : Nat) :
    (s.instruments[k]? = some none → At b (0x3C + 4 * k) (zeros 4)) ∧
    (∀ i, s.instruments[k]? = some (some i) → i.kind.type ≤ 17 → ∃ data off, i.kind.save = .ok data ∧
      off < 65536 ∧ 0x3C + 4 * s.instruments.length ≤ off ∧
      At b (0x3C + 4 * k) (enBytes .little 1 i.kind.type ++ enBytes .little 2 off ++ [0]) ∧ At b off data) := by
  obtain ⟨hs, he⟩ := Proofs.SoundBank.save_ok.1 h
  cases he
  have ht : At (Proofs.SoundBank.fileOf s) 0x3C (Proofs.SoundBank.tableBytes s) := by
    rw [Proofs.SoundBank.fileOf, List.append_assoc]; exact At.mk' (Proofs.SoundBank.headOf_length s)
  have hent : ∀ x, s.instruments[k]? = some x →
      At (Proofs.SoundBank.fileOf s) (0x3C + 4 * k) (Proofs.SoundBank.entryBytes s (k, x)) := by
    intro x hx
    obtain ⟨hk, hke⟩ := List.getElem?_eq_some_iff.1 hx
    have hlen : k < ((Proofs.SoundBank.slots s).map (Proofs.SoundBank.entryBytes s)).length := by
      rw [List.length_map, Proofs.SoundBank.slots_length]; exact hk
    have := flatten_at (n := 4) (parts := (Proofs.SoundBank.slots s).map (Proofs.SoundBank.entryBytes s)) (by
      intro p hp; obtain ⟨r, _, rfl⟩ := List.mem_map.1 hp; simp) hlen
    have hg : ((Proofs.SoundBank.slots s).map (Proofs.SoundBank.entryBytes s))[k]'hlen =
        Proofs.SoundBank.entryBytes s (k, x) := by
      rw [List.getElem_map]
      congr 1
      simp [Proofs.SoundBank.slots, hke]
    rw [hg] at this
    exact (ht.sub this).cast (by omega)
  refine ⟨?_, ?_⟩
  · intro hk
    have := hent none hk
    simp only [Proofs.SoundBank.entryBytes, Proofs.SoundBank.typeNum, Proofs.SoundBank.offNum,
      Proofs.SoundBank.offs_lookup_none hk] at this
    exact this
  · intro i hk hty
    have ho : Proofs.SoundBank.offNum s k = Proofs.SoundBank.offOf (Proofs.SoundBank.dataOf s)
        (Proofs.SoundBank.keyOf i) + Proofs.SoundBank.baseOf s := by
      rw [Proofs.SoundBank.offNum, Proofs.SoundBank.offs_lookup hk hty]
    have hmem : Proofs.SoundBank.keyOf i ∈ Proofs.SoundBank.dataOf s := by
      rw [Proofs.SoundBank.dataOf, Proofs.SoundBank.mem_nubInto]
      exact .inr (List.mem_map.2 ⟨(some k, i), Proofs.SoundBank.mem_order.2 ⟨hk, hty⟩, rfl⟩)
    refine ⟨Proofs.SoundBank.kindBytes i.kind, Proofs.SoundBank.offNum s k,
      Proofs.SoundBank.kind_save_ok.2 ⟨hs.1 _ (Proofs.SoundBank.mem_order.2 ⟨hk, hty⟩), rfl⟩,
      (hs.2.1 _ (Proofs.SoundBank.mem_slots.2 hk)).2, ?_, hent _ hk, ?_⟩
    · rw [ho, Proofs.SoundBank.baseOf]; omega
    · rw [ho]; exact Proofs.SoundBank.key_data_at hmem

/-- C64: two instruments share their data exactly if their data and their `dataMergeOptimizationID`s agree. -/
theorem bank_sharing (s : SBNK) (b : Bytes) (unk02 : Nat) (wa : List (Option Int)) (h : s.save = .ok (b, unk02, wa))
    (k k' : Nat) (i i' : Inst) (off off' : Nat) (hk : s.instruments[k]? = some (some i))
    (hk' : s.instruments[k']? = some (some i')) (ht : i.kind.type ≤ 17) (ht' : i'.kind.type ≤ 17)
    (ho : unpackU .little 2 b (0x3C + 4 * k + 1) = .ok off) (ho' : unpackU .little 2 b (0x3C + 4 * k' + 1) = .ok off') :
    off = off' ↔ i.kind.save = i'.kind.save ∧ i.mergeID = i'.mergeID := by
  obtain ⟨hs, he⟩ := Proofs.SoundBank.save_ok.1 h
  cases he
  have hoff : ∀ {n : Nat} {j : Inst} {o : Nat}, s.instruments[n]? = some (some j) → j.kind.type ≤ 17 →
      unpackU .little 2 (Proofs.SoundBank.fileOf s) (0x3C + 4 * n + 1) = .ok o →
      o = Proofs.SoundBank.offOf (Proofs.SoundBank.dataOf s) (Proofs.SoundBank.keyOf j) + Proofs.SoundBank.baseOf s ∧
      Proofs.SoundBank.keyOf j ∈ Proofs.SoundBank.dataOf s ∧ j.kind.save = .ok (Proofs.SoundBank.kindBytes j.kind) := by
    intro n j o hn hty hu
    have hord := Proofs.SoundBank.mem_order.2 ⟨hn, hty⟩
    have hmem : Proofs.SoundBank.keyOf j ∈ Proofs.SoundBank.dataOf s := by
      rw [Proofs.SoundBank.dataOf, Proofs.SoundBank.mem_nubInto]
      exact .inr (List.mem_map.2 ⟨(some n, j), hord, rfl⟩)
    refine ⟨?_, hmem, Proofs.SoundBank.kind_save_ok.2 ⟨hs.1 _ hord, rfl⟩⟩
    have ht : At (Proofs.SoundBank.fileOf s) 0x3C (Proofs.SoundBank.tableBytes s) := by
      rw [Proofs.SoundBank.fileOf, List.append_assoc]; exact At.mk' (Proofs.SoundBank.headOf_length s)
    obtain ⟨hlt, hke⟩ := List.getElem?_eq_some_iff.1 hn
    have hlen : n < ((Proofs.SoundBank.slots s).map (Proofs.SoundBank.entryBytes s)).length := by
      rw [List.length_map, Proofs.SoundBank.slots_length]; exact hlt
    have hat := flatten_at (n := 4) (parts := (Proofs.SoundBank.slots s).map (Proofs.SoundBank.entryBytes s)) (by
      intro p hp; obtain ⟨r, _, rfl⟩ := List.mem_map.1 hp; simp) hlen
    have hg : ((Proofs.SoundBank.slots s).map (Proofs.SoundBank.entryBytes s))[n]'hlen =
        Proofs.SoundBank.entryBytes s (n, some j) := by
      rw [List.getElem_map]
      congr 1
      simp [Proofs.SoundBank.slots, hke]
    rw [hg] at hat
    have hat := ht.sub hat
    rw [Proofs.SoundBank.entryBytes] at hat
    simp only [At.split, List.length_append, enBytes_length] at hat
    have hr := At.unpackU (e := .little) (k := 2) (hat.1.2.cast (p := 0x3C + 4 * n + 1) (by omega))
      (by have := (hs.2.1 _ (Proofs.SoundBank.mem_slots.2 hn)).2; exact this)
    rw [hu] at hr
    cases hr
    rw [Proofs.SoundBank.offNum, Proofs.SoundBank.offs_lookup hn hty]
  obtain ⟨e1, m1, s1⟩ := hoff hk ht ho
  obtain ⟨e2, m2, s2⟩ := hoff hk' ht' ho'
  rw [e1, e2, s1, s2]
  constructor
  · intro e
    have := Proofs.SoundBank.off_inj (Proofs.SoundBank.data_nodup s) (Proofs.SoundBank.data_ne hs) m1 m2 (by omega)
    exact ⟨congrArg Except.ok (congrArg Prod.fst this), congrArg Prod.snd this⟩
  · rintro ⟨e, e'⟩
    have : Proofs.SoundBank.keyOf i = Proofs.SoundBank.keyOf i' := by
      rw [Proofs.SoundBank.keyOf, Proofs.SoundBank.keyOf, e']
      rw [Except.ok.inj e]
    rw [this]

-- in the example bank, slots 2 and 4 share their data although their types differ
example : (exBank.save.toOption.map fun r => (slice r.1 0x44 0x48, slice r.1 0x4C 0x50)) =
    some ([1, 80, 0, 0], [2, 80, 0, 0]) := by decide +kernel

end Verif.Props.SoundBank
