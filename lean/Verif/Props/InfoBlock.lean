import Verif.Proofs.InfoBlock

/-!
# C46: info blocks

Saving a list of named records and loading it gives the same list exactly when every name can be stored: at most 16
Latin-1 characters, the last one not NUL, and not `None`.
-/

namespace Verif.Props.InfoBlock

open Verif Verif.Model.InfoBlock Verif.Proofs.InfoBlock

/-- A name an info block can hold. -/
def Clean (name : Option Str) : Prop := ∃ s, name = some s ∧ s.length ≤ 16 ∧ ∀ t, s ≠ t ++ [0]

/-- What is read back for a name that was saved: NULs at the end are lost, and `None` becomes the empty string. -/
def ReadsAs (name : Option Str) (r : Str) : Prop :=
  (∃ k, name.getD [] = r ++ List.replicate k 0) ∧ ∀ t, r ≠ t ++ [0]

theorem last_iff (l : Bytes) : l.getLast? ≠ some 0 ↔ ∀ t, latin1Decode l ≠ t ++ [0] := by
  constructor
  · intro h t ht
    apply h
    have := congrArg List.getLast? ht
    rw [latin1Decode, List.getLast?_map] at this
    simp only [List.getLast?_append, List.getLast?_singleton, Option.some_or, Option.map_eq_some_iff] at this
    obtain ⟨x, hx, h0⟩ := this
    rw [hx, show x = 0 from UInt8.toNat_inj.1 h0]
  · intro h hl
    obtain ⟨t, rfl⟩ := List.getLast?_eq_some_iff.1 hl
    exact h (latin1Decode t) (by simp [latin1Decode])

theorem map_toNat_ofNat {s : Str} (h : ∀ c ∈ s, c < 256) : latin1Decode (s.map UInt8.ofNat) = s :=
  latin1Decode_map_ofNat h

theorem loaded_reads {e : Entry} (h : ∀ c ∈ e.name.getD [], c < 256) :
    ∃ r, (loaded e).name = some r ∧ ReadsAs e.name r := by
  refine ⟨_, rfl, ?_⟩
  obtain ⟨k, h1, h2⟩ := rstripZero_eq ((e.name.getD []).map UInt8.ofNat)
  refine ⟨⟨k, ?_⟩, (last_iff _).1 h2⟩
  have := congrArg latin1Decode h1
  rw [map_toNat_ofNat h] at this
  refine this.trans ?_
  simp [latin1Decode, zeros]

theorem readsAs_clean {name : Option Str} {r : Str} (h : ReadsAs name r) (hc : Clean name) : name = some r := by
  obtain ⟨s, rfl, _, h2⟩ := hc
  obtain ⟨⟨k, hk⟩, _⟩ := h
  rw [Option.getD_some] at hk
  cases k with
  | zero => rw [hk]; simp
  | succ k =>
    exfalso
    rw [List.replicate_succ', ← List.append_assoc] at hk
    exact h2 _ hk

/-- **Loading a saved block**, wherever it lies in a file: if no name is longer than 16 characters, there are as many
entries in the same order, with the same numbers and records, and the name of each is that which was saved up to NULs
at its end. -/
theorem load_saved {es : List Entry} {L : Nat} {b data : Bytes} {off : Nat} {expected : Option Nat}
    (hs : saveInfoBlock es L = .ok b) (hn : ∀ e ∈ es, ∀ s, e.name = some s → s.length ≤ 16)
    (ha : slice data off (off + b.length) = b) (he : expected = none ∨ expected = some L) :
    ∃ es', loadInfoBlock data off expected = .ok es' ∧ es'.length = es.length ∧
      ∀ (i : Nat) e, es[i]? = some e → ∃ r, es'[i]? = some ⟨some r, e.unk00, e.unk02, e.data⟩ ∧ ReadsAs e.name r := by
  obtain ⟨hok, rfl⟩ := saveInfoBlock_eq_ok.1 hs
  have hpos : 0 < (infoBytes es L).length := by rw [infoBytes, List.length_append, structBytes_length]; simp; omega
  have hat : At data off (infoBytes es L) := by
    refine At.of_slice (b := off + (infoBytes es L).length) ?_ (by omega) ha
    have := congrArg List.length ha
    rw [slice_length] at this
    omega
  have hn' : ∀ e ∈ es, (e.name.getD []).length ≤ 16 := by
    intro e he
    cases hne : e.name with
    | none => simp
    | some s => exact hn e he s hne
  refine ⟨es.map loaded, loadInfoBlock_at hok hn' hat ?_, by simp, ?_⟩
  · intro n hn
    rcases he with he | he <;> rw [he] at hn <;> cases hn
    rfl
  · intro i e hi
    obtain ⟨r, hr, hr2⟩ := loaded_reads (hok.names e (List.mem_of_getElem? hi))
    refine ⟨r, ?_, hr2⟩
    rw [List.getElem?_map, hi, ← hr]
    rfl

example : ∃ b, saveInfoBlock [⟨some [0x61, 0], 1, 2, [3]⟩, ⟨none, 4, 5, [6]⟩] 1 = .ok b ∧
    loadInfoBlock ([9, 9] ++ b ++ [9]) 2 (some 1) = .ok [⟨some [0x61], 1, 2, [3]⟩, ⟨some [], 4, 5, [6]⟩] :=
  ⟨_, rfl, by decide +kernel⟩

theorem loaded_name {data : Bytes} {off : Nat} {expected : Option Nat} {es : List Entry}
    (h : loadInfoBlock data off expected = .ok es) : ∀ e ∈ es, Clean e.name := by
  unfold loadInfoBlock at h
  obtain ⟨a, _, h⟩ := bind_eq_ok.1 h
  obtain ⟨b, _, h⟩ := bind_eq_ok.1 h
  split at h
  · simp only [bind_eq_ok] at h
    obtain ⟨_, _, _, _, _, _, c, _, h⟩ := h
    split at h
    · simp only [bind_eq_ok] at h
      obtain ⟨_, _, _, _, h⟩ := h
      refine mapE_forall ?_ h
      intro i e he
      unfold loadEntry at he
      obtain ⟨v, _, he⟩ := bind_eq_ok.1 he
      split at he
      · cases he
        refine ⟨_, rfl, ?_, ?_⟩
        · rw [latin1Decode, List.length_map]
          generalize hsl : slice data _ _ = sl
          obtain ⟨k, h1, _⟩ := rstripZero_eq sl
          have := congrArg List.length h1
          rw [← hsl, slice_length, List.length_append, hsl] at this
          omega
        · generalize slice data _ _ = sl
          obtain ⟨_, _, h2⟩ := rstripZero_eq sl
          exact (last_iff _).1 h2
      · cases he
    · cases h
  · cases h

/-- **C46.** A block that saves reads back as the same list, from any place in any file, exactly when all the names are
ones that a block can hold. -/
theorem roundtrip_iff {es : List Entry} {L : Nat} {b data : Bytes} {off : Nat} {expected : Option Nat}
    (hs : saveInfoBlock es L = .ok b) (ha : slice data off (off + b.length) = b)
    (he : expected = none ∨ expected = some L) :
    loadInfoBlock data off expected = .ok es ↔ ∀ e ∈ es, Clean e.name := by
  refine ⟨loaded_name, fun hc => ?_⟩
  obtain ⟨es', h1, h2, h3⟩ := load_saved hs (fun e he s hs => by
    obtain ⟨s', h, hl, _⟩ := hc e he
    rw [hs] at h; cases h; exact hl) ha he
  rw [h1]
  congr 1
  refine List.ext_getElem? fun i => ?_
  rcases Nat.lt_or_ge i es.length with hi | hi
  · obtain ⟨r, hr, hr2⟩ := h3 i _ (List.getElem?_eq_getElem hi)
    rw [hr, List.getElem?_eq_getElem hi, ← readsAs_clean hr2 (hc _ (List.getElem_mem hi))]
  · rw [List.getElem?_eq_none (by omega), List.getElem?_eq_none hi]

example : ∃ b, saveInfoBlock [⟨some [0x61, 0x62], 1, 2, [3, 4]⟩, ⟨some (List.replicate 16 0xFF), 5, 6, [7, 8]⟩] 2 = .ok b ∧
    loadInfoBlock b 0 none = .ok [⟨some [0x61, 0x62], 1, 2, [3, 4]⟩, ⟨some (List.replicate 16 0xFF), 5, 6, [7, 8]⟩] :=
  ⟨_, rfl, by decide +kernel⟩

/-- A name of 17 characters spoils the names after it. -/
example : ∃ b, saveInfoBlock [⟨some (List.replicate 17 0x61), 0, 0, []⟩, ⟨some [0x62], 0, 0, []⟩] 0 = .ok b ∧
    loadInfoBlock b 0 (some 0) = .ok [⟨some (List.replicate 16 0x61), 0, 0, []⟩, ⟨some [0x61, 0x62], 0, 0, []⟩] :=
  ⟨_, rfl, by decide +kernel⟩

/-- The length of the names block: 16 bytes for each name, more for longer ones. -/
def namesSize : List Entry → Nat
  | [] => 0
  | e :: es => max 16 (e.name.getD []).length + namesSize es

theorem namesSize_eq : ∀ es : List Entry, ((es.map fun e => nameB e.name).flatten).length = namesSize es
  | [] => rfl
  | e :: es => by
    rw [List.map_cons, List.flatten_cons, List.length_append, namesSize_eq es, namesSize]
    simp [nameB]; omega

theorem restBytes_length {es : List Entry} {L : Nat} (h : ∀ e ∈ es, e.data.length = L) :
    4 + (restBytes es L).length = 16 + es.length * (4 + L) + namesSize es := by
  rw [restBytes]
  simp only [List.length_append, structBytes_length, namesSize_eq, flatten_map_length (f := unkB) (fun e _ => unkB_length e),
    flatten_map_length h, List.map_cons, List.map_nil, List.sum_cons, List.sum_nil]
  rw [Nat.mul_add]; omega

/-- **When a block saves**, and how long it is then: at most 255 entries with 16-bit numbers, records of the stated
length, names in Latin-1, and a total size that fits its 16-bit field. -/
theorem saves_iff (es : List Entry) (L : Nat) :
    (∃ b, saveInfoBlock es L = .ok b ∧ b.length = 16 + es.length * (4 + L) + namesSize es) ↔
      es.length ≤ 255 ∧ L < 65536 ∧ 16 + es.length * (4 + L) + namesSize es < 65536 ∧
      ∀ e ∈ es, e.unk00 < 65536 ∧ e.unk02 < 65536 ∧ e.data.length = L ∧ ∀ s, e.name = some s → ∀ c ∈ s, c < 256 := by
  constructor
  · rintro ⟨b, hb, _⟩
    obtain ⟨h, _⟩ := saveInfoBlock_eq_ok.1 hb
    refine ⟨by have := h.count; omega, h.len, by rw [← restBytes_length h.datas]; exact h.size, fun e he =>
      ⟨(h.unks e he).1, (h.unks e he).2, h.datas e he, fun s hs => ?_⟩⟩
    have := h.names e he
    rw [hs] at this
    exact this
  · rintro ⟨h1, h2, h3, h4⟩
    have hd : ∀ e ∈ es, e.data.length = L := fun e he => (h4 e he).2.2.1
    refine ⟨infoBytes es L, saveInfoBlock_eq_ok.2 ⟨⟨by omega, fun e he => ⟨(h4 e he).1, (h4 e he).2.1⟩, h2, ?_, hd, ?_, ?_⟩,
      rfl⟩, ?_⟩
    · rw [Nat.mul_add] at h3; omega
    · intro e he c hc
      cases hn : e.name with
      | none => rw [hn] at hc; exact nomatch hc
      | some s => rw [hn] at hc; exact (h4 e he).2.2.2 s hn c hc
    · rw [restBytes_length hd]; exact h3
    · rw [infoBytes, List.length_append, structBytes_length]
      simp only [List.map_cons, List.map_nil, List.sum_cons, List.sum_nil]
      have := restBytes_length hd
      omega

example : ∃ b, saveInfoBlock [⟨some [0x61], 1, 65535, [3, 4]⟩] 2 = .ok b ∧ b.length = 38 := ⟨_, rfl, rfl⟩
example : saveInfoBlock [⟨some [0x61], 1, 2, [3, 4, 5]⟩] 2 = .error .valueError := rfl

theorem size_field {es : List Entry} {L : Nat} {b : Bytes} (hs : saveInfoBlock es L = .ok b) :
    unpackU .little 2 b 2 = .ok b.length := by
  obtain ⟨hok, rfl⟩ := saveInfoBlock_eq_ok.1 hs
  have h0 : At (infoBytes es L) 0 (infoBytes es L) := At.refl _
  conv at h0 => rhs; rw [infoBytes]
  rw [At.split] at h0
  have h1 := h0.1
  simp only [structBytes, At.split, enBytes_length] at h1
  have := h1.2.2.1.unpackU (show 4 + (restBytes es L).length < 256 ^ 2 from hok.size)
  rw [this, infoBytes, List.length_append, structBytes_length]
  congr 1

/-- **Saving what was loaded** gives the bytes of the file again, if the block is complete in the file, its first byte
is 0 and the size it states is right. -/
theorem resave {data : Bytes} {off L : Nat} {es : List Entry}
    (h : loadInfoBlock data off (some L) = .ok es) (hc : off + 16 + es.length * (20 + L) ≤ data.length)
    (h0 : data[off]? = some 0) (hsz : unpackU .little 2 data (off + 2) = .ok (16 + es.length * (20 + L))) :
    saveInfoBlock es L = .ok (slice data off (off + 16 + es.length * (20 + L))) := by
  obtain ⟨L', hL, h1, hcount, hlen, htot, hrest⟩ := loadInfoBlock_inv h
  obtain rfl := hL L rfl
  obtain ⟨hr1, hr2, hr3⟩ := hrest hc
  have hszlt := unpackU_lt hsz
  have hs2 := At.of_unpackU hsz
  rw [saveInfoBlock_eq_ok]
  refine ⟨⟨hcount, fun e he => (hr3 e he).1, hlen, htot, fun e he => (hr3 e he).2.1, fun e he => (hr3 e he).2.2, ?_⟩, ?_⟩
  · rw [hr2]; simp at hszlt; omega
  · have hb0 : At data off [0] := by
      refine At.of_slice (b := off + 1) (by omega) (by omega) ?_
      have : data.drop off = 0 :: data.drop (off + 1) := by
        obtain ⟨hlt, hg⟩ := List.getElem?_eq_some_iff.1 h0
        rw [List.drop_eq_getElem_cons hlt, hg]
      simp [slice, this]
    have : At data off (infoBytes es L') := by
      rw [infoBytes, At.split, structBytes_length]
      refine ⟨?_, hr1⟩
      simp only [structBytes, At.split, enBytes_length]
      refine ⟨by simpa [enBytes, leBytes] using hb0, by simpa [enBytes, leBytes] using h1, ?_, ?_⟩
      · rw [hr2, show 4 + (12 + es.length * (20 + L')) = 16 + es.length * (20 + L') by omega]; exact hs2
      · exact At.nil (by omega)
    refine (this.slice_eq ?_)
    rw [infoBytes, List.length_append, structBytes_length, hr2]
    simp only [List.map_cons, List.map_nil, List.sum_cons, List.sum_nil]
    omega

example : ∃ b, saveInfoBlock [⟨some [0x61], 1, 2, [3]⟩, ⟨some [], 4, 5, [6]⟩] 1 = .ok b ∧ b[0]? = some 0 ∧
    loadInfoBlock b 0 (some 1) = .ok [⟨some [0x61], 1, 2, [3]⟩, ⟨some [], 4, 5, [6]⟩] ∧
    unpackU .little 2 b 2 = .ok (16 + 2 * (20 + 1)) ∧ b.length = 16 + 2 * (20 + 1) :=
  ⟨_, rfl, by decide +kernel⟩

end Verif.Props.InfoBlock
