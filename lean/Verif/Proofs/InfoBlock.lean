import Verif.Model.InfoBlock

/-!
# Info blocks: closed form of saving, loading a saved block, saving a loaded one
-/

namespace Verif.Proofs.InfoBlock

open Verif Verif.Model.InfoBlock

/-! ## Stripping zeros -/

theorem rstripZero_eq (b : Bytes) : ∃ k, b = rstripZero b ++ zeros k ∧ (rstripZero b).getLast? ≠ some 0 := by
  have key : ∀ l : Bytes, ∃ k, l = zeros k ++ l.dropWhile (· = 0) ∧ (l.dropWhile (· = 0)).head? ≠ some 0 := by
    intro l
    induction l with
    | nil => exact ⟨0, rfl, by simp⟩
    | cons a l ih =>
      by_cases h : a = 0
      · subst h
        obtain ⟨k, h1, h2⟩ := ih
        refine ⟨k + 1, ?_, ?_⟩
        · rw [List.dropWhile_cons_of_pos (by simp), zeros, List.replicate_succ, List.cons_append, ← zeros, ← h1]
        · rw [List.dropWhile_cons_of_pos (by simp)]; exact h2
      · refine ⟨0, ?_, ?_⟩
        · rw [List.dropWhile_cons_of_neg (by simpa using h)]; rfl
        · rw [List.dropWhile_cons_of_neg (by simpa using h)]; simpa using h
  obtain ⟨k, h1, h2⟩ := key b.reverse
  refine ⟨k, ?_, ?_⟩
  · have := congrArg List.reverse h1
    rw [List.reverse_reverse, List.reverse_append, zeros, List.reverse_replicate] at this
    exact this
  · rw [rstripZero, List.getLast?_reverse]; exact h2

theorem append_zeros_unique : ∀ {a c : Bytes} {j k : Nat}, a ++ zeros j = c ++ zeros k → a.getLast? ≠ some 0 →
    c.getLast? ≠ some 0 → a = c := by
  intro a c j
  induction j generalizing a c with
  | zero =>
    intro k h h1 h2
    cases k with
    | zero => simpa [zeros] using h
    | succ k =>
      exfalso
      rw [zeros, List.replicate_zero, List.append_nil, zeros, List.replicate_succ', ← List.append_assoc] at h
      rw [h] at h1
      exact h1 (by simp)
  | succ j ih =>
    intro k h h1 h2
    cases k with
    | zero =>
      exfalso
      rw [zeros, zeros, List.replicate_zero, List.append_nil, List.replicate_succ', ← List.append_assoc] at h
      rw [← h] at h2
      exact h2 (by simp)
    | succ k =>
      rw [zeros, zeros, List.replicate_succ', List.replicate_succ', ← List.append_assoc, ← List.append_assoc] at h
      exact ih (List.append_cancel_right h) h1 h2

theorem rstripZero_append {a : Bytes} (k : Nat) (h : a.getLast? ≠ some 0) : rstripZero (a ++ zeros k) = a := by
  obtain ⟨j, h1, h2⟩ := rstripZero_eq (a ++ zeros k)
  exact (append_zeros_unique h1 h h2).symm

theorem zeros_append (j k : Nat) : zeros j ++ zeros k = zeros (j + k) := by
  simp [zeros]

theorem rstripZero_zeros_append (a : Bytes) (k : Nat) : rstripZero (a ++ zeros k) = rstripZero a := by
  obtain ⟨j, h1, h2⟩ := rstripZero_eq a
  conv => lhs; rw [h1]
  rw [List.append_assoc, zeros_append]
  exact rstripZero_append _ h2

/-! ## Saving -/

/-- The name of an entry as bytes. -/
def nameB (name : Option Str) : Bytes := (name.getD []).map UInt8.ofNat ++ zeros (16 - (name.getD []).length)

theorem nameBytes_eq_ok {name : Option Str} {b : Bytes} :
    nameBytes name = .ok b ↔ (∀ c ∈ name.getD [], c < 256) ∧ b = nameB name := by
  cases name with
  | none => simp [nameBytes, nameB, eq_comm]
  | some s =>
    simp only [nameBytes, bind_eq_ok, pure_eq_ok, latin1Encode_eq_ok]
    constructor
    · rintro ⟨_, ⟨h, rfl⟩, rfl⟩
      exact ⟨h, by simp [nameB]⟩
    · rintro ⟨h, rfl⟩
      exact ⟨_, ⟨h, rfl⟩, by simp [nameB]⟩

theorem nameB_length {name : Option Str} (h : (name.getD []).length ≤ 16) : (nameB name).length = 16 := by
  simp [nameB]; omega

/-- The two unknown numbers of an entry as bytes. -/
def unkB (e : Entry) : Bytes := structBytes .little [(2, e.unk00), (2, e.unk02)]

@[simp] theorem unkB_length (e : Entry) : (unkB e).length = 4 := by simp [unkB, structBytes_length]

/-- The part after the first four bytes. -/
def restBytes (es : List Entry) (L : Nat) : Bytes :=
  structBytes .little [(2, 8), (2, 12 + 4 * es.length), (4, 0x17F)] ++ ((es.map unkB).flatten ++
    (structBytes .little [(2, L), (2, 4 + es.length * L)] ++ ((es.map Entry.data).flatten ++
      (es.map fun e => nameB e.name).flatten)))

/-- The whole block. -/
def infoBytes (es : List Entry) (L : Nat) : Bytes :=
  structBytes .little [(1, 0), (1, es.length), (2, 4 + (restBytes es L).length)] ++ restBytes es L

/-- When a block can be saved. -/
structure Ok (es : List Entry) (L : Nat) : Prop where
  count : es.length < 256
  unks : ∀ e ∈ es, e.unk00 < 65536 ∧ e.unk02 < 65536
  len : L < 65536
  total : 4 + es.length * L < 65536
  datas : ∀ e ∈ es, e.data.length = L
  names : ∀ e ∈ es, ∀ c ∈ e.name.getD [], c < 256
  size : 4 + (restBytes es L).length < 65536

theorem mapE_iff {α β : Type} {f : α → Py β} {P : α → Prop} {g : α → β} (h : ∀ a b, f a = .ok b ↔ P a ∧ b = g a)
    {as : List α} {bs : List β} : mapE f as = .ok bs ↔ (∀ a ∈ as, P a) ∧ bs = as.map g := by
  induction as generalizing bs with
  | nil => simp [mapE, eq_comm]
  | cons a as ih =>
    rw [mapE_cons_ok]
    constructor
    · rintro ⟨b, bs', h1, h2, rfl⟩
      obtain ⟨h3, rfl⟩ := (h _ _).1 h1
      obtain ⟨h4, rfl⟩ := ih.1 h2
      exact ⟨by simpa using ⟨h3, h4⟩, rfl⟩
    · rintro ⟨h1, rfl⟩
      exact ⟨_, _, (h _ _).2 ⟨h1 a (by simp), rfl⟩, ih.2 ⟨fun x hx => h1 x (by simp [hx]), rfl⟩, rfl⟩

theorem saveInfoBlock_eq_ok {es : List Entry} {L : Nat} {b : Bytes} :
    saveInfoBlock es L = .ok b ↔ Ok es L ∧ b = infoBytes es L := by
  have hu : ∀ (e : Entry) b, packUs .little [(2, e.unk00), (2, e.unk02)] = .ok b ↔
      (e.unk00 < 65536 ∧ e.unk02 < 65536) ∧ b = unkB e := by
    intro e b
    rw [packUs_eq_ok]
    simp [Fits, unkB]
  have hd : ∀ (e : Entry) b, ((do raiseIf (e.data.length ≠ L) .valueError; return e.data) : Py Bytes) = .ok b ↔
      e.data.length = L ∧ b = e.data := by
    intro e b
    simp only [bind_eq_ok, pure_eq_ok, raiseIf_eq_ok, eq_comm (a := b)]
    simp
  have hn : ∀ (e : Entry) b, nameBytes e.name = .ok b ↔ (∀ c ∈ e.name.getD [], c < 256) ∧ b = nameB e.name :=
    fun e b => nameBytes_eq_ok
  have hfin : ∀ (n : Nat) (s : Bytes), patch (structBytes .little [(1, 0), (1, n), (2, 0)] ++ restBytes es L) 2
      (enBytes .little 2 (4 + (restBytes es L).length)) =
      structBytes .little [(1, 0), (1, n), (2, 4 + (restBytes es L).length)] ++ restBytes es L := by
    intro n _
    simp [patch, structBytes, enBytes, leBytes]
  unfold saveInfoBlock
  simp only [bind_eq_ok, packUs_eq_ok (fs := [_, _, _]), packUs_eq_ok (fs := [(2, L), _]), mapE_iff hu, mapE_iff hd,
    mapE_iff hn, packU_eq_ok, packInto_eq_ok]
  constructor
  · rintro ⟨_, ⟨⟨_, h1, _⟩, rfl⟩, _, ⟨_, rfl⟩, _, ⟨h2, rfl⟩, _, ⟨⟨h3, h4, _⟩, rfl⟩, _, ⟨h5, rfl⟩, _, ⟨h6, rfl⟩, _, ⟨h7, rfl⟩,
      h8, rfl⟩
    have hl : (structBytes .little [(1, 0), (1, es.length), (2, 0)] ++
        structBytes .little [(2, 8), (2, 12 + 4 * es.length), (4, 383)] ++ (es.map unkB).flatten ++
        structBytes .little [(2, L), (2, 4 + es.length * L)] ++ (es.map fun e => e.data).flatten ++
        (es.map fun e => nameB e.name).flatten) =
        structBytes .little [(1, 0), (1, es.length), (2, 0)] ++ restBytes es L := by
      simp [restBytes]
    have hl' := congrArg List.length hl
    rw [List.length_append (as := structBytes .little [(1, 0), (1, es.length), (2, 0)]) (bs := restBytes es L),
      structBytes_length] at hl'
    simp only [List.map_cons, List.map_nil, List.sum_cons, List.sum_nil] at hl'
    rw [hl] at h7 ⊢
    rw [hl] at hl'
    rw [hl', show 1 + (1 + (2 + 0)) + (restBytes es L).length = 4 + (restBytes es L).length by omega] at h7 ⊢
    exact ⟨⟨h1, h2, h3, h4, h5, h6, h7⟩, hfin _ []⟩
  · rintro ⟨h, rfl⟩
    have hl : (structBytes .little [(1, 0), (1, es.length), (2, 0)] ++
        structBytes .little [(2, 8), (2, 12 + 4 * es.length), (4, 383)] ++ (es.map unkB).flatten ++
        structBytes .little [(2, L), (2, 4 + es.length * L)] ++ (es.map fun e => e.data).flatten ++
        (es.map fun e => nameB e.name).flatten) =
        structBytes .little [(1, 0), (1, es.length), (2, 0)] ++ restBytes es L := by
      simp [restBytes]
    refine ⟨_, ⟨⟨by decide, h.count, by decide, trivial⟩, rfl⟩, _, ⟨⟨by decide, ?_, by decide, trivial⟩, rfl⟩, _,
      ⟨h.unks, rfl⟩, _, ⟨⟨h.len, h.total, trivial⟩, rfl⟩, _, ⟨h.datas, rfl⟩, _, ⟨h.names, rfl⟩, _, ⟨?_, rfl⟩, ?_, ?_⟩
    · have := h.count; show 12 + 4 * es.length < 65536; omega
    · rw [hl, List.length_append, structBytes_length]
      have := h.size
      simpa using this
    · rw [hl, List.length_append, structBytes_length]; simp
    · rw [hl, List.length_append, structBytes_length]
      exact (hfin _ []).symm

/-! ## Loading -/

theorem flatten_map_length {α : Type} {f : α → Bytes} {k : Nat} {es : List α} (h : ∀ e ∈ es, (f e).length = k) :
    ((es.map f).flatten).length = es.length * k := by
  rw [flatten_length_const (n := k) (by simpa using h)]
  simp

theorem flatten_map_at {α : Type} {f : α → Bytes} {k : Nat} {es : List α} (h : ∀ e ∈ es, (f e).length = k) {i : Nat}
    {e : α} (hi : es[i]? = some e) : At (es.map f).flatten (i * k) (f e) := by
  obtain ⟨hlt, rfl⟩ := List.getElem?_eq_some_iff.1 hi
  have := flatten_at (n := k) (parts := es.map f) (by simpa using h) (i := i) (by simpa using hlt)
  simpa using this

/-- What an entry becomes when loaded. -/
def loaded (e : Entry) : Entry := { e with name := some (latin1Decode (rstripZero ((e.name.getD []).map UInt8.ofNat))) }

theorem loadInfoBlock_at {data : Bytes} {off : Nat} {es : List Entry} {L : Nat} {expected : Option Nat}
    (hok : Ok es L) (hn : ∀ e ∈ es, (e.name.getD []).length ≤ 16) (ha : At data off (infoBytes es L))
    (he : ∀ n, expected = some n → L = n) : loadInfoBlock data off expected = .ok (es.map loaded) := by
  have hla : ((es.map unkB).flatten).length = es.length * 4 := flatten_map_length fun e _ => unkB_length e
  have hld : ((es.map Entry.data).flatten).length = es.length * L := flatten_map_length hok.datas
  have h16 : ∀ e ∈ es, (nameB e.name).length = 16 := fun e he => nameB_length (hn e he)
  have hc := hok.count
  rw [infoBytes, At.split, structBytes_length, restBytes, At.split, structBytes_length, At.split, hla, At.split,
    structBytes_length, At.split, hld] at ha
  obtain ⟨a1, a2, a3, a4, a5, a6⟩ := ha
  have r1 := unpackUs_at a1 (show Fits _ from ⟨by decide, hc, hok.size, trivial⟩)
  have r2 := unpackUs_at a2 (show Fits _ from ⟨by decide, (show 12 + 4 * es.length < 65536 by omega), by decide, trivial⟩)
  have r3 := unpackUs_at a4 (show Fits _ from ⟨hok.len, hok.total, trivial⟩)
  simp only [List.map_cons, List.map_nil, List.sum_cons, List.sum_nil] at r1 r2 r3 a3 a4 a5 a6
  have e3 : off + (1 + (1 + (2 + 0))) + (2 + (2 + (4 + 0))) + es.length * 4 = off + 12 + 4 * es.length := by omega
  rw [e3] at r3 a5 a6
  rw [show off + (1 + (1 + (2 + 0))) = off + 4 by omega] at r2
  unfold loadInfoBlock
  rw [r1, bind_ok, r2, bind_ok]
  dsimp only
  rw [pyAssert_true rfl, bind_ok, pyAssert_true rfl, bind_ok, pyAssert_true rfl, bind_ok, r3, bind_ok]
  dsimp only
  rw [pyAssert_true he, bind_ok, pyAssert_true rfl, bind_ok]
  refine mapE_range_eq (by simp) ?_
  intro i hi
  have hi' : i < es.length := by simpa using hi
  have hget : es[i]? = some es[i] := List.getElem?_eq_getElem hi'
  have hmem : es[i] ∈ es := List.getElem_mem hi'
  have hu := (a3.sub (flatten_map_at (fun e _ => unkB_length e) hget))
  have hd := (a5.sub (flatten_map_at hok.datas hget))
  have hna := (a6.sub (flatten_map_at h16 hget))
  have ru := unpackUs_at (hu.cast (p := off + 12 + 4 * i) (by omega))
    (show Fits _ from ⟨(hok.unks _ hmem).1, (hok.unks _ hmem).2, trivial⟩)
  simp only [List.map_cons, List.map_nil] at ru
  rw [List.getElem_map]
  generalize es[i] = e at *
  have sd : slice data (off + 12 + 4 * es.length + 4 + L * i) (off + 12 + 4 * es.length + 4 + L * i + L) = e.data := by
    refine (hd.cast ?_).slice_eq (by rw [hok.datas e hmem])
    rw [Nat.mul_comm L i]; omega
  have sn : slice data (off + 12 + 4 * es.length + 4 + L * es.length + 16 * i)
      (off + 12 + 4 * es.length + 4 + L * es.length + 16 * i + 16) = nameB e.name := by
    refine (hna.cast ?_).slice_eq (by rw [h16 e hmem])
    rw [Nat.mul_comm L es.length]; omega
  unfold loadEntry
  rw [ru, bind_ok]
  dsimp only
  rw [sd, sn, nameB, rstripZero_zeros_append]
  rfl

/-! ## Saving what was loaded -/

theorem latin1_pad {b : Bytes} (h : b.length = 16) : nameB (some (latin1Decode (rstripZero b))) = b := by
  obtain ⟨k, h1, _⟩ := rstripZero_eq b
  have hm : ∀ l : Bytes, (latin1Decode l).map UInt8.ofNat = l := by
    intro l
    rw [latin1Decode, List.map_map]
    exact (List.map_congr_left fun x _ => by simp).trans (List.map_id l)
  have hl := congrArg List.length h1
  rw [List.length_append, zeros_length, h] at hl
  rw [nameB, Option.getD_some, hm, show (latin1Decode (rstripZero b)).length = (rstripZero b).length by
    simp [latin1Decode], show 16 - (rstripZero b).length = k by omega]
  exact h1.symm

theorem At_flatten {data : Bytes} : ∀ {parts : List Bytes} {o k : Nat}, (∀ p ∈ parts, p.length = k) →
    (∀ (i : Nat) p, parts[i]? = some p → At data (o + i * k) p) → o ≤ data.length → At data o parts.flatten
  | [], o, _, _, _, ho => by simpa using At.nil ho
  | p :: ps, o, k, h1, h2, ho => by
    have hp := h2 0 p rfl
    rw [Nat.zero_mul, Nat.add_zero] at hp
    have hk := h1 p (by simp)
    rw [List.flatten_cons, At.split, hk]
    refine ⟨hp, At_flatten (k := k) (fun q hq => h1 q (by simp [hq])) ?_ (by have := hp.bound; omega)⟩
    intro i q hq
    have := h2 (i + 1) q (by simpa using hq)
    refine this.cast ?_
    rw [Nat.add_mul]; omega

theorem loadEntry_inv {data : Bytes} {u eo L no i : Nat} {e : Entry} (h : loadEntry data u eo L no i = .ok e)
    (hd : eo + L * i + L ≤ data.length) (hn : no + 16 * i + 16 ≤ data.length) :
    At data (u + 4 * i) (unkB e) ∧ (e.unk00 < 65536 ∧ e.unk02 < 65536) ∧ At data (eo + L * i) e.data ∧
      e.data.length = L ∧ At data (no + 16 * i) (nameB e.name) ∧ (nameB e.name).length = 16 ∧
      ∀ c ∈ e.name.getD [], c < 256 := by
  unfold loadEntry at h
  obtain ⟨v, hv, h⟩ := bind_eq_ok.1 h
  rcases unpackUs_inv hv with ⟨hl, hf, ha⟩ | ⟨h, _⟩
  · match v, hl with
    | [v1, v2], _ =>
      cases h
      dsimp only
      have hs : (slice data (no + 16 * i) (no + 16 * i + 16)).length = 16 := by rw [slice_length_of_le hn]; omega
      rw [latin1_pad hs]
      refine ⟨ha, ⟨hf.1, hf.2.1⟩, At.of_slice hd (by omega) rfl, by rw [slice_length_of_le hd]; omega,
        At.of_slice hn (by omega) rfl, hs, ?_⟩
      intro c hc
      rw [Option.getD_some, latin1Decode, List.mem_map] at hc
      obtain ⟨x, _, rfl⟩ := hc
      exact x.toNat_lt
  · exact nomatch h

/-- A block that was loaded lies in the file as it would be saved, apart from the first byte and the size. -/
theorem loadInfoBlock_inv {data : Bytes} {off : Nat} {expected : Option Nat} {es : List Entry}
    (h : loadInfoBlock data off expected = .ok es) :
    ∃ L, (∀ n, expected = some n → L = n) ∧ At data (off + 1) [UInt8.ofNat es.length] ∧ es.length < 256 ∧ L < 65536 ∧ 4 + es.length * L < 65536 ∧
      (off + 16 + es.length * (20 + L) ≤ data.length →
        At data (off + 4) (restBytes es L) ∧ (restBytes es L).length = 12 + es.length * (20 + L) ∧
        (∀ e ∈ es, (e.unk00 < 65536 ∧ e.unk02 < 65536) ∧ e.data.length = L ∧ ∀ c ∈ e.name.getD [], c < 256)) := by
  unfold loadInfoBlock at h
  obtain ⟨a, ha, h⟩ := bind_eq_ok.1 h
  obtain ⟨b, hb, h⟩ := bind_eq_ok.1 h
  rcases unpackUs_inv ha with ⟨hla, hfa, haa⟩ | ⟨h', _⟩
  · rcases unpackUs_inv hb with ⟨hlb, hfb, hab⟩ | ⟨h', _⟩
    · match a, hla, b, hlb with
      | [a0, count, a2], _, [b0, b1, b2], _ =>
        dsimp only at h
        simp only [bind_eq_ok, pyAssert_eq_ok] at h
        obtain ⟨_, rfl, _, rfl, _, rfl, c, hc, h⟩ := h
        rcases unpackUs_inv hc with ⟨hlc, hfc, hac⟩ | ⟨h', _⟩
        · match c, hlc with
          | [L, tl], _ =>
            dsimp only at h
            simp only [bind_eq_ok, pyAssert_eq_ok] at h
            obtain ⟨_, hexp, _, rfl, h⟩ := h
            have hlen : es.length = count := by simpa using mapE_length h
            subst hlen
            have hcount : es.length < 256 := hfa.2.1
            refine ⟨L, hexp, ?_, hcount, hfc.1, hfc.2.1, ?_⟩
            · simp only [List.zip_cons_cons, List.zip_nil_right, structBytes, At.split, enBytes_length] at haa
              have := haa.2.1
              simpa [enBytes, leBytes] using this
            intro hsz
            have hget : ∀ (i : Nat) e, es[i]? = some e →
                loadEntry data (off + 12) (off + 12 + 4 * es.length + 4) L
                  (off + 12 + 4 * es.length + 4 + L * es.length) i = .ok e := by
              intro i e hi
              obtain ⟨hlt, rfl⟩ := List.getElem?_eq_some_iff.1 hi
              have := mapE_getElem h (i := i) (by simpa using hlt) hlt
              simpa using this
            have hmulL : es.length * (20 + L) = 4 * es.length + L * es.length + 16 * es.length := by
              rw [Nat.mul_add, Nat.mul_comm _ L]; omega
            have hall : ∀ (i : Nat) e, es[i]? = some e → _ := fun i e hi => by
              have hlt : i < es.length := (List.getElem?_eq_some_iff.1 hi).1
              have h1 : L * i + L ≤ L * es.length := by
                have := Nat.mul_le_mul_left L (Nat.succ_le_of_lt hlt)
                rw [Nat.mul_succ] at this; omega
              exact loadEntry_inv (hget i e hi) (by omega) (by omega)
            have hmem : ∀ e ∈ es, (e.unk00 < 65536 ∧ e.unk02 < 65536) ∧ e.data.length = L ∧
                (nameB e.name).length = 16 ∧ ∀ c ∈ e.name.getD [], c < 256 := by
              intro e he
              obtain ⟨i, hlt, rfl⟩ := List.getElem_of_mem he
              have := hall i _ (List.getElem?_eq_getElem hlt)
              exact ⟨this.2.1, this.2.2.2.1, this.2.2.2.2.2.1, this.2.2.2.2.2.2⟩
            have hla' : ((es.map unkB).flatten).length = es.length * 4 := flatten_map_length fun e _ => unkB_length e
            have hld : ((es.map Entry.data).flatten).length = es.length * L := flatten_map_length fun e he => (hmem e he).2.1
            have hln : ((es.map fun e => nameB e.name).flatten).length = es.length * 16 :=
              flatten_map_length fun e he => (hmem e he).2.2.1
            have hrest : (restBytes es L).length = 12 + es.length * (20 + L) := by
              rw [restBytes]
              simp only [List.length_append, structBytes_length, hla', hld, hln, List.map_cons, List.map_nil,
                List.sum_cons, List.sum_nil]
              rw [hmulL, Nat.mul_comm _ L]; omega
            refine ⟨?_, hrest, fun e he => ⟨(hmem e he).1, (hmem e he).2.1, (hmem e he).2.2.2⟩⟩
            rw [restBytes, At.split, structBytes_length, At.split, hla', At.split, structBytes_length, At.split, hld]
            simp only [List.map_cons, List.map_nil, List.sum_cons, List.sum_nil]
            refine ⟨hab, ?_, hac.cast (by omega), ?_, ?_⟩
            · refine At_flatten (k := 4) (by simp) ?_ (by omega)
              intro i p hp
              rw [List.getElem?_map, Option.map_eq_some_iff] at hp
              obtain ⟨e, he, rfl⟩ := hp
              exact (hall i e he).1.cast (by omega)
            · refine At_flatten (k := L) (by simpa using fun e he => (hmem e he).2.1) ?_ (by omega)
              intro i p hp
              rw [List.getElem?_map, Option.map_eq_some_iff] at hp
              obtain ⟨e, he, rfl⟩ := hp
              exact (hall i e he).2.2.1.cast (by rw [Nat.mul_comm L i]; omega)
            · have hc : es.length * L = L * es.length := Nat.mul_comm _ _
              refine At_flatten (k := 16) (by simpa using fun e he => (hmem e he).2.2.1) ?_ (by omega)
              intro i p hp
              rw [List.getElem?_map, Option.map_eq_some_iff] at hp
              obtain ⟨e, he, rfl⟩ := hp
              exact (hall i e he).2.2.2.2.1.cast (by omega)
        · exact nomatch h'
    · exact nomatch h'
  · exact nomatch h'

end Verif.Proofs.InfoBlock
