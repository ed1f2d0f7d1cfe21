import Verif.Proofs.BmgText

/-!
# Loading a saved BMG
-/

namespace Verif.Proofs.Bmg

open Verif Verif.Model.Text Verif.Spec.Text Verif.Model.Bmg Verif.Spec.Bmg

/-- The bytes of a section with a 16-byte header. -/
def sectionBytes (e : Endian) (magic : Bytes) (len c1 c2 word : Nat) (body : Bytes) (pad : Nat) : Bytes :=
  magic ++ (enBytes e 4 len ++ (structBytes e [(2, c1), (2, c2), (4, word)] ++ (body ++ zeros pad)))

theorem sectionOf_ok {e : Endian} {magic body sec : Bytes} {c1 c2 word pad : Nat} :
    sectionOf e magic c1 c2 word body pad = .ok sec ↔
      (up32 (16 + body.length) < 256 ^ 4 ∧ c1 < 256 ^ 2 ∧ c2 < 256 ^ 2 ∧ word < 256 ^ 4) ∧
      sec = sectionBytes e magic (up32 (16 + body.length)) c1 c2 word body pad := by
  unfold sectionOf sectionBytes
  simp only [bind_eq_ok, packUs_eq_ok, pure_eq_ok, Fits, and_true]
  constructor
  · rintro ⟨h, ⟨hf, rfl⟩, rfl⟩
    exact ⟨hf, by simp [structBytes]⟩
  · rintro ⟨hf, rfl⟩
    exact ⟨_, ⟨hf, rfl⟩, by simp [structBytes]⟩

theorem section_fields {e : Endian} {magic body data : Bytes} {len c1 c2 word pad off : Nat}
    (hm : magic.length = 4) (hl : len < 256 ^ 4) (h1 : c1 < 256 ^ 2) (h2 : c2 < 256 ^ 2) (h3 : word < 256 ^ 4)
    (h : At data off (sectionBytes e magic len c1 c2 word body pad)) :
    unpackStr 4 data off = .ok magic ∧ unpackU e 4 data (off + 4) = .ok len ∧
      unpackUs e [2, 2, 4] data (off + 8) = .ok [c1, c2, word] ∧ At data (off + 16) (body ++ zeros pad) := by
  unfold sectionBytes at h
  rw [At.split, At.split, At.split] at h
  obtain ⟨a1, a2, a3, a4⟩ := h
  rw [hm] at a2 a3 a4
  rw [enBytes_length] at a3 a4
  refine ⟨a1.unpackStr hm, a2.unpackU hl, ?_, ?_⟩
  · exact unpackUs_at (fs := [(2, c1), (2, c2), (4, word)]) (a3.cast (by omega)) ⟨h1, h2, h3, trivial⟩
  · refine a4.cast ?_
    rw [structBytes_length]
    simp

theorem infEntry_at {e : Endian} {data : Bytes} {off k i : Nat} {x : Nat × Bytes} (hx : x.1 < 256 ^ 4)
    (hk : x.2.length = k) (h : At data (off + 16 + i * (4 + k)) (entryBytes e x)) :
    infEntry e data off (4 + k) i = .ok x := by
  unfold entryBytes at h
  rw [At.split, enBytes_length] at h
  unfold infEntry
  rw [h.1.unpackU hx, bind_ok, h.2.slice_eq (by omega)]
  rfl

theorem parseINF1_at {e : Endian} {data : Bytes} {off len k id pad : Nat} {ents : List (Nat × Bytes)} (r : Raw)
    (hx : ∀ x ∈ ents, x.1 < 256 ^ 4 ∧ x.2.length = k) (hl : len < 256 ^ 4) (h1 : ents.length < 256 ^ 2)
    (h2 : 4 + k < 256 ^ 2) (h3 : id < 256 ^ 4)
    (h : At data off (sectionBytes e magicINF1 len ents.length (4 + k) id ((ents.map (entryBytes e)).flatten) pad)) :
    parseINF1 e data off r = .ok { r with inf1 := r.inf1 ++ ents, id := id } := by
  obtain ⟨_, _, hu, hb⟩ := section_fields rfl hl h1 h2 h3 h
  unfold parseINF1
  rw [hu, bind_ok]
  dsimp only
  have : mapE (infEntry e data off (4 + k)) (List.range ents.length) = .ok ents := by
    refine mapE_range_eq rfl ?_
    intro i hi
    have hxi := hx ents[i] (List.getElem_mem hi)
    refine infEntry_at hxi.1 hxi.2 ?_
    have hfa := flatten_at (n := 4 + k) (parts := ents.map (entryBytes e)) (by
      intro p hp
      obtain ⟨x, hx', rfl⟩ := List.mem_map.1 hp
      simp [entryBytes, (hx x hx').2]) (i := i) (by simpa using hi)
    rw [List.getElem_map] at hfa
    exact (At.split.1 hb).1.sub hfa
  rw [this, bind_ok]
  rfl

theorem ofNat_congr {a b : Nat} (h : a % 256 = b % 256) : UInt8.ofNat a = UInt8.ofNat b := by
  apply UInt8.toNat_inj.1
  rw [UInt8.toNat_ofNat', UInt8.toNat_ofNat']
  exact h

theorem scriptAt_at {e : Endian} {data : Bytes} {off i : Nat} {s : Nat × Nat} (h1 : s.1 < 256 ^ 4) (h2 : s.2 < 256 ^ 4)
    (h : At data (off + 16 + i * 8) (structBytes e [(4, s.1), (4, s.2)])) :
    scriptAt e data off i = .ok (s.1, firstHalf e s.2) := by
  obtain ⟨id, n⟩ := s
  dsimp only at h1 h2 h ⊢
  have key : ∃ x y, structBytes e [(4, id), (4, n)] = structBytes e [(4, id), (2, firstHalf e n), (1, x), (1, y)] ∧
      x < 256 ∧ y < 256 := by
    cases e with
    | little =>
      refine ⟨n / 256 ^ 2 % 256, n / 256 ^ 3 % 256, ?_, by omega, by omega⟩
      simp only [structBytes, enBytes, firstHalf, leBytes, List.append_nil]
      congr 1
      simp only [List.cons_append, List.nil_append, List.cons.injEq, and_true]
      refine ⟨?_, ?_, ?_, ?_⟩ <;> apply ofNat_congr <;> omega
    | big =>
      refine ⟨n / 256 % 256, n % 256, ?_, by omega, by omega⟩
      simp only [structBytes, enBytes, firstHalf, leBytes, List.append_nil]
      congr 1
      simp only [List.reverse_cons, List.reverse_nil, List.cons_append, List.nil_append, List.cons.injEq, and_true]
      refine ⟨?_, ?_, ?_, ?_⟩ <;> apply ofNat_congr <;> omega
  obtain ⟨x, y, hk, hx, hy⟩ := key
  rw [hk] at h
  unfold scriptAt
  have hf : firstHalf e n < 256 ^ 2 := by
    cases e <;> simp only [firstHalf] <;> omega
  have := unpackUs_at (fs := [(4, id), (2, firstHalf e n), (1, x), (1, y)]) h ⟨h1, hf, by simpa using hx, by simpa using hy, trivial⟩
  simp only [List.map_cons, List.map_nil] at this
  rw [this]
  rfl

theorem parseFLI1_at {e : Endian} {data : Bytes} {off len pad : Nat} {ss : List (Nat × Nat)} (r : Raw)
    (hx : ∀ s ∈ ss, s.1 < 256 ^ 4 ∧ s.2 < 256 ^ 4) (hl : len < 256 ^ 4) (h1 : ss.length < 256 ^ 2)
    (h : At data off (sectionBytes e magicFLI1 len ss.length 8 0
      ((ss.map fun s => structBytes e [(4, s.1), (4, s.2)]).flatten) pad)) :
    parseFLI1 e data off r = .ok { r with scripts := r.scripts ++ ss.map fun s => (s.1, firstHalf e s.2) } := by
  obtain ⟨_, _, hu, hb⟩ := section_fields rfl hl h1 (by omega) (by omega) h
  unfold parseFLI1
  rw [hu, bind_ok]
  dsimp only
  have : mapE (scriptAt e data off) (List.range ss.length) = .ok (ss.map fun s => (s.1, firstHalf e s.2)) := by
    refine mapE_range_eq (by simp) ?_
    intro i hi
    rw [List.length_map] at hi
    have hxi := hx ss[i] (List.getElem_mem hi)
    rw [List.getElem_map]
    refine scriptAt_at hxi.1 hxi.2 ?_
    have hfa := flatten_at (n := 8) (parts := ss.map fun s => structBytes e [(4, s.1), (4, s.2)]) (by
      intro p hp
      obtain ⟨x, hx', rfl⟩ := List.mem_map.1 hp
      rw [structBytes_length]; rfl) (i := i) (by simpa using hi)
    rw [List.getElem_map] at hfa
    exact (At.split.1 hb).1.sub hfa
  rw [pyAssert_true rfl, bind_ok, this, bind_ok]
  rfl

/-! ### Instructions and labels -/

theorem zeros_add (m n : Nat) : zeros (m + n) = zeros m ++ zeros n := by
  simp [zeros]

theorem flatten_replicate_zeros (m k : Nat) : (List.replicate m (zeros k)).flatten = zeros (m * k) := by
  induction m with
  | zero => simp [zeros]
  | succ m ih =>
    rw [List.replicate_succ, List.flatten_cons, ih, ← zeros_add]
    congr 1
    rw [Nat.succ_mul]; omega

theorem enBytes_zero (e : Endian) (k : Nat) : enBytes e k 0 = zeros k := by
  cases e <;> simp [enBytes, leBytes_zero, zeros]

theorem labelAt_at {e : Endian} {data : Bytes} {p q i : Nat} {l : Int × Int}
    (h1 : -(256 ^ 2 : Nat) ≤ 2 * l.2) (h2 : 2 * l.2 < (256 ^ 2 : Nat)) (h3 : -(256 ^ 1 : Nat) ≤ 2 * l.1)
    (h4 : 2 * l.1 < (256 ^ 1 : Nat)) (ha : At data (p + i * 2) (enBytes e 2 (signedRep 2 l.2)))
    (hb : At data (q + i) (enBytes e 1 (signedRep 1 l.1))) : labelAt e data p q i = .ok l := by
  unfold labelAt
  rw [ha.unpackS h1 h2, bind_ok, hb.unpackS h3 h4, bind_ok]
  rfl

/-- The instructions with the padding that follows them. -/
def paddedInsts (insts : List Bytes) : List Bytes := insts ++ List.replicate (insts.length % 2) (zeros 8)

/-- The labels with the padding that follows them. -/
def paddedLabels (ls : List (Int × Int)) : List (Int × Int) := ls ++ List.replicate (padLen ls.length 8) (0, 0)

/-- The body of FLW1. -/
def flwBytes (e : Endian) (insts : List Bytes) (ls : List (Int × Int)) : Bytes :=
  (paddedInsts insts).flatten ++ (((paddedLabels ls).map fun l => enBytes e 2 (signedRep 2 l.2)).flatten
    ++ (ls.map fun l => enBytes e 1 (signedRep 1 l.1)).flatten)

/-- The labels fit into their fields. -/
def LabelsFit (ls : List (Int × Int)) : Prop :=
  ∀ l ∈ ls, (-(256 ^ 1 : Nat) ≤ 2 * l.1 ∧ 2 * l.1 < (256 ^ 1 : Nat)) ∧
    (-(256 ^ 2 : Nat) ≤ 2 * l.2 ∧ 2 * l.2 < (256 ^ 2 : Nat))

theorem flwBody_ok {b : BMG} {r : Bytes} : flwBody b = .ok r ↔
    ((∀ i ∈ b.instructions, i.length = 8) ∧ LabelsFit b.labels) ∧
      r = flwBytes b.endianness b.instructions b.labels := by
  unfold flwBody
  have e1 := mapE_eq_map (f := saveInstruction) (g := id) (P := fun i => i.length = 8) (by
    intro i r
    unfold saveInstruction
    simp only [bind_eq_ok, raiseIf_eq_ok, pure_eq_ok, Decidable.not_not]
    constructor
    · rintro ⟨_, h, rfl⟩; exact ⟨h, rfl⟩
    · rintro ⟨h, rfl⟩; exact ⟨(), h, rfl⟩) b.instructions
  have e2 := mapE_eq_map (f := fun (l : Int × Int) => packS b.endianness 2 l.2) (fun l r => packS_eq_ok) b.labels
  have e3 := mapE_eq_map (f := fun (l : Int × Int) => packS b.endianness 1 l.1) (fun l r => packS_eq_ok) b.labels
  simp only [bind_eq_ok, pure_eq_ok, e1, e2, e3]
  have hz : signedRep 2 0 = 0 := by decide
  have key : (∀ i ∈ b.instructions, i.length = 8) →
      (b.instructions.map id).flatten ++ zeros (padLen (16 + (b.instructions.map id).flatten.length) 16)
        ++ (b.labels.map fun l => enBytes b.endianness 2 (signedRep 2 l.2)).flatten
        ++ zeros (2 * (labelsCount b.labels.length - b.labels.length))
        ++ (b.labels.map fun l => enBytes b.endianness 1 (signedRep 1 l.1)).flatten
      = flwBytes b.endianness b.instructions b.labels := by
    intro hi
    unfold flwBytes paddedInsts paddedLabels labelsCount
    rw [List.map_id, flatten_length_const (n := 8) hi, List.flatten_append, flatten_replicate_zeros, List.map_append,
      List.map_replicate, List.flatten_append, hz, enBytes_zero, flatten_replicate_zeros]
    have h1 : padLen (16 + b.instructions.length * 8) 16 = b.instructions.length % 2 * 8 := by
      unfold padLen; omega
    have h2 : 2 * (b.labels.length + padLen b.labels.length 8 - b.labels.length) = padLen b.labels.length 8 * 2 := by omega
    rw [h1, h2]
    simp only [List.append_assoc]
  constructor
  · rintro ⟨_, ⟨hi, rfl⟩, _, ⟨h2, rfl⟩, _, ⟨h3, rfl⟩, rfl⟩
    exact ⟨⟨hi, fun l hl => ⟨h3 l hl, h2 l hl⟩⟩, key hi⟩
  · rintro ⟨⟨hi, h⟩, rfl⟩
    exact ⟨_, ⟨hi, rfl⟩, _, ⟨fun l hl => (h l hl).2, rfl⟩, _, ⟨fun l hl => (h l hl).1, rfl⟩, key hi⟩

theorem map_range_eq {α : Type _} {f : Nat → α} {l : List α} {n : Nat} (hn : n = l.length)
    (h : ∀ i (hi : i < l.length), f i = l[i]) : (List.range n).map f = l := by
  subst hn
  apply List.ext_getElem (by simp)
  intro i h1 h2
  rw [List.getElem_map, List.getElem_range]
  exact h i h2

theorem filter_replicate_nil {α : Type _} {p : α → Bool} {a : α} (h : p a = false) (n : Nat) :
    (List.replicate n a).filter p = [] := by
  rw [List.filter_eq_nil_iff]
  intro x hx
  rw [(List.mem_replicate.1 hx).2, h]
  decide

theorem parseFLW1_at {e : Endian} {data : Bytes} {off len pad : Nat} {insts : List Bytes} {ls : List (Int × Int)}
    (r : Raw) (hi : ∀ i ∈ insts, i.length = 8) (hls : LabelsFit ls) (hl : len < 256 ^ 4)
    (h1 : evenCount insts.length < 256 ^ 2) (h2 : labelsCount ls.length < 256 ^ 2)
    (hpad : pad = padLen (16 + (flwBytes e insts ls).length) 32)
    (h : At data off (sectionBytes e magicFLW1 len (evenCount insts.length) (labelsCount ls.length) 0
      (flwBytes e insts ls) pad)) :
    parseFLW1 e data off r = .ok { r with
      instructions := r.instructions ++ insts.filter (fun i => i ≠ zeros 8)
      labels := r.labels ++ ls.filter (fun l => l ≠ (0, 0)) } := by
  obtain ⟨_, _, hu, hb⟩ := section_fields rfl hl h1 h2 (by omega) h
  have hpi : ∀ i ∈ paddedInsts insts, i.length = 8 := by
    intro i h'
    rcases List.mem_append.1 h' with h' | h'
    · exact hi i h'
    · rw [(List.mem_replicate.1 h').2]; simp
  have hpl : LabelsFit (paddedLabels ls) := by
    intro l h'
    rcases List.mem_append.1 h' with h' | h'
    · exact hls l h'
    · rw [(List.mem_replicate.1 h').2]; decide
  have hil : (paddedInsts insts).length = evenCount insts.length := by simp [paddedInsts, evenCount]
  have hll : (paddedLabels ls).length = labelsCount ls.length := by simp [paddedLabels, labelsCount]
  have hl2 : ∀ q ∈ (paddedLabels ls).map fun l => enBytes e 2 (signedRep 2 l.2), q.length = 2 := by
    intro q hq
    obtain ⟨l, _, rfl⟩ := List.mem_map.1 hq
    simp
  have hl1 : ∀ q ∈ (paddedLabels ls).map fun l => enBytes e 1 (signedRep 1 l.1), q.length = 1 := by
    intro q hq
    obtain ⟨l, _, rfl⟩ := List.mem_map.1 hq
    simp
  have hl1' : ∀ q ∈ ls.map fun l => enBytes e 1 (signedRep 1 l.1), q.length = 1 := by
    intro q hq
    obtain ⟨l, _, rfl⟩ := List.mem_map.1 hq
    simp
  have hz : signedRep 1 0 = 0 := by decide
  have hlen : (flwBytes e insts ls).length = evenCount insts.length * 8 + labelsCount ls.length * 2 + ls.length := by
    unfold flwBytes
    rw [List.length_append, List.length_append, flatten_length_const (n := 8) hpi, hil,
      flatten_length_const (n := 2) hl2, flatten_length_const (n := 1) hl1', List.length_map, hll, List.length_map]
    omega
  -- the padding continues the table of IDs
  have hk : padLen ls.length 8 ≤ pad := by
    rw [hpad, hlen]
    unfold labelsCount evenCount padLen
    omega
  have hids : (ls.map fun l => enBytes e 1 (signedRep 1 l.1)).flatten ++ zeros pad =
      ((paddedLabels ls).map fun l => enBytes e 1 (signedRep 1 l.1)).flatten ++ zeros (pad - padLen ls.length 8) := by
    unfold paddedLabels
    rw [List.map_append, List.map_replicate, List.flatten_append, hz, enBytes_zero, flatten_replicate_zeros,
      List.append_assoc, ← zeros_add]
    congr 2
    omega
  have hb' : At data (off + 16) ((paddedInsts insts).flatten ++ (((paddedLabels ls).map fun l => enBytes e 2 (signedRep 2 l.2)).flatten
      ++ (((paddedLabels ls).map fun l => enBytes e 1 (signedRep 1 l.1)).flatten ++ zeros (pad - padLen ls.length 8)))) := by
    rw [← hids]
    unfold flwBytes at hb
    simpa only [List.append_assoc] using hb
  rw [At.split, At.split, At.split, flatten_length_const (n := 8) hpi, hil, flatten_length_const (n := 2) hl2,
    List.length_map, hll] at hb'
  obtain ⟨a1, a2, a3, _⟩ := hb'
  have hcmd : ((List.range (evenCount insts.length)).map fun i => slice data (off + 16 + i * 8) (off + 16 + i * 8 + 8))
      = paddedInsts insts := by
    refine map_range_eq hil.symm ?_
    intro i hi'
    have := a1.sub (flatten_at (n := 8) hpi hi')
    exact this.slice_eq (by rw [hpi _ (List.getElem_mem hi')])
  have hlab : mapE (labelAt e data (off + 16 + evenCount insts.length * 8)
      (off + 16 + evenCount insts.length * 8 + labelsCount ls.length * 2)) (List.range (labelsCount ls.length))
      = .ok (paddedLabels ls) := by
    refine mapE_range_eq hll.symm ?_
    intro i hi'
    have hf := hpl _ (List.getElem_mem hi')
    have b1 := a2.sub (flatten_at (n := 2) hl2 (i := i) (by simpa using hi'))
    have b2 := a3.sub (flatten_at (n := 1) hl1 (i := i) (by simpa using hi'))
    rw [List.getElem_map] at b1 b2
    exact labelAt_at hf.2.1 hf.2.2 hf.1.1 hf.1.2 b1 (b2.cast (by omega))
  unfold parseFLW1
  rw [hu, bind_ok]
  dsimp only
  rw [hcmd, hlab, bind_ok]
  have f1 : (paddedInsts insts).filter (fun cmd => decide (cmd ≠ zeros 8)) = insts.filter (fun i => decide (i ≠ zeros 8)) := by
    unfold paddedInsts
    rw [List.filter_append, filter_replicate_nil (by simp), List.append_nil]
  have f2 : (paddedLabels ls).filter (fun l => decide (l.1 ≠ 0 ∨ l.2 ≠ 0)) = ls.filter (fun l => decide (l ≠ (0, 0))) := by
    unfold paddedLabels
    rw [List.filter_append, filter_replicate_nil (by simp), List.append_nil]
    congr 1
    funext l
    congr 1
    obtain ⟨x, y⟩ := l
    simp only [ne_eq, Prod.mk.injEq]
    apply propext
    omega
  rw [f1, f2]
  rfl

end Verif.Proofs.Bmg
