import Verif.Model.Nsbmd
import Verif.Spec.Nsbmd
import Verif.Props.Texture

/-!
# Properties of 3D models (C91–C94)
-/

namespace Verif.Props.Nsbmd

open Verif Verif.Model.Common Verif.Model.InfoBlock Verif.Model.Texture Verif.Model.Nsbmd Verif.Spec.Nsbmd
open Verif.Props.Texture (Representable)

/-! ## Display lists -/

theorem lookup_eq (id : UInt8) (hv : id.toNat ≠ 0x72) :
    commandTable.lookup id.toNat = if Known id.toNat then some (paramWords id.toNat) else none := by
  have : ∀ n : Nat, n < 256 → n ≠ 0x72 → commandTable.lookup n = if Known n then some (paramWords n) else none := by decide +kernel
  exact this _ id.toNat_lt hv

theorem parseIds_spec : ∀ (ids : Bytes) (i : Nat), (parseIds ids i).1.length = ids.length ∧ i ≤ (parseIds ids i).2
  | [], i => ⟨rfl, Nat.le_refl _⟩
  | id :: ids, i => by
    rw [parseIds]
    split
    · have := parseIds_spec ids i
      exact ⟨by simp [this.1], this.2⟩
    · rename_i n _
      have := parseIds_spec ids (i + 4 * n)
      exact ⟨by simp [this.1], by simp only; omega⟩

theorem parseLoop_total (data : Bytes) : ∀ (fuel i : Nat), data.length - i ≤ fuel →
    ∃ cs, parseLoop data fuel i = .ok cs ∧ cs.length ≤ data.length - i
  | 0, i, h => ⟨[], by rw [parseLoop, if_neg (by omega)], by simp⟩
  | fuel + 1, i, h => by
    rw [parseLoop]
    split
    · rename_i hi
      have hp := parseIds_spec (slice data i (i + 4)) (i + 4)
      obtain ⟨cs, h1, h2⟩ := parseLoop_total data fuel (parseIds (slice data i (i + 4)) (i + 4)).2 (by omega)
      dsimp only
      rw [h1, bind_ok]
      refine ⟨_, rfl, ?_⟩
      rw [List.length_append, hp.1]
      have : (slice data i (i + 4)).length ≤ 4 ∧ (slice data i (i + 4)).length ≤ data.length - i := by
        simp only [slice, List.length_take, List.length_drop]; omega
      omega
    · exact ⟨[], rfl, by simp⟩

/-- **C91.** Parsing any display list comes to an end, with at most one command for every byte. -/
theorem display_list_total (d : Bytes) : ∃ cs, parseDisplayList d = .ok cs ∧ cs.length ≤ d.length :=
  parseLoop_total d d.length 0 (Nat.le_refl _)

theorem flatten_words {c : Cmd} (h : c.Valid) : c.params.flatten.length = 4 * paramWords c.id.toNat := by
  obtain ⟨h1, h2⟩ := h
  rw [← h1]
  clear h1
  revert h2
  induction c.params with
  | nil => intro _; rfl
  | cons w ws ih =>
    intro h2
    rw [List.flatten_cons, List.length_append, h2 w List.mem_cons_self, ih fun v hv => h2 v (List.mem_cons_of_mem _ hv),
      List.length_cons]
    omega

theorem unknown_no_words {id : Nat} (h : ¬ Known id) : paramWords id = 0 := by
  unfold paramWords
  have hk := h
  unfold Known at h
  rw [if_neg (by omega), if_neg (by omega), if_neg (by omega), if_neg (by omega), if_neg (by omega), if_neg (by omega),
    if_neg (by omega), if_neg hk]

theorem parseIds_valid : ∀ (g : List Cmd) (i : Nat), (∀ c ∈ g, c.Valid ∧ c.id.toNat ≠ 0x72) →
    parseIds (g.map Cmd.id) i = (g.map Cmd.kind, i + ((g.map fun c => c.params.flatten).flatten).length)
  | [], i, _ => rfl
  | c :: g, i, h => by
    obtain ⟨hc, hv⟩ := h c List.mem_cons_self
    rw [List.map_cons, parseIds, lookup_eq _ hv]
    have ih := fun j => parseIds_valid g j fun c hc => h c (List.mem_cons_of_mem _ hc)
    simp only [List.map_cons, List.flatten_cons, List.length_append, flatten_words hc, Cmd.kind]
    by_cases hk : Known c.id.toNat
    · simp only [if_pos hk, ih]
      rw [show i + 4 * paramWords c.id.toNat + ((g.map fun c => c.params.flatten).flatten).length =
        i + (4 * paramWords c.id.toNat + ((g.map fun c => c.params.flatten).flatten).length) by omega]
    · simp only [if_neg hk, ih, unknown_no_words hk]
      simp only [Nat.mul_zero, Nat.zero_add]

theorem parseLoop_groups {data : Bytes} : ∀ (gs : List (List Cmd)) (pre : Bytes) (fuel : Nat), data = pre ++ (gs.map groupBytes).flatten →
    (∀ g ∈ gs, g.length = 4 ∧ ∀ c ∈ g, c.Valid ∧ c.id.toNat ≠ 0x72) → data.length - pre.length ≤ fuel →
    parseLoop data fuel pre.length = .ok (gs.flatten.map Cmd.kind)
  | [], pre, fuel, hd, _, _ => by
    have : ¬ pre.length < data.length := by rw [hd]; simp
    cases fuel with
    | zero => rw [parseLoop, if_neg this]; rfl
    | succ n => rw [parseLoop, if_neg this]; rfl
  | g :: gs, pre, fuel, hd, hg, hf => by
    obtain ⟨g1, g2⟩ := hg g List.mem_cons_self
    have hl : (g.map Cmd.id).length = 4 := by rw [List.length_map, g1]
    have hlen : data.length = pre.length + (groupBytes g).length + ((gs.map groupBytes).flatten).length := by
      rw [hd, List.length_append, List.map_cons, List.flatten_cons, List.length_append]; omega
    have hgb : 4 ≤ (groupBytes g).length := by unfold groupBytes; rw [List.length_append, hl]; omega
    cases fuel with
    | zero => omega
    | succ fuel =>
      rw [parseLoop, if_pos (by omega)]
      have hs : slice data pre.length (pre.length + 4) = g.map Cmd.id := by
        have : At data pre.length (g.map Cmd.id) := by
          refine ⟨pre, ((g.map fun c => c.params.flatten).flatten) ++ (gs.map groupBytes).flatten, ?_, rfl⟩
          rw [hd, List.map_cons, List.flatten_cons, groupBytes]
          simp only [List.append_assoc]
        exact this.slice_eq (by omega)
      dsimp only
      rw [hs, parseIds_valid g _ g2]
      have ih := parseLoop_groups (data := data) gs (pre ++ groupBytes g) fuel (by rw [hd, List.map_cons, List.flatten_cons, List.append_assoc])
        (fun g' h' => hg g' (List.mem_cons_of_mem _ h')) (by rw [List.length_append]; omega)
      have e : (pre ++ groupBytes g).length = pre.length + 4 + ((g.map fun c => c.params.flatten).flatten).length := by
        rw [List.length_append, groupBytes, List.length_append, hl]; omega
      rw [e] at ih
      rw [ih, bind_ok, List.flatten_cons, List.map_append]
      rfl

/-- **C91, partial.** From a display list that consists of groups of four commands with their parameters, exactly these commands
are parsed: parameters are never taken for commands or the other way round.  Missing: the command 0x72 (`VEC_TEST`), which has one
word of parameters, but three in the library; see `vec_test_misread`. -/
theorem display_list_commands_partial {gs : List (List Cmd)}
    (h : ∀ g ∈ gs, g.length = 4 ∧ ∀ c ∈ g, c.Valid ∧ c.id.toNat ≠ 0x72) :
    parseDisplayList (gs.map groupBytes).flatten = .ok (gs.flatten.map Cmd.kind) :=
  parseLoop_groups gs [] _ rfl h (by simp)

/-- A triangle with one colour for all vertices; the fourth byte of the last group is an unknown command. -/
def triangle : List (List Cmd) :=
  [[⟨0x40, [[0, 0, 0, 0]]⟩, ⟨0x20, [[0x40, 0x40, 0x40, 0x40]]⟩, ⟨0x23, [[1, 0, 2, 0], [3, 0, 0, 0]]⟩, ⟨0x25, [[4, 0, 5, 0]]⟩],
    [⟨0x25, [[0x41, 0, 6, 0]]⟩, ⟨0x41, []⟩, ⟨0, []⟩, ⟨0xFF, []⟩]]

example : (∀ g ∈ triangle, g.length = 4 ∧ ∀ c ∈ g, c.Valid ∧ c.id.toNat ≠ 0x72) ∧
    triangle.flatten.map Cmd.kind = [some 0x40, some 0x20, some 0x23, some 0x25, some 0x25, some 0x41, some 0, none] := by
  unfold Cmd.Valid; decide

/-- After a `VEC_TEST`, what follows is misread: the next group of commands is skipped as parameters. -/
theorem vec_test_misread : ∃ gs : List (List Cmd), (∀ g ∈ gs, g.length = 4 ∧ ∀ c ∈ g, c.Valid) ∧
    gs.flatten.map Cmd.kind = [some 0x72, some 0, some 0, some 0, some 0x10, some 0, some 0, some 0, some 0x41, some 0, some 0, some 0] ∧
    parseDisplayList (gs.map groupBytes).flatten = .ok [some 0x72, some 0, some 0, some 0, some 0x41, some 0, some 0, some 0] :=
  ⟨[[⟨0x72, [[1, 2, 3, 0]]⟩, ⟨0, []⟩, ⟨0, []⟩, ⟨0, []⟩], [⟨0x10, [[2, 0, 0, 0]]⟩, ⟨0, []⟩, ⟨0, []⟩, ⟨0, []⟩],
    [⟨0x41, []⟩, ⟨0, []⟩, ⟨0, []⟩, ⟨0, []⟩]], by unfold Cmd.Valid; decide, by decide, by decide⟩

/-! ## Loading -/

theorem leVal_unpack {d : Bytes} {k o n : Nat} (h : unpackU .little k d o = .ok n) : n = leVal (slice d o (o + k)) :=
  (unpackU_eq_ok.1 h).2

theorem unpack_words {d : Bytes} {k : Nat} : ∀ {n o : Nat} {x : List Nat}, unpackUs .little (List.replicate n k) d o = .ok x →
    x = (List.range n).map fun i => leVal (slice d (o + k * i) (o + k * i + k))
  | 0, o, x, h => by cases h; rfl
  | n + 1, o, x, h => by
    rw [List.replicate_succ, unpackUs] at h
    simp only [bind_eq_ok, pure_eq_ok] at h
    obtain ⟨v, hv, vs, hvs, rfl⟩ := h
    rw [unpack_words hvs, leVal_unpack hv, List.range_succ_eq_map, List.map_cons, List.map_map]
    congr 1
    refine List.map_congr_left fun i _ => ?_
    simp only [Function.comp_apply, Nat.succ_eq_add_one, Nat.mul_add, Nat.mul_one]
    rw [show o + k + k * i = o + (k * i + k) by omega]

theorem readMDL0_names {b : Bytes} {names : List Str} (h : readMDL0 b = .ok names) :
    b.take 4 = MDL0 ∧ names = modelNames b := by
  unfold readMDL0 at h
  simp only [bind_eq_ok, pyAssert_eq_ok, pure_eq_ok] at h
  obtain ⟨_, h0, s, h1, _, _, rfl⟩ := h
  refine ⟨h0, ?_⟩
  unfold readSection at h1
  rw [bind_eq_ok] at h1
  obtain ⟨a, ha, h1⟩ := h1
  rw [bind_eq_ok] at h1
  obtain ⟨b', hb, h1⟩ := h1
  simp only [unpackUs, bind_eq_ok, pure_eq_ok] at ha hb
  obtain ⟨a1, _, _, ⟨a2, h2, _, ⟨a3, _, _, e, rfl⟩, rfl⟩, rfl⟩ := ha
  cases e
  obtain ⟨b1, _, _, ⟨b2, _, _, ⟨b3, _, _, e, rfl⟩, rfl⟩, rfl⟩ := hb
  cases e
  simp only [bind_eq_ok] at h1
  obtain ⟨_, _, _, _, _, _, c, hc, h1⟩ := h1
  simp only [unpackUs, bind_eq_ok, pure_eq_ok] at hc
  obtain ⟨c1, _, _, ⟨c2, _, _, e, rfl⟩, rfl⟩ := hc
  cases e
  simp only [bind_eq_ok, pure_eq_ok] at h1
  obtain ⟨_, _, _, _, rfl⟩ := h1
  have h2 : a2 = u8 b 9 := leVal_unpack h2
  subst h2
  rfl

/-- The first 20 bytes of an NSBTX file, with a file size. -/
def btxHeader (size : Nat) : Bytes :=
  [0x42, 0x54, 0x58, 0x30, 0xFF, 0xFE, 1, 0] ++ leBytes 4 size ++ [0x10, 0, 1, 0, 0x14, 0, 0, 0]

theorem btx_load {size : Nat} (hs : size < 2 ^ 32) (b : Bytes) (hb : b.take 4 = TEX0) :
    Model.Texture.load (btxHeader size ++ b) = readTEX0 b := by
  have e : btxHeader size = stdHeaderBytes ⟨BTX0, 0xFEFF, 1, size, 0x10, 1⟩ ++ [0x14, 0, 0, 0] := by
    simp [btxHeader, stdHeaderBytes, BTX0, packStr, enBytes, leBytes]
  have hl : (btxHeader size).length = 0x14 := by rw [e]; simp
  unfold Model.Texture.load
  rw [raiseIf_false (show ¬ _ from not_not_intro ?_), bind_ok, unpackStdHeader_at (h := ⟨BTX0, 0xFEFF, 1, size, 0x10, 1⟩) ?_ ?_ rfl,
    bind_ok, raiseIf_false (show ¬ _ from not_not_intro rfl), bind_ok, pyAssert_true rfl, bind_ok, List.drop_left' hl,
    pyAssert_true hb, bind_ok]
  · rw [e, List.append_assoc]
    exact At.first _ _
  · exact StdHeader.ok_mk hs
  · rfl

theorem readTEX0_magic {b : Bytes} {t : NSBTX} (h : readTEX0 b = .ok t) : b.take 4 = TEX0 := by
  unfold readTEX0 at h
  simp only [bind_eq_ok, pyAssert_eq_ok] at h
  exact h.choose_spec.1

/-- The blocks with a magic among some places. -/
def chosen (d magic : Bytes) (os : List Nat) : Option Bytes :=
  (os.filter fun o => decide (slice d o (o + 4) = magic)).getLast?.map fun o => slice d o (o + u32 d (o + 4))

theorem chosen_cons (d magic : Bytes) (o : Nat) (os : List Nat) : chosen d magic (o :: os) =
    match chosen d magic os with
    | some b => some b
    | none => if slice d o (o + 4) = magic then some (slice d o (o + u32 d (o + 4))) else none := by
  unfold chosen
  rw [List.filter_cons]
  split
  · rename_i h
    rw [if_pos (of_decide_eq_true h), List.getLast?_cons]
    cases (os.filter fun o => decide (slice d o (o + 4) = magic)).getLast? <;> rfl
  · rename_i h
    rw [if_neg (fun e => h (decide_eq_true e))]
    cases (os.filter fun o => decide (slice d o (o + 4) = magic)).getLast? <;> rfl

theorem parseBlocks_spec {d : Bytes} : ∀ {os : List Nat} {m r : NSBMD}, parseBlocks d m os = .ok r →
    (∀ o ∈ os, o + 8 ≤ d.length ∧ (slice d o (o + 4) = MDL0 ∨ slice d o (o + 4) = TEX0)) ∧
    (match chosen d MDL0 os with
      | some b => r.mdl0 = some b ∧ r.models = some (modelNames b) ∧ readMDL0 b = .ok (modelNames b)
      | none => r.mdl0 = m.mdl0 ∧ r.models = m.models) ∧
    (match chosen d TEX0 os with
      | some b => readTEX0 b = .ok r.tex
      | none => r.tex = m.tex)
  | [], m, r, h => by cases h; simp [chosen]
  | o :: os, m, r, h => by
    rw [parseBlocks, bind_eq_ok] at h
    obtain ⟨m', h1, h2⟩ := h
    obtain ⟨i1, i2, i3⟩ := parseBlocks_spec h2
    unfold parseBlock at h1
    rw [bind_eq_ok] at h1
    obtain ⟨mg, hmg, h1⟩ := h1
    rw [bind_eq_ok] at h1
    obtain ⟨len, hlen, h1⟩ := h1
    have hb := (unpackU_eq_ok.1 hlen).1
    have hlen : len = u32 d (o + 4) := leVal_unpack hlen
    subst hlen
    have hmg : mg = slice d o (o + 4) := by
      unfold unpackStr at hmg
      split at hmg
      · cases hmg; rfl
      · cases hmg
    subst hmg
    dsimp only at h1
    rw [chosen_cons, chosen_cons]
    split at h1
    · rename_i hM
      have hT : ¬ slice d o (o + 4) = TEX0 := by rw [hM]; decide
      rw [bind_eq_ok] at h1
      obtain ⟨names, hn, h1⟩ := h1
      cases h1
      rw [if_pos hM, if_neg hT]
      refine ⟨fun x hx => ?_, ?_, ?_⟩
      · rcases List.mem_cons.1 hx with rfl | hx
        · exact ⟨by omega, .inl hM⟩
        · exact i1 x hx
      · cases hc : chosen d MDL0 os with
        | some b => rw [hc] at i2; exact i2
        | none =>
          rw [hc] at i2
          have := (readMDL0_names hn).2
          subst this
          exact ⟨i2.1, i2.2, hn⟩
      · cases hc : chosen d TEX0 os with
        | some b => rw [hc] at i3; exact i3
        | none => rw [hc] at i3; exact i3
    · rename_i hM
      split at h1
      · rename_i hT
        rw [bind_eq_ok] at h1
        obtain ⟨t, ht, h1⟩ := h1
        cases h1
        rw [if_pos hT, if_neg hM]
        refine ⟨fun x hx => ?_, ?_, ?_⟩
        · rcases List.mem_cons.1 hx with rfl | hx
          · exact ⟨by omega, .inr hT⟩
          · exact i1 x hx
        · cases hc : chosen d MDL0 os with
          | some b => rw [hc] at i2; exact i2
          | none => rw [hc] at i2; exact i2
        · cases hc : chosen d TEX0 os with
          | some b => rw [hc] at i3; exact i3
          | none => rw [hc] at i3; dsimp only at i3 ⊢; rw [i3]; exact ht
      · cases h1

/-- **C92.** Whatever data a model is loaded from: the model block that is kept is the last one in the file, the models are those
named in it, and the textures and palettes are those that an NSBTX file with the last texture block would have. -/
theorem load_blocks {d : Bytes} {m : NSBMD} (h : NSBMD.load d = .ok m) :
    d.take 4 = [0x42, 0x4D, 0x44, 0x30] ∧ u16 d 6 = 2 ∧ (∀ o ∈ blockPlaces d, slice d o (o + 4) = MDL0 ∨ slice d o (o + 4) = TEX0) ∧
    m.mdl0 = lastBlock d MDL0 ∧ m.models = (lastBlock d MDL0).map modelNames ∧
    (∀ b, lastBlock d TEX0 = some b → ∀ size < 2 ^ 32, Model.Texture.load (btxHeader size ++ b) = .ok m.tex) ∧
    (lastBlock d TEX0 = none → m.tex = ⟨0, 0, 0, 0, 0, 0, [], []⟩) := by
  unfold NSBMD.load at h
  rw [bind_eq_ok] at h
  obtain ⟨_, h1, h⟩ := h
  rw [bind_eq_ok] at h
  obtain ⟨hd, h2, h⟩ := h
  rw [bind_eq_ok] at h
  obtain ⟨_, h3, h⟩ := h
  rw [bind_eq_ok] at h
  obtain ⟨os, h4, h⟩ := h
  have e1 : d.take 4 = BMD0 := Classical.not_not.1 (raiseIf_eq_ok.1 h1)
  have e3 : hd.version = 2 := Classical.not_not.1 (raiseIf_eq_ok.1 h3)
  have e2 : u16 d 6 = hd.version ∧ u16 d 0xE = hd.numBlocks := by
    unfold unpackStdHeader at h2
    simp only [bind_eq_ok, pure_eq_ok] at h2
    obtain ⟨_, _, _, _, v, hv, _, _, _, _, n, hn, rfl⟩ := h2
    exact ⟨(leVal_unpack hv).symm, (leVal_unpack hn).symm⟩
  have e4 : os = blockPlaces d := by
    rw [unpack_words h4]
    unfold blockPlaces
    rw [e2.2]
    rfl
  subst e4
  obtain ⟨i1, i2, i3⟩ := parseBlocks_spec h
  refine ⟨e1, e2.1.trans e3, fun o ho => (i1 o ho).2, ?_, ?_, ?_, ?_⟩
  · show m.mdl0 = chosen d MDL0 (blockPlaces d)
    cases hc : chosen d MDL0 (blockPlaces d) with
    | some b => rw [hc] at i2; exact i2.1
    | none => rw [hc] at i2; exact i2.1
  · show m.models = (chosen d MDL0 (blockPlaces d)).map modelNames
    cases hc : chosen d MDL0 (blockPlaces d) with
    | some b => rw [hc] at i2; exact i2.2.1
    | none => rw [hc] at i2; exact i2.2
  · intro b hb size hs
    have hb : chosen d TEX0 (blockPlaces d) = some b := hb
    rw [hb] at i3
    rw [btx_load hs b (readTEX0_magic i3)]
    exact i3
  · intro hb
    have hb : chosen d TEX0 (blockPlaces d) = none := hb
    rw [hb] at i3
    exact i3

/-! ## Saving -/

theorem saveTEX0_magic {t : NSBTX} {b : Bytes} (h : saveTEX0 t = .ok b) : b.take 4 = TEX0 ∧ 8 ≤ b.length ∧ u32 b 4 = b.length ∧
    b.length < 2 ^ 32 := by
  obtain ⟨tex, ti, pal, pi, size, _, _, _, _, hsize, hfit, rfl⟩ := Proofs.Texture.saveTEX0_eq_ok h
  have hlen : (TEX0 ++ structBytes .little ((4, size) :: headerFields t tex ti.length pi.length pal.1) ++
      (ti ++ (pi ++ (tex.textures ++ (tex.compressed1 ++ (tex.compressed2 ++ pal.1)))))).length = size := by
    simp only [List.length_append, structBytes_length, hsize]
    simp [headerFields, TEX0]
    omega
  have hsz : size < 256 ^ 4 := hfit.1
  refine ⟨by simp [TEX0], by rw [hlen]; omega, ?_, by rw [hlen]; omega⟩
  rw [hlen]
  have ha : At (TEX0 ++ structBytes .little ((4, size) :: headerFields t tex ti.length pi.length pal.1) ++
      (ti ++ (pi ++ (tex.textures ++ (tex.compressed1 ++ (tex.compressed2 ++ pal.1)))))) 4 (enBytes .little 4 size) := by
    refine ⟨TEX0, structBytes .little (headerFields t tex ti.length pi.length pal.1) ++
      (ti ++ (pi ++ (tex.textures ++ (tex.compressed1 ++ (tex.compressed2 ++ pal.1))))), ?_, rfl⟩
    rw [structBytes]
    simp only [List.append_assoc]
  exact (leVal_unpack (ha.unpackU hsz)).symm

/-- The saved file. -/
def image (mdl0 tex0 : Bytes) : Bytes :=
  stdHeaderBytes ⟨BMD0, 0xFEFF, 2, 0x18 + mdl0.length + tex0.length, 0x10, 2⟩ ++
    structBytes .little [(4, 0x18), (4, 0x18 + mdl0.length)] ++ mdl0 ++ tex0

theorem save_eq_ok {m : NSBMD} {d : Bytes} : m.save = .ok d ↔ ∃ mdl0 tex0, m.mdl0 = some mdl0 ∧ saveTEX0 m.tex = .ok tex0 ∧
    0x18 + mdl0.length + tex0.length < 2 ^ 32 ∧ d = image mdl0 tex0 := by
  unfold NSBMD.save
  cases m.mdl0 with
  | none => simp
  | some mdl0 =>
    simp only [bind_eq_ok, pure_eq_ok, packUs_eq_ok, packStdHeader_eq_ok]
    constructor
    · rintro ⟨tex0, h1, _, ⟨h2, rfl⟩, _, ⟨h3, rfl⟩, rfl⟩
      exact ⟨mdl0, tex0, rfl, h1, h3.2.2.1, rfl⟩
    · rintro ⟨_, tex0, h0, h1, h2, rfl⟩
      cases h0
      exact ⟨tex0, h1, _, ⟨⟨by decide, by show 0x18 + mdl0.length < 256 ^ 4; omega, trivial⟩, rfl⟩, _, ⟨StdHeader.ok_mk h2, rfl⟩, rfl⟩

theorem export_eq (m : NSBMD) : m.exportNSBTX = m.tex := rfl

theorem import_eq (m : NSBMD) (t : NSBTX) : m.importNSBTX t = { m with tex := t } := rfl

theorem btx_save {t : NSBTX} {n : Bytes} : Model.Texture.save t = .ok n ↔ ∃ tex0, saveTEX0 t = .ok tex0 ∧
    0x14 + tex0.length < 2 ^ 32 ∧ n = stdHeaderBytes ⟨BTX0, 0xFEFF, 1, 0x14 + tex0.length, 0x10, 1⟩ ++ [0x14, 0, 0, 0] ++ tex0 := by
  unfold Model.Texture.save
  simp only [bind_eq_ok, pure_eq_ok, packStdHeader_eq_ok]
  constructor
  · rintro ⟨tex0, h1, _, ⟨h2, rfl⟩, rfl⟩
    exact ⟨tex0, h1, h2.2.2.1, rfl⟩
  · rintro ⟨tex0, h1, h2, rfl⟩
    exact ⟨tex0, h1, _, ⟨StdHeader.ok_mk h2, rfl⟩, rfl⟩

theorem btx_length (tex0 : Bytes) :
    (stdHeaderBytes ⟨BTX0, 0xFEFF, 1, 0x14 + tex0.length, 0x10, 1⟩ ++ [0x14, 0, 0, 0]).length = 0x14 := by simp

/-- **C93.** A model can be saved exactly if it has a model block and its textures can be saved as an NSBTX file, and the file does
not get too large. -/
theorem save_iff {m : NSBMD} : (∃ d, m.save = .ok d) ↔ ∃ b n, m.mdl0 = some b ∧ Model.Texture.save m.exportNSBTX = .ok n ∧
    b.length + n.length + 4 < 2 ^ 32 := by
  simp only [save_eq_ok, export_eq, btx_save]
  constructor
  · rintro ⟨d, b, t, h1, h2, h3, rfl⟩
    refine ⟨b, _, h1, ⟨t, h2, by omega, rfl⟩, ?_⟩
    rw [List.length_append, btx_length]
    omega
  · rintro ⟨b, _, h1, ⟨t, h2, h3, rfl⟩, h4⟩
    rw [List.length_append, btx_length] at h4
    exact ⟨_, b, t, h1, h2, by omega, rfl⟩

/-- The model and texture blocks and the fields of the header. -/
theorem image_segments (b t : Bytes) :
    At (image b t) 0 (stdHeaderBytes ⟨BMD0, 0xFEFF, 2, 0x18 + b.length + t.length, 0x10, 2⟩) ∧
    At (image b t) 0x10 (structBytes .little [(4, 0x18), (4, 0x18 + b.length)]) ∧
    At (image b t) 0x18 b ∧ At (image b t) (0x18 + b.length) t ∧ (image b t).length = 0x18 + b.length + t.length := by
  have h : At (image b t) 0 (stdHeaderBytes ⟨BMD0, 0xFEFF, 2, 0x18 + b.length + t.length, 0x10, 2⟩ ++
    structBytes .little [(4, 0x18), (4, 0x18 + b.length)] ++ b ++ t) := At.refl _
  have l1 : (stdHeaderBytes ⟨BMD0, 0xFEFF, 2, 0x18 + b.length + t.length, 0x10, 2⟩).length = 0x10 := by simp
  have l2 : (structBytes .little [(4, 0x18), (4, 0x18 + b.length)]).length = 8 := by rw [structBytes_length]; rfl
  have hl : (image b t).length = 0x18 + b.length + t.length := by
    unfold image
    rw [List.length_append, List.length_append, List.length_append, l1, l2]
  simp only [At.split, List.length_append, l1, l2] at h
  obtain ⟨⟨⟨h1, h2⟩, h3⟩, h4⟩ := h
  exact ⟨h1, h2, h3, h4.cast (by omega), hl⟩

theorem u16_at {d : Bytes} {o n : Nat} (h : At d o (enBytes .little 2 n)) (hn : n < 256 ^ 2) : u16 d o = n :=
  (leVal_unpack (h.unpackU hn)).symm

theorem u32_at {d : Bytes} {o n : Nat} (h : At d o (enBytes .little 4 n)) (hn : n < 256 ^ 4) : u32 d o = n :=
  (leVal_unpack (h.unpackU hn)).symm

/-- **C93.** A saved model consists of the header, the offsets of the two blocks, the model block as it was, and the same texture
block that the exported NSBTX file has. -/
theorem save_layout {m : NSBMD} {d : Bytes} (h : m.save = .ok d) : ∃ b n, m.mdl0 = some b ∧ Model.Texture.save m.exportNSBTX = .ok n ∧
    d.take 8 = [0x42, 0x4D, 0x44, 0x30, 0xFF, 0xFE, 2, 0] ∧ u32 d 8 = d.length ∧ u16 d 0xC = 0x10 ∧ u16 d 0xE = 2 ∧
    u32 d 0x10 = 0x18 ∧ u32 d 0x14 = 0x18 + b.length ∧ (d.drop 0x18).take b.length = b ∧ d.drop (0x18 + b.length) = n.drop 0x14 := by
  obtain ⟨b, t, h1, h2, h3, rfl⟩ := save_eq_ok.1 h
  obtain ⟨s1, s2, s3, s4, s5⟩ := image_segments b t
  refine ⟨b, _, h1, btx_save.2 ⟨t, h2, by omega, rfl⟩, ?_, ?_, ?_, ?_, ?_, ?_, ?_, ?_⟩
  · simp [image, stdHeaderBytes, BMD0, packStr, enBytes, leBytes]
  · unfold stdHeaderBytes at s1
    simp only [At.split, List.length_append, packStr_length, enBytes_length] at s1
    rw [s5]
    exact u32_at (s1.1.1.2.cast (by omega)) (by show 0x18 + b.length + t.length < _; omega)
  · unfold stdHeaderBytes at s1
    simp only [At.split, List.length_append, packStr_length, enBytes_length] at s1
    exact u16_at (s1.1.2.cast (by omega)) (by decide)
  · unfold stdHeaderBytes at s1
    simp only [At.split, List.length_append, packStr_length, enBytes_length] at s1
    exact u16_at (s1.2.cast (by omega)) (by decide)
  · simp only [structBytes, At.split] at s2
    exact u32_at s2.1 (by decide)
  · simp only [structBytes, At.split, enBytes_length] at s2
    exact u32_at s2.2.1 (by show 0x18 + b.length < _; omega)
  · have := s3.slice_eq (b := 0x18 + b.length) rfl
    unfold slice at this
    rw [Nat.add_sub_cancel_left] at this
    exact this
  · rw [List.drop_left' (btx_length t)]
    unfold image
    rw [List.drop_left']
    simp only [List.length_append, structBytes_length]
    simp

/-! ## Loading what was saved -/

theorem part_slice {d b : Bytes} {o k n : Nat} (h : At d o b) (hk : k + n ≤ b.length) :
    slice d (o + k) (o + k + n) = slice b k (k + n) := by
  have hb : b = b.take k ++ (slice b k (k + n) ++ b.drop (k + n)) := by
    unfold slice
    rw [Nat.add_sub_cancel_left, ← List.drop_drop, List.take_append_drop, List.take_append_drop]
  have hl : (slice b k (k + n)).length = n := by simp only [slice, List.length_take, List.length_drop]; omega
  rw [hb, At.split, At.split, List.length_take, Nat.min_eq_left (by omega)] at h
  exact h.2.1.slice_eq (by rw [hl])

theorem parseBlock_at {d b : Bytes} {o : Nat} (m : NSBMD) (h : At d o b) (hl : 8 ≤ b.length) (hs : u32 b 4 = b.length) :
    parseBlock d m o = (if b.take 4 = MDL0 then do
        let models ← readMDL0 b
        return { m with mdl0 := some b, models := some models }
      else if b.take 4 = TEX0 then do
        let tex ← readTEX0 b
        return { m with tex := tex }
      else .error .valueError) := by
  have hb := h.bound
  have e1 : unpackStr 4 d o = .ok (b.take 4) := by
    unfold unpackStr
    have := part_slice (k := 0) (n := 4) h (by omega)
    rw [if_pos (by omega)]
    simp only [Nat.add_zero, Nat.zero_add] at this
    rw [this]
    rfl
  have e2 : unpackU .little 4 d (o + 4) = .ok b.length := by
    unfold unpackU
    rw [if_pos (by omega), part_slice h (by omega)]
    exact congrArg Except.ok hs
  have e3 : slice d o (o + b.length) = b := h.slice_eq rfl
  unfold parseBlock
  rw [e1, bind_ok, e2, bind_ok]
  dsimp only
  rw [e3]

theorem readMDL0_length {b : Bytes} {names : List Str} (h : readMDL0 b = .ok names) : 8 ≤ b.length := by
  unfold readMDL0 at h
  simp only [bind_eq_ok] at h
  obtain ⟨_, _, s, h1, _⟩ := h
  unfold readSection at h1
  rw [bind_eq_ok] at h1
  obtain ⟨a, ha, _⟩ := h1
  simp only [unpackUs, bind_eq_ok] at ha
  obtain ⟨_, h, _⟩ := ha
  have := (unpackU_eq_ok.1 h).1
  omega

theorem load_saved {m : NSBMD} {d b : Bytes} {names : List Str} (h : m.save = .ok d) (hr : Representable m.tex)
    (hb : m.mdl0 = some b) (hm : readMDL0 b = .ok names) (hn : m.models = some names) (hs : u32 b 4 = b.length) :
    NSBMD.load d = .ok m := by
  obtain ⟨b', t, h1, h2, h3, rfl⟩ := save_eq_ok.1 h
  have : b' = b := by rw [hb] at h1; exact (Option.some.inj h1).symm
  subst this
  obtain ⟨s1, s2, s3, s4, s5⟩ := image_segments b' t
  obtain ⟨t1, t2, t3, t4⟩ := saveTEX0_magic h2
  have hread : readTEX0 t = .ok m.tex := by
    obtain ⟨r1, r2, r3, r4⟩ := hr
    exact Proofs.Texture.readTEX0_save h2 ⟨fun x hx => Props.Texture.complete_ok (r1 x hx).1, fun x hx => (r1 x hx).2,
      fun x hx => (r2 x hx).2, fun x hx => (r2 x hx).1, r3, (Props.Texture.emptyLast_iff _).2 r4⟩
  unfold NSBMD.load
  rw [raiseIf_false (show ¬ _ from not_not_intro ?_), bind_ok, unpackStdHeader_at s1 (StdHeader.ok_mk h3) rfl, bind_ok,
    raiseIf_false (show ¬ _ from not_not_intro rfl), bind_ok]
  · have := unpackUs_at s2 ⟨by decide, by show 0x18 + b'.length < 256 ^ 4; omega, trivial⟩
    dsimp only
    rw [show List.replicate 2 4 = List.map Prod.fst [(4, 0x18), (4, 0x18 + b'.length)] from rfl, this, bind_ok]
    show parseBlocks _ _ [0x18, 0x18 + b'.length] = _
    rw [parseBlocks, parseBlock_at _ s3 (readMDL0_length hm) hs, if_pos (readMDL0_names hm).1, hm, bind_ok]
    show ((Except.ok _ : Py NSBMD) >>= fun m => parseBlocks _ m _) = _
    rw [bind_ok, parseBlocks, parseBlock_at _ s4 t2 t3, if_neg (by rw [t1]; decide), if_pos t1, hread]
    simp only [bind_ok]
    cases m
    simp only at hb hn ⊢
    subst hb hn
    rfl
  · rfl

/-- **C94.** After loading a model whose model block is not cut off by the end of the file and replacing its textures and palettes
by any that a file can represent, saving and loading it gives the same model: model block, names, textures and palettes. -/
theorem model_round_trip {f d b : Bytes} {m : NSBMD} {t : NSBTX} (h : NSBMD.load f = .ok m) (hb : m.mdl0 = some b)
    (hs : u32 b 4 = b.length) (hr : Representable t) (hd : (m.importNSBTX t).save = .ok d) :
    NSBMD.load d = .ok (m.importNSBTX t) := by
  unfold NSBMD.load at h
  simp only [bind_eq_ok] at h
  obtain ⟨_, _, hd', _, _, _, os, _, h⟩ := h
  obtain ⟨_, i2, _⟩ := parseBlocks_spec h
  have hm : m.models = some (modelNames b) ∧ readMDL0 b = .ok (modelNames b) := by
    cases hc : chosen f MDL0 os with
    | some b' =>
      rw [hc] at i2
      have : b' = b := by rw [i2.1] at hb; exact Option.some.inj hb
      subst this
      exact i2.2
    | none => rw [hc] at i2; rw [i2.1] at hb; cases hb
  exact load_saved (m := m.importNSBTX t) hd hr hb hm.2 hm.1 hs

/-- **C94.** What was imported is exported again, also from the saved file, and importing what was exported changes nothing. -/
theorem import_export (m : NSBMD) (t : NSBTX) : (m.importNSBTX t).exportNSBTX = t ∧ m.importNSBTX m.exportNSBTX = m ∧
    (m.importNSBTX t).mdl0 = m.mdl0 ∧ (m.importNSBTX t).models = m.models := ⟨rfl, rfl, rfl, rfl⟩

/-- **C93.** Without a model block, a model cannot be saved; that is so for new ones. -/
theorem no_model_block {m : NSBMD} (h : m.mdl0 = none) : m.save = .error .attributeError := by
  unfold NSBMD.save; rw [h]

example : NSBMD.new.save = .error .attributeError := no_model_block rfl

/-- A model block without models. -/
def emptyBlock (size : Nat) : Bytes := MDL0 ++ leBytes 4 size ++ [0, 0, 0, 0, 8, 0, 12, 0, 0x7F, 1, 0, 0, 4, 0, 4, 0]

/-- A file with this block and no textures. -/
def emptyFile (size : Nat) : Bytes :=
  [0x42, 0x4D, 0x44, 0x30, 0xFF, 0xFE, 2, 0] ++ leBytes 4 0x2C ++ [0x10, 0, 1, 0, 0x14, 0, 0, 0] ++ emptyBlock size

/-- A section with no entry or one with this word and name. -/
def sect : Option (Nat × Bytes) → Bytes
  | none => [0, 0, 0, 0, 8, 0, 12, 0, 0x7F, 1, 0, 0, 4, 0, 4, 0]
  | some (word, name) => [0, 1, 0, 0, 8, 0, 16, 0, 0x7F, 1, 0, 0, 0, 0, 0, 0, 4, 0, 8, 0] ++ leBytes 4 word ++ name ++ zeros (16 - name.length)

/-- A model block with a model `ab`, which has no materials and one polygon with the display list of the triangle. -/
def oneModel : Bytes :=
  let list := (triangle.map groupBytes).flatten
  let body := sect (some (0x30, [0x61, 0x62])) ++
    (leBytes 4 0 ++ leBytes 4 0 ++ leBytes 4 0x3C ++ leBytes 4 0x70 ++ zeros 0x30) ++ sect none ++ sect none ++ sect none ++
    sect (some (0x28, [0x63])) ++ (leBytes 4 0 ++ leBytes 4 0 ++ leBytes 4 0x10 ++ leBytes 4 list.length) ++ list
  MDL0 ++ leBytes 4 (8 + body.length) ++ body

/-- A file with this block and no textures. -/
def oneFile : Bytes :=
  [0x42, 0x4D, 0x44, 0x30, 0xFF, 0xFE, 2, 0] ++ leBytes 4 (0x14 + oneModel.length) ++ [0x10, 0, 1, 0, 0x14, 0, 0, 0] ++ oneModel

/-- The model in it. -/
def one : NSBMD := ⟨NSBMD.new.tex, some oneModel, some [[0x61, 0x62]]⟩

theorem oneFile_load : NSBMD.load oneFile = .ok one := by decide +kernel

/-- The hypotheses of the round trip are met by this file, into which the sample textures are imported. -/
example : NSBMD.load oneFile = .ok one ∧ one.mdl0 = some oneModel ∧ u32 oneModel 4 = oneModel.length ∧
    Representable Props.Texture.sample ∧ ∃ d, (one.importNSBTX Props.Texture.sample).save = .ok d := by
  have hs : (match (one.importNSBTX Props.Texture.sample).save with | .ok _ => true | .error _ => false) = true := by decide +kernel
  refine ⟨oneFile_load, rfl, by decide +kernel, Props.Texture.sample_representable, ?_⟩
  cases hc : (one.importNSBTX Props.Texture.sample).save with
  | ok d => exact ⟨d, rfl⟩
  | error e => rw [hc] at hs; cases hs

/-- If the model block claims to be longer than the file, then saving appends the texture block to it, as is seen after loading. -/
theorem cut_block_grows : ∃ f m d m', NSBMD.load f = .ok m ∧ m.save = .ok d ∧ NSBMD.load d = .ok m' ∧
    m.mdl0.map List.length = some 0x18 ∧ m'.mdl0.map List.length = some (0x18 + 0x5C) := by
  have h : ∃ m, NSBMD.load (emptyFile 0x1000) = .ok m ∧ m.mdl0.map List.length = some 0x18 ∧
      (m.save >>= fun d => NSBMD.load d >>= fun m' => .ok (m'.mdl0.map List.length)) = .ok (some (0x18 + 0x5C)) :=
    ⟨⟨NSBMD.new.tex, some (emptyBlock 0x1000), some []⟩, by decide +kernel, by decide +kernel, by decide +kernel⟩
  obtain ⟨m, h1, h2, h3⟩ := h
  simp only [bind_eq_ok] at h3
  obtain ⟨d, h3, m', h4, h5⟩ := h3
  exact ⟨_, m, d, m', h1, h3, h4, h2, Except.ok.inj h5⟩

end Verif.Props.Nsbmd
