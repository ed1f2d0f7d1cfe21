import Verif.Model.Code
import Verif.Proofs.CodeCompression

/-!
# Main code files: helper lemmas
-/

namespace Verif.Proofs.MainCode

open Verif Verif.Model Verif.Model.Code

/-! ## Overwriting -/

theorem patch_append_right {α : Type _} {a d bs : List α} {p : Nat} (h : p + bs.length ≤ a.length) :
    patch (a ++ d) p bs = patch a p bs ++ d := by
  unfold patch
  rw [List.take_append_of_le_length (by omega), List.drop_append_of_le_length (by omega)]
  simp [List.append_assoc]

theorem patch_same {α : Type _} {d bs : List α} {p : Nat} (h : At d p bs) : patch d p bs = d := by
  obtain ⟨a, b, rfl, rfl⟩ := h
  unfold patch
  simp [List.append_assoc]

theorem getElem?_patch {α : Type _} {d bs : List α} {p i : Nat} (hp : p + bs.length ≤ d.length)
    (hi : i < p ∨ p + bs.length ≤ i) : (patch d p bs)[i]? = d[i]? := by
  unfold patch
  rcases hi with hi | hi
  · rw [List.append_assoc, List.getElem?_append_left (by simp; omega), List.getElem?_take]
    simp [hi]
  · rw [List.getElem?_append_right (by simp; omega), List.getElem?_drop]
    congr 1; simp; omega

theorem setInt_ok {d r : Bytes} {o v : Nat} :
    setInt d (o : Int) v = .ok r ↔ v < 2 ^ 32 ∧ o + 4 ≤ d.length ∧ r = patch d o (enBytes .little 4 v) := by
  unfold setInt structOffset
  simp only [bind_eq_ok, packU_eq_ok]
  constructor
  · rintro ⟨_, ⟨h1, rfl⟩, x, hx, h2⟩
    rw [if_pos (by omega)] at hx
    cases hx
    rw [packInto_eq_ok, enBytes_length] at h2
    simpa using ⟨h1, h2⟩
  · rintro ⟨h1, h2, rfl⟩
    refine ⟨_, ⟨h1, rfl⟩, o, by rw [if_pos (by omega)]; simp, ?_⟩
    rw [packInto_eq_ok, enBytes_length]
    exact ⟨h2, rfl⟩

theorem unpack3I_ok {d : Bytes} {o a b c : Nat}
    (hat : At d o (enBytes .little 4 a ++ enBytes .little 4 b ++ enBytes .little 4 c))
    (ha : a < 2 ^ 32) (hb : b < 2 ^ 32) (hc : c < 2 ^ 32) : unpack3I d (o : Int) = .ok (a, b, c) := by
  obtain ⟨hat, a3⟩ := At.split.1 hat
  obtain ⟨a1, a2⟩ := At.split.1 hat
  simp only [List.length_append, enBytes_length] at a2 a3
  unfold unpack3I structOffset
  rw [if_pos (by omega), bind_ok, Int.toNat_natCast, a1.unpackU ha, bind_ok, a2.unpackU hb, bind_ok,
    a3.unpackU hc]
  rfl

/-! ## The section table -/

def entryBytes (s : Section) : Bytes :=
  enBytes .little 4 s.ramAddress ++ enBytes .little 4 s.data.length ++ enBytes .little 4 s.bssSize

theorem entryBytes_length (s : Section) : (entryBytes s).length = 12 := by simp [entryBytes, enBytes_length]

def Fits (s : Section) : Prop := s.ramAddress < 2 ^ 32 ∧ s.data.length < 2 ^ 32 ∧ s.bssSize < 2 ^ 32

theorem sectionEntry_ok {s : Section} {d : Bytes} :
    sectionEntry s = .ok d ↔ Fits s ∧ d = entryBytes s := by
  unfold sectionEntry Fits
  simp only [bind_eq_ok, packU_eq_ok, pure_eq_ok]
  constructor
  · rintro ⟨_, ⟨h1, rfl⟩, _, ⟨h2, rfl⟩, _, ⟨h3, rfl⟩, rfl⟩
    exact ⟨⟨h1, h2, h3⟩, rfl⟩
  · rintro ⟨⟨h1, h2, h3⟩, rfl⟩
    exact ⟨_, ⟨h1, rfl⟩, _, ⟨h2, rfl⟩, _, ⟨h3, rfl⟩, rfl⟩

/-- The sections of the table in the order of the table. -/
def tableOrder (sections : List Section) : List Section :=
  (sections.filter fun s => !s.implicit && s.data.length != 0) ++
  (sections.filter fun s => !s.implicit && s.data.length == 0)

theorem sectionTable_ok {l : List Section} {d : Bytes} :
    sectionTable l = .ok d ↔ (∀ s ∈ tableOrder l, Fits s) ∧ d = ((tableOrder l).map entryBytes).flatten := by
  unfold sectionTable tableOrder
  have hm := mapE_eq_map (f := sectionEntry) (g := entryBytes) (P := Fits) (fun a b => sectionEntry_ok)
  simp only [bind_eq_ok, pure_eq_ok, hm, List.map_append, List.flatten_append]
  constructor
  · rintro ⟨_, ⟨h1, rfl⟩, _, ⟨h2, rfl⟩, rfl⟩
    refine ⟨fun s hs => ?_, rfl⟩
    rcases List.mem_append.1 hs with h | h
    · exact h1 s h
    · exact h2 s h
  · rintro ⟨h, rfl⟩
    exact ⟨_, ⟨fun s hs => h s (by simp only [List.mem_append]; exact Or.inl hs), rfl⟩, _,
      ⟨fun s hs => h s (by simp only [List.mem_append]; exact Or.inr hs), rfl⟩, rfl⟩

theorem flat_length (l : List Section) : ((l.map entryBytes).flatten).length = 12 * l.length := by
  induction l with
  | nil => rfl
  | cons a l ih =>
    simp only [List.map_cons, List.flatten_cons, List.length_append, ih, entryBytes_length, List.length_cons]
    omega

theorem joinSections_from (l : List Section) (h : ∀ s ∈ l, s.data.length % 4 = 0) : ∀ (d : Bytes),
    d.length % 4 = 0 →
    l.foldl (fun d s => padTo (d ++ s.data) 4 0) d = d ++ (l.map Section.data).flatten := by
  induction l with
  | nil => intro d _; simp
  | cons s l ih =>
    intro d hd
    have hs := h s (by simp)
    have e : padTo (d ++ s.data) 4 0 = d ++ s.data := by
      unfold padTo
      rw [padLen_of_dvd (by rw [List.length_append]; omega)]; simp
    rw [List.foldl_cons, e, ih (fun t ht => h t (by simp [ht])) _ (by rw [List.length_append]; omega)]
    simp

theorem joinSections_eq {l : List Section} (h : ∀ s ∈ l, s.data.length % 4 = 0) :
    joinSections l = (l.map Section.data).flatten := by
  unfold joinSections
  rw [joinSections_from l h [] rfl]; simp

theorem tableOrder_data {l : List Section} (h : ∀ s ∈ l, s.implicit = false) :
    ((tableOrder l).map Section.data).flatten = (l.map Section.data).flatten := by
  unfold tableOrder
  have e0 : ∀ l : List Section,
      ((l.filter fun s => !s.implicit && s.data.length == 0).map Section.data).flatten = [] := by
    intro l
    rw [List.flatten_eq_nil_iff]
    intro d hd
    obtain ⟨s, hs, rfl⟩ := List.mem_map.1 hd
    have := (List.mem_filter.1 hs).2
    simp at this
    exact this.2
  rw [List.map_append, List.flatten_append, e0, List.append_nil]
  induction l with
  | nil => rfl
  | cons s l ih =>
    have hs := h s (by simp)
    have ih := ih (fun t ht => h t (by simp [ht]))
    by_cases hz : s.data.length = 0
    · have : s.data = [] := List.eq_nil_of_length_eq_zero hz
      rw [List.filter_cons_of_neg (by simp [hz])]
      simp [this, ih]
    · rw [List.filter_cons_of_pos (by simp [hs, hz])]
      simp [ih]

theorem loadSections_ok {b : Bytes} : ∀ (l : List Section) (pos o : Nat),
    At b pos ((l.map entryBytes).flatten) → At b o ((l.map Section.data).flatten) → (∀ s ∈ l, Fits s) →
    (∀ s ∈ l, s.implicit = false) → loadSections b l.length (pos : Int) (o : Int) = .ok l
  | [], _, _, _, _, _, _ => rfl
  | s :: l, pos, o, h1, h2, hf, hi => by
    simp only [List.map_cons, List.flatten_cons] at h1 h2
    obtain ⟨a1, a2⟩ := At.split.1 h1
    obtain ⟨b1, b2⟩ := At.split.1 h2
    rw [entryBytes_length] at a2
    obtain ⟨f1, f2, f3⟩ := hf s (by simp)
    rw [List.length_cons, loadSections, unpack3I_ok a1 f1 f2 f3, bind_ok]
    dsimp only
    have e1 : (pos : Int) + 12 = ((pos + 12 : Nat) : Int) := by omega
    have e2 : (o : Int) + (s.data.length : Nat) = ((o + s.data.length : Nat) : Int) := by omega
    have e3 : pySliceI b (o : Int) ((o + s.data.length : Nat) : Int) = s.data := by
      unfold pySliceI sliceBound
      rw [if_neg (by omega), if_neg (by omega), Int.toNat_natCast, Int.toNat_natCast]
      exact b1.slice_eq rfl
    rw [e1, e2, e3, loadSections_ok l _ _ a2 b2 (fun t ht => hf t (by simp [ht]))
      (fun t ht => hi t (by simp [ht])), bind_ok]
    have := hi s (by simp)
    cases s
    simp only at this
    subst this
    rfl

/-! ## Written settings -/

/-- The four words of the code settings, written into the implicit section. -/
def settled (d : Bytes) (cso w1 w2 w3 w4 : Nat) : Bytes :=
  patch (patch (patch (patch d cso (enBytes .little 4 w1)) (cso + 4) (enBytes .little 4 w2)) (cso + 8)
    (enBytes .little 4 w3)) (cso + 0x14) (enBytes .little 4 w4)

theorem settled_length {d : Bytes} {cso : Nat} (w1 w2 w3 w4 : Nat) (h : cso + 0x18 ≤ d.length) :
    (settled d cso w1 w2 w3 w4).length = d.length := by
  unfold settled
  repeat rw [patch_length]
  all_goals (try rw [patch_length])
  all_goals (try rw [patch_length])
  all_goals (try rw [patch_length])
  all_goals (try rw [enBytes_length])
  all_goals omega

theorem settled_append {d e : Bytes} {cso : Nat} (w1 w2 w3 w4 : Nat) (h : cso + 0x18 ≤ d.length) :
    settled (d ++ e) cso w1 w2 w3 w4 = settled d cso w1 w2 w3 w4 ++ e := by
  unfold settled
  have l1 : (patch d cso (enBytes .little 4 w1)).length = d.length :=
    patch_length (by rw [enBytes_length]; omega)
  have l2 : (patch (patch d cso (enBytes .little 4 w1)) (cso + 4) (enBytes .little 4 w2)).length = d.length := by
    rw [patch_length (by rw [enBytes_length, l1]; omega), l1]
  have l3 : (patch (patch (patch d cso (enBytes .little 4 w1)) (cso + 4) (enBytes .little 4 w2)) (cso + 8)
      (enBytes .little 4 w3)).length = d.length := by
    rw [patch_length (by rw [enBytes_length, l2]; omega), l2]
  rw [patch_append_right (by rw [enBytes_length]; omega), patch_append_right (by rw [enBytes_length]; omega),
    patch_append_right (by rw [enBytes_length]; omega), patch_append_right (by rw [enBytes_length]; omega)]

theorem settled_at {d : Bytes} {cso : Nat} (w1 w2 w3 w4 : Nat) (h : cso + 0x18 ≤ d.length) :
    At (settled d cso w1 w2 w3 w4) cso (enBytes .little 4 w1 ++ enBytes .little 4 w2 ++ enBytes .little 4 w3) ∧
    At (settled d cso w1 w2 w3 w4) (cso + 0x14) (enBytes .little 4 w4) := by
  unfold settled
  have l1 : (patch d cso (enBytes .little 4 w1)).length = d.length :=
    patch_length (by rw [enBytes_length]; omega)
  have l2 : (patch (patch d cso (enBytes .little 4 w1)) (cso + 4) (enBytes .little 4 w2)).length = d.length := by
    rw [patch_length (by rw [enBytes_length, l1]; omega), l1]
  have l3 : (patch (patch (patch d cso (enBytes .little 4 w1)) (cso + 4) (enBytes .little 4 w2)) (cso + 8)
      (enBytes .little 4 w3)).length = d.length := by
    rw [patch_length (by rw [enBytes_length, l2]; omega), l2]
  refine ⟨At.split.2 ⟨At.split.2 ⟨?_, ?_⟩, ?_⟩, At.patch_self (by omega)⟩
  · refine ((At.patch_self (by omega)).patch_disjoint (by simp only [enBytes_length]; omega) (by rw [enBytes_length]; omega)).patch_disjoint
      (by simp only [enBytes_length]; omega) (by rw [enBytes_length]; omega) |>.patch_disjoint (by simp only [enBytes_length]; omega) (by rw [enBytes_length]; omega)
  · rw [enBytes_length]
    exact ((At.patch_self (by omega)).patch_disjoint (by simp only [enBytes_length]; omega) (by rw [enBytes_length]; omega)).patch_disjoint
      (by simp only [enBytes_length]; omega) (by rw [enBytes_length]; omega)
  · rw [List.length_append, enBytes_length, enBytes_length]
    exact (At.patch_self (by omega)).patch_disjoint (by simp only [enBytes_length]; omega) (by rw [enBytes_length]; omega)

theorem settled_getElem? {d : Bytes} {cso i : Nat} (w1 w2 w3 w4 : Nat) (h : cso + 0x18 ≤ d.length)
    (hi : i < cso ∨ (cso + 12 ≤ i ∧ i < cso + 0x14) ∨ cso + 0x18 ≤ i) :
    (settled d cso w1 w2 w3 w4)[i]? = d[i]? := by
  unfold settled
  have l1 : (patch d cso (enBytes .little 4 w1)).length = d.length :=
    patch_length (by rw [enBytes_length]; omega)
  have l2 : (patch (patch d cso (enBytes .little 4 w1)) (cso + 4) (enBytes .little 4 w2)).length = d.length := by
    rw [patch_length (by rw [enBytes_length, l1]; omega), l1]
  have l3 : (patch (patch (patch d cso (enBytes .little 4 w1)) (cso + 4) (enBytes .little 4 w2)) (cso + 8)
      (enBytes .little 4 w3)).length = d.length := by
    rw [patch_length (by rw [enBytes_length, l2]; omega), l2]
  rw [getElem?_patch (by rw [enBytes_length]; omega) (by rw [enBytes_length]; omega),
    getElem?_patch (by rw [enBytes_length]; omega) (by rw [enBytes_length]; omega),
    getElem?_patch (by rw [enBytes_length]; omega) (by rw [enBytes_length]; omega),
    getElem?_patch (by rw [enBytes_length]; omega) (by rw [enBytes_length]; omega)]

theorem settled_same {d : Bytes} {cso w1 w2 w3 w4 : Nat}
    (h : At d cso (enBytes .little 4 w1 ++ enBytes .little 4 w2 ++ enBytes .little 4 w3))
    (h4 : At d (cso + 0x14) (enBytes .little 4 w4)) : settled d cso w1 w2 w3 w4 = d := by
  obtain ⟨h12, h3⟩ := At.split.1 h
  obtain ⟨h1, h2⟩ := At.split.1 h12
  rw [List.length_append, enBytes_length, enBytes_length] at h3
  rw [enBytes_length] at h2
  unfold settled
  rw [patch_same h1, patch_same h2, patch_same h3, patch_same h4]

/-- The first three words only, as they are before the fourth one is written. -/
def settled3 (d : Bytes) (cso w1 w2 w3 : Nat) : Bytes :=
  patch (patch (patch d cso (enBytes .little 4 w1)) (cso + 4) (enBytes .little 4 w2)) (cso + 8)
    (enBytes .little 4 w3)

theorem settled3_length {d : Bytes} {cso : Nat} (w1 w2 w3 : Nat) (h : cso + 12 ≤ d.length) :
    (settled3 d cso w1 w2 w3).length = d.length := by
  unfold settled3
  have l1 : (patch d cso (enBytes .little 4 w1)).length = d.length :=
    patch_length (by rw [enBytes_length]; omega)
  have l2 : (patch (patch d cso (enBytes .little 4 w1)) (cso + 4) (enBytes .little 4 w2)).length = d.length := by
    rw [patch_length (by rw [enBytes_length, l1]; omega), l1]
  rw [patch_length (by rw [enBytes_length, l2]; omega), l2]

theorem writeSettings_ok {f : MainCodeFile} {d r : Bytes} {cso a e : Nat} {s0 : Section} {rest : List Section}
    (hc : f.codeSettingsOffs = some (cso : Int)) (hs : f.sections = s0 :: rest) :
    writeSettings f d a e = .ok r ↔
      a < 2 ^ 32 ∧ e < 2 ^ 32 ∧ f.ramAddress + s0.data.length < 2 ^ 32 ∧ cso + 12 ≤ d.length ∧
      r = settled3 d cso a e (f.ramAddress + s0.data.length) := by
  unfold writeSettings settled3
  rw [hc]
  dsimp only
  rw [hs]
  have e0 : (cso : Int) + 0 = ((cso : Nat) : Int) := by omega
  have e4 : (cso : Int) + 4 = ((cso + 4 : Nat) : Int) := by omega
  have e8 : (cso : Int) + 8 = ((cso + 8 : Nat) : Int) := by omega
  rw [e0, e4, e8]
  simp only [bind_eq_ok, setInt_ok]
  constructor
  · rintro ⟨_, ⟨h1, h2, rfl⟩, _, ⟨h3, h4, rfl⟩, s, hs, h5, h6, rfl⟩
    cases hs
    rw [patch_length (by rw [enBytes_length]; omega)] at h4
    rw [patch_length (by rw [enBytes_length, patch_length (by rw [enBytes_length]; omega)]; omega),
      patch_length (by rw [enBytes_length]; omega)] at h6
    exact ⟨h1, h3, h5, by omega, rfl⟩
  · rintro ⟨h1, h2, h3, h4, rfl⟩
    refine ⟨_, ⟨h1, by omega, rfl⟩, _, ⟨h2, ?_, rfl⟩, s0, rfl, h3, ?_, rfl⟩
    · rw [patch_length (by rw [enBytes_length]; omega)]; omega
    · rw [patch_length (by rw [enBytes_length, patch_length (by rw [enBytes_length]; omega)]; omega),
        patch_length (by rw [enBytes_length]; omega)]; omega

/-! ## Loading -/

/-- The general position of a saved file: an implicit first section that holds the code settings, further
sections after it, everything aligned. -/
structure Shape (f : MainCodeFile) (s0 : Section) (rest : List Section) (cso : Nat) : Prop where
  sections : f.sections = s0 :: rest
  settings : f.codeSettingsOffs = some (cso : Int)
  implicit : s0.implicit = true
  others : ∀ s ∈ rest, s.implicit = false
  aligned : ∀ s ∈ f.sections, s.data.length % 4 = 0
  inside : cso + 0x18 ≤ s0.data.length

def body (s0 : Section) (rest : List Section) : Bytes := s0.data ++ (rest.map Section.data).flatten

def table (rest : List Section) : Bytes := ((tableOrder rest).map entryBytes).flatten

theorem Shape.joined {f : MainCodeFile} {s0 : Section} {rest : List Section} {cso : Nat}
    (h : Shape f s0 rest cso) : joinSections f.sections = body s0 rest := by
  rw [joinSections_eq h.aligned, h.sections]; rfl

theorem tableOrder_cons {s0 : Section} {rest : List Section} (h : s0.implicit = true) :
    tableOrder (s0 :: rest) = tableOrder rest := by
  unfold tableOrder
  rw [List.filter_cons_of_neg (by simp [h]), List.filter_cons_of_neg (by simp [h])]

theorem mem_tableOrder {s : Section} {l : List Section} (h : s ∈ tableOrder l) :
    s ∈ l ∧ s.implicit = false := by
  unfold tableOrder at h
  rcases List.mem_append.1 h with h | h <;>
  · obtain ⟨h1, h2⟩ := List.mem_filter.1 h
    simp at h2
    exact ⟨h1, h2.1⟩

theorem tableOrder_idem (l : List Section) : tableOrder (tableOrder l) = tableOrder l := by
  unfold tableOrder
  simp only [List.filter_append, List.filter_filter]
  have e1 : ∀ l : List Section, List.filter (fun s => (!s.implicit && s.data.length != 0) &&
      (!s.implicit && s.data.length == 0)) l = [] := by
    intro l; rw [List.filter_eq_nil_iff]
    intro s _; cases s.implicit <;> cases h : s.data <;> simp
  have e2 : ∀ l : List Section, List.filter (fun s => (!s.implicit && s.data.length == 0) &&
      (!s.implicit && s.data.length != 0)) l = [] := by
    intro l; rw [List.filter_eq_nil_iff]
    intro s _; cases s.implicit <;> cases h : s.data <;> simp
  rw [e1, e2]
  simp

theorem load_settled {f : MainCodeFile} {s0 : Section} {rest : List Section} {cso w4 : Nat}
    (h : Shape f s0 rest cso) (hfit : ∀ s ∈ tableOrder rest, Fits s)
    (hend : f.ramAddress + (body s0 rest).length + (table rest).length < 2 ^ 32) {file : Bytes} {ptr : Option Nat}
    {b : Bytes}
    (hb : b = settled (body s0 rest ++ table rest) cso (f.ramAddress + (body s0 rest).length)
      (f.ramAddress + (body s0 rest).length + (table rest).length) (f.ramAddress + s0.data.length) w4)
    (hdec : CodeCompression.decompress file = .ok b)
    (hfind : findSettings b f.ramAddress ptr = .ok (some (cso : Int))) :
    MainCodeFile.load file f.ramAddress ptr =
      .ok ⟨⟨b.take s0.data.length, f.ramAddress, 0, true⟩ :: tableOrder rest, f.ramAddress, some (cso : Int)⟩ := by
  have hin := h.inside
  have hbl : (body s0 rest).length = s0.data.length + ((rest.map Section.data).flatten).length := by
    simp [body]
  have hsub : s0.data.length ≤ (body s0 rest).length := by omega
  have hin' : cso + 0x18 ≤ (body s0 rest).length := by omega
  obtain ⟨hw, -⟩ := settled_at (d := body s0 rest ++ table rest) (cso := cso)
    (f.ramAddress + (body s0 rest).length)
    (f.ramAddress + (body s0 rest).length + (table rest).length) (f.ramAddress + s0.data.length) w4
    (by rw [List.length_append]; omega)
  rw [← hb] at hw
  unfold MainCodeFile.load
  rw [hdec, bind_ok, hfind, bind_ok]
  unfold tableBounds
  dsimp only
  rw [unpack3I_ok hw (by omega) (by omega) (by omega), bind_ok]
  have hb2 : b = settled s0.data cso (f.ramAddress + (body s0 rest).length)
      (f.ramAddress + (body s0 rest).length + (table rest).length) (f.ramAddress + s0.data.length) w4 ++
      (rest.map Section.data).flatten ++ table rest := by
    rw [hb]
    unfold body
    rw [settled_append _ _ _ _ (by rw [List.length_append]; omega), settled_append _ _ _ _ hin]
  have htab : At b (body s0 rest).length (table rest) := by
    rw [hb2]; exact At.last' (by rw [List.length_append, settled_length _ _ _ _ hin]; exact hbl.symm)
  have hdat : At b s0.data.length ((rest.map Section.data).flatten) := by
    rw [hb2]; exact At.mk' (settled_length _ _ _ _ hin)
  rw [← tableOrder_data h.others] at hdat
  have hcount : ((((f.ramAddress + (body s0 rest).length + (table rest).length : Nat) : Int) - f.ramAddress -
      (((f.ramAddress + (body s0 rest).length : Nat) : Int) - f.ramAddress) + 11) / 12).toNat =
      (tableOrder rest).length := by
    have : (table rest).length = 12 * (tableOrder rest).length := flat_length _
    omega
  simp only [pure_def, bind_ok]
  rw [hcount]
  have p1 : ((f.ramAddress + (body s0 rest).length : Nat) : Int) - f.ramAddress = ((body s0 rest).length : Nat) := by
    omega
  have p2 : ((f.ramAddress + s0.data.length : Nat) : Int) - f.ramAddress = (s0.data.length : Nat) := by omega
  rw [p1, p2, loadSections_ok _ _ _ htab hdat hfit (fun s hs => (mem_tableOrder hs).2), bind_ok]
  have e3 : pySliceI b 0 ((s0.data.length : Nat) : Int) = b.take s0.data.length := by
    unfold pySliceI sliceBound slice
    rw [if_neg (by omega), if_neg (by omega)]
    simp
  rw [e3]

/-! ## Saving -/

theorem settled_eq (d : Bytes) (cso w1 w2 w3 w4 : Nat) :
    settled d cso w1 w2 w3 w4 = patch (settled3 d cso w1 w2 w3) (cso + 0x14) (enBytes .little 4 w4) := rfl

/-- What a successful save implies. -/
structure Saves (f : MainCodeFile) (s0 : Section) (rest : List Section) : Prop where
  fits : ∀ s ∈ tableOrder rest, Fits s
  tableEnd : f.ramAddress + (body s0 rest).length + (table rest).length < 2 ^ 32

theorem body_le (s0 : Section) (rest : List Section) : s0.data.length ≤ (body s0 rest).length := by
  unfold body; rw [List.length_append]; omega

theorem save_plain {f : MainCodeFile} {s0 : Section} {rest : List Section} {cso : Nat}
    (h : Shape f s0 rest cso) {b : Bytes} :
    f.save false = .ok b ↔ Saves f s0 rest ∧
      b = settled (body s0 rest ++ table rest) cso (f.ramAddress + (body s0 rest).length)
        (f.ramAddress + (body s0 rest).length + (table rest).length) (f.ramAddress + s0.data.length) 0 := by
  have hin := h.inside
  have hle := body_le s0 rest
  have e14 : (cso : Int) + 0x14 = ((cso + 0x14 : Nat) : Int) := by omega
  unfold MainCodeFile.save
  rw [h.joined, h.sections]
  simp only [Bool.false_eq_true, if_false, bind_eq_ok, sectionTable_ok, tableOrder_cons h.implicit,
    writeSettings_ok h.settings h.sections, setCompressedEnd, h.settings]
  rw [e14]
  simp only [setInt_ok]
  constructor
  · rintro ⟨_, ⟨h1, rfl⟩, _, ⟨h2, h3, h4, h5, rfl⟩, h6, h7, rfl⟩
    exact ⟨⟨h1, h3⟩, rfl⟩
  · rintro ⟨⟨h1, h2⟩, rfl⟩
    refine ⟨_, ⟨h1, rfl⟩, _, ⟨by omega, h2, by omega, ?_, rfl⟩, by decide, ?_, rfl⟩
    · rw [List.length_append]; omega
    · rw [settled3_length _ _ _ (by rw [List.length_append]; omega), List.length_append]; omega

theorem save_comp {f : MainCodeFile} {s0 : Section} {rest : List Section} {cso : Nat}
    (h : Shape f s0 rest cso) {b : Bytes} :
    f.save true = .ok b ↔ Saves f s0 rest ∧ ∃ c,
      CodeCompression.compress (settled3 (body s0 rest ++ table rest) cso (f.ramAddress + (body s0 rest).length)
        (f.ramAddress + (body s0 rest).length + (table rest).length) (f.ramAddress + s0.data.length)) true = .ok c ∧
      f.ramAddress + c.length < 2 ^ 32 ∧ cso + 0x18 ≤ c.length ∧
      b = patch c (cso + 0x14) (enBytes .little 4 (f.ramAddress + c.length)) := by
  have hin := h.inside
  have hle := body_le s0 rest
  have e14 : (cso : Int) + 0x14 = ((cso + 0x14 : Nat) : Int) := by omega
  unfold MainCodeFile.save
  rw [h.joined, h.sections]
  simp only [if_true, bind_eq_ok, sectionTable_ok, tableOrder_cons h.implicit,
    writeSettings_ok h.settings h.sections, setCompressedEnd, h.settings]
  rw [e14]
  simp only [setInt_ok]
  constructor
  · rintro ⟨_, ⟨h1, rfl⟩, _, ⟨h2, h3, h4, h5, rfl⟩, c, hc, h6, h7, rfl⟩
    exact ⟨⟨h1, h3⟩, c, hc, h6, by omega, rfl⟩
  · rintro ⟨⟨h1, h2⟩, c, hc, h6, h7, rfl⟩
    refine ⟨_, ⟨h1, rfl⟩, _, ⟨by omega, h2, by omega, ?_, rfl⟩, c, hc, h6, by omega, rfl⟩
    rw [List.length_append]; omega

/-! ## Compressed files -/

theorem compressInner_nil : CodeCompression.compressInner [] = .ok [0, 0, 0, 0] := by decide +kernel

theorem compress_inv {data c : Bytes} (h : CodeCompression.compress data true = .ok c) :
    ∃ r, CodeCompression.compressInner (data.drop 0x4000) = .ok r ∧ c = data.take 0x4000 ++ r := by
  unfold CodeCompression.compress at h
  simp only [if_true, bind_eq_ok, pure_eq_ok] at h
  obtain ⟨r, hr, rfl⟩ := h
  exact ⟨r, hr, rfl⟩

theorem compress_shorter_length {data c : Bytes} (h : CodeCompression.compress data true = .ok c)
    (hlt : c.length < data.length) : 0x4000 ≤ data.length := by
  obtain ⟨r, hr, rfl⟩ := compress_inv h
  rcases Nat.lt_or_ge data.length 0x4000 with hl | hl
  · rw [List.length_append, List.length_take] at hlt; omega
  · exact hl

theorem drop_patch {d bs : Bytes} {q n : Nat} (h : q + bs.length ≤ n) (hn : n ≤ d.length) :
    (patch d q bs).drop n = d.drop n := by
  unfold patch
  rw [List.drop_append, List.drop_eq_nil_of_le (by simp; omega), List.nil_append, List.drop_drop]
  congr 1; simp; omega

theorem take_patch {d bs : Bytes} {q n : Nat} (h : q + bs.length ≤ n) (hn : n ≤ d.length) :
    (patch d q bs).take n = patch (d.take n) q bs := by
  have e : d = d.take n ++ d.drop n := (List.take_append_drop n d).symm
  conv => lhs; rw [e]
  rw [patch_append_right (by simp; omega)]
  rw [List.take_append_of_le_length (by rw [patch_length (by simp; omega)]; simp; omega),
    List.take_of_length_le (by rw [patch_length (by simp; omega)]; simp; omega)]

/-- Overwriting part of the uncompressed start of a compressed file commutes with decompression. -/
theorem decompress_patched {data c bs : Bytes} {q : Nat} (h : CodeCompression.compress data true = .ok c)
    (hlt : c.length < data.length) (h24 : c.length < 2 ^ 24) (hq : q + bs.length ≤ 0x4000) :
    CodeCompression.decompress (patch c q bs) = .ok (patch data q bs) := by
  have hlen := compress_shorter_length h hlt
  obtain ⟨r, hr, rfl⟩ := compress_inv h
  have hpl : (data.take 0x4000).length = 0x4000 := by simp; omega
  rw [patch_append_right (by omega)]
  have hpp : (patch (data.take 0x4000) q bs).length = 0x4000 := by rw [patch_length (by omega), hpl]
  have hdl : data.length = 0x4000 + (data.drop 0x4000).length := by simp; omega
  rw [List.length_append] at hlt h24
  obtain ⟨lit, S, x, rfl, h1, h2, h3, h4⟩ :=
    Proofs.CodeCompression.compressInner_ok hr (by omega) (by omega)
  have hl := Proofs.CodeCompression.compFile_length lit S x
  have hlit : lit.length ≤ (data.drop 0x4000).length := by
    have := congrArg List.length h2; simp at this; simp; omega
  have := Proofs.CodeCompression.decompress_compFile (P := patch (data.take 0x4000) q bs) (lit := lit) (S := S)
    (out := (data.drop 0x4000).drop lit.length) (x := x) h1 (by omega) h4 (by omega)
    (by rw [List.length_drop]; omega)
  rw [this]
  congr 1
  conv => rhs; rw [← List.take_append_drop 0x4000 data, patch_append_right (by omega)]
  rw [List.append_assoc]
  congr 1
  conv => lhs; arg 1; rw [← h2]
  rw [List.take_append_drop]

/-- Compressing data changed within the part that is not compressed. -/
theorem compress_patched {data c bs : Bytes} {q : Nat} (h : CodeCompression.compress data true = .ok c)
    (hlen : 0x4000 ≤ data.length) (hq : q + bs.length ≤ 0x4000) :
    CodeCompression.compress (patch data q bs) true = .ok (patch c q bs) := by
  obtain ⟨r, hr, rfl⟩ := compress_inv h
  unfold CodeCompression.compress
  simp only [if_true]
  rw [drop_patch hq hlen, hr, bind_ok, take_patch hq hlen, patch_append_right (by simp; omega)]
  rfl

/-! ## Putting it together -/

/-- The loaded file, given the decompressed bytes. -/
def loaded (f : MainCodeFile) (s0 : Section) (rest : List Section) (cso : Nat) (b : Bytes) : MainCodeFile :=
  ⟨⟨b.take s0.data.length, f.ramAddress, 0, true⟩ :: tableOrder rest, f.ramAddress, some (cso : Int)⟩

theorem loaded_shape {f : MainCodeFile} {s0 : Section} {rest : List Section} {cso : Nat}
    (h : Shape f s0 rest cso) {b : Bytes} (hb : s0.data.length ≤ b.length) :
    Shape (loaded f s0 rest cso b) ⟨b.take s0.data.length, f.ramAddress, 0, true⟩ (tableOrder rest) cso := by
  have hl : (b.take s0.data.length).length = s0.data.length := by simp; omega
  refine ⟨rfl, rfl, rfl, fun s hs => (mem_tableOrder hs).2, ?_, ?_⟩
  · intro s hs
    rcases List.mem_cons.1 hs with rfl | hs
    · dsimp only
      rw [hl]; exact h.aligned s0 (by rw [h.sections]; simp)
    · exact h.aligned s (by rw [h.sections]; exact List.mem_cons_of_mem _ (mem_tableOrder hs).1)
  · dsimp only
    rw [hl]; exact h.inside

/-- The bytes of a loaded file are those it was loaded from. -/
theorem loaded_bytes {f : MainCodeFile} {s0 : Section} {rest : List Section} {cso w4 : Nat}
    (h : Shape f s0 rest cso) {b : Bytes}
    (hb : b = settled (body s0 rest ++ table rest) cso (f.ramAddress + (body s0 rest).length)
      (f.ramAddress + (body s0 rest).length + (table rest).length) (f.ramAddress + s0.data.length) w4) :
    b.take s0.data.length = settled s0.data cso (f.ramAddress + (body s0 rest).length)
      (f.ramAddress + (body s0 rest).length + (table rest).length) (f.ramAddress + s0.data.length) w4 ∧
    (body ⟨b.take s0.data.length, f.ramAddress, 0, true⟩ (tableOrder rest)).length = (body s0 rest).length ∧
    table (tableOrder rest) = table rest ∧
    body ⟨b.take s0.data.length, f.ramAddress, 0, true⟩ (tableOrder rest) ++ table (tableOrder rest) = b ∧
    s0.data.length ≤ b.length := by
  have hin := h.inside
  have hb2 : b = settled s0.data cso (f.ramAddress + (body s0 rest).length)
      (f.ramAddress + (body s0 rest).length + (table rest).length) (f.ramAddress + s0.data.length) w4 ++
      (rest.map Section.data).flatten ++ table rest := by
    rw [hb]
    conv => lhs; unfold body
    rw [settled_append _ _ _ _ (by rw [List.length_append]; omega), settled_append _ _ _ _ hin]
    rfl
  have hsl := settled_length (f.ramAddress + (body s0 rest).length)
    (f.ramAddress + (body s0 rest).length + (table rest).length) (f.ramAddress + s0.data.length) w4 hin
  have e1 : b.take s0.data.length = settled s0.data cso (f.ramAddress + (body s0 rest).length)
      (f.ramAddress + (body s0 rest).length + (table rest).length) (f.ramAddress + s0.data.length) w4 := by
    rw [hb2, List.append_assoc, List.take_append_of_le_length (by omega), List.take_of_length_le (by omega)]
  have e2 : table (tableOrder rest) = table rest := by unfold table; rw [tableOrder_idem]
  refine ⟨e1, ?_, e2, ?_, ?_⟩
  · unfold body
    rw [List.length_append, List.length_append, tableOrder_data h.others]
    dsimp only
    rw [e1, hsl]
  · rw [e2]
    conv => rhs; rw [hb2]
    unfold body
    dsimp only
    rw [tableOrder_data h.others, e1]
    rfl
  · have := congrArg List.length hb2
    rw [List.length_append, List.length_append, hsl] at this
    omega

/-- The loaded file writes the same settings. -/
theorem loaded_settled {f : MainCodeFile} {s0 : Section} {rest : List Section} {cso w4 : Nat}
    (h : Shape f s0 rest cso) {b : Bytes}
    (hb : b = settled (body s0 rest ++ table rest) cso (f.ramAddress + (body s0 rest).length)
      (f.ramAddress + (body s0 rest).length + (table rest).length) (f.ramAddress + s0.data.length) w4)
    (hs : Saves f s0 rest) :
    Saves (loaded f s0 rest cso b) ⟨b.take s0.data.length, f.ramAddress, 0, true⟩ (tableOrder rest) ∧
    settled3 (body ⟨b.take s0.data.length, f.ramAddress, 0, true⟩ (tableOrder rest) ++ table (tableOrder rest)) cso
      (f.ramAddress + (body ⟨b.take s0.data.length, f.ramAddress, 0, true⟩ (tableOrder rest)).length)
      (f.ramAddress + (body ⟨b.take s0.data.length, f.ramAddress, 0, true⟩ (tableOrder rest)).length +
        (table (tableOrder rest)).length)
      (f.ramAddress + (b.take s0.data.length).length) = b := by
  obtain ⟨e1, e2, e3, e4, e5⟩ := loaded_bytes h hb
  have hin := h.inside
  have hle := body_le s0 rest
  obtain ⟨a1, -⟩ := settled_at (d := body s0 rest ++ table rest) (cso := cso)
    (f.ramAddress + (body s0 rest).length)
    (f.ramAddress + (body s0 rest).length + (table rest).length) (f.ramAddress + s0.data.length) w4
    (by rw [List.length_append]; omega)
  rw [← hb] at a1
  refine ⟨⟨?_, ?_⟩, ?_⟩
  · rw [tableOrder_idem]; exact hs.fits
  · rw [e2, e3]; exact hs.tableEnd
  · rw [e4, e2, e3, show (b.take s0.data.length).length = s0.data.length by simp; omega]
    obtain ⟨a12, a3⟩ := At.split.1 a1
    obtain ⟨a1, a2⟩ := At.split.1 a12
    rw [List.length_append, enBytes_length, enBytes_length] at a3
    rw [enBytes_length] at a2
    unfold settled3
    rw [patch_same a1, patch_same a2, patch_same a3]

/-! ## Finding the settings -/

theorem find_by_pointer {b : Bytes} {ram q cso : Nat} (hat : At b q (enBytes .little 4 (ram + cso)))
    (h32 : ram + cso < 2 ^ 32) (hc : cso + 4 < b.length) :
    findSettings b ram (some (ram + q + 4)) = .ok (some (cso : Int)) := by
  unfold findSettings settingsByPointer
  have e : ((ram + q + 4 : Nat) : Int) - ram - 4 = (q : Nat) := by omega
  have hu : unpackI b ((ram + q + 4 : Nat) - ram - 4 : Int) = .ok (ram + cso) := by
    rw [e]
    unfold unpackI structOffset
    rw [if_pos (by omega), bind_ok, Int.toNat_natCast, hat.unpackU h32]
  have ho : ((ram + cso : Nat) : Int) - ram = (cso : Nat) := by omega
  simp only [hu, ho]
  rw [if_neg (by omega), if_pos (by omega)]

theorem find_by_magic {b : Bytes} {ram cso : Nat} (hat : At b (cso + 0x1C) settingsMagic) (h4 : cso % 4 = 0)
    (hlt : cso + 0x1C < 0x8000)
    (hfirst : ∀ i, 4 * i < cso + 0x1C → slice b (4 * i) (4 * i + 8) ≠ settingsMagic) :
    findSettings b ram none = .ok (some (cso : Int)) := by
  have hf : (List.range 0x2000).find? (fun i => decide (slice b (4 * i) (4 * i + 8) = settingsMagic)) =
      some ((cso + 0x1C) / 4) := by
    have e4 : 4 * ((cso + 0x1C) / 4) = cso + 0x1C := by omega
    have hlt' : (cso + 0x1C) / 4 < 0x2000 := by omega
    generalize (cso + 0x1C) / 4 = k at *
    rw [List.find?_range_eq_some]
    refine ⟨?_, List.mem_range.2 hlt', ?_⟩
    · rw [e4]
      exact decide_eq_true (hat.slice_eq rfl)
    · intro j hj
      have := hfirst j (by omega)
      simp [this]
  have hs : searchForCodeSettingsOffs ram b = .ok (some (4 * (((cso + 0x1C) / 4 : Nat) : Int) - 0x1C)) := by
    unfold searchForCodeSettingsOffs
    rw [hf]
  have ho : 4 * (((cso + 0x1C) / 4 : Nat) : Int) - 0x1C = (cso : Nat) := by omega
  rw [ho] at hs
  unfold findSettings
  rw [hs]
  rfl

end Verif.Proofs.MainCode
