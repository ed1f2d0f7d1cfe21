import Verif.Props.Nested
import Verif.Spec.NestedOrder

/-!
# C163: replacing files in different places of nested archives
-/

namespace Verif.Props.NestedOrder

open Verif Verif.Model Verif.Spec.NestedOrder
open Verif.Spec.Nested (Layer Apart Denotes write)
open Verif.Props.Nested

/-- Replacing a file behind a NARC. -/
theorem narc_layer {limit : Nat} {u : Bool} {name : Str} {rest : List Layer} {d d' new : Bytes} {n : Narc.NARC}
    (hl : Narc.load limit d = .ok n) (h : write limit u (.narc name :: rest) d new = .ok d') :
    ∃ k f g, Denotes n.filenames n.files.length name k ∧ n.files[k]? = some f ∧ write limit u rest f new = .ok g ∧
      Narc.save { n with files := n.files.set k g } = .ok d' ∧ Narc.load limit d' = .ok { n with files := n.files.set k g } := by
  simp only [write, bind_eq_ok] at h
  obtain ⟨n0, h1, f, h2, g, h3, n', h4, h5⟩ := h
  rw [hl] at h1
  cases h1
  rw [narc_get, getIn_eq_ok] at h2
  obtain ⟨k, h2, hf⟩ := h2
  obtain ⟨h6, h7, k', hc⟩ := narc_write hl h4 h5
  have := denotes_unique h2 hc.denotes
  subst this
  obtain ⟨files, h8, rfl⟩ := narc_set h4
  have e := hc.files
  dsimp only at e
  subst e
  exact ⟨k, f, g, h2, hf, h3, h5, h6⟩

/-- Replacing a file behind a ROM. -/
theorem rom_layer {limit : Nat} (h0 : 0 < limit) {u : Bool} {name : Str} {rest : List Layer} {d d' new : Bytes} {r : Rom.Rom}
    (hl : Rom.load limit d = .ok r) (h : write limit u (.rom name :: rest) d new = .ok d') :
    ∃ k f g q, Denotes r.filenames r.files.length name k ∧ r.files[k]? = some f ∧ write limit u rest f new = .ok g ∧
      Rom.load limit d' = .ok q ∧ q.filenames = r.filenames ∧ q.files = r.files.set k g := by
  simp only [write, bind_eq_ok, pure_eq_ok] at h
  obtain ⟨r0, h1, f, h2, g, h3, r', h4, ⟨d1, r2⟩, h5, h6⟩ := h
  rw [hl] at h1
  cases h1
  cases h6
  rw [rom_get, getIn_eq_ok] at h2
  obtain ⟨k, h2, hf⟩ := h2
  obtain ⟨q, h7, h8, k', hc⟩ := rom_write h0 hl h4 h5
  have := denotes_unique h2 hc.denotes
  subst this
  exact ⟨k, f, g, q, h2, hf, h3, h7, h8, hc.files⟩

/-- **C163.** Files in different places of nested archives and compressed files can be replaced in any order: the bytes are
the same in the end. -/
theorem order_bytes {limit : Nat} {u : Bool} {p p' : List Layer} {d : Bytes} (ha : Apart limit p p' d) :
    ∀ {a b d1 d2 e1 e2 : Bytes}, Plain p → write limit u p d a = .ok d1 → write limit u p' d1 b = .ok d2 →
      write limit u p' d b = .ok e1 → write limit u p e1 a = .ok e2 → d2 = e2 := by
  induction ha with
  | narc hl hd hd' =>
    intro a b d1 d2 e1 e2 hp h1 h2 h3 h4
    obtain ⟨k, f, g, hk, hf, hw, hs, hr⟩ := narc_layer hl h1
    obtain ⟨l, f', g', hl', hf', hw', hs', hr'⟩ := narc_layer hr h2
    obtain ⟨l2, f2, g2, hl2, hf2, hw2, hs2, hr2⟩ := narc_layer hl h3
    obtain ⟨k2, f3, g3, hk2, hf3, hw3, hs3, hr3⟩ := narc_layer hr2 h4
    have e := denotes_unique hk hd
    subst e
    dsimp only at hl' hf' hs' hk2 hf3 hs3
    rw [List.length_set] at hl' hk2
    have e := denotes_unique hk hk2
    subst e
    have e := denotes_unique hl' hl2
    subst e
    have hne : k ≠ l := by
      rintro rfl
      exact hd' hl'
    rw [List.getElem?_set_ne hne] at hf'
    rw [List.getElem?_set_ne (Ne.symm hne)] at hf3
    rw [hf2] at hf'
    cases hf'
    rw [hf] at hf3
    cases hf3
    rw [hw2] at hw'
    cases hw'
    rw [hw] at hw3
    cases hw3
    rw [List.set_comm _ _ hne] at hs'
    rw [hs3] at hs'
    cases hs'
    rfl
  | inNarc hl hd hd' hf0 _ ih =>
    intro a b d1 d2 e1 e2 hp h1 h2 h3 h4
    obtain ⟨k, f, g, hk, hf, hw, hs, hr⟩ := narc_layer hl h1
    obtain ⟨l, f', g', hl', hf', hw', hs', hr'⟩ := narc_layer hr h2
    obtain ⟨l2, f2, g2, hl2, hf2, hw2, hs2, hr2⟩ := narc_layer hl h3
    obtain ⟨k2, f3, g3, hk2, hf3, hw3, hs3, hr3⟩ := narc_layer hr2 h4
    have e := denotes_unique hk hd
    subst e
    dsimp only at hl' hf' hs' hk2 hf3 hs3
    rw [List.length_set] at hl' hk2
    have e := denotes_unique hk hk2
    subst e
    have e := denotes_unique hl' hl2
    subst e
    have e := denotes_unique hd' hl2
    subst e
    have hlt := (List.getElem?_eq_some_iff.1 hf).1
    rw [List.getElem?_set_self hlt] at hf' hf3
    cases hf'
    cases hf3
    rw [hf] at hf0 hf2
    cases hf0
    cases hf2
    rw [List.set_set] at hs' hs3
    rw [ih (fun name hm => hp name (List.mem_cons_of_mem _ hm)) hw hw' hw2 hw3] at hs'
    rw [hs3] at hs'
    cases hs'
    rfl
  | rom _ _ _ => intro a b d1 d2 e1 e2 hp; exact absurd List.mem_cons_self (hp _)
  | inRom _ _ _ _ _ _ => intro a b d1 d2 e1 e2 hp; exact absurd List.mem_cons_self (hp _)
  | lz10 hd _ ih =>
    intro a b d1 d2 e1 e2 hp h1 h2 h3 h4
    simp only [write, bind_eq_ok] at h1 h2 h3 h4
    obtain ⟨f, hf, g, hg, hc⟩ := h1
    obtain ⟨f2, hf2, g2, hg2, hc2⟩ := h2
    obtain ⟨f3, hf3, g3, hg3, hc3⟩ := h3
    obtain ⟨f4, hf4, g4, hg4, hc4⟩ := h4
    rw [hd] at hf hf3
    cases hf
    cases hf3
    rw [lz10_write hc] at hf2
    cases hf2
    rw [lz10_write hc3] at hf4
    cases hf4
    rw [ih (fun name hm => hp name (List.mem_cons_of_mem _ hm)) hg hg2 hg3 hg4] at hc2
    rw [hc4] at hc2
    cases hc2
    rfl

/-- **C163.** The same for files in a ROM: the images hold the same files under the same names. -/
theorem order_rom {limit : Nat} (h0 : 0 < limit) {u : Bool} {name name' : Str} {p p' : List Layer} {d : Bytes}
    (ha : Apart limit (.rom name :: p) (.rom name' :: p') d) {a b d1 d2 e1 e2 : Bytes} (hp : Plain p)
    (h1 : write limit u (.rom name :: p) d a = .ok d1) (h2 : write limit u (.rom name' :: p') d1 b = .ok d2)
    (h3 : write limit u (.rom name' :: p') d b = .ok e1) (h4 : write limit u (.rom name :: p) e1 a = .ok e2) :
    SameFiles limit d2 e2 := by
  obtain ⟨r, hl⟩ : ∃ r, Rom.load limit d = .ok r := by cases ha <;> exact ⟨_, by assumption⟩
  obtain ⟨k, f, g, q, hk, hf, hw, hr, hn, hq⟩ := rom_layer h0 hl h1
  obtain ⟨l, f', g', q', hl', hf', hw', hr', hn', hq'⟩ := rom_layer h0 hr h2
  obtain ⟨l2, f2, g2, q2, hl2, hf2, hw2, hr2, hn2, hq2⟩ := rom_layer h0 hl h3
  obtain ⟨k2, f3, g3, q3, hk2, hf3, hw3, hr3, hn3, hq3⟩ := rom_layer h0 hr2 h4
  refine ⟨q', q3, hr', hr3, by rw [hn', hn, hn3, hn2], ?_⟩
  rw [hn, hq, List.length_set] at hl'
  rw [hn2, hq2, List.length_set] at hk2
  rw [hq] at hf' hq'
  rw [hq2] at hf3 hq3
  have e := denotes_unique hk hk2
  subst e
  have e := denotes_unique hl' hl2
  subst e
  have hlt := (List.getElem?_eq_some_iff.1 hf).1
  cases ha with
  | rom hl0 hd hd' =>
    rw [hl] at hl0
    cases hl0
    have e := denotes_unique hk hd
    subst e
    have hne : k ≠ l := by
      rintro rfl
      exact hd' hl'
    rw [List.getElem?_set_ne hne, hf2] at hf'
    cases hf'
    rw [List.getElem?_set_ne (Ne.symm hne), hf] at hf3
    cases hf3
    rw [hw2] at hw'
    cases hw'
    rw [hw] at hw3
    cases hw3
    rw [hq', hq3, List.set_comm _ _ hne]
  | inRom hl0 hd hd' hf0 hap =>
    rw [hl] at hl0
    cases hl0
    have e := denotes_unique hk hd
    subst e
    have e := denotes_unique hd' hl2
    subst e
    rw [List.getElem?_set_self hlt] at hf' hf3
    cases hf'
    cases hf3
    rw [hf] at hf0 hf2
    cases hf0
    cases hf2
    rw [hq', hq3, List.set_set, List.set_set, order_bytes hap hp hw hw' hw2 hw3]

/-! ## Examples -/

/-- The two files of the compressed archive in an archive, in both orders. -/
example : (do
    let d ← packed
    let d1 ← write 1 false [.narc [98], .lz10, .narc [97]] d [9]
    let d2 ← write 1 false [.narc [98], .lz10, .narc [98]] d1 [8, 8]
    let e1 ← write 1 false [.narc [98], .lz10, .narc [98]] d [8, 8]
    let e2 ← write 1 false [.narc [98], .lz10, .narc [97]] e1 [9]
    return (decide (d2 = e2), decide (d1 = e1))) = .ok (true, false) := by decide +kernel

example : Plain [.narc [98], .lz10, .narc [97]] := by intro name h; simp at h

/-- The two files of the saved sample ROM; here they are replaced by themselves, so that all four images are the same. -/
example : ∃ d, Apart 1 [.rom [97]] [.rom [98]] d ∧ Plain [] ∧ write 1 false [.rom [97]] d [10, 11] = .ok d ∧
    write 1 false [.rom [98]] d [12] = .ok d := by
  obtain ⟨b, q, h, hq, -, -, -, -, hs⟩ := Props.Rom.sample_resaves
  have hd : Spec.Fnt.depth Props.Rom.sample.filenames ≤ 1 := by rw [Props.Rom.sample_names.2]; decide
  obtain ⟨q', hq', hf, hn, -⟩ := Props.RomCode.reload _ _ _ _ h 1 Props.Rom.sample_names.1 hd
  rw [hq] at hq'
  cases hq'
  have idA : Fnt.idOf Props.Rom.sample.filenames [97] = .ok (some 0) := by decide +kernel
  have idB : Fnt.idOf Props.Rom.sample.filenames [98] = .ok (some 1) := by decide +kernel
  have dA : Denotes q.filenames q.files.length [97] 0 := ⟨0, hn ▸ idA, by rw [hf]; rfl⟩
  have dB : Denotes q.filenames q.files.length [98] 1 := ⟨1, hn ▸ idB, by rw [hf]; rfl⟩
  have set_self : ∀ name i f, Fnt.idOf Props.Rom.sample.filenames name = .ok (some i) →
      pySetI Props.Rom.sample.files i f = .ok Props.Rom.sample.files →
      Rom.getFileByName q name = .ok f → write 1 false [.rom name] b f = .ok b := by
    intro name i f hi hset hget
    simp only [write, bind_eq_ok, pure_eq_ok]
    refine ⟨q, hq, f, hget, f, rfl, q, ?_, (b, q), hs, rfl⟩
    unfold Rom.setFileByName
    rw [hn, hi, bind_ok]
    dsimp only
    rw [hf, hset, bind_ok, ← hf, ← hn]
    rfl
  refine ⟨b, .rom hq dA (fun h => absurd (denotes_unique dB h) (by decide)), fun _ h => (nomatch h), ?_, ?_⟩
  · exact set_self _ _ _ idA rfl (by rw [rom_get, getIn_eq_ok]; exact ⟨0, dA, by rw [hf]; rfl⟩)
  · exact set_self _ _ _ idB rfl (by rw [rom_get, getIn_eq_ok]; exact ⟨1, dB, by rw [hf]; rfl⟩)

end Verif.Props.NestedOrder
