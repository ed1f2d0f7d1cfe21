import Verif.Proofs.MusicMinify
import Verif.Proofs.SoundBankResave
import Verif.Proofs.SoundArchiveUses

/-! # Lemmas about minifying twice -/

namespace Verif.Proofs.MinifyTwice

open Verif Verif.Model.SoundSequence Verif.Model.SoundBank Verif.Model.Music Verif.Spec.Music Verif.Proofs.MusicMinify
open Verif.Proofs.SoundBank (eq_of_sorted)

theorem mapE_range_idx {α : Type} (l : List α) : mapE (fun n => pyIdx l n) (List.range l.length) = .ok l := by
  obtain ⟨r, hr⟩ := mapE_exists (f := fun n => pyIdx l n) (as := List.range l.length) (fun n hn =>
    ⟨l[n]'(List.mem_range.1 hn), pyIdx_eq_ok.2 (List.getElem?_eq_getElem _)⟩)
  rw [hr]
  have hl := mapE_length hr
  rw [List.length_range] at hl
  congr 1
  refine List.ext_getElem hl fun i h1 h2 => ?_
  have := mapE_getElem hr i (by simpa using h2) h1
  rw [List.getElem_range, pyIdx_eq_ok, List.getElem?_eq_getElem h2, Option.some.injEq] at this
  exact this.symm

theorem switched_renumbered (us : List Nat) (e : Ev) : switchedTo (renumbered us e) = (switchedTo e).map us.idxOf := by
  cases e <;> rfl

/-- The instruments used afterwards are all that are left. -/
theorem usedInsts_again (events : List Obj) :
    usedInsts (events.map fun o => (o.1, renumbered (usedInsts events) o.2)) = List.range (usedInsts events).length := by
  obtain ⟨hn, _, hm⟩ := usedInsts_spec events
  obtain ⟨_, hs', hm'⟩ := usedInsts_spec (events.map fun o => (o.1, renumbered (usedInsts events) o.2))
  refine eq_of_sorted (key := id) hs' List.pairwise_lt_range fun n => ?_
  rw [hm', List.mem_range, List.map_map]
  constructor
  · intro h
    obtain ⟨e, he, h⟩ := List.mem_filterMap.1 h
    obtain ⟨o, ho, rfl⟩ := List.mem_map.1 he
    simp only [Function.comp, switched_renumbered, Option.map_eq_some_iff] at h
    obtain ⟨i, hi, rfl⟩ := h
    exact List.idxOf_lt_length_iff.2 ((hm i).2 (List.mem_filterMap.2 ⟨o.2, List.mem_map_of_mem ho, hi⟩))
  · intro h
    obtain ⟨e, he, hx⟩ := List.mem_filterMap.1 ((hm _).1 (List.getElem_mem h))
    obtain ⟨o, ho, rfl⟩ := List.mem_map.1 he
    refine List.mem_filterMap.2 ⟨_, List.mem_map_of_mem ho, ?_⟩
    simp only [Function.comp, switched_renumbered, hx, Option.map_some, Option.some.injEq]
    exact SoundArchive.idxOf_getElem_nodup hn h

theorem renumber_again {us : List Nat} {o : Obj} (h : ∀ n, switchedTo o.2 = some n → n ∈ us) :
    renumber (List.range us.length) (o.1, renumbered us o.2) = .ok (o.1, renumbered us o.2) := by
  obtain ⟨id, e⟩ := o
  cases e with
  | instrumentSwitch b i =>
    have hi := List.idxOf_lt_length_iff.2 (h i rfl)
    have : (List.range us.length).idxOf (us.idxOf i) = us.idxOf i := by
      have := SoundArchive.idxOf_getElem_nodup (l := List.range us.length) List.nodup_range (i := us.idxOf i) (by simpa using hi)
      rwa [List.getElem_range] at this
    simp only [renumber, renumbered, pyIndex, if_pos (List.mem_range.2 hi), bind_ok, this]
    rfl
  | _ => rfl

/-- The waves in one archive, numbered from 0 on. -/
def numbered (k n : Nat) : List (Nat × Nat) := (List.range n).map fun i => (k, i)

theorem mem_numbered {k n : Nat} {x : Nat × Nat} : x ∈ numbered k n ↔ x.1 = k ∧ x.2 < n := by
  unfold numbered
  rw [List.mem_map]
  constructor
  · rintro ⟨i, hi, rfl⟩
    exact ⟨rfl, List.mem_range.1 hi⟩
  · rintro ⟨rfl, h⟩
    exact ⟨x.2, List.mem_range.2 h, rfl⟩

theorem idxOf_numbered {k n i : Nat} (h : i < n) : (numbered k n).idxOf (k, i) = i := by
  have hn : (numbered k n).Nodup := by
    unfold numbered List.Nodup
    rw [List.pairwise_map]
    exact List.nodup_range.imp fun {a b} h e => h (Prod.mk.inj e).2
  have hl : i < (numbered k n).length := by simpa [numbered] using h
  have := SoundArchive.idxOf_getElem_nodup hn hl
  rwa [show (numbered k n)[i] = (k, i) by simp [numbered]] at this

theorem remap_numbered {k n : Nat} {d : Note} (h : d.waveArchiveIDID = k) : remap (numbered k n) d = d := by
  unfold remap waveKey
  split
  · rename_i hm
    have hlt : d.waveID < n := (mem_numbered.1 hm).2
    rw [h, idxOf_numbered hlt, ← h]
  · rfl

theorem waveKey_remap {us : List (Nat × Nat)} {k : Nat} (hk : ∀ x ∈ us, x.1 = k) {d : Note} (h : waveKey d ∈ us) :
    waveKey (remap us d) ∈ numbered k us.length := by
  unfold remap
  rw [if_pos h, mem_numbered]
  exact ⟨show (waveKey d).1 = k from hk _ h, List.idxOf_lt_length_iff.2 h⟩

theorem remap_archive (us : List (Nat × Nat)) (d : Note) : (remap us d).waveArchiveIDID = d.waveArchiveIDID := by
  unfold remap
  split <;> rfl

theorem lastTo127_mem : ∀ {l : List (Nat × Note)} {r : Nat × Note}, r ∈ lastTo127 l → ∃ r' ∈ l, r'.2 = r.2
  | [r], _, h => ⟨r, List.mem_cons_self .., by cases List.mem_singleton.1 h; rfl⟩
  | a :: b :: l, r, h => by
    rcases List.mem_cons.1 h with rfl | h
    · exact ⟨_, List.mem_cons_self .., rfl⟩
    · obtain ⟨r', h1, h2⟩ := lastTo127_mem h
      exact ⟨r', List.mem_cons_of_mem _ h1, h2⟩

theorem lastTo127_twice : ∀ (l : List (Nat × Note)), lastTo127 (lastTo127 l) = lastTo127 l
  | [] => rfl
  | [_] => rfl
  | [_, _] => rfl
  | a :: b :: c :: l => by
    have := lastTo127_twice (b :: c :: l)
    simp only [lastTo127] at this ⊢
    rw [this]

/-- An instrument that was rewritten stays as it is. -/
theorem minifyKind_again {us : List (Nat × Nat)} {k : Nat} (hk : ∀ x ∈ us, x.1 = k) {a b : Kind}
    (ha : ∀ d ∈ definitions a, d.waveArchiveIDID = k) (h : minifyKind us a = .ok b) :
    minifyKind (numbered k us.length) b = .ok b := by
  cases a with
  | single d =>
    obtain ⟨n, hn, h⟩ := bind_eq_ok.1 h
    cases h
    unfold pyIndex at hn
    split at hn
    · rename_i hm
      cases hn
      have hd : d.waveArchiveIDID = k := ha d (List.mem_cons_self ..)
      have hlt := List.idxOf_lt_length_iff.2 hm
      have hm' : waveKey { d with waveID := us.idxOf (waveKey d) } ∈ numbered k us.length := mem_numbered.2 ⟨hd, hlt⟩
      have hi : (numbered k us.length).idxOf (waveKey { d with waveID := us.idxOf (waveKey d) }) = us.idxOf (waveKey d) := by
        have := idxOf_numbered (k := k) hlt
        rwa [← hd] at this ⊢
      simp only [minifyKind, pyIndex]
      rw [if_pos hm', bind_ok, hi]
      rfl
    · cases hn
  | range first ds =>
    cases ds with
    | nil => exact nomatch h
    | cons dummy ds =>
      simp only [minifyKind, Except.ok.injEq] at h
      subst h
      rw [List.map_cons]
      simp only [minifyKind, Except.ok.injEq, Kind.range.injEq, true_and]
      rw [← List.map_cons (f := fun d => if waveKey d ∈ us then remap us d else remap us dummy), List.map_map]
      refine List.map_congr_left fun d hd => ?_
      have hda := ha d hd
      have hdu := ha dummy (List.mem_cons_self ..)
      have hx : (if waveKey dummy ∈ us then remap us dummy else remap us dummy) = remap us dummy := by split <;> rfl
      simp only [Function.comp]
      rw [hx, remap_numbered (d := remap us dummy) (by rw [remap_archive]; exact hdu)]
      by_cases hm : waveKey d ∈ us
      · rw [if_pos hm, if_pos (waveKey_remap hk hm), remap_numbered (d := remap us d) (by rw [remap_archive]; exact hda)]
      · rw [if_neg hm, remap_numbered (d := remap us dummy) (by rw [remap_archive]; exact hdu)]
        split <;> rfl
  | regional rs =>
    simp only [minifyKind, Except.ok.injEq] at h
    subst h
    simp only [minifyKind, Except.ok.injEq, Kind.regional.injEq]
    have hall : ∀ r ∈ lastTo127 ((rs.filter fun r => waveKey r.2 ∈ us).map fun r => (r.1, remap us r.2)),
        waveKey r.2 ∈ numbered k us.length ∧ r.2.waveArchiveIDID = k := by
      intro r hr
      obtain ⟨r', hr', h2⟩ := lastTo127_mem hr
      obtain ⟨r0, hr0, rfl⟩ := List.mem_map.1 hr'
      obtain ⟨h3, h4⟩ := List.mem_filter.1 hr0
      rw [← h2]
      exact ⟨waveKey_remap hk (of_decide_eq_true h4), by
        rw [remap_archive]; exact ha _ (List.mem_map_of_mem (f := Prod.snd) h3)⟩
    rw [List.filter_eq_self.2 (fun r hr => decide_eq_true (hall r hr).1), List.map_congr_left (g := id) (fun r hr => by
      rw [remap_numbered (hall r hr).2]; rfl), List.map_id, lastTo127_twice]

/-- The definition for a pitch afterwards has a number among those used. -/
theorem definitionFor_new {us : List (Nat × Nat)} {k : Nat} (hk : ∀ x ∈ us, x.1 = k) {a b : Kind} {p : Int} {d' : Note}
    (h : minifyKind us a = .ok b) (hd : definitionFor b p = some d')
    (hp : ∀ d, definitionFor a p = some d → waveKey d ∈ us) : waveKey d' ∈ numbered k us.length := by
  cases a with
  | single d =>
    obtain ⟨n, hn, h⟩ := bind_eq_ok.1 h
    cases h
    cases hd
    have hm := hp d rfl
    simp only [pyIndex, if_pos hm, Except.ok.injEq] at hn
    have := waveKey_remap hk hm
    simp only [remap, if_pos hm] at this
    rwa [hn] at this
  | range first ds =>
    cases ds with
    | nil => exact nomatch h
    | cons dummy ds =>
      simp only [minifyKind, Except.ok.injEq] at h
      subst h
      simp only [definitionFor] at hd hp
      split at hd
      · rename_i hf
        rw [List.getElem?_map, Option.map_eq_some_iff] at hd
        obtain ⟨d, hd, rfl⟩ := hd
        have hm := hp d (by rw [if_pos hf]; exact hd)
        rw [if_pos hm]
        exact waveKey_remap hk hm
      · cases hd
  | regional rs =>
    simp only [minifyKind, Except.ok.injEq] at h
    subst h
    simp only [definitionFor, Option.map_eq_some_iff] at hd
    obtain ⟨r, hr, rfl⟩ := hd
    obtain ⟨r', hr', h2⟩ := lastTo127_mem (List.mem_of_find?_eq_some hr)
    obtain ⟨r0, hr0, rfl⟩ := List.mem_map.1 hr'
    rw [← h2]
    exact waveKey_remap hk (of_decide_eq_true (List.mem_filter.1 hr0).2)

end Verif.Proofs.MinifyTwice
