import Verif.Proofs.MinifyTwice
import Verif.Props.MusicMinify
import Verif.Props.MusicPlay

/-! # C144: minifying twice -/

namespace Verif.Props.MinifyTwice

open Verif Verif.Model.SoundSequence Verif.Model.SoundBank Verif.Model.Music Verif.Spec.Music Verif.Proofs.MusicMinify
open Verif.Proofs.MinifyTwice Verif.Props.MusicMinify
open Verif.Proofs.SoundBank (eq_of_sorted)

/-- C144.  Minifying what has been minified changes nothing, if all definitions of the instruments switched to use one
wave archive and the notes are MIDI notes.  (Full statement: for any archives.  That is false: `minify_twice_archives`.)
After the first time the dummy definition of a range is one object in several places; as the numbers do not change any more,
this makes no difference. -/
theorem minify_twice_partial {W : Type} {events : List Obj} {insts : List (Option Inst)} {swars : List (List W)}
    {events' : List Obj} {insts' : List (Option Inst)} {swars' : List (List W)}
    (h : minify events insts (some swars) = .ok (events', insts', swars')) (k : Nat)
    (hdefs : ∀ n ∈ (events.map (·.2)).filterMap switchedTo, ∀ inst, insts[n]? = some (some inst) →
      ∀ d ∈ definitions inst.kind, d.waveArchiveIDID = k)
    (hpitch : ∀ e ∈ events.map (·.2), ∀ p, pitchOf e = some p → 0 ≤ p ∧ p ≤ 127) :
    minify events' insts' (some swars') = .ok (events', insts', swars') := by
  obtain ⟨newInsts, waves, h1, hw, rfl, h3, hlen, hnone, hsome⟩ := minify_inv h
  obtain ⟨hnd, _, hused⟩ := usedInsts_spec events
  have hl1 := mapE_length h1
  have hk : ∀ x ∈ waves, x.1 = k := by
    intro x hx
    rw [hw] at hx
    obtain ⟨n, hn, inst, hi, d, hd, rfl⟩ := usedWaves_sub h1 hx
    exact hdefs n ((hused n).1 hn) inst hi d hd
  -- the instruments
  have e1 : mapE (fun n => pyIdx insts' n) (List.range (usedInsts events).length) = .ok insts' := by
    rw [← hl1, ← hlen]
    exact mapE_range_idx insts'
  have e1' := e1
  rw [← usedInsts_again events] at e1'
  -- the events
  have e2 : mapE (renumber (List.range (usedInsts events).length))
      (events.map fun o => (o.1, renumbered (usedInsts events) o.2)) =
      .ok (events.map fun o => (o.1, renumbered (usedInsts events) o.2)) := by
    have := mapE_ok_of_forall (f := renumber (List.range (usedInsts events).length)) (g := id)
      (as := events.map fun o => (o.1, renumbered (usedInsts events) o.2)) (fun a ha => by
        obtain ⟨o, ho, rfl⟩ := List.mem_map.1 ha
        exact renumber_again fun n hn => (hused n).2 (List.mem_filterMap.2 ⟨o.2, List.mem_map_of_mem ho, hn⟩))
    rwa [List.map_id] at this
  have hpl : plays ((events.map (fun o => (o.1, renumbered (usedInsts events) o.2))).map (·.2)) =
      (plays (events.map (·.2))).map fun x => (x.1, (usedInsts events).idxOf x.2.1, x.2.2) := by
    have hev : (events.map (fun o => (o.1, renumbered (usedInsts events) o.2))).map (·.2) =
        (events.map (·.2)).map (renumbered (usedInsts events)) := by
      rw [List.map_map, List.map_map]; rfl
    rw [hev, plays_eq, plays_eq]
    exact playsFrom_renumbered (usedInsts events) (events.map (·.2)) none
  -- the instrument with a new number
  have back : ∀ n ∈ (events.map (·.2)).filterMap switchedTo, ∀ inst',
      insts'[(usedInsts events).idxOf n]? = some (some inst') →
      ∃ inst, insts[n]? = some (some inst) ∧ minifyKind waves inst.kind = .ok inst'.kind := by
    intro n hn inst' hi
    have hg := newInsts_get h1 ((hused n).2 hn)
    have hlt : (usedInsts events).idxOf n < newInsts.length := by
      rw [hl1]; exact List.idxOf_lt_length_iff.2 ((hused n).2 hn)
    cases hx : newInsts[(usedInsts events).idxOf n]? with
    | none => rw [List.getElem?_eq_none_iff] at hx; omega
    | some o =>
      cases o with
      | none => rw [hnone _ hx] at hi; cases hi
      | some inst =>
        obtain ⟨k', h5, h6⟩ := hsome _ _ hx
        rw [h6] at hi
        cases hi
        exact ⟨inst, by rw [← hg, hx], h5⟩
  -- the waves
  have e3 : usedWaves insts' ((usedInsts (events.map fun o => (o.1, renumbered (usedInsts events) o.2))).map fun n =>
      ((collect (events.map fun o => (o.1, renumbered (usedInsts events) o.2)) none []).lookup n).getD []) =
      numbered k waves.length := by
    have hin : ∀ x, x ∈ usedWaves insts' ((usedInsts (events.map fun o => (o.1, renumbered (usedInsts events) o.2))).map fun n =>
        ((collect (events.map fun o => (o.1, renumbered (usedInsts events) o.2)) none []).lookup n).getD []) ↔
        x ∈ numbered k waves.length := by
      intro x
      rw [usedWaves_iff e1']
      constructor
      · rintro ⟨n', hn', inst', hi', d', hd', rfl⟩
        rcases hd' with hd' | ⟨e, p, hp, h0, hd'⟩
        · rw [List.map_map] at hn'
          obtain ⟨e, he, hs⟩ := List.mem_filterMap.1 hn'
          obtain ⟨o, ho, rfl⟩ := List.mem_map.1 he
          simp only [Function.comp, switched_renumbered, Option.map_eq_some_iff] at hs
          obtain ⟨n, hs, rfl⟩ := hs
          have hn : n ∈ (events.map (·.2)).filterMap switchedTo := List.mem_filterMap.2 ⟨o.2, List.mem_map_of_mem ho, hs⟩
          obtain ⟨inst, hi, hm⟩ := back n hn inst' hi'
          refine definitionFor_new hk hm (p := 0) (by rw [hd']; rfl) fun d hd => ?_
          have hs : ∃ d0, inst.kind = .single d0 := by
            cases hkd : inst.kind with
            | single d0 => exact ⟨d0, rfl⟩
            | range first ds =>
              rw [hkd] at hm
              cases ds with
              | nil => cases hm
              | cons a l => rw [hd'] at hm; cases hm
            | regional rs => rw [hkd, hd'] at hm; cases hm
          obtain ⟨d0, hs⟩ := hs
          rw [hs] at hd
          cases hd
          rw [hw]
          exact (usedWaves_iff h1 _).2 ⟨n, hn, inst, hi, d, .inl hs, rfl⟩
        · rw [hpl] at hp
          obtain ⟨⟨e0, n, p0⟩, hq, he⟩ := List.mem_map.1 hp
          cases he
          have hq' := hq
          rw [plays_eq] at hq'
          obtain ⟨hn, he, hpp⟩ := mem_playsFrom hq'
          have hn := hn.resolve_right (fun h => nomatch h)
          obtain ⟨inst, hi, hm⟩ := back n hn inst' hi'
          refine definitionFor_new hk hm hd' fun d hd => ?_
          rw [hw]
          exact (usedWaves_iff h1 _).2 ⟨n, hn, inst, hi, d, .inr ⟨_, _, hq, h0, hd⟩, rfl⟩
      · intro hx
        obtain ⟨a, i⟩ := x
        obtain ⟨rfl, hlt⟩ : a = k ∧ i < waves.length := mem_numbered.1 hx
        have hy : waves[i] ∈ waves := List.getElem_mem hlt
        have hidx : waves.idxOf waves[i] = i :=
          Verif.Proofs.SoundArchive.idxOf_getElem_nodup (hw ▸ usedWaves_nodup _ _) hlt
        obtain ⟨y, hye⟩ : ∃ y, y = waves[i] := ⟨_, rfl⟩
        rw [← hye] at hy hidx
        have hy' := hy
        rw [hw, usedWaves_iff h1] at hy'
        obtain ⟨n, hn, inst, hi, d, hd, he⟩ := hy'
        have hkey : waveKey d ∈ waves := he ▸ hy
        have hg := newInsts_get h1 ((hused n).2 hn)
        rw [hi] at hg
        obtain ⟨k', hm, hi'⟩ := hsome _ _ hg
        have hda : d.waveArchiveIDID = a := hk _ hkey
        have hxe : ((a, i) : Nat × Nat) = waveKey (remap waves d) := by
          unfold remap
          rw [if_pos hkey, ← he, hidx, waveKey, hda]
        refine ⟨(usedInsts events).idxOf n, ?_, _, hi', remap waves d, ?_, hxe⟩
        · rw [List.map_map]
          obtain ⟨e, he, hs⟩ := List.mem_filterMap.1 hn
          obtain ⟨o, ho, rfl⟩ := List.mem_map.1 he
          refine List.mem_filterMap.2 ⟨_, List.mem_map_of_mem ho, ?_⟩
          simp only [Function.comp, switched_renumbered, hs, Option.map_some]
        · rcases hd with hd | ⟨e, p, hp, h0, hd⟩
          · left
            rw [hd] at hm
            simp only [minifyKind, pyIndex, if_pos hkey, bind_ok, pure_eq_ok] at hm
            rw [← hm, remap, if_pos hkey]
          · right
            obtain ⟨_, he, hpp⟩ := mem_playsFrom (by rw [← plays_eq]; exact hp)
            refine ⟨e, p, ?_, h0, minifyKind_def (hpitch e he p hpp).2 hm hd hkey⟩
            rw [hpl]
            exact List.mem_map.2 ⟨_, hp, rfl⟩
    have hs := sortBy_sorted sortKey (setOf ((insts'.zip ((usedInsts (events.map fun o =>
      (o.1, renumbered (usedInsts events) o.2))).map fun n => ((collect (events.map fun o =>
        (o.1, renumbered (usedInsts events) o.2)) none []).lookup n).getD [])).flatMap fun p =>
      match p.1 with
      | some inst => kindWaves p.2 inst.kind
      | none => []))
    refine eq_of_sorted (key := sortKey) ?_ ?_ hin
    · have hs := List.Pairwise.and (show List.Pairwise (fun x y => sortKey x ≤ sortKey y) (usedWaves insts' _) from hs)
        (usedWaves_nodup insts' _)
      refine hs.imp_of_mem fun {x y} hx hy h => ?_
      have h5 := (mem_numbered.1 ((hin x).1 hx)).1
      have h6 := (mem_numbered.1 ((hin y).1 hy)).1
      have h7 : x.2 ≠ y.2 := fun e => h.2 (Prod.ext (h5.trans h6.symm) e)
      have h8 := h.1
      unfold sortKey at h8 ⊢
      rw [h5, h6] at h8 ⊢
      omega
    · unfold numbered
      rw [List.pairwise_map]
      refine List.pairwise_lt_range.imp fun {a b} h => ?_
      unfold sortKey
      dsimp only
      omega
  have e4 : mapE (fun p : List W × Nat => newWaves (numbered k waves.length) p.2 p.1) swars'.zipIdx = .ok swars' := by
    have hl := mapE_length h3
    rw [List.length_zipIdx] at hl
    have := mapE_ok_of_forall (f := fun p : List W × Nat => newWaves (numbered k waves.length) p.2 p.1) (g := Prod.fst)
      (as := swars'.zipIdx) (fun p hp => by
        obtain ⟨ws, a⟩ := p
        obtain ⟨i, hi⟩ := List.mem_iff_getElem?.1 hp
        rw [List.getElem?_zipIdx, Option.map_eq_some_iff] at hi
        obtain ⟨w, hi, he⟩ := hi
        simp only [Nat.zero_add, Prod.mk.injEq] at he
        obtain ⟨rfl, rfl⟩ := he
        obtain ⟨hil, rfl⟩ := List.getElem?_eq_some_iff.1 hi
        have hg := mapE_getElem h3 i (by simpa using (by omega : i < swars.length)) hil
        rw [List.getElem_zipIdx] at hg
        simp only [Nat.zero_add] at hg
        have hgl := mapE_length hg
        unfold newWaves
        by_cases hik : i = k
        · subst hik
          rw [List.filter_eq_self.2 (fun x hx => decide_eq_true (hk x hx))] at hgl
          rw [List.filter_eq_self.2 (fun x hx => decide_eq_true (mem_numbered.1 hx).1), numbered, ← hgl]
          rw [Verif.mapE_map]
          exact mapE_range_idx _
        · rw [List.filter_eq_nil_iff.2 (fun x hx => by have := hk x hx; simp; omega)] at hgl
          rw [List.filter_eq_nil_iff.2 (fun x hx => by have := (mem_numbered.1 hx).1; simp; omega)]
          have hgl : swars'[i] = [] := List.length_eq_zero_iff.1 (by simpa using hgl)
          rw [hgl]
          rfl)
    rw [this, List.zipIdx_map_fst]
  have e5 : mapE (minifyInst (numbered k waves.length)) insts' = .ok insts' := by
    have := mapE_ok_of_forall (f := minifyInst (numbered k waves.length)) (g := id) (as := insts') (fun x hx => by
      cases x with
      | none => rfl
      | some inst' =>
        obtain ⟨j, hj⟩ := List.mem_iff_getElem?.1 hx
        have hjl := (List.getElem?_eq_some_iff.1 hj).1
        have hju : j < (usedInsts events).length := by omega
        have hn := (hused _).1 (List.getElem_mem hju)
        obtain ⟨inst, hi, hm⟩ := back _ hn inst' (by
          rw [Verif.Proofs.SoundArchive.idxOf_getElem_nodup hnd hju]; exact hj)
        have := minifyKind_again hk (hdefs _ hn inst hi) hm
        simp only [minifyInst, this, bind_ok]
        rfl)
    rwa [List.map_id] at this
  unfold minify
  dsimp only
  rw [e1', bind_ok, usedInsts_again events, e2, bind_ok]
  rw [usedInsts_again events] at e3
  rw [e3, e4, bind_ok, e5]
  rfl

example : let l := tune [.note 1 1 false 1, .instrumentSwitch 0 3, .note 50 100 false 3, .rest 2,
      .instrumentSwitch 1 2, .note 62 90 true 2]
    (minify l bank (some ["abcdefgh".toList, "uvwxyz".toList])).bind (fun r => minify r.1 r.2.1 (some r.2.2)) =
      minify l bank (some ["abcdefgh".toList, "uvwxyz".toList]) ∧
    (minify l bank (some ["abcdefgh".toList, "uvwxyz".toList])).isOk = true := by decide +kernel

/-- C144.  With two archives it may raise IndexError the second time: the new number of a wave can be beyond the end of its
archive. -/
theorem minify_twice_archives : ∃ (events events' : List Obj) (insts' : List (Option Inst)) (swars swars' : List (List Char)),
    minify events bank (some swars) = .ok (events', insts', swars') ∧
    minify events' insts' (some swars') = .error .indexError :=
  ⟨tune [.instrumentSwitch 0 0, .note 60 1 false 1, .instrumentSwitch 0 4, .note 60 1 false 1],
    _, _, ["abcdefgh".toList, "uvwxyz".toList], _, rfl, by decide +kernel⟩

theorem share_flat : ∀ (tracks : List (Nat × List Obj)) (ev : List Obj), ev.length = (tracks.flatMap (·.2)).length →
    (Model.MusicSong.shareTracks tracks ev).flatMap (·.2) = ev ∧
      Model.MusicSong.shareTracks (Model.MusicSong.shareTracks tracks ev) ev = Model.MusicSong.shareTracks tracks ev
  | [], ev, h => by
    rw [List.flatMap_nil] at h
    exact ⟨(List.length_eq_zero_iff.1 h).symm, rfl⟩
  | t :: ts, ev, h => by
    rw [List.flatMap_cons, List.length_append] at h
    obtain ⟨h1, h2⟩ := share_flat ts (ev.drop t.2.length) (by rw [List.length_drop]; omega)
    simp only [Model.MusicSong.shareTracks, List.flatMap_cons, h1, List.take_append_drop, true_and]
    have : (ev.take t.2.length).length = t.2.length := by rw [List.length_take]; omega
    rw [this, h2]

/-- C144.  Nor does `SSEQMusic.minify()` change anything the second time, on the same condition. -/
theorem song_minify_twice_partial {W : Type} {tracks tracks' : List (Nat × List Obj)} {insts insts' : List (Option Inst)}
    {swars swars' : List (List W)}
    (h : Model.MusicSong.songMinify tracks (some insts) (some swars) = .ok (tracks', some insts', some swars')) (k : Nat)
    (hdefs : ∀ t ∈ tracks, ∀ n ∈ (t.2.map (·.2)).filterMap switchedTo, ∀ inst, insts[n]? = some (some inst) →
      ∀ d ∈ definitions inst.kind, d.waveArchiveIDID = k)
    (hpitch : ∀ t ∈ tracks, ∀ e ∈ t.2.map (·.2), ∀ p, pitchOf e = some p → 0 ≤ p ∧ p ≤ 127) :
    Model.MusicSong.songMinify tracks' (some insts') (some swars') = .ok (tracks', some insts', some swars') := by
  unfold Model.MusicSong.songMinify at h ⊢
  simp only [bind_eq_ok, pure_eq_ok, Prod.mk.injEq, Option.some.injEq] at h
  obtain ⟨⟨ev, ins, sw⟩, hr, rfl, rfl, rfl⟩ := h
  have hmem : ∀ e ∈ (tracks.flatMap (·.2)).map (·.2), ∃ o ∈ tracks, e ∈ o.2.map (·.2) := by
    intro e he
    simp only [List.mem_map, List.mem_flatMap] at he
    obtain ⟨x, ⟨o, ho, hx⟩, rfl⟩ := he
    exact ⟨o, ho, List.mem_map.2 ⟨x, hx, rfl⟩⟩
  have h2 := minify_twice_partial hr k (fun n hn => by
      obtain ⟨e, he, hn⟩ := List.mem_filterMap.1 hn
      obtain ⟨o, ho, he⟩ := hmem e he
      exact hdefs o ho n (List.mem_filterMap.2 ⟨e, he, hn⟩))
    (fun e he => by
      obtain ⟨o, ho, he⟩ := hmem e he
      exact hpitch o ho e he)
  have hlen : ev.length = (tracks.flatMap (·.2)).length := by
    have := congrArg List.length (minify_keeps hr).1
    simpa using this
  obtain ⟨h3, h4⟩ := share_flat tracks ev hlen
  dsimp only
  rw [h3, h2, bind_ok]
  dsimp only
  rw [h4]
  rfl

example : (Model.MusicSong.songMinify [(0, tune [.instrumentSwitch 0 3, .note 50 100 false 3]), (2, tune [.rest 2])] (some bank)
    (some ["abcdefgh".toList])).isOk = true := by decide +kernel

end Verif.Props.MinifyTwice
