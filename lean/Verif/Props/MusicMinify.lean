import Verif.Proofs.MusicMinify

/-! # Minifying a bank for some events (C68) -/

namespace Verif.Props.MusicMinify

open Verif Verif.Model.SoundSequence Verif.Model.SoundBank Verif.Model.Music Verif.Spec.Music Verif.Proofs.MusicMinify

/-- C68.  If minifying succeeds, every note that had a sound still has exactly that sound, provided the definitions of the
instruments switched to are all of the PCM type and all use one wave archive and the notes are MIDI notes.  (Full statement:
for any number of archives and any type of definition.  That is false: `minify_archives`, `minify_psg`.) -/
theorem minify_heard_partial {W : Type} {events : List Obj} {insts : List (Option Inst)} {swars : List (List W)}
    {events' : List Obj} {insts' : List (Option Inst)} {swars' : List (List W)}
    (h : minify events insts (some swars) = .ok (events', insts', swars')) (k : Nat)
    (hdefs : ∀ n ∈ (events.map (·.2)).filterMap switchedTo, ∀ inst, insts[n]? = some (some inst) →
      ∀ d ∈ definitions inst.kind, d.waveArchiveIDID = k ∧ d.type = 1)
    (hpitch : ∀ e ∈ events.map (·.2), ∀ p, pitchOf e = some p → 0 ≤ p ∧ p ≤ 127) :
    (heard (events'.map (·.2)) insts' swars').length = (heard (events.map (·.2)) insts swars).length ∧
    ∀ (i : Nat) e s, (heard (events.map (·.2)) insts swars)[i]? = some (e, s) →
      ∃ s', (heard (events'.map (·.2)) insts' swars')[i]? = some (e, s') ∧ (s ≠ none → s' = s) := by
  obtain ⟨_, _, _, _, rfl, _⟩ := minify_inv h
  have hev : (events.map (fun o => (o.1, renumbered (usedInsts events) o.2))).map (·.2) =
      (events.map (·.2)).map (renumbered (usedInsts events)) := by
    rw [List.map_map, List.map_map]; rfl
  have hpl : plays ((events.map (fun o => (o.1, renumbered (usedInsts events) o.2))).map (·.2)) =
      (plays (events.map (·.2))).map fun x => (x.1, (usedInsts events).idxOf x.2.1, x.2.2) := by
    rw [hev, plays_eq, plays_eq]
    exact playsFrom_renumbered (usedInsts events) (events.map (·.2)) none
  unfold heard
  rw [hpl]
  refine ⟨by simp only [List.length_map], fun i e s hi => ?_⟩
  rw [List.getElem?_map, Option.map_eq_some_iff] at hi
  obtain ⟨⟨e', n, p⟩, hi, hes⟩ := hi
  simp only [Prod.mk.injEq] at hes
  obtain ⟨rfl, hs⟩ := hes
  rw [List.getElem?_map, List.getElem?_map, hi]
  refine ⟨_, rfl, fun hne => ?_⟩
  dsimp only
  have hmem : (e', n, p) ∈ playsFrom none (events.map (·.2)) := by
    rw [← plays_eq]
    exact List.mem_iff_getElem?.2 ⟨i, hi⟩
  obtain ⟨hn, he, hp⟩ := mem_playsFrom hmem
  rw [← hs] at hne ⊢
  exact minify_sound h k hdefs hmem (hpitch e' he p hp) hne

/-- C68.  What happens in general: the definition that a note uses stays the same but for its number, which becomes the
number of needed waves in front of it, those of archives with lower numbers included.  (The numbers are 16 bits wide in a
bank; archives are ordered by `99999999 * archive + number`.) -/
theorem minify_numbers {W : Type} {events : List Obj} {insts : List (Option Inst)} {swars : List (List W)}
    {events' : List Obj} {insts' : List (Option Inst)} {swars' : List (List W)}
    (h : minify events insts (some swars) = .ok (events', insts', swars'))
    (hID : ∀ x, Needed (events.map (·.2)) insts x → x.2 < 99999999) {i : Nat} {e : Ev} {d : Note}
    (hi : (used (events.map (·.2)) insts)[i]? = some (e, some d)) (hp : ∀ p, pitchOf e = some p → 0 ≤ p ∧ p ≤ 127) :
    ∃ before : List (Nat × Nat), before.Nodup ∧
      (∀ x, x ∈ before ↔ Needed (events.map (·.2)) insts x ∧
        (x.1 < d.waveArchiveIDID ∨ x.1 = d.waveArchiveIDID ∧ x.2 < d.waveID)) ∧
      (used (events'.map (·.2)) insts')[i]? = some (e, some { d with waveID := before.length }) := by
  obtain ⟨newInsts, waves, h1, hw, h3, hk, hu⟩ := minify_used h hi hp
  refine ⟨waves.filter fun x => x.1 < d.waveArchiveIDID ∨ x.1 = d.waveArchiveIDID ∧ x.2 < d.waveID,
    (hw ▸ usedWaves_nodup _ _ : waves.Nodup).sublist List.filter_sublist, fun x => ?_, ?_⟩ <;> subst hw
  · rw [List.mem_filter, needed_iff h1]
    simp
  · rw [hu, waveKey, (usedWaves_idx _ _ (fun x hx => hID x ((needed_iff h1 x).1 hx)) hk).1]

/-- C68.  So a note of the PCM type, the wave of which is only once in its archive, keeps its sound exactly if no wave of an
archive with a lower number is needed (`minify_archives` is a case where one is) … -/
theorem minify_pcm_iff {W : Type} {events : List Obj} {insts : List (Option Inst)} {swars : List (List W)}
    {events' : List Obj} {insts' : List (Option Inst)} {swars' : List (List W)}
    (h : minify events insts (some swars) = .ok (events', insts', swars'))
    (hID : ∀ x, Needed (events.map (·.2)) insts x → x.2 < 99999999) {i : Nat} {e : Ev} {d : Note}
    (hi : (used (events.map (·.2)) insts)[i]? = some (e, some d)) (hp : ∀ p, pitchOf e = some p → 0 ≤ p ∧ p ≤ 127)
    (ht : d.type = 1) {ws : List W} (ha : swars[d.waveArchiveIDID]? = some ws) (hn : ws.Nodup) :
    (heard (events'.map (·.2)) insts' swars')[i]? = (heard (events.map (·.2)) insts swars)[i]? ↔
      ∀ x, Needed (events.map (·.2)) insts x → d.waveArchiveIDID ≤ x.1 := by
  obtain ⟨newInsts, waves, h1, rfl, h3, hk, hu⟩ := minify_used h hi hp
  have hID' := fun x hx => hID x ((needed_iff h1 x).1 hx)
  obtain ⟨e1, e2⟩ := usedWaves_idx _ _ hID' (show (d.waveArchiveIDID, d.waveID) ∈ _ from hk)
  have hl := mapE_length h3
  rw [List.length_zipIdx] at hl
  obtain ⟨hai, rfl⟩ := List.getElem?_eq_some_iff.1 ha
  have hg := mapE_getElem h3 d.waveArchiveIDID (by simpa using hai) (by omega)
  rw [List.getElem_zipIdx] at hg
  simp only [Nat.zero_add] at hg
  rw [heard_of_used hi, heard_of_used hu]
  simp only [Option.some.injEq, Prod.mk.injEq, true_and, soundOf, ht, if_true, Sum.inl.injEq,
    List.getElem?_eq_getElem hai, List.getElem?_eq_getElem (show d.waveArchiveIDID < swars'.length by omega), Option.bind_some]
  rw [newWaves_at (usedWaves_nodup _ _) hg hn hk, e2, waveKey, e1, filter_eq_iff]
  constructor
  · intro h' x hx
    have := h' x ((needed_iff h1 x).2 hx)
    have := hID x hx
    omega
  · intro h' x hx
    have := h' x ((needed_iff h1 x).1 hx)
    omega

/-- C68.  … and a note of another type exactly if its number is that of needed waves in front of it. -/
theorem minify_psg_iff {W : Type} {events : List Obj} {insts : List (Option Inst)} {swars : List (List W)}
    {events' : List Obj} {insts' : List (Option Inst)} {swars' : List (List W)}
    (h : minify events insts (some swars) = .ok (events', insts', swars'))
    (hID : ∀ x, Needed (events.map (·.2)) insts x → x.2 < 99999999) {i : Nat} {e : Ev} {d : Note}
    (hi : (used (events.map (·.2)) insts)[i]? = some (e, some d)) (hp : ∀ p, pitchOf e = some p → 0 ≤ p ∧ p ≤ 127)
    (ht : d.type ≠ 1) : ∃ before : List (Nat × Nat), before.Nodup ∧
      (∀ x, x ∈ before ↔ Needed (events.map (·.2)) insts x ∧
        (x.1 < d.waveArchiveIDID ∨ x.1 = d.waveArchiveIDID ∧ x.2 < d.waveID)) ∧
      ((heard (events'.map (·.2)) insts' swars')[i]? = (heard (events.map (·.2)) insts swars)[i]? ↔
        before.length = d.waveID) := by
  obtain ⟨before, h1, h2, hu⟩ := minify_numbers h hID hi hp
  refine ⟨before, h1, h2, ?_⟩
  rw [heard_of_used hi, heard_of_used hu]
  simp only [Option.some.injEq, Prod.mk.injEq, true_and, soundOf, ht, if_false, Sum.inr.injEq]

/-- C68.  The events stay the same objects in the same order, and all but the instrument switches stay as they are; the
switches keep their bank.  The instruments left are exactly those switched to, in their old order. -/
theorem minify_keeps {W : Type} {events : List Obj} {insts : List (Option Inst)} {swars : List (List W)}
    {events' : List Obj} {insts' : List (Option Inst)} {swars' : List (List W)}
    (h : minify events insts (some swars) = .ok (events', insts', swars')) :
    events'.map (·.1) = events.map (·.1) ∧
    (∀ (i : Nat) o, events[i]? = some o → switchedTo o.2 = none → events'[i]? = some o) ∧
    ∃ kept : List Nat, kept.Pairwise (· < ·) ∧
      (∀ n, n ∈ kept ↔ n ∈ (events.map (·.2)).filterMap switchedTo) ∧ insts'.length = kept.length ∧
      (∀ (i : Nat) id b n, events[i]? = some (id, .instrumentSwitch b n) →
        ∃ j, kept[j]? = some n ∧ events'[i]? = some (id, .instrumentSwitch b j)) ∧
      ∀ (j : Nat) n, kept[j]? = some n → n < insts.length ∧
        (insts[n]? = some none → insts'[j]? = some none) ∧
        ∀ inst, insts[n]? = some (some inst) →
          ∃ k, insts'[j]? = some (some { inst with kind := k }) := by
  obtain ⟨newInsts, waves, h1, hw, rfl, h3, hlen, hnone, hsome⟩ := minify_inv h
  obtain ⟨_, hlt, hused⟩ := usedInsts_spec events
  have hl := mapE_length h1
  refine ⟨by simp [List.map_map, Function.comp_def], fun i o ho hs => ?_, usedInsts events, hlt, hused, by omega,
    fun i id b n hi => ?_, fun j n hj => ?_⟩
  · rw [List.getElem?_map, ho, Option.map_some, Option.some.injEq]
    obtain ⟨id, e⟩ := o
    cases e <;> first | rfl | exact nomatch hs
  · have hn : n ∈ usedInsts events := (hused n).2 (List.mem_filterMap.2
      ⟨_, List.mem_map.2 ⟨_, List.mem_iff_getElem?.2 ⟨i, hi⟩, rfl⟩, rfl⟩)
    exact ⟨(usedInsts events).idxOf n, getElem?_idxOf hn, by rw [List.getElem?_map, hi]; rfl⟩
  · obtain ⟨hjl, rfl⟩ := List.getElem?_eq_some_iff.1 hj
    have hg := mapE_getElem h1 j hjl (by omega)
    rw [pyIdx_eq_ok] at hg
    have hget : newInsts[j]? = insts[(usedInsts events)[j]]? := by rw [hg, List.getElem?_eq_getElem (by omega)]
    refine ⟨(List.getElem?_eq_some_iff.1 hg).1, fun hn => hnone j (by rw [hget, hn]), fun inst hi => ?_⟩
    obtain ⟨k', _, h⟩ := hsome j inst (by rw [hget, hi])
    exact ⟨k', h⟩

/-- C68.  The waves left in an archive are exactly those of its waves that are needed, once each and in their old order:
those of instruments with a single definition that are switched to, and those of the definitions that the notes use with
the instrument switched to last. -/
theorem minify_waves {W : Type} {events : List Obj} {insts : List (Option Inst)} {swars : List (List W)}
    {events' : List Obj} {insts' : List (Option Inst)} {swars' : List (List W)}
    (h : minify events insts (some swars) = .ok (events', insts', swars')) (a : Nat) (ws ws' : List W)
    (ha : swars[a]? = some ws) (ha' : swars'[a]? = some ws') :
    swars'.length = swars.length ∧ ∃ kept : List Nat, kept.Pairwise (· < ·) ∧ ws'.length = kept.length ∧
      (∀ (i : Nat) w, kept[i]? = some w → ws'[i]? = ws[w]? ∧ w < ws.length) ∧
      ∀ w, w ∈ kept ↔ ∃ n ∈ (events.map (·.2)).filterMap switchedTo, ∃ inst, insts[n]? = some (some inst) ∧
        ∃ d, (inst.kind = .single d ∨ ∃ e p, (e, n, p) ∈ plays (events.map (·.2)) ∧ 0 ≤ p ∧
          definitionFor inst.kind p = some d) ∧ d.waveArchiveIDID = a ∧ d.waveID = w := by
  obtain ⟨newInsts, waves, h1, hw, rfl, h3, hlen, hnone, hsome⟩ := minify_inv h
  have hl := mapE_length h3
  rw [List.length_zipIdx] at hl
  obtain ⟨hai, rfl⟩ := List.getElem?_eq_some_iff.1 ha
  obtain ⟨hai', rfl⟩ := List.getElem?_eq_some_iff.1 ha'
  have hg := mapE_getElem h3 a (by simpa using hai) hai'
  rw [List.getElem_zipIdx] at hg
  simp only [Nat.zero_add, newWaves] at hg
  have hgl := mapE_length hg
  refine ⟨hl, ((waves.filter fun e => e.1 = a).map (·.2)), hw ▸ usedWaves_sorted _ _ a, by simpa using hgl,
    fun i w hw => ?_, fun w => ?_⟩
  · rw [List.getElem?_map, Option.map_eq_some_iff] at hw
    obtain ⟨e, he, rfl⟩ := hw
    obtain ⟨hi, rfl⟩ := List.getElem?_eq_some_iff.1 he
    have := mapE_getElem hg i hi (by omega)
    rw [pyIdx_eq_ok] at this
    exact ⟨by rw [this, List.getElem?_eq_getElem (by omega)], (List.getElem?_eq_some_iff.1 this).1⟩
  · constructor
    · intro hmem
      obtain ⟨e, he, rfl⟩ := List.mem_map.1 hmem
      obtain ⟨he, hea⟩ := List.mem_filter.1 he
      rw [hw] at he
      obtain ⟨n, hn, inst, hi, d, hd, rfl⟩ := (usedWaves_iff h1 e).1 he
      exact ⟨n, hn, inst, hi, d, hd, of_decide_eq_true hea, rfl⟩
    · rintro ⟨n, hn, inst, hi, d, hd, h4, h5⟩
      refine List.mem_map.2 ⟨(a, w), List.mem_filter.2 ⟨?_, decide_eq_true rfl⟩, rfl⟩
      rw [hw]
      refine (usedWaves_iff h1 _).2 ⟨n, hn, inst, hi, d, hd, ?_⟩
      rw [waveKey, h4, h5]

/-- C68.  Minifying succeeds when every instrument switched to exists, no range is empty and every definition of an
instrument switched to refers to a wave that exists or to an archive that is not given. -/
theorem minify_succeeds {W : Type} (events : List Obj) (insts : List (Option Inst)) (swars : List (List W))
    (hn : ∀ n ∈ (events.map (·.2)).filterMap switchedTo, n < insts.length)
    (hr : ∀ n ∈ (events.map (·.2)).filterMap switchedTo, ∀ inst, insts[n]? = some (some inst) →
      (∀ p, inst.kind ≠ .range p []) ∧
      ∀ d ∈ definitions inst.kind, ∀ ws, swars[d.waveArchiveIDID]? = some ws → d.waveID < ws.length) :
    ∃ r, minify events insts (some swars) = .ok r := by
  obtain ⟨hnd, hlt, hused⟩ := usedInsts_spec events
  have h1 : mapE (fun n => pyIdx insts n) (usedInsts events) =
      .ok ((usedInsts events).map fun n => (insts[n]?).join) := by
    apply mapE_ok_of_forall
    intro n hmem
    rw [pyIdx_eq_ok, List.getElem?_eq_getElem (hn n ((hused n).1 hmem))]
    rfl
  have h2 : mapE (renumber (usedInsts events)) events = .ok (events.map fun o => (o.1, renumbered (usedInsts events) o.2)) := by
    apply mapE_ok_of_forall
    rintro ⟨id, e⟩ hmem
    cases e with
    | instrumentSwitch b i =>
      have hi : i ∈ usedInsts events := (hused i).2 (List.mem_filterMap.2 ⟨_, List.mem_map.2 ⟨_, hmem, rfl⟩, rfl⟩)
      simp only [renumber, pyIndex, if_pos hi, bind_ok]
      rfl
    | _ => rfl
  unfold minify
  dsimp only
  rw [h1, bind_ok, h2, bind_ok]
  generalize hW : usedWaves _ _ = waves
  have hsub : ∀ e ∈ waves, ∃ n ∈ usedInsts events, ∃ inst, insts[n]? = some (some inst) ∧
      ∃ d ∈ definitions inst.kind, e = waveKey d := fun e he => usedWaves_sub h1 (hW ▸ he)
  have h3 : ∃ r, mapE (fun p : List W × Nat => newWaves waves p.2 p.1) swars.zipIdx = .ok r := by
    apply mapE_exists
    rintro ⟨ws, a⟩ hmem
    have hwsa : swars[a]? = some ws := by
      obtain ⟨i, hi⟩ := List.mem_iff_getElem?.1 hmem
      rw [List.getElem?_zipIdx, Option.map_eq_some_iff] at hi
      obtain ⟨w, hi, he⟩ := hi
      simp only [Nat.zero_add, Prod.mk.injEq] at he
      obtain ⟨rfl, rfl⟩ := he
      exact hi
    unfold newWaves
    apply mapE_exists
    intro e he
    obtain ⟨he, hea⟩ := List.mem_filter.1 he
    have hea := of_decide_eq_true hea
    obtain ⟨n, hnu, inst, hi, d, hd, rfl⟩ := hsub e he
    have hea : d.waveArchiveIDID = a := hea
    subst hea
    have := (hr n ((hused n).1 hnu) inst hi).2 d hd ws hwsa
    exact ⟨ws[d.waveID], pyIdx_eq_ok.2 (List.getElem?_eq_getElem this)⟩
  obtain ⟨r, h3⟩ := h3
  rw [h3, bind_ok]
  have h4 : ∃ r, mapE (minifyInst waves) ((usedInsts events).map fun n => (insts[n]?).join) = .ok r := by
    apply mapE_exists
    intro i hi
    cases i with
    | none => exact ⟨_, rfl⟩
    | some inst =>
      obtain ⟨n, hnu, hni⟩ := List.mem_map.1 hi
      have hni : insts[n]? = some (some inst) := by
        cases hx : insts[n]? with
        | none => rw [hx] at hni; exact nomatch hni
        | some y => rw [hx] at hni; exact congrArg some hni
      obtain ⟨hr1, hr2⟩ := hr n ((hused n).1 hnu) inst hni
      cases hk : inst.kind with
      | single d =>
        have hmem : waveKey d ∈ waves := by
          obtain ⟨i, hi⟩ := List.mem_iff_getElem?.1 hi
          rw [← hW, mem_usedWaves]
          have hlti : i < (usedInsts events).length := by
            have := (List.getElem?_eq_some_iff.1 hi).1
            simpa using this
          refine ⟨inst, _, mem_zip_of_get hi (by rw [List.getElem?_map, List.getElem?_eq_getElem hlti]; rfl), ?_⟩
          rw [hk]
          exact List.mem_singleton.2 rfl
        simp only [minifyInst, hk, minifyKind, pyIndex, if_pos hmem, bind_ok]
        exact ⟨_, rfl⟩
      | range p ds =>
        cases ds with
        | nil => exact absurd hk (hr1 p)
        | cons d ds => simp only [minifyInst, hk, minifyKind, bind_ok]; exact ⟨_, rfl⟩
      | regional rs => simp only [minifyInst, hk, minifyKind, bind_ok]; exact ⟨_, rfl⟩
  obtain ⟨r', h4⟩ := h4
  exact ⟨_, by rw [h4, bind_ok]; rfl⟩

/-- C68.  Leaving out the wave archives, which is the documented default, never works. -/
theorem minify_no_archives {W : Type} (events : List Obj) (insts : List (Option Inst)) (r) :
    minify (W := W) events insts none ≠ .ok r := by
  unfold minify
  intro h
  simp only [bind_eq_ok] at h
  obtain ⟨_, _, _, _, h⟩ := h
  exact nomatch h

/-- A PCM definition. -/
def pcm (archive wave : Nat) : Note := ⟨wave, archive, 60, 127, 127, 127, 127, 64, 1⟩

/-- A bank of one instrument of each kind, for one archive, and a PSG instrument. -/
def bank : List (Option Inst) :=
  [some ⟨.single (pcm 0 3), 0, 0⟩, none,
   some ⟨.range 60 [pcm 0 1, pcm 0 0, pcm 0 2], 0, 0⟩,
   some ⟨.regional [(40, pcm 0 4), (60, pcm 0 0), (127, pcm 0 2)], 0, 0⟩,
   some ⟨.single (pcm 1 5), 0, 0⟩,
   some ⟨.single { pcm 0 6 with type := 2 }, 0, 0⟩]

def tune (l : List Ev) : List Obj := l.zipIdx.map fun p => (p.2, p.1)

example : minify (tune [.note 1 1 false 1, .instrumentSwitch 0 3, .note 50 100 false 3, .rest 2,
    .instrumentSwitch 1 2, .note 62 90 true 2]) bank (some ["abcdefgh".toList, "uvwxyz".toList]) =
    .ok (tune [.note 1 1 false 1, .instrumentSwitch 0 1, .note 50 100 false 3, .rest 2, .instrumentSwitch 1 0,
      .note 62 90 true 2],
      [some ⟨.range 60 [pcm 0 1, pcm 0 0, pcm 0 1], 0, 0⟩, some ⟨.regional [(60, pcm 0 0), (127, pcm 0 1)], 0, 0⟩],
      ["ac".toList, []]) := by decide +kernel

example : heard [.note 1 1 false 1, .instrumentSwitch 0 3, .note 50 100 false 3, .rest 2,
      .instrumentSwitch 1 2, .note 62 90 true 2] bank ["abcdefgh".toList, "uvwxyz".toList] =
    [(.note 50 100 false 3, some (pcm 0 0, .inl (some 'a'))), (.note 62 90 true 2, some (pcm 0 0, .inl (some 'c')))] := by
  decide +kernel

/-- C68.  With two archives the second one's waves are numbered as if the first one's came before them in it: the note
loses its wave. -/
theorem minify_archives : ∃ (events events' : List Obj) (insts' : List (Option Inst)) (swars swars' : List (List Char)),
    minify events bank (some swars) = .ok (events', insts', swars') ∧
    (heard (events.map (·.2)) bank swars)[1]? = some (.note 60 1 false 1, some (pcm 1 0, .inl (some 'z'))) ∧
    (heard (events'.map (·.2)) insts' swars')[1]? = some (.note 60 1 false 1, some (pcm 1 0, .inl none)) :=
  ⟨tune [.instrumentSwitch 0 0, .note 60 1 false 1, .instrumentSwitch 0 4, .note 60 1 false 1],
    _, _, ["abcdefgh".toList, "uvwxyz".toList], _, rfl, by decide +kernel, by decide +kernel⟩

/-- A note in each of two archives and one of another type, before and after. -/
example : let l := tune [.instrumentSwitch 0 0, .note 60 1 false 1, .instrumentSwitch 0 4, .note 60 1 false 1,
      .instrumentSwitch 0 5, .note 60 1 false 1]
    used (l.map (·.2)) bank = [(.note 60 1 false 1, some (pcm 0 3)), (.note 60 1 false 1, some (pcm 1 5)),
      (.note 60 1 false 1, some { pcm 0 6 with type := 2 })] ∧
    (minify l bank (some ["abcdefgh".toList, "uvwxyz".toList])).map (fun r => used (r.1.map (·.2)) r.2.1) =
      .ok [(.note 60 1 false 1, some (pcm 0 0)), (.note 60 1 false 1, some (pcm 1 2)),
        (.note 60 1 false 1, some { pcm 0 1 with type := 2 })] := by decide +kernel

/-- C68.  The number of a PSG definition, which is its duty cycle, is taken for a wave and changed. -/
theorem minify_psg : ∃ (events events' : List Obj) (insts' : List (Option Inst)) (swars swars' : List (List Char)),
    minify events bank (some swars) = .ok (events', insts', swars') ∧
    heard (events.map (·.2)) bank swars = [(.note 60 1 false 1, some ({ pcm 0 0 with type := 2 }, .inr 6))] ∧
    heard (events'.map (·.2)) insts' swars' = [(.note 60 1 false 1, some ({ pcm 0 0 with type := 2 }, .inr 0))] :=
  ⟨tune [.instrumentSwitch 0 5, .note 60 1 false 1],
    _, _, ["abcdefgh".toList, "uvwxyz".toList], _, rfl, by decide +kernel, by decide +kernel⟩

end Verif.Props.MusicMinify
