import Verif.Proofs.MinifySave
import Verif.Props.MusicMinify
import Verif.Props.SoundBank

/-! # C148: saving a minified bank and loading it again -/

namespace Verif.Props.MinifySave

open Verif Verif.Model.SoundSequence Verif.Model.SoundBank Verif.Model.Music Verif.Spec.Music Verif.Spec.SoundBank
open Verif.Proofs.MinifySave Verif.Props.MusicMinify
open Verif.Proofs.SoundBank (save_ok fileOf_length)

/-- C148.  If a bank can be saved to at most 64 KiB and minifying succeeds, the minified bank can be saved, and its file is
no longer than that of the whole bank. -/
theorem minify_saves {W : Type} {events : List Obj} {s : SBNK} {swars : List (List W)}
    {events' : List Obj} {insts' : List (Option Inst)} {swars' : List (List W)}
    (h : minify events s.instruments (some swars) = .ok (events', insts', swars')) {b : Bytes} {unk02 : Nat}
    {wa : List (Option Int)} (hs : s.save = .ok (b, unk02, wa)) (hb : b.length ≤ 65536)
    (hl : ∀ n ∈ (events.map (·.2)).filterMap switchedTo, ∀ i, s.instruments[n]? = some (some i) → Loadable i.kind) :
    ∃ b', ({ s with instruments := insts', inaccessible := [] } : SBNK).save = .ok (b', unk02, wa) ∧
      b'.length ≤ b.length := by
  obtain ⟨h1, h2⟩ := save_ok.1 hs
  simp only [Prod.mk.injEq] at h2
  obtain ⟨rfl, rfl, rfl⟩ := h2
  rw [fileOf_length] at hb
  obtain ⟨h3, h4⟩ := minified_savable h h1 hb hl
  exact ⟨_, save_ok.2 ⟨h3, rfl⟩, by rw [fileOf_length, fileOf_length]; exact h4⟩

/-- C148.  The file of the minified bank loads back with the instruments that minifying left exactly if every regional
instrument that is switched to has a region whose wave is needed.  (Full statement: it always does.  That is false:
`not_minify_loads`.) -/
theorem minify_loads_partial {W : Type} {events : List Obj} {s : SBNK} {swars : List (List W)}
    {events' : List Obj} {insts' : List (Option Inst)} {swars' : List (List W)}
    (h : minify events s.instruments (some swars) = .ok (events', insts', swars')) {b' : Bytes} {unk02 : Nat}
    {wa : List (Option Int)}
    (hs : ({ s with instruments := insts', inaccessible := [] } : SBNK).save = .ok (b', unk02, wa))
    (hl : ∀ n ∈ (events.map (·.2)).filterMap switchedTo, ∀ i, s.instruments[n]? = some (some i) → Loadable i.kind)
    (choose : List Nat → Nat) :
    (∃ s', SBNK.load choose b' unk02 wa = .ok s' ∧
      s'.instruments.map (Option.map Inst.kind) = insts'.map (Option.map Inst.kind)) ↔
    ∀ n ∈ (events.map (·.2)).filterMap switchedTo, ∀ i rs, s.instruments[n]? = some (some i) → i.kind = .regional rs →
      ∃ r ∈ rs, Needed (events.map (·.2)) s.instruments (r.2.waveArchiveIDID, r.2.waveID) := by
  rw [Props.SoundBank.bank_roundtrip_partial choose _ b' unk02 wa hs]
  obtain ⟨waves, _, hneed, _, _, hslot, hback⟩ := minified_slot h
  constructor
  · intro hload n hn i rs hi hk
    obtain ⟨j, k', hm, hj⟩ := hback n hn i hi
    obtain ⟨r, hr, hw⟩ := (minifyKind_loadable hm (hl n hn i hi)).1 (hload _ (List.mem_of_getElem? hj)) rs hk
    exact ⟨r, hr, (hneed _).1 hw⟩
  · intro hreg i' hi'
    obtain ⟨j, hj⟩ := List.mem_iff_getElem?.1 hi'
    obtain ⟨n, hn, i, k', hi, hm, rfl⟩ := hslot j i' hj
    refine (minifyKind_loadable hm (hl n hn i hi)).2 fun rs hk => ?_
    obtain ⟨r, hr, hw⟩ := hreg n hn i rs hi hk
    exact ⟨r, hr, (hneed _).2 hw⟩

theorem loaded_loadable {choose : List Nat → Nat} {d : Bytes} {u : Nat} {w : List (Option Int)} {s : SBNK}
    (h : SBNK.load choose d u w = .ok s) : ∀ i, some i ∈ s.instruments → Loadable i.kind := by
  rw [SBNK.load] at h
  simp only [bind_eq_ok, pure_eq_ok] at h
  obtain ⟨_, _, _, _, _, _, _, _, _, _, _, _, _, _, _, _, r, hr, _, _, rfl⟩ := h
  exact Proofs.SoundBank.loadTable_loadable hr

theorem heard_kinds {W : Type} {a b : List (Option Inst)} (h : a.map (Option.map Inst.kind) = b.map (Option.map Inst.kind))
    (events : List Ev) (archives : List (List W)) : heard events a archives = heard events b archives := by
  unfold heard
  refine List.map_congr_left fun x _ => ?_
  have : ∀ (l : List (Option Inst)), sound l archives x.2.1 x.2.2 =
      ((((l.map (Option.map Inst.kind))[x.2.1]?).join).bind fun k => definitionFor k x.2.2).map fun d => soundOf d archives := by
    intro l
    unfold sound
    rw [List.getElem?_map]
    cases l[x.2.1]? with
    | none => rfl
    | some o => cases o <;> rfl
  rw [this a, this b, h]

/-- C148.  From file to file: a bank that was loaded, has been minified for some events in which every regional instrument
switched to also plays one of its regions, and has been saved and loaded again makes the events sound as the minified bank
does: so the notes sound as before wherever they do according to C68. -/
theorem minify_reload {W : Type} (choose choose' : List Nat → Nat) {d : Bytes} {u : Nat} {w : List (Option Int)}
    {events : List Obj} {s : SBNK} (hd : SBNK.load choose d u w = .ok s) {swars : List (List W)}
    {events' : List Obj} {insts' : List (Option Inst)} {swars' : List (List W)}
    (h : minify events s.instruments (some swars) = .ok (events', insts', swars')) {b : Bytes} {unk02 : Nat}
    {wa : List (Option Int)} (hs : s.save = .ok (b, unk02, wa)) (hb : b.length ≤ 65536)
    (hp : ∀ n ∈ (events.map (·.2)).filterMap switchedTo, ∀ i rs, s.instruments[n]? = some (some i) → i.kind = .regional rs →
      ∃ e p, (e, n, p) ∈ plays (events.map (·.2)) ∧ 0 ≤ p ∧ definitionFor i.kind p ≠ none) :
    ∃ b' s', ({ s with instruments := insts', inaccessible := [] } : SBNK).save = .ok (b', unk02, wa) ∧
      b'.length ≤ b.length ∧ SBNK.load choose' b' unk02 wa = .ok s' ∧
      s'.instruments.map (Option.map Inst.kind) = insts'.map (Option.map Inst.kind) ∧ s'.inaccessible = [] ∧
      heard (events'.map (·.2)) s'.instruments swars' = heard (events'.map (·.2)) insts' swars' := by
  have hall : ∀ i, some i ∈ s.instruments → Loadable i.kind := loaded_loadable hd
  have hl : ∀ n ∈ (events.map (·.2)).filterMap switchedTo, ∀ i, s.instruments[n]? = some (some i) → Loadable i.kind :=
    fun n _ i hi => hall i (List.mem_of_getElem? hi)
  obtain ⟨b', h1, h2⟩ := minify_saves h hs hb hl
  have h3 := (minify_loads_partial h h1 hl choose').2 (fun n hn i rs hi hk => by
    obtain ⟨e, p, hpl, h0, hdef⟩ := hp n hn i rs hi hk
    cases hq : definitionFor i.kind p with
    | none => exact absurd hq hdef
    | some q =>
      have hq' := hq
      rw [hk] at hq'
      simp only [definitionFor, Option.map_eq_some_iff] at hq'
      obtain ⟨r, hr, rfl⟩ := hq'
      exact ⟨r, List.mem_of_find?_eq_some hr, n, hn, i, hi, r.2, .inr ⟨e, p, hpl, h0, hq⟩, rfl⟩)
  obtain ⟨s', h4, h5⟩ := h3
  refine ⟨b', s', h1, h2, h4, h5, ?_, heard_kinds h5 _ _⟩
  have hld := (Props.SoundBank.bank_roundtrip_partial choose' _ b' unk02 wa h1).1 ⟨s', h4, h5⟩
  exact (Props.SoundBank.bank_roundtrip_rest choose' _ s' b' unk02 wa h1 hld h4).2.2 rfl

/-! ## Examples and witnesses -/

/-- A bank of a single note, a range and a regional instrument. -/
def small : SBNK := ⟨0, [some 4],
  [some ⟨.single (pcm 0 3), 1, 1⟩, none, some ⟨.range 60 [pcm 0 1, pcm 0 0, pcm 0 2], 2, 2⟩,
   some ⟨.regional [(40, pcm 0 4), (60, pcm 0 0), (127, pcm 0 2)], 3, 3⟩], []⟩

/-- Events that play two of the instruments. -/
def song : List Obj := tune [.instrumentSwitch 0 3, .note 50 100 false 3, .rest 2, .instrumentSwitch 0 2, .note 62 90 true 2]

/-- What minifying leaves of the bank. -/
def less : List (Option Inst) :=
  [some ⟨.range 60 [pcm 0 1, pcm 0 0, pcm 0 1], 2, 2⟩, some ⟨.regional [(60, pcm 0 0), (127, pcm 0 1)], 3, 3⟩]

example : ((minify song small.instruments (some ["abcdefgh".toList])).map fun r => r.2.1) = .ok less ∧
    (small.save.map fun r => r.1.length) = .ok 168 ∧
    ((⟨0, [some 4], less, []⟩ : SBNK).save.map fun r => r.1.length) = .ok 140 := by decide +kernel

/-- The bank that a file holds. -/
def loaded : Py SBNK := (small.save).bind fun r => SBNK.load (fun l => l.headD 0) r.1 r.2.1 r.2.2

example : (loaded.map fun s => s.instruments.map (Option.map Inst.kind)) =
    .ok (small.instruments.map (Option.map Inst.kind)) ∧
    (((loaded.bind fun s => minify song s.instruments (some ["abcdefgh".toList])).map fun r =>
      r.2.1.map (Option.map Inst.kind)) = .ok (less.map (Option.map Inst.kind))) ∧
    ((loaded.bind fun s => s.save).map fun r => r.1.length) = .ok 168 := by decide +kernel

/-- A bank of two regional instruments. -/
def regions : SBNK := ⟨0, [some 4], [some ⟨.regional [(127, pcm 0 0)], 0, 0⟩, some ⟨.regional [(127, pcm 0 1)], 1, 1⟩], []⟩

/-- C148.  Not every minified bank loads back: an instrument that is switched to but not played loses all of its regions,
and a regional instrument without regions is saved as something that is not one.  Whether the file cannot be loaded … -/
theorem not_minify_loads : ∃ (events events' : List Obj) (insts' : List (Option Inst)) (swars' : List (List Char)) (b' : Bytes),
    minify events regions.instruments (some ["ab".toList]) = .ok (events', insts', swars') ∧
    ({ regions with instruments := insts', inaccessible := [] } : SBNK).save = .ok (b', 0, [some 4]) ∧
    ∀ choose, SBNK.load choose b' 0 [some 4] = .error .structError :=
  ⟨tune [.instrumentSwitch 0 1], _, _, _, _, rfl, rfl, fun _ => rfl⟩

/-- C148.  … or is loaded with a region that was never there, made of the bytes of the next instrument. -/
theorem minify_loads_garbage : ∃ (events events' : List Obj) (insts' : List (Option Inst)) (swars' : List (List Char))
    (b' : Bytes) (garbage : Note),
    minify events regions.instruments (some ["ab".toList]) = .ok (events', insts', swars') ∧
    insts'.map (Option.map Inst.kind) = [some (.regional []), some (.regional [(127, pcm 0 0)])] ∧
    ({ regions with instruments := insts', inaccessible := [] } : SBNK).save = .ok (b', 0, [some 4]) ∧
    ∀ choose, ∃ s', SBNK.load choose b' 0 [some 4] = .ok s' ∧
      s'.instruments.map (Option.map Inst.kind) = [some (.regional [(0, garbage)]), some (.regional [(127, pcm 0 0)])] :=
  ⟨tune [.instrumentSwitch 0 0, .instrumentSwitch 0 1, .note 60 1 false 1], _, _, _, _, ⟨0, 0, 0, 0, 1, 0, 0, 0, 127⟩, rfl, rfl, rfl,
    fun _ => ⟨_, rfl, rfl⟩⟩

end Verif.Props.MinifySave
