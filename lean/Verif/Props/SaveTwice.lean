import Verif.Model.SaveState
import Verif.Props.Overlay
import Verif.Props.Float
import Verif.Props.Rom
import Verif.Props.LzGreedy

/-! # C147: saving twice, and saving that raises -/

namespace Verif.Props.SaveTwice

open Verif Verif.Model.Code Verif.Model.Rom Verif.Model.SoundSequence Verif.Model.Music Verif.Model.SaveState Verif.Model.Float
open Verif.Model.SoundWave Verif.Model.SoundStream

theorem setCompressed_twice (f : Nat) (v : Bool) : setCompressedFlag (setCompressedFlag f v) v = setCompressedFlag f v := by
  refine Nat.eq_of_testBit_eq fun i => ?_
  rw [(Props.Overlay.set_compressed _ v).2.2, (Props.Overlay.set_compressed f v).2.2]
  by_cases h : i = 0
  · rw [if_pos h, if_pos h]
  · rw [if_neg h, if_neg h]

/-! ### Overlays -/

/-- The function with the object left behind is `Overlay.save` where it returns. -/
theorem saveOverlay_eq (ov : Overlay) (c : Bool) :
    ov.save c = (saveOverlay ov c).1.map fun b => (b, (saveOverlay ov c).2) := by
  unfold Overlay.save saveOverlay
  cases c with
  | false => rfl
  | true =>
    dsimp only
    cases Model.CodeCompression.compress ov.data false <;> rfl

/-- C147.  Saving an overlay again gives the same bytes, or raises the same, and changes nothing more. -/
theorem overlay_twice (ov : Overlay) (c : Bool) : saveOverlay (saveOverlay ov c).2 c = saveOverlay ov c := by
  unfold saveOverlay
  cases c with
  | false =>
    dsimp only
    simp only [Bool.false_eq_true, if_false]
    rw [setCompressed_twice]
  | true =>
    dsimp only
    simp only [if_true]
    cases h : Model.CodeCompression.compress ov.data false with
    | error e => simp only [h]
    | ok d => simp only [h]; rw [setCompressed_twice]

/-- C147.  If saving an overlay raises, it was asked to compress, and only `ramSize` may have changed: it is the length of the
data then. -/
theorem overlay_raises {ov ov' : Overlay} {c : Bool} {e : PyErr} (h : saveOverlay ov c = (.error e, ov')) :
    c = true ∧ e = .structError ∧ ov' = { ov with ramSize := ov.data.length } := by
  unfold saveOverlay at h
  cases c with
  | false => cases h
  | true =>
    simp only [if_true] at h
    cases hc : Model.CodeCompression.compress ov.data false with
    | ok d => simp only [hc] at h; cases h
    | error e' =>
      simp only [hc] at h
      cases h
      refine ⟨rfl, ?_, rfl⟩
      obtain ⟨L, hL, _⟩ := Props.LzGreedy.greedy_exists_unique 0x1002 true ov.data.reverse
      obtain ⟨m, hm, _⟩ := Props.LzGreedy.kept_exists_unique L
      rw [Props.LzGreedy.code_compress_bytes ov.data L m hL hm] at hc
      dsimp only at hc
      split at hc
      · cases hc
      · split at hc
        · cases hc
        · cases hc; rfl

/-- Such an overlay: its data compressed with the footer is longer than the data. -/
example : saveOverlay ⟨List.replicate 14 65, 0x2000000, 100, 0, 0, 0, 3, 100, 1⟩ true =
    (.error .structError, ⟨List.replicate 14 65, 0x2000000, 14, 0, 0, 0, 3, 100, 1⟩) := by decide +kernel

/-- An overlay whose fields are all wrong. -/
example : saveOverlay ⟨[1, 2, 3], 0x2000000, 100, 0, 0, 0, 3, 100, 3⟩ false = (.ok [1, 2, 3], ⟨[1, 2, 3], 0x2000000, 3, 0, 0, 0, 3, 3, 2⟩) := by
  decide +kernel

/-! ### ROMs -/

/-- The function with the ROM left behind is `save` where it returns. -/
theorem saveRom_eq (r : Rom) (u : Bool) : save r u = (saveRom r u).1.map fun b => (b, (saveRom r u).2) := by
  unfold save saveRom
  cases hb : buildImage r with
  | error e => rfl
  | ok i =>
    rw [bind_ok]
    cases u with
    | false =>
      simp only [Bool.false_eq_true, if_false]
      cases header r r.deviceCapacity i.2 <;> rfl
    | true =>
      simp only [if_true]
      have : header { r with deviceCapacity := capacity i.1.length } (capacity i.1.length) i.2 =
        header r (capacity i.1.length) i.2 := rfl
      rw [this]
      cases header r (capacity i.1.length) i.2 <;> rfl

/-- C147.  Saving a ROM again, with or without the update, gives the same bytes, or raises the same, and changes nothing more. -/
theorem rom_twice (r : Rom) (u u' : Bool) (hu : u' = true → u = true) :
    saveRom (saveRom r u).2 u' = saveRom r u := by
  unfold saveRom
  cases hb : buildImage r with
  | error e => simp only [hb]
  | ok i =>
    cases u with
    | false =>
      have : u' = false := by cases u' <;> simp_all
      subst this
      simp only [Bool.false_eq_true, if_false]
      cases hh : header r r.deviceCapacity i.2 <;> simp only [hb, hh]
    | true =>
      simp only [if_true]
      have hb' : buildImage { r with deviceCapacity := capacity i.1.length } = .ok i := hb
      cases hh : header { r with deviceCapacity := capacity i.1.length } (capacity i.1.length) i.2 <;>
        cases u' <;> simp only [hb', hh, Bool.false_eq_true, if_false, if_true]

/-- C147.  Saving a ROM changes at most the device capacity, and that only if asked to. -/
theorem rom_changes (r : Rom) (u : Bool) :
    (saveRom r u).2 = { r with deviceCapacity := (saveRom r u).2.deviceCapacity } ∧ (u = false → (saveRom r u).2 = r) := by
  unfold saveRom
  cases hb : buildImage r with
  | error e => exact ⟨rfl, fun _ => rfl⟩
  | ok i =>
    cases u with
    | false =>
      simp only [Bool.false_eq_true, if_false]
      cases header r r.deviceCapacity i.2 <;> exact ⟨rfl, fun _ => rfl⟩
    | true =>
      simp only [if_true]
      cases header { r with deviceCapacity := capacity i.1.length } (capacity i.1.length) i.2 <;>
        exact ⟨rfl, fun h => nomatch h⟩

/-- C147.  Asking for the update with an image of at most 64 KiB not only raises ValueError (C78): the ROM cannot be saved any
more then, not even without the update, as it could before. -/
theorem rom_spoiled (r r0 : Rom) (b : Bytes) (h : save r false = .ok (b, r0)) (hmax : b.length ≤ 2 ^ 16) :
    (saveRom r true).1 = .error .valueError ∧ ∀ u, save (saveRom r true).2 u = .error .valueError := by
  have h1 := Props.Rom.rom_update_capacity_small r r0 b h hmax
  rw [saveRom_eq] at h1
  have h2 : (saveRom r true).1 = .error .valueError := by
    cases hs : (saveRom r true).1 with
    | error e => rw [hs] at h1; simpa [Except.map] using h1
    | ok x => rw [hs] at h1; cases h1
  refine ⟨h2, fun u => ?_⟩
  rw [saveRom_eq, rom_twice r true u (fun _ => rfl), h2]
  rfl

example : ∃ b r0, save Props.Rom.sample false = .ok (b, r0) ∧ b.length ≤ 2 ^ 16 := by
  obtain ⟨-, -, b, r0, h⟩ := Props.Rom.sample_ok
  exact ⟨b, r0, h, Props.Rom.sample_small h⟩

/-! ### Waves and streams -/

/-- C147.  Saving a wave again gives the same bytes, or raises the same, and changes nothing more. -/
theorem swav_twice (w : SWAV) (t l : Bool) : saveSWAV (saveSWAV w t l).2 t l = saveSWAV w t l := by
  unfold saveSWAV
  by_cases h : t = true ∧ w.sampleRate = 0
  · simp only [if_pos h]
  · simp only [if_neg h]
    cases t <;> cases l <;> simp_all

/-- C147.  Saving a wave changes at most the time and the total length, each only if asked to. -/
theorem swav_changes (w : SWAV) (t l : Bool) :
    (saveSWAV w t l).2 = { w with time := (saveSWAV w t l).2.time, totalLength := (saveSWAV w t l).2.totalLength } ∧
    (t = false → (saveSWAV w t l).2.time = w.time) ∧ (l = false → (saveSWAV w t l).2.totalLength = w.totalLength) := by
  unfold saveSWAV
  by_cases h : t = true ∧ w.sampleRate = 0
  · simp only [if_pos h]; simp
  · simp only [if_neg h]
    cases t <;> cases l <;> simp

/-- C147.  Saving a stream again gives the same bytes, or raises the same, and changes nothing more. -/
theorem strm_twice (s : STRM) (t : Bool) : saveSTRM (saveSTRM s t).2 t = saveSTRM s t := by
  unfold saveSTRM
  generalize hg : (do
    let _ ← blockShape s.channels
    let wave := waveData (zipAll s.channels)
    let _ ← Model.Common.packStdHeader ⟨magicSTRM, 0xFEFF, 0x100, 0x68 + wave.length, 0x10, 2⟩
    return () : Py Unit) = g
  cases g with
  | error e => simp only [hg]
  | ok x =>
    cases t with
    | false => simp only [Bool.false_eq_true, if_false, hg]
    | true =>
      by_cases h0 : s.sampleRate = 0
      · simp only [if_true, if_pos h0, hg]
      · simp only [if_true, if_neg h0, hg]

/-- C147.  Saving a stream changes at most the time, and that only if asked to. -/
theorem strm_changes (s : STRM) (t : Bool) :
    (saveSTRM s t).2 = { s with time := (saveSTRM s t).2.time } ∧ (t = false → (saveSTRM s t).2 = s) := by
  unfold saveSTRM
  generalize (do
    let _ ← blockShape s.channels
    let wave := waveData (zipAll s.channels)
    let _ ← Model.Common.packStdHeader ⟨magicSTRM, 0xFEFF, 0x100, 0x68 + wave.length, 0x10, 2⟩
    return () : Py Unit) = g
  cases g with
  | error e => exact ⟨rfl, fun _ => rfl⟩
  | ok x =>
    cases t with
    | false => exact ⟨rfl, fun _ => rfl⟩
    | true =>
      by_cases h0 : s.sampleRate = 0
      · simp only [if_true, if_pos h0]; simp
      · simp only [if_true, if_neg h0]; simp

example : (saveSWAV ⟨0, true, 8000, 1, 3, 5, [1, 2, 3, 4, 5, 6, 7, 8, 9, 10, 11, 12, 13, 14, 15, 16]⟩ false true).2.totalLength = 4 := rfl

/-! ### Music -/

/-- The function with the events left behind is `musicSave` where it returns. -/
theorem saveMusic_eq (tracks : List (Nat × List Obj)) (f : Nat) :
    musicSave tracks f = (saveMusic tracks f).1.map fun _ => (saveMusic tracks f).2 := by
  unfold musicSave
  split
  · rename_i events
    cases events with
    | nil => rfl
    | cons o os =>
      obtain ⟨x, hx⟩ : ∃ x, (o :: os).getLast? = some x := ⟨_, List.getLast?_eq_some_getLast (by simp)⟩
      have e : saveMusic [(0, o :: os)] f = (.ok (), (o :: os) ++ if ended (o :: os) = true then [] else [(f, .endTrack)]) := by
        unfold saveMusic
        simp only [hx]
      rw [if_neg (by simp), e]
      rfl
  · rename_i hne
    have e : saveMusic tracks f = (.ok (), (f, .defineTracks ((sortBy (·.1) tracks).map (·.1))) ::
        (saveTracks (sortBy (·.1) tracks) (f + 1)).1 ++ (saveTracks (sortBy (·.1) tracks) (f + 1)).2) := by
      unfold saveMusic
      split
      · rename_i ev
        exact absurd rfl (hne ev)
      · rfl
    rw [e]
    rfl

theorem saveTracks_values : ∀ (l : List (Nat × List Obj)) (f f' : Nat),
    (saveTracks l f).1.map (·.2) = (saveTracks l f').1.map (·.2) ∧ (saveTracks l f).2.map (·.2) = (saveTracks l f').2.map (·.2)
  | [], _, _ => ⟨rfl, rfl⟩
  | (n, events) :: ts, f, f' => by
    unfold saveTracks
    by_cases he : events = []
    · rw [if_pos he, if_pos he]
      exact saveTracks_values ts f f'
    · rw [if_neg he, if_neg he]
      obtain ⟨h1, h2⟩ := saveTracks_values ts (f + 2) (f' + 2)
      dsimp only
      simp only [List.map_append, h1, h2]
      refine ⟨?_, ?_⟩
      · congr 1
        by_cases hn : n ≠ 0
        · rw [if_pos hn, if_pos hn]; cases events.head? <;> rfl
        · rw [if_neg hn, if_neg hn]
      · congr 2
        by_cases hd : ended events = true
        · rw [if_pos hd, if_pos hd]
        · rw [if_neg hd, if_neg hd]; rfl

/-- C147.  Saving a song again gives the same events in the same order, beginning tracks at the same events, or raises the same
(the events that `save()` creates are new objects each time). -/
theorem music_twice (tracks : List (Nat × List Obj)) (f f' : Nat) :
    (saveMusic tracks f).1 = (saveMusic tracks f').1 ∧
    (saveMusic tracks f).2.map (·.2) = (saveMusic tracks f').2.map (·.2) := by
  unfold saveMusic
  split
  · split
    · exact ⟨rfl, rfl⟩
    · refine ⟨rfl, ?_⟩
      rename_i events _ _ _
      simp only [List.map_append]
      congr 1
      by_cases hd : ended events = true
      · rw [if_pos hd, if_pos hd]
      · rw [if_neg hd, if_neg hd]; rfl
  · refine ⟨rfl, ?_⟩
    obtain ⟨h1, h2⟩ := saveTracks_values (sortBy (·.1) tracks) (f + 1) (f' + 1)
    simp only [List.map_append, List.map_cons, h1, h2]

/-- C147.  Saving a song raises just if its only track is track 0 and empty; the sequence has no events then. -/
theorem music_raises {tracks : List (Nat × List Obj)} {f : Nat} {e : PyErr} {l : List Obj} :
    saveMusic tracks f = (.error e, l) ↔ tracks = [(0, [])] ∧ e = .indexError ∧ l = [] := by
  unfold saveMusic
  split
  · rename_i events
    cases hl : events.getLast? with
    | none =>
      rw [List.getLast?_eq_none_iff] at hl
      subst hl
      simp only [Prod.mk.injEq, Except.error.injEq, true_and]
      exact ⟨fun h => ⟨h.1.symm, h.2.symm⟩, fun h => ⟨h.1.symm, h.2.symm⟩⟩
    | some x =>
      constructor
      · intro h; cases h
      · rintro ⟨h, _⟩
        simp only [List.cons.injEq, Prod.mk.injEq, true_and, and_true] at h
        rw [h] at hl
        cases hl
  · rename_i hne
    constructor
    · intro h; cases h
    · rintro ⟨h, _⟩
      exact absurd h (hne [])

example : saveMusic [(3, [(4, .rest 5)]), (0, [(1, .tempo 120)])] 10 = (.ok (), [(10, .defineTracks [0, 3]), (13, .beginTrack 3 4),
    (1, .tempo 120), (12, .endTrack), (4, .rest 5), (14, .endTrack)]) := by decide +kernel

/-! ### Saving that raises -/

/-- C147.  The statement that a call of `save()` which raises leaves the object as it was is false for each of these classes. -/
theorem not_save_atomic :
    (∃ ov c e, (saveOverlay ov c).1 = .error e ∧ (saveOverlay ov c).2 ≠ ov) ∧
    (∃ w e, (saveSWAV w false true).1 = .error e ∧ (saveSWAV w false true).2 ≠ w ∧ (∃ b, (saveSWAV w false false).1 = .ok b) ∧
      ∃ e', (saveSWAV (saveSWAV w false true).2 false false).1 = .error e') ∧
    (∃ r e, (saveRom r true).1 = .error e ∧ (saveRom r true).2 ≠ r) := by
  refine ⟨⟨⟨List.replicate 14 65, 0x2000000, 100, 0, 0, 0, 3, 100, 1⟩, true, .structError, by decide +kernel⟩,
    ⟨⟨0, true, 8000, 2094, 3, 5, [1, 2, 3, 4]⟩, .valueError, rfl, by decide +kernel, ⟨_, rfl⟩, .valueError, rfl⟩, ?_⟩
  obtain ⟨-, -, b, r0, h⟩ := Props.Rom.sample_ok
  obtain ⟨h1, h2⟩ := rom_spoiled _ r0 b h (Props.Rom.sample_small h)
  refine ⟨Props.Rom.sample, _, h1, fun he => ?_⟩
  have := h2 false
  rw [he, h] at this
  cases this

end Verif.Props.SaveTwice
