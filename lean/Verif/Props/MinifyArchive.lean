import Verif.Proofs.MinifyArchive
import Verif.Props.MusicPlay

/-! # Minified music in a sound archive sounds the same when it is loaded (C151) -/

namespace Verif.Props.MinifyArchive

open Verif Verif.Model.SoundSequence Verif.Model.SoundBank Verif.Model.Music Verif.Model.MusicSong
open Verif.Model.SequenceObject Verif.Model.SoundArchive Verif.Model.SoundArchiveObject
open Verif.Spec.Sequence Verif.Spec.Music Verif.Spec.MusicPlay Verif.Spec.MinifyArchive Verif.Spec.SoundArchiveObject
open Verif.Proofs.MinifyArchive Verif.Proofs.MusicMinify Verif.Proofs.MusicPlay Verif.Props.MusicPlay
open Verif.Props.SoundArchiveObject (Readable archive_objects)
open Verif.Proofs.SongFile (offsetIn_inj position_mem)

theorem gather_parsed {depth : Nat} : ∀ {os : List SSEQObj} {g : List Obj × List SSEQObj}, gatherEvents depth os = .ok g →
    ∀ o ∈ os, (o.parse depth).2.parsed = true
  | [], _, _, o, ho => nomatch ho
  | x :: os, g, h, o, ho => by
    unfold gatherEvents at h
    simp only [bind_eq_ok, pure_eq_ok] at h
    obtain ⟨_, h1, es, h2, r, h3, rfl⟩ := h
    rcases List.mem_cons.1 ho with rfl | ho
    · unfold SSEQObj.getEvents at h2
      split at h2
      · cases h2
      · next hp => simpa using hp
    · exact gather_parsed h3 o ho

/-- What becomes of each of the sequences that are minified. -/
theorem minified_sseq {W : Type} {depth : Nat} {sseqs sseqs' : List SSEQObj} {insts insts' : List (Option Inst)}
    {swars swars' : List (List W)} (h : minifyBySseqs depth sseqs insts (some swars) = .ok (sseqs', insts', swars'))
    {i : Nat} {o : SSEQObj} (hi : sseqs[i]? = some o) :
    ∃ used : List Nat, used.Pairwise (· < ·) ∧
      (∀ p ∈ (o.parse depth).2.events, ∀ n, switchedTo p.2 = some n → n ∈ used) ∧
      ∃ o', sseqs'[i]? = some o' ∧ o'.parsed = true ∧ o'.events = renE used (o.parse depth).2.events := by
  unfold minifyBySseqs at h
  simp only [bind_eq_ok, pure_eq_ok, Prod.mk.injEq] at h
  obtain ⟨g, hg, ⟨ev, ins, sw⟩, hr, rfl, rfl, rfl⟩ := h
  obtain ⟨g1, g2⟩ := gather_spec depth sseqs g hg
  have hgi : g.2[i]? = some (o.parse depth).2 := by rw [g1, List.getElem?_map, hi]; rfl
  have hsplit := g2.trans (flatMap_split (fun o : SSEQObj => o.events) _ _ _ hgi)
  obtain ⟨_, hs, hm⟩ := usedInsts_spec g.1
  refine ⟨usedInsts g.1, hs, ?_, _, share_get g.2 ev i _ hgi, gather_parsed hg o (List.mem_of_getElem? hi), ?_⟩
  · intro p hp n hn
    rw [hm, List.mem_filterMap]
    exact ⟨p.2, List.mem_map.2 ⟨p, by rw [hsplit]; simp [hp], rfl⟩, hn⟩
  · obtain ⟨_, _, _, _, rfl, _⟩ := minify_inv hr
    have := chunk (used := usedInsts g.1) ((g.2.take i).flatMap (·.events)) (o.parse depth).2.events
      ((g.2.drop (i + 1)).flatMap (·.events))
    rw [← hsplit] at this
    exact this

/-- **C151.** Sequences of a sound archive are minified together with their bank and its wave archives, and the archive is
saved.  When it is loaded again, the sequence and the bank are at the same places under the same names, and the events
that are read from the sequence play, with the instruments and waves of the loaded archive, exactly the sounds that the
sequence played at first.  (The conditions are those of C126 for the playing, of C58 for the events and of C117 for the
archive; `wavesOf` are the waves of the wave archives that the bank refers to.) -/
theorem minified_archive {depth depth' : Nat} {sseqs sseqs' : List SSEQObj} {insts insts' : List (Option Inst)}
    {swars swars' : List (List Model.SoundWave.SWAV)} {k : Nat} {i p q : Nat} {o : SSEQObj} {a : Archive} {n m : Symbol}
    {x : Seq} {b : Bank} {d : Bytes} (choose : List Nat → Nat)
    (h : minifyBySseqs depth sseqs insts (some swars) = .ok (sseqs', insts', swars'))
    (hk : ∀ o ∈ sseqs, OneArchive k ((o.parse depth).2.events.map (·.2)) insts)
    (hp : ∀ o ∈ sseqs, MidiNotes ((o.parse depth).2.events.map (·.2)))
    (hi : sseqs[i]? = some o) (ho : Orderly (o.parse depth).2.events) (hb : ReadsBack (o.parse depth).2.events)
    (hd : ((o.parse depth).2.events.filter fun e => !(refs e.2).isEmpty).length ≤ depth')
    (hx : a.sequences[p]? = some (n, some x)) (hxo : sseqs'[i]? = some x.obj)
    (hq : a.banks[q]? = some (m, some b)) (hbi : b.obj.instruments = insts') (hbw : wavesOf a b = swars')
    (hr : Readable a) (hs : a.save = .ok d) :
    ∃ t y c again, Archive.load choose d = .ok t ∧ t.sequences[p]? = some (n, some y) ∧ t.banks[q]? = some (m, some c) ∧
      (y.obj.parse depth').1 = .ok () ∧ (y.obj.parse depth').2.getEvents = .ok again ∧
      PlaysSame (o.parse depth).2.events insts swars again c.obj.instruments (wavesOf t c) := by
  obtain ⟨t, ht, hback⟩ := archive_objects choose hs hr
  obtain ⟨y, hy, hxy⟩ := SongArchive.slots_get hback.sequences hx
  obtain ⟨c, hc, hbc⟩ := SongArchive.slots_get hback.banks hq
  obtain ⟨used, hu, hm, o', ho', hpar, hev⟩ := minified_sseq h hi
  obtain ⟨o'', ho'', hplay⟩ := sseqs_orderly h k hk hp i o hi ho
  rw [hxo] at ho' ho''
  cases ho'
  cases ho''
  obtain ⟨data, offs, hdata, hyd⟩ := hxy.written hpar
  have hoffs : offs = [] := by
    unfold saveSequenceEvents at hdata
    simp only [bind_eq_ok, pure_eq_ok, Prod.mk.injEq] at hdata
    obtain ⟨_, _, _, _, _, hn, _, rfl⟩ := hdata
    cases hn; rfl
  subst hoffs
  have hrb : ReadsBack x.obj.events := by rw [hev]; exact readsBack_renE hu hm hb
  have hread := SequenceRead.save_read_complete x.obj.events [] data [] hrb.objects hrb.inRange hrb.fixed hrb.straight
    hrb.nonempty hdata hrb.played depth' (by rw [hev, count_renE]; exact hd)
  have hparse : y.obj.parse depth' = (.ok (), { y.obj with events := renamed x.obj.events, parsed := true }) := by
    unfold SSEQObj.parse
    rw [if_neg (by rw [hxy.parsed]; simp), hyd]
    dsimp only
    rw [hread, hyd]
  have hsv := (Sequence.sequence_save_iff x.obj.events [] ⟨hrb.objects, fun e he => .inl (hrb.inRange e he)⟩).1 ⟨_, hdata⟩
  have hpos : ∀ o ∈ x.obj.events, 0 < declared o.2 := fun o ho => Proofs.SeqSave.evBytes_pos id (hrb.inRange o ho)
  refine ⟨t, y, c, renamed x.obj.events, ht, hy, hc, by rw [hparse], by rw [hparse]; rfl, ?_⟩
  refine playsSame_moved (g := offsetIn x.obj.events) ?_ ?_ hplay
  · intro o ho r hr z hz
    obtain ⟨pz, hpz, _⟩ := hsv.1 r hr z hz
    exact offsetIn_inj hpos (position_mem (List.mem_map_of_mem ho)) ⟨pz, hpz⟩
  · intro n p
    refine sound_congr ?_ ?_ n p
    · rw [hbc.instruments, hbi]
    · intro j
      rw [← hbw]
      exact wavesOf_back hbc hback.waveArchives j

/-! ## Example -/

/-- A wave. -/
def wave (n : UInt8) : Model.SoundWave.SWAV := ⟨1, false, 32728, 512, 0, 1, [n, 2, 3, 4]⟩

/-- A track with two instruments that repeats its end. -/
def melody : List Obj :=
  MusicMinify.tune [.simple .trackVolume 100, .instrumentSwitch 0 3, .note 50 100 false 3, .rest 2, .instrumentSwitch 0 2,
    .note 62 90 false 1, .rest 4, .jump 5]

/-- The same after minifying. -/
def minified : List Obj :=
  MusicMinify.tune [.simple .trackVolume 100, .instrumentSwitch 0 1, .note 50 100 false 3, .rest 2, .instrumentSwitch 0 0,
    .note 62 90 false 1, .rest 4, .jump 5]

theorem melody_orderly : Orderly melody where
  fixed := (plain_clear (by decide)).1
  notes := by decide
  plain := by
    intro o ho
    simp [melody, MusicMinify.tune] at ho
    rcases ho with rfl | rfl | rfl | rfl | rfl | rfl | rfl | rfl <;> simp
  jumps := by
    intro i id d q e h1 h2
    rcases i with _ | _ | _ | _ | _ | _ | _ | _ | i <;> simp [melody, MusicMinify.tune] at h1
    obtain ⟨rfl, rfl⟩ := h1
    rcases q with _ | _ | _ | _ | _ | _ | _ | _ | q <;> simp [melody, MusicMinify.tune] at h2
    rfl
  ifs := by
    intro i id id' b n h1
    rcases i with _ | _ | _ | _ | _ | _ | _ | _ | i <;> simp [melody, MusicMinify.tune] at h1
  first := ⟨1, by omega, fun j _ h => by
    obtain rfl : j = 0 := by omega
    exact ⟨_, rfl, rfl, rfl, by simp⟩, _, rfl, .inl rfl⟩
  tracks := by
    intro i id t d q e h1
    rcases i with _ | _ | _ | _ | _ | _ | _ | _ | i <;> simp [melody, MusicMinify.tune] at h1

theorem melody_back : ReadsBack melody where
  objects := by decide
  inRange := by
    intro e he
    simp [melody, MusicMinify.tune] at he
    rcases he with rfl | rfl | rfl | rfl | rfl | rfl | rfl | rfl <;> simp [InRange, UByte]
  fixed := by decide
  straight := by
    refine ⟨?_, ?_⟩
    · intro e he
      simp [melody, MusicMinify.tune] at he
      rcases he with rfl | rfl | rfl | rfl | rfl | rfl | rfl | rfl <;> simp
    · intro pre e h
      have : melody.getLast? = some e := by rw [h]; simp
      cases this
      rfl
  nonempty := by decide
  played := by
    have h0 : Reached melody (startIds melody []) 0 := .start 0 (by decide)
    have h1 : Reached melody (startIds melody []) 1 := .next [] _ (0, _) (1, _) h0 rfl rfl
    have h2 : Reached melody (startIds melody []) 2 := .next (melody.take 1) _ (1, _) (2, _) h1 rfl rfl
    have h3 : Reached melody (startIds melody []) 3 := .next (melody.take 2) _ (2, _) (3, _) h2 rfl rfl
    have h4 : Reached melody (startIds melody []) 4 := .next (melody.take 3) _ (3, _) (4, _) h3 rfl rfl
    have h5 : Reached melody (startIds melody []) 5 := .next (melody.take 4) _ (4, _) (5, _) h4 rfl rfl
    have h6 : Reached melody (startIds melody []) 6 := .next (melody.take 5) _ (5, _) (6, _) h5 rfl rfl
    have h7 : Reached melody (startIds melody []) 7 := .next (melody.take 6) _ (6, _) (7, _) h6 rfl rfl
    intro e he
    simp [melody, MusicMinify.tune] at he
    rcases he with rfl | rfl | rfl | rfl | rfl | rfl | rfl | rfl <;> assumption

/-- The instruments after minifying. -/
def fewer : List (Option Inst) :=
  [some ⟨.range 60 [MusicMinify.pcm 0 1, MusicMinify.pcm 0 0, MusicMinify.pcm 0 1], 0, 0⟩,
    some ⟨.regional [(60, MusicMinify.pcm 0 0), (127, MusicMinify.pcm 0 1)], 0, 0⟩]

/-- The sound archive after minifying: the sequence, its bank, and a wave archive of which two waves are left. -/
def music : Archive :=
  { SoundArchiveObject.exObjects with
    sequences := [(some [0x41], some ⟨⟨minified, none, true⟩, 0, 0, 0, 100, 64, 50, 1⟩)]
    banks := [(some [0x42], some ⟨⟨0, [some 1], fewer, []⟩, 0⟩)]
    waveArchives := [(none, none), (some [0x43], some ⟨[wave 1, wave 3], 0, 0⟩)] }

theorem music_readable : Readable music where
  names := by
    intro n hn
    have h : ∀ x ∈ SoundArchiveObject.namesOf music, ∀ n ∈ x, 0 ∉ n := by decide +kernel
    exact h _ hn n rfl
  groups := SoundArchiveObject.exObjects_readable.groups
  banks := by
    intro n x h
    cases (List.mem_singleton.1 h)
    intro i hi
    simp only [fewer, List.mem_cons, Option.some.injEq, List.not_mem_nil, or_false] at hi
    rcases hi with rfl | rfl <;> simp [Spec.SoundBank.Loadable, MusicMinify.pcm]
  waves := by
    intro n x h
    simp only [music, List.mem_cons, List.not_mem_nil, or_false, Prod.mk.injEq, reduceCtorEq, and_false, false_or] at h
    obtain ⟨rfl, h⟩ := h
    cases h
    decide
  streams := SoundArchiveObject.exObjects_readable.streams

def waves8 : List Model.SoundWave.SWAV := [wave 1, wave 2, wave 3, wave 4, wave 5, wave 6, wave 7, wave 8]

theorem music_minified : minifyBySseqs 10 [⟨melody, none, true⟩] MusicMinify.bank (some [waves8]) =
    .ok ([⟨minified, none, true⟩], fewer, [[wave 1, wave 3]]) := by decide +kernel

example : ∃ d, music.save = .ok d ∧ ∃ t y c again, Archive.load (fun _ => 0) d = .ok t ∧
    t.sequences[0]? = some (some [0x41], some y) ∧ t.banks[0]? = some (some [0x42], some c) ∧
    (y.obj.parse 1).1 = .ok () ∧ (y.obj.parse 1).2.getEvents = .ok again ∧
    PlaysSame melody MusicMinify.bank [waves8] again c.obj.instruments (wavesOf t c) := by
  have hs : music.save.toBool = true := by decide +kernel
  cases h : music.save with
  | error e => rw [h] at hs; cases hs
  | ok d =>
    refine ⟨d, rfl, ?_⟩
    exact minified_archive (k := 0) (i := 0) (p := 0) (q := 0) (o := ⟨melody, none, true⟩) (fun _ => 0) music_minified
      (by intro o ho; cases List.mem_singleton.1 ho; exact bank_archive _ (by decide))
      (by intro o ho; cases List.mem_singleton.1 ho; exact plain_midi (by decide)) rfl melody_orderly melody_back
      (by decide) rfl rfl rfl rfl rfl music_readable h

end Verif.Props.MinifyArchive
