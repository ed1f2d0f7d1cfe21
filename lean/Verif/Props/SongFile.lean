import Verif.Proofs.SongFile
import Verif.Props.SequenceRead

/-! # A song comes back from its file (C149) -/

namespace Verif.Props.SongFile

open Verif Verif.Model.SoundSequence Verif.Model.Music Verif.Spec.Sequence Verif.Spec.SongFile Verif.Proofs.SongFile
open Verif.Props.MusicTracks (withoutEnd)

/-- What is read from the data of a song. -/
theorem song_data {σ : Type} {tracks : List (Nat × List Obj)} {f depth : Nat} (s : σ) (hp : Playable tracks)
    (hf : ∀ t ∈ tracks, ∀ o ∈ t.2, o.1 < f) (hd : references tracks + tracks.length ≤ depth) {events : List Obj}
    (hs : musicSave tracks f = .ok events) {data : Bytes} (hdata : saveSequenceEvents events [] = .ok (data, [])) :
    ∃ g again, readSequenceEvents depth data [] = .ok (again, []) ∧
      (∀ x y, Named tracks x → Named tracks y → g x = g y → x = y) ∧
      musicInit again (some s) = .ok ((sortBy (·.1) tracks).map fun t => (t.1, (withoutEnd t.2).map (ren g))) := by
  have hperm := sortBy_perm (fun t : Nat × List Obj => t.1) tracks
  have hr := readable hp.nonempty hp.numbers.1 hp.linear hp.numbers.2 hs
  have hn := MusicTracks.song_ids tracks events f hp.objects hf hs
  have hread := SequenceRead.save_read_complete events [] data [] hn hr.inRange hr.fixed hr.straight hr.nonempty hdata
    hr.reached depth (Nat.le_trans hr.count hd)
  have hsv := (Sequence.sequence_save_iff events [] ⟨hn, fun e he => .inl (hr.inRange e he)⟩).1 ⟨_, hdata⟩
  have hpos : ∀ o ∈ events, 0 < declared o.2 := fun o ho => Proofs.SeqSave.evBytes_pos id (hr.inRange o ho)
  have hknown : ∀ p ∈ events, ∀ x ∈ refs p.2, ∃ q, position events x = some q := fun p hp x hx => by
    obtain ⟨q, hq, _⟩ := hsv.1 p hp x hx
    exact ⟨q, hq⟩
  have hnamed : ∀ x, Named tracks x → ∃ q, position events x = some q := by
    rintro x ⟨t, ht, o, ho, rfl | hx⟩
    · exact position_mem (List.mem_map_of_mem (hr.keeps t ht o ho))
    · exact hknown o (hr.keeps t ht o ho) x hx
  refine ⟨offsetIn events, renamed events, hread, fun x y hx hy => offsetIn_inj hpos (hnamed x hx) (hnamed y hy), ?_⟩
  · obtain ⟨events', h1, h2⟩ := MusicTracks.music_roundtrip_partial (f := f) s hp.nonempty hp.numbers.1
      (fun t ht => (hp.linear t ht).nonempty) (by
        rw [((hperm.flatMap_right _).map _).nodup_iff]
        exact hp.objects) hf (by
        intro c hc
        have hso := sortBy_sorted (fun t : Nat × List Obj => t.1) tracks
        revert hc hso
        have hm : ∀ t, t ∈ sortBy (·.1) tracks ↔ t ∈ tracks := fun t => hperm.mem_iff
        generalize sortBy (fun t : Nat × List Obj => t.1) tracks = l at hm
        intro hc hso
        cases l with
        | nil => cases hc
        | cons t l =>
          have ht := (hm t).1 (by simp)
          refine hp.first t ht ?_ c ?_
          · intro u hu
            rcases List.mem_cons.1 ((hm u).2 hu) with rfl | hu
            · exact Nat.le_refl _
            · exact (List.pairwise_cons.1 hso).1 u hu
          · rw [List.flatMap_cons, List.head?_append] at hc
            cases h : t.2 with
            | nil => exact absurd h (hp.linear t ht).nonempty
            | cons o os => rw [h] at hc; exact hc)
    rw [hs] at h1
    cases h1
    have := musicInit_ren (g := offsetIn events) s (events := events) fun o ho p hpe x hx =>
      offsetIn_inj hpos (position_mem (List.mem_map_of_mem ho)) (hknown p hpe x hx)
    rw [h2] at this
    rw [show renamed events = events.map (ren (offsetIn events)) from rfl, this]
    show Except.ok (List.map _ (List.map _ _)) = _
    rw [List.map_map]
    rfl

/-- **C149.** A song that is saved as an SSEQ file and opened from the file again has the same tracks with the same events, in
the order of the track numbers; only the event objects are others: the object that stands for the object `x` of the song is
`g x`, different ones for different ones, and jumps go to the corresponding objects.  This needs tracks that are played
from beginning to end (`Playable`), see `song_file_dead` for what else happens, and a recursion limit that is large enough
for the events that refer to others. -/
theorem song_file {σ : Type} {tracks : List (Nat × List Obj)} {f depth : Nat} (s : σ) (hp : Playable tracks)
    (hf : ∀ t ∈ tracks, ∀ o ∈ t.2, o.1 < f) (hd : references tracks + tracks.length ≤ depth) {events : List Obj}
    (hs : musicSave tracks f = .ok events) {b : Bytes} (hb : SSEQ.save (.parsed events) = .ok b) (extra : Bytes) :
    ∃ g loaded again, SSEQ.load (b ++ extra) = .ok loaded ∧ SSEQ.parse depth loaded = .ok (.parsed again) ∧
      (∀ x y, Named tracks x → Named tracks y → g x = g y → x = y) ∧
      musicInit again (some s) = .ok ((sortBy (·.1) tracks).map fun t => (t.1, (withoutEnd t.2).map (ren g))) := by
  obtain ⟨data, hdata, hload⟩ := Sequence.sseq_parsed_save events b extra hb
  obtain ⟨g, again, h1, h2, h3⟩ := song_data s hp hf hd hs hdata
  refine ⟨g, _, again, hload, ?_, h2, h3⟩
  show (readSequenceEvents depth data []).bind _ = _
  rw [h1]
  rfl

/-- **C149.** Such a song can be saved, if its events refer to events of the song only and it is not too long. -/
theorem song_file_saves {tracks : List (Nat × List Obj)} {f : Nat} (hp : Playable tracks)
    (hf : ∀ t ∈ tracks, ∀ o ∈ t.2, o.1 < f)
    (hr : ∀ t ∈ tracks, ∀ o ∈ t.2, ∀ x ∈ refs o.2, ∃ t ∈ tracks, x ∈ t.2.map (·.1))
    (hlen : total (tracks.flatMap (·.2)) + 6 * tracks.length + 3 ≤ 2 ^ 24) :
    ∃ events b, musicSave tracks f = .ok events ∧ SSEQ.save (.parsed events) = .ok b := by
  obtain ⟨events, hs⟩ : ∃ events, musicSave tracks f = .ok events := by
    rcases MusicTracks.song_saves tracks f with ⟨_, h⟩ | ⟨_, h⟩
    · exact absurd rfl (hp.linear (0, []) (by rw [h]; simp)).nonempty
    · exact h
  have hR := readable hp.nonempty hp.numbers.1 hp.linear hp.numbers.2 hs
  have hn := MusicTracks.song_ids tracks events f hp.objects hf hs
  obtain ⟨ht, href⟩ := extent (fun t ht => (hp.linear t ht).nonempty) hr hs
  have hpos : ∀ o ∈ events, 0 < declared o.2 := fun o ho => Proofs.SeqSave.evBytes_pos id (hR.inRange o ho)
  have hP : Sequence.Proper events := ⟨hn, fun e he => .inl (hR.inRange e he)⟩
  obtain ⟨⟨data, noffs⟩, hdata⟩ := (Sequence.sequence_save_iff events [] hP).2 ⟨by
    intro o ho x hx
    obtain ⟨t, ht', hx⟩ := href o ho x hx
    obtain ⟨p, hp', rfl⟩ := List.mem_map.1 hx
    have hm := hR.keeps t ht' p hp'
    obtain ⟨q, hq⟩ := position_mem (List.mem_map_of_mem hm)
    refine ⟨q, hq, ?_⟩
    obtain ⟨pre, e, post, he, rfl⟩ := Proofs.SeqSave.position_inv hq
    have h0 := hpos (p.1, e) (by rw [he]; simp)
    rw [he, Proofs.SeqSave.total_append, Proofs.SeqSave.total_cons] at ht
    dsimp only at h0 ht
    omega, fun _ h => nomatch h⟩
  obtain ⟨bs, _, hfl, hbs⟩ := (Sequence.sequence_layout events [] data noffs hP hR.fixed hdata).1
  have hdl : data.length = total events := by
    rw [hfl, List.length_flatten, hbs]
    rfl
  obtain ⟨b, hb, _⟩ := (Sequence.sseq_roundtrip data).1 (by omega)
  refine ⟨events, b, hs, ?_⟩
  rw [← hb]
  have hD : (SSEQ.parsed events).data = .ok data := by
    show (saveSequenceEvents events []).bind _ = _
    rw [hdata]
    rfl
  unfold SSEQ.save
  rw [hD]
  rfl

/-- The song of C71, with a recursion limit of 3, comes back from its file. -/
example : ∃ b again, musicSave MusicTracks.song 10 = .ok [(10, .defineTracks [0, 3]), (13, .beginTrack 3 4), (1, .tempo 120),
      (2, .note 60 100 false 4), (12, .endTrack), (4, .rest 5), (5, .jump 4)] ∧
    SSEQ.save (.parsed [(10, .defineTracks [0, 3]), (13, .beginTrack 3 4), (1, .tempo 120),
      (2, .note 60 100 false 4), (12, .endTrack), (4, .rest 5), (5, .jump 4)]) = .ok b ∧
    (SSEQ.load b >>= SSEQ.parse 3) = .ok (.parsed again) ∧
    musicInit again (some ()) = .ok [(0, [(8, .tempo 120), (11, .note 60 100 false 4)]), (3, [(15, .rest 5), (17, .jump 15)])] :=
  ⟨_, _, by decide +kernel, by rfl, by rfl, by decide +kernel⟩

example : Playable MusicTracks.song ∧ references MusicTracks.song + MusicTracks.song.length ≤ 3 ∧
    (∀ t ∈ MusicTracks.song, ∀ o ∈ t.2, ∀ x ∈ refs o.2, ∃ t ∈ MusicTracks.song, x ∈ t.2.map (·.1)) ∧
    total (MusicTracks.song.flatMap (·.2)) + 6 * MusicTracks.song.length + 3 ≤ 2 ^ 24 := by
  refine ⟨⟨by decide, by decide, by decide, ?_, ?_⟩, by decide, by decide, by decide⟩
  · intro t ht
    simp only [MusicTracks.song, List.mem_cons, List.not_mem_nil, or_false] at ht
    rcases ht with rfl | rfl
    all_goals
      refine ⟨by decide, ?_, by decide, ?_, ?_⟩
      · intro o ho
        simp only [List.mem_cons, List.not_mem_nil, or_false] at ho
        rcases ho with rfl | rfl <;> simp [InRange]
      · intro o ho
        simp only [List.mem_cons, List.not_mem_nil, or_false] at ho
        rcases ho with rfl | rfl <;> simp
      · intro pre e post he hpost
        match pre, post, he, hpost with
        | [], [_], he, _ => cases he; rfl
        | _ :: [], q :: qs, he, _ => simp at he
        | _ :: _ :: [], _, he, _ => simp at he
        | _ :: _ :: _ :: _, _, he, _ => simp at he
        | [], _ :: _ :: _, he, _ => simp at he
  · intro t ht h c hc
    simp only [MusicTracks.song, List.mem_cons, List.not_mem_nil, or_false] at ht
    rcases ht with rfl | rfl
    · exact absurd (h (0, [(1, .tempo 120), (2, .note 60 100 false 4)]) (by simp [MusicTracks.song])) (by simp)
    · cases hc
      exact ⟨fun _ _ => nofun, fun _ => nofun⟩

/-- **C149.** What else happens: events after a jump are nowhere played, and come back as raw data instead of events, even
though the song is saved without complaint.  (Looping a track without clearing what follows leaves such events.) -/
theorem song_file_dead : ∃ events b again,
    musicSave [(0, [(1, .rest 5), (2, .jump 1), (3, .note 60 100 false 4)])] 10 = .ok events ∧
    SSEQ.save (.parsed events) = .ok b ∧ (SSEQ.load b >>= SSEQ.parse 1000) = .ok (.parsed again) ∧
    musicInit again (some ()) = .ok [(0, [(0, .rest 5), (2, .jump 0), (6, .raw [60, 100, 4, 255])])] :=
  ⟨_, _, _, by rfl, by rfl, by rfl, by decide +kernel⟩

end Verif.Props.SongFile
