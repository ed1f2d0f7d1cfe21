import Verif.Props.SongFile
import Verif.Props.SoundArchiveObject
import Verif.Props.Nested

/-! # A song of a sound archive inside a ROM is changed, and nothing else (C150) -/

namespace Verif.Props.SongArchive

open Verif Verif.Model.SoundSequence Verif.Model.Music Verif.Model.SoundArchive Verif.Model.SoundArchiveObject
open Verif.Spec.Sequence Verif.Spec.SongFile Verif.Spec.SoundArchiveObject Verif.Props.SoundArchiveObject
open Verif.Props.MusicTracks (withoutEnd)

/-- The archive after the events of sequence `i` were assigned, as `SSEQMusic.save()` does it with the sequence it was made
from. -/
def withEvents (o : Archive) (i : Nat) (events : List Obj) : Archive :=
  { o with sequences := o.sequences.modify i fun p => (p.1, p.2.map fun x => { x with obj := { x.obj with events := events } }) }

theorem slots_get {α β : Type} {R : α → β → Prop} {l : List (Symbol × Option α)} {l' : List (Symbol × Option β)}
    (h : Slots R l l') : ∀ {i : Nat} {n : Symbol} {a : α}, l[i]? = some (n, some a) → ∃ b, l'[i]? = some (n, some b) ∧ R a b := by
  induction h with
  | nil => intro i n a h; simp at h
  | empty _ ih =>
    intro i n a h
    cases i with
    | zero => simp at h
    | succ i => exact ih (by simpa using h)
  | @item m a' b l l' hab _ ih =>
    intro i n a h
    cases i with
    | zero =>
      simp only [List.getElem?_cons_zero, Option.some.injEq, Prod.mk.injEq] at h
      obtain ⟨rfl, rfl⟩ := h
      exact ⟨b, rfl, hab⟩
    | succ i => exact ih (by simpa using h)

theorem slots_none {α β : Type} {R : α → β → Prop} {l : List (Symbol × Option α)} {l' : List (Symbol × Option β)}
    (h : Slots R l l') : ∀ {i : Nat} {n : Symbol}, l[i]? = some (n, none) → l'[i]? = some (n, none) := by
  induction h with
  | nil => intro i n h; simp at h
  | empty _ ih =>
    intro i n h
    cases i with
    | zero => simpa using h
    | succ i => exact ih (by simpa using h)
  | item _ _ ih =>
    intro i n h
    cases i with
    | zero => simp at h
    | succ i => exact ih (by simpa using h)

theorem readable_withEvents {o : Archive} (h : Readable o) (i : Nat) (events : List Obj) : Readable (withEvents o i events) := by
  refine ⟨?_, h.groups, h.banks, h.waves, h.streams⟩
  have : namesOf (withEvents o i events) = namesOf o := by
    have he : (withEvents o i events).sequences.map Prod.fst = o.sequences.map Prod.fst := by
      apply List.ext_getElem?
      intro j
      simp only [withEvents, List.getElem?_map, List.getElem?_modify]
      split <;> cases o.sequences[j]? <;> rfl
    unfold namesOf
    rw [he]
    rfl
  rw [this]
  exact h.names

/-- **C150.** A song is taken from a sequence of a sound archive, changed in any way, saved, and the archive is written over
the file it came from, through any number of archives and ROMs.  Then the file that is read from the new ROM is a sound
archive which has, as that sequence, the song as it was saved, under the same name and with the same attributes; all
other sequences come back as they were, and so do all other items. -/
theorem song_in_rom {σ : Type} {o : Archive} {i : Nat} {name : Symbol} {x : Seq} {tracks : List (Nat × List Obj)}
    {f depth limit : Nat} {u : Bool} {path : List Spec.Nested.Layer} {d d' new : Bytes} {events : List Obj} (s : σ)
    (choose : List Nat → Nat) (h0 : 0 < limit) (hr : Readable o) (hi : o.sequences[i]? = some (name, some x))
    (hx : x.obj.parsed = true) (hp : Playable tracks) (hf : ∀ t ∈ tracks, ∀ o ∈ t.2, o.1 < f)
    (hd : references tracks + tracks.length ≤ depth) (hs : musicSave tracks f = .ok events)
    (hn : (withEvents o i events).save = .ok new) (hw : Spec.Nested.write limit u path d new = .ok d') :
    ∃ file t y, Spec.Nested.read limit path d' = .ok file ∧ Archive.load choose file = .ok t ∧
      t.sequences[i]? = some (name, some y) ∧
      (y.unk02, y.bankID, y.volume, y.channelPressure, y.polyphonicPressure, y.playerID) =
        (x.unk02, x.bankID, x.volume, x.channelPressure, x.polyphonicPressure, x.playerID) ∧
      (∃ g again, (y.obj.parse depth).1 = .ok () ∧ (y.obj.parse depth).2.getEvents = .ok again ∧
        (∀ a b, Named tracks a → Named tracks b → g a = g b → a = b) ∧
        musicInit again (some s) = .ok ((sortBy (·.1) tracks).map fun t => (t.1, (withoutEnd t.2).map (ren g)))) ∧
      (∀ j n z, j ≠ i → o.sequences[j]? = some (n, some z) → ∃ w, t.sequences[j]? = some (n, some w) ∧ SeqBack z w) ∧
      (∀ j n, j ≠ i → o.sequences[j]? = some (n, none) → t.sequences[j]? = some (n, none)) ∧
      Slots SsarBack o.sequenceArchives t.sequenceArchives ∧ Slots BankBack o.banks t.banks ∧
      Slots SwarBack o.waveArchives t.waveArchives ∧ Slots PlayerBack o.sequencePlayers t.sequencePlayers ∧
      t.groups = o.groups ∧ t.streamPlayers = o.streamPlayers ∧ Slots StrmBack o.streams t.streams := by
  obtain ⟨t, ht, hb⟩ := archive_objects choose hn (readable_withEvents hr i events)
  have hget : ∀ j, (withEvents o i events).sequences[j]? = (o.sequences[j]?).map fun p =>
      if i = j then (p.1, p.2.map fun x => { x with obj := { x.obj with events := events } }) else p := by
    intro j
    simp only [withEvents, List.getElem?_modify]
    split <;> cases o.sequences[j]? <;> rfl
  obtain ⟨y, hy, hxy⟩ := slots_get hb.sequences (i := i) (by rw [hget, hi, Option.map_some, if_pos rfl]; rfl)
  refine ⟨new, t, y, Nested.write_read h0 hw, ht, hy, ?_, ?_, ?_, ?_, hb.sequenceArchives, hb.banks, hb.waveArchives,
    hb.sequencePlayers, hb.groups, hb.streamPlayers, hb.streams⟩
  · rw [hxy.unk02, hxy.bankID, hxy.volume, hxy.channelPressure, hxy.polyphonicPressure, hxy.playerID]
  · obtain ⟨data, offs, hdata, hyd⟩ := hxy.written hx
    have hoffs : offs = [] := by
      unfold saveSequenceEvents at hdata
      simp only [bind_eq_ok, pure_eq_ok, Prod.mk.injEq] at hdata
      obtain ⟨_, _, _, _, _, hn, _, rfl⟩ := hdata
      cases hn; rfl
    subst hoffs
    obtain ⟨g, again, h1, h2, h3⟩ := SongFile.song_data s hp hf hd hs hdata
    have hparse : y.obj.parse depth = (.ok (), { y.obj with events := again, parsed := true }) := by
      unfold Model.SequenceObject.SSEQObj.parse
      rw [if_neg (by rw [hxy.parsed]; simp), hyd]
      dsimp only
      rw [h1, hyd]
    exact ⟨g, again, by rw [hparse], by rw [hparse]; rfl, h2, h3⟩
  · intro j n z hj hz
    exact slots_get hb.sequences (by rw [hget, hz, Option.map_some, if_neg (Ne.symm hj)])
  · intro j n hj hz
    exact slots_none hb.sequences (by rw [hget, hz, Option.map_some, if_neg (Ne.symm hj)])

/-- The song of C71 as the first sequence of the archive of C117, in a NARC with one other file. -/
example : (withEvents exObjects 0 [(10, .defineTracks [0, 3]), (13, .beginTrack 3 4), (1, .tempo 120),
      (2, .note 60 100 false 4), (12, .endTrack), (4, .rest 5), (5, .jump 4)]).save.toBool = true ∧
    (show Py (List (Nat × List Obj)) from do
      let d ← Model.Narc.save ⟨.mk .nil [[97], [98]] 0, [exData, [1, 2]], .little⟩
      let events ← musicSave MusicTracks.song 10
      let new ← (withEvents exObjects 0 events).save
      let d' ← Spec.Nested.write 1 false [.narc [97]] d new
      let file ← Spec.Nested.read 1 [.narc [97]] d'
      let t ← Archive.load (fun _ => 0) file
      let again ← ((t.sequences[0]?).bind (·.2)).elim (.error .indexError) fun y => (y.obj.parse 3).2.getEvents
      musicInit again (some ())) =
      .ok [(0, [(8, .tempo 120), (11, .note 60 100 false 4)]), (3, [(15, .rest 5), (17, .jump 15)])] := by
  decide +kernel

end Verif.Props.SongArchive
