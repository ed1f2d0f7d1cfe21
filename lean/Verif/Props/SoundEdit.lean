import Verif.Props.SongArchive
import Verif.Spec.SoundEdit

/-! # C164: the waves, instruments and streams of the sound archive of a game are changed, and nothing else -/

namespace Verif.Props.SoundEdit

open Verif Verif.Model.SoundArchive Verif.Model.SoundArchiveObject Verif.Spec.SoundArchiveObject Verif.Spec.SoundEdit
open Verif.Props.SoundArchiveObject Verif.Props.SongArchive

theorem get_changeItem {α : Type} (i : Nat) (g : α → α) (l : List (Symbol × Option α)) (j : Nat) :
    (changeItem i g l)[j]? = (l[j]?).map fun p => if i = j then (p.1, p.2.map g) else p := by
  simp only [changeItem, List.getElem?_modify]
  split <;> cases l[j]? <;> rfl

theorem names_changeItem {α : Type} (i : Nat) (g : α → α) (l : List (Symbol × Option α)) :
    (changeItem i g l).map Prod.fst = l.map Prod.fst := by
  apply List.ext_getElem?
  intro j
  rw [List.getElem?_map, get_changeItem, List.getElem?_map]
  cases l[j]? with
  | none => rfl
  | some p => dsimp only [Option.map_some]; split <;> rfl

/-- An item of the changed list is one of the old list or the changed one. -/
theorem mem_changeItem {α : Type} {i : Nat} {g : α → α} {l : List (Symbol × Option α)} {n : Symbol} {y : α}
    (h : (n, some y) ∈ changeItem i g l) : (n, some y) ∈ l ∨ ∃ x, l[i]? = some (n, some x) ∧ y = g x := by
  obtain ⟨j, hj⟩ := List.mem_iff_getElem?.1 h
  rw [get_changeItem] at hj
  obtain ⟨⟨m, x⟩, hp, he⟩ := Option.map_eq_some_iff.1 hj
  by_cases hi : i = j
  · rw [if_pos hi] at he
    subst hi
    cases x with
    | none => cases he
    | some x =>
      cases he
      exact .inr ⟨x, hp, rfl⟩
  · rw [if_neg hi] at he
    cases he
    exact .inl (List.mem_of_getElem? hp)

theorem slots_length {α β : Type} {R : α → β → Prop} {l : List (Symbol × Option α)} {l' : List (Symbol × Option β)}
    (h : Slots R l l') : l'.length = l.length := by
  induction h with
  | nil => rfl
  | empty _ ih => rw [List.length_cons, List.length_cons, ih]
  | item _ _ ih => rw [List.length_cons, List.length_cons, ih]

theorem changed_back {α β : Type} {R : α → β → Prop} {i : Nat} {g : α → α} {l : List (Symbol × Option α)}
    {l' : List (Symbol × Option β)} (h : Slots R (changeItem i g l) l') :
    OthersBack R i l l' ∧ ∀ n x, l[i]? = some (n, some x) → ∃ y, l'[i]? = some (n, some y) ∧ R (g x) y := by
  refine ⟨⟨by rw [slots_length h]; exact List.length_modify .., ?_, ?_⟩, ?_⟩
  · intro j n x hj hx
    exact slots_get h (by rw [get_changeItem, hx, Option.map_some, if_neg (Ne.symm hj)])
  · intro j n hj hx
    exact slots_none h (by rw [get_changeItem, hx, Option.map_some, if_neg (Ne.symm hj)])
  · intro n x hx
    exact slots_get h (by rw [get_changeItem, hx, Option.map_some, if_pos rfl]; rfl)

/-- **C164.** The waves of a wave archive are changed in any way, and the sound archive is written over the file it came
from, through any number of archives and ROMs.  Then the file that is read from the new ROM is a sound archive which has
these waves there, under the same name; every other wave archive has its waves, even if the two shared a file, and all
other items come back as they were. -/
theorem waves_in_rom {o : Archive} {i limit : Nat} {name : Symbol} {x : Swar} {waves : List Model.SoundWave.SWAV} {u : Bool}
    {path : List Spec.Nested.Layer} {d d' new : Bytes} (choose : List Nat → Nat) (h0 : 0 < limit) (hr : Readable o)
    (hi : o.waveArchives[i]? = some (name, some x)) (ht : ∀ w ∈ waves, w.waveType ≤ 2)
    (hn : (withWaves o i waves).save = .ok new) (hw : Spec.Nested.write limit u path d new = .ok d') :
    ∃ file t y, Spec.Nested.read limit path d' = .ok file ∧ Archive.load choose file = .ok t ∧
      t.waveArchives[i]? = some (name, some y) ∧ y.waves = waves ∧ y.unk02 = x.unk02 ∧
      OthersBack SwarBack i o.waveArchives t.waveArchives ∧ Slots SeqBack o.sequences t.sequences ∧
      Slots SsarBack o.sequenceArchives t.sequenceArchives ∧ Slots BankBack o.banks t.banks ∧
      Slots PlayerBack o.sequencePlayers t.sequencePlayers ∧ t.groups = o.groups ∧ t.streamPlayers = o.streamPlayers ∧
      Slots StrmBack o.streams t.streams := by
  have hr' : Readable (withWaves o i waves) := by
    refine ⟨?_, hr.groups, hr.banks, ?_, hr.streams⟩
    · have : namesOf (withWaves o i waves) = namesOf o := by
        unfold namesOf withWaves
        dsimp only
        rw [names_changeItem]
      rw [this]
      exact hr.names
    · intro n y hy w hm
      rcases mem_changeItem hy with h | ⟨x, _, rfl⟩
      · exact hr.waves n y h w hm
      · exact ht w hm
  obtain ⟨t, hl, hb⟩ := archive_objects choose hn hr'
  obtain ⟨h1, h2⟩ := changed_back hb.waveArchives
  obtain ⟨y, hy, hxy⟩ := h2 name x hi
  exact ⟨new, t, y, Nested.write_read h0 hw, hl, hy, hxy.waves, hxy.unk02, h1, hb.sequences, hb.sequenceArchives, hb.banks,
    hb.sequencePlayers, hb.groups, hb.streamPlayers, hb.streams⟩

/-- **C164.** The same for the instruments of a bank. -/
theorem instruments_in_rom {o : Archive} {i limit : Nat} {name : Symbol} {x : Bank}
    {instruments : List (Option Model.SoundBank.Inst)} {u : Bool}
    {path : List Spec.Nested.Layer} {d d' new : Bytes} (choose : List Nat → Nat) (h0 : 0 < limit) (hr : Readable o)
    (hi : o.banks[i]? = some (name, some x)) (ht : ∀ k, some k ∈ instruments → Spec.SoundBank.Loadable k.kind)
    (hn : (withInstruments o i instruments).save = .ok new) (hw : Spec.Nested.write limit u path d new = .ok d') :
    ∃ file t y, Spec.Nested.read limit path d' = .ok file ∧ Archive.load choose file = .ok t ∧
      t.banks[i]? = some (name, some y) ∧
      y.obj.instruments.map (Option.map Model.SoundBank.Inst.kind) = instruments.map (Option.map Model.SoundBank.Inst.kind) ∧
      y.obj.unk02 = x.obj.unk02 ∧
      (∀ (k : Nat) (z : Int), y.obj.waveArchiveIDs[k]? = some (some z) ↔ x.obj.waveArchiveIDs[k]? = some (some z) ∧ z ≠ -1) ∧
      OthersBack BankBack i o.banks t.banks ∧ Slots SeqBack o.sequences t.sequences ∧
      Slots SsarBack o.sequenceArchives t.sequenceArchives ∧ Slots SwarBack o.waveArchives t.waveArchives ∧
      Slots PlayerBack o.sequencePlayers t.sequencePlayers ∧ t.groups = o.groups ∧ t.streamPlayers = o.streamPlayers ∧
      Slots StrmBack o.streams t.streams := by
  have hr' : Readable (withInstruments o i instruments) := by
    refine ⟨?_, hr.groups, ?_, hr.waves, hr.streams⟩
    · have : namesOf (withInstruments o i instruments) = namesOf o := by
        unfold namesOf withInstruments
        dsimp only
        rw [names_changeItem]
      rw [this]
      exact hr.names
    · intro n y hy k hm
      rcases mem_changeItem hy with h | ⟨x, _, rfl⟩
      · exact hr.banks n y h k hm
      · exact ht k hm
  obtain ⟨t, hl, hb⟩ := archive_objects choose hn hr'
  obtain ⟨h1, h2⟩ := changed_back hb.banks
  obtain ⟨y, hy, hxy⟩ := h2 name x hi
  exact ⟨new, t, y, Nested.write_read h0 hw, hl, hy, hxy.instruments, hxy.unk02, hxy.waveArchives, h1, hb.sequences,
    hb.sequenceArchives, hb.waveArchives, hb.sequencePlayers, hb.groups, hb.streamPlayers, hb.streams⟩

/-- **C164.** The same for a stream. -/
theorem stream_in_rom {o : Archive} {i limit : Nat} {name : Symbol} {x : Strm} {stream : Model.SoundStream.STRM} {u : Bool}
    {path : List Spec.Nested.Layer} {d d' new : Bytes} (choose : List Nat → Nat) (h0 : 0 < limit) (hr : Readable o)
    (hi : o.streams[i]? = some (name, some x)) (ht : stream.waveType ≤ 2)
    (hn : (withStream o i stream).save = .ok new) (hw : Spec.Nested.write limit u path d new = .ok d') :
    ∃ file t y, Spec.Nested.read limit path d' = .ok file ∧ Archive.load choose file = .ok t ∧
      t.streams[i]? = some (name, some y) ∧ y.obj = stream ∧
      (y.unk02, y.volume, y.priority, y.playerID, y.unk07) = (x.unk02, x.volume, x.priority, x.playerID, x.unk07) ∧
      OthersBack StrmBack i o.streams t.streams ∧ Slots SeqBack o.sequences t.sequences ∧
      Slots SsarBack o.sequenceArchives t.sequenceArchives ∧ Slots BankBack o.banks t.banks ∧
      Slots SwarBack o.waveArchives t.waveArchives ∧ Slots PlayerBack o.sequencePlayers t.sequencePlayers ∧
      t.groups = o.groups ∧ t.streamPlayers = o.streamPlayers := by
  have hr' : Readable (withStream o i stream) := by
    refine ⟨?_, hr.groups, hr.banks, hr.waves, ?_⟩
    · have : namesOf (withStream o i stream) = namesOf o := by
        unfold namesOf withStream
        dsimp only
        rw [names_changeItem]
      rw [this]
      exact hr.names
    · intro n y hy
      rcases mem_changeItem hy with h | ⟨x, _, rfl⟩
      · exact hr.streams n y h
      · exact ht
  obtain ⟨t, hl, hb⟩ := archive_objects choose hn hr'
  obtain ⟨h1, h2⟩ := changed_back hb.streams
  obtain ⟨y, hy, hxy⟩ := h2 name x hi
  exact ⟨new, t, y, Nested.write_read h0 hw, hl, hy, hxy.stream,
    by rw [hxy.unk02, hxy.volume, hxy.priority, hxy.playerID, hxy.unk07], h1, hb.sequences, hb.sequenceArchives, hb.banks,
    hb.waveArchives, hb.sequencePlayers, hb.groups, hb.streamPlayers⟩

/-! ## Examples -/

/-- Two wave archives with the same waves and the same merge ID, which share a file. -/
def shared : Archive := { exObjects with waveArchives :=
  [(none, some ⟨[⟨2, true, 32728, 512, 1, 2, [1, 2, 3, 4, 5, 6, 7, 8]⟩], 9, 0⟩),
   (none, some ⟨[⟨2, true, 32728, 512, 1, 2, [1, 2, 3, 4, 5, 6, 7, 8]⟩], 9, 0⟩)] }

/-- The waves of the second one are changed, in a NARC with one other file. -/
example : (show Py (List (List Model.SoundWave.SWAV)) from do
      let old ← shared.save
      let d ← Model.Narc.save ⟨.mk .nil [[97], [98]] 0, [old, [1, 2]], .little⟩
      let new ← (withWaves shared 1 [⟨0, false, 8000, 7, 1, 1, [9, 9, 9, 9, 8, 8, 8, 8]⟩,
        ⟨2, true, 32728, 512, 1, 2, [1, 2, 3, 4, 5, 6, 7, 8]⟩]).save
      let d' ← Spec.Nested.write 1 false [.narc [97]] d new
      let file ← Spec.Nested.read 1 [.narc [97]] d'
      let t ← Archive.load (fun _ => 0) file
      return t.waveArchives.map fun p => p.2.elim [] (·.waves)) =
    .ok [[⟨2, true, 32728, 512, 1, 2, [1, 2, 3, 4, 5, 6, 7, 8]⟩],
      [⟨0, false, 8000, 7, 1, 1, [9, 9, 9, 9, 8, 8, 8, 8]⟩, ⟨2, true, 32728, 512, 1, 2, [1, 2, 3, 4, 5, 6, 7, 8]⟩]] := by
  decide +kernel

/-- An instrument and the rate of a stream are changed. -/
example : Readable exObjects ∧ (withInstruments exObjects 0 [some ⟨.single ⟨8, 1, 61, 127, 127, 127, 127, 64, 1⟩, 0, 0⟩]).save.toBool = true ∧
    (withStream exObjects 0 { Props.SoundStream.exStream with sampleRate := 8000 }).save.toBool = true :=
  ⟨exObjects_readable, by decide +kernel, by decide +kernel⟩

end Verif.Props.SoundEdit
