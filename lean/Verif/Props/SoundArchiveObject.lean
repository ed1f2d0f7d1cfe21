import Verif.Proofs.SoundArchiveObject
import Verif.Props.SoundStream

/-!
# Sound archives with the objects in them (C117)
-/

namespace Verif.Props.SoundArchiveObject

open Verif Verif.Model.SoundArchive Verif.Model.SequenceObject Verif.Model.SoundArchiveObject Verif.Spec.SoundArchive
open Verif.Spec.SoundArchiveObject Verif.Props.SoundArchive Verif.Proofs.SoundArchiveObject

/-! ## Lists of items -/

theorem each_iff {α β : Type} {f : α → Py β} : ∀ {l : List (Symbol × Option α)} {l' : List (Symbol × Option β)},
    eachItem f l = .ok l' ↔ Slots (fun a b => f a = .ok b) l l'
  | [], l' => by
    constructor
    · intro h; cases h; exact .nil
    · intro h; cases h; rfl
  | (n, none) :: l, l' => by
    unfold eachItem
    rw [mapE]
    dsimp only
    rw [bind_ok]
    simp only [bind_eq_ok, pure_eq_ok]
    constructor
    · rintro ⟨r, hr, rfl⟩
      exact .empty (each_iff.1 hr)
    · intro h
      cases h with
      | empty h => exact ⟨_, each_iff.2 h, rfl⟩
  | (n, some x) :: l, l' => by
    unfold eachItem
    rw [mapE]
    dsimp only
    simp only [bind_eq_ok, pure_eq_ok]
    constructor
    · rintro ⟨_, ⟨y, hy, rfl⟩, r, hr, rfl⟩
      exact .item hy (each_iff.1 hr)
    · intro h
      cases h with
      | item h1 h2 => exact ⟨_, ⟨_, h1, rfl⟩, _, each_iff.2 h2, rfl⟩

/-- What is saved item by item and loaded item by item. -/
theorem each_back {α β γ δ : Type} {save : α → Py β} {load : γ → Py δ} {g : β → γ} {save' : δ → Py β} {r : β → β}
    {R : α → δ → Prop} {Q : Prop} {l : List (Symbol × Option α)} {l' : List (Symbol × Option β)}
    (h : eachItem save l = .ok l')
    (hg : ∀ n a b, (n, some a) ∈ l → (n, some b) ∈ l' → save a = .ok b →
      ∃ y, load (g b) = .ok y ∧ R a y ∧ (Q → save' y = .ok (r b))) :
    ∃ u, eachItem load (l'.map fun p => (p.1, p.2.map g)) = .ok u ∧ Slots R l u ∧
      (Q → eachItem save' u = .ok (l'.map fun p => (p.1, p.2.map r))) := by
  replace h := each_iff.1 h
  induction h with
  | nil => exact ⟨[], rfl, .nil, fun _ => rfl⟩
  | @empty n l l' h ih =>
    obtain ⟨u, h1, h2, h3⟩ := ih (fun n a b ha hb => hg n a b (by simp [ha]) (by simp [hb]))
    exact ⟨(n, none) :: u, each_iff.2 (.empty (each_iff.1 h1)), .empty h2,
      fun q => each_iff.2 (.empty (each_iff.1 (h3 q)))⟩
  | @item n a b l l' hab h ih =>
    obtain ⟨u, h1, h2, h3⟩ := ih (fun n a b ha hb => hg n a b (by simp [ha]) (by simp [hb]))
    obtain ⟨y, h4, h5, h6⟩ := hg n a b (by simp) (by simp) hab
    exact ⟨(n, some y) :: u, each_iff.2 (.item h4 (each_iff.1 h1)), .item h5 h2,
      fun q => each_iff.2 (.item (h6 q) (each_iff.1 (h3 q)))⟩

theorem each_names {α β : Type} {f : α → Py β} {l : List (Symbol × Option α)} {l' : List (Symbol × Option β)}
    (h : eachItem f l = .ok l') : l'.map Prod.fst = l.map Prod.fst := by
  replace h := each_iff.1 h
  induction h with
  | nil => rfl
  | empty h ih => simp [ih]
  | item _ h ih => simp [ih]

/-! ## What is needed -/

/-- All names in an archive. -/
def namesOf (o : Archive) : List Symbol :=
  o.sequences.map Prod.fst ++
    o.sequenceArchives.flatMap (fun p => p.1 :: (p.2.elim [] fun x => x.obj.sequences.map Prod.fst)) ++
    o.banks.map Prod.fst ++ o.waveArchives.map Prod.fst ++ o.sequencePlayers.map Prod.fst ++ o.groups.map Prod.fst ++
    o.streamPlayers.map Prod.fst ++ o.streams.map Prod.fst

/-- What loading relies on: no name has a NUL in it, groups have the known types and flags, waves have the known types,
and instruments of banks can be stored. -/
structure Readable (o : Archive) : Prop where
  names : ∀ n, some n ∈ namesOf o → 0 ∉ n
  groups : ∀ n g, (n, some g) ∈ o.groups → ∀ e ∈ g, e.type ≤ 3 ∧ e.loadSBNKSWARsFrom ≤ 1
  banks : ∀ n x, (n, some x) ∈ o.banks → ∀ i, some i ∈ x.obj.instruments → Spec.SoundBank.Loadable i.kind
  waves : ∀ n x, (n, some x) ∈ o.waveArchives → ∀ w ∈ x.waves, w.waveType ≤ 2
  streams : ∀ n x, (n, some x) ∈ o.streams → x.obj.waveType ≤ 2

/-- What comes back, apart from merge IDs and the settings of the archive. -/
structure ArchiveBack (o t : Archive) : Prop where
  sequences : Slots SeqBack o.sequences t.sequences
  sequenceArchives : Slots SsarBack o.sequenceArchives t.sequenceArchives
  banks : Slots BankBack o.banks t.banks
  waveArchives : Slots SwarBack o.waveArchives t.waveArchives
  sequencePlayers : Slots PlayerBack o.sequencePlayers t.sequencePlayers
  groups : t.groups = o.groups
  streamPlayers : t.streamPlayers = o.streamPlayers
  streams : Slots StrmBack o.streams t.streams

theorem items_ok {o : Archive} {s : SDAT} (h : o.items = .ok s) :
    eachItem Seq.save o.sequences = .ok s.sequences ∧ eachItem Ssar.save o.sequenceArchives = .ok s.sequenceArchives ∧
    eachItem Bank.save o.banks = .ok s.banks ∧ eachItem Swar.save o.waveArchives = .ok s.waveArchives ∧
    eachItem Strm.save o.streams = .ok s.streams ∧ s.sequencePlayers = o.sequencePlayers ∧ s.groups = o.groups ∧
    s.streamPlayers = o.streamPlayers ∧ s.fatLengthsIncludePadding = o.fatLengthsIncludePadding ∧
    s.firstFileAlignment = o.firstFileAlignment ∧ s.fileAlignment = o.fileAlignment ∧ s.padAtEnd = o.padAtEnd ∧
    s.padSymbSizeTo4InSDATHeader = o.padSymbSizeTo4InSDATHeader := by
  unfold Archive.items at h
  simp only [bind_eq_ok, pure_eq_ok] at h
  obtain ⟨a, h1, b, h2, c, h3, d, h4, e, h5, rfl⟩ := h
  exact ⟨h1, h2, h3, h4, h5, rfl, rfl, rfl, rfl, rfl, rfl, rfl, rfl⟩

theorem items_names {o : Archive} {s : SDAT} (h : o.items = .ok s) : namesIn s = namesOf o := by
  obtain ⟨h1, h2, h3, h4, h5, h6, h7, h8, _⟩ := items_ok h
  unfold namesIn namesOf
  rw [each_names h1, each_names h3, each_names h4, each_names h5, h6, h7, h8]
  congr 7
  generalize o.sequenceArchives = l, s.sequenceArchives = l' at h2
  replace h2 := each_iff.1 h2
  induction h2 with
  | nil => rfl
  | empty h ih =>
    rw [List.flatMap_cons, List.flatMap_cons, ih]
    rfl
  | item hab h ih =>
    rw [List.flatMap_cons, List.flatMap_cons, ih]
    congr 2
    unfold Ssar.save at hab
    simp only [bind_eq_ok, pure_eq_ok] at hab
    obtain ⟨⟨b, u, nm⟩, hb, rfl⟩ := hab
    exact (ssar_back hb).2.1

theorem fileRead_append {s : SDAT} {u : Bytes × Int} (hu : u ∈ usedFiles s) : ∃ extra, fileRead s u = u.1 ++ extra := by
  rw [archive_file_padding hu]
  split
  · exact ⟨_, rfl⟩
  · exact ⟨[], by simp⟩

/-- What an item of a loaded archive saves to, if its file is what the item before saved to. -/
def renewSeq (s : SDAT) (x : SeqItem) : SeqItem := { x with mergeID := (fileNumber s (x.file, x.mergeID) : Int) }
def renewSsar (s : SDAT) (x : SsarItem) : SsarItem := { x with mergeID := (fileNumber s (x.file, x.mergeID) : Int) }
def renewBank (s : SDAT) (x : BankItem) : BankItem := { x with
  mergeID := (fileNumber s (x.file, x.mergeID) : Int), waveArchiveIDs := Model.SoundBank.dropNones (fourSlots x.waveArchiveIDs) }
def renewSwar (s : SDAT) (x : SwarItem) : SwarItem := { x with mergeID := (fileNumber s (x.file, x.mergeID) : Int) }
def renewStrm (s : SDAT) (x : StrmItem) : StrmItem := { x with mergeID := (fileNumber s (x.file, x.mergeID) : Int) }

theorem names_missing {s : SDAT} {x : SsarItem} {n : Symbol} (hx : (n, some x) ∈ s.sequenceArchives) (k : Nat) :
    (if Named s then x.names else []).getD k none = x.names.getD k none := by
  by_cases h : Named s
  · rw [if_pos h]
  · rw [if_neg h]
    have : x.names.getD k none = none := by
      rw [List.getD_eq_getElem?_getD]
      cases hk : x.names[k]? with
      | none => rfl
      | some y =>
        cases y with
        | none => rfl
        | some m =>
          refine absurd ⟨m, ?_⟩ h
          have h1 : some m ∈ x.names := List.mem_of_getElem? hk
          have h2 : some m ∈ s.sequenceArchives.flatMap (fun p => p.1 :: innerNames p.2) :=
            List.mem_flatMap.2 ⟨_, hx, List.mem_cons_of_mem _ h1⟩
          unfold namesIn
          simp only [List.mem_append, h2, or_true, true_or]
    rw [this]
    rfl

theorem make_back {o : Archive} {s t : SDAT} (choose : List Nat → Nat) (hi : o.items = .ok s) (hr : Readable o)
    (ht : ComesBack s t) : ∃ u, Archive.make choose t = .ok u ∧ ArchiveBack o u ∧
      ((∀ n x, (n, some x) ∈ o.banks → x.obj.inaccessible = []) → u.items = .ok { t with
        sequences := s.sequences.map fun p => (p.1, p.2.map (renewSeq s))
        sequenceArchives := s.sequenceArchives.map fun p => (p.1, p.2.map (renewSsar s))
        banks := s.banks.map fun p => (p.1, p.2.map (renewBank s))
        waveArchives := s.waveArchives.map fun p => (p.1, p.2.map (renewSwar s))
        streams := s.streams.map fun p => (p.1, p.2.map (renewStrm s)) }) := by
  obtain ⟨h1, h2, h3, h4, h5, h6, h7, h8, _⟩ := items_ok hi
  have uses : usedFiles s = _ := rfl
  unfold usedFiles at uses
  obtain ⟨u1, e1, r1, s1⟩ := each_back (load := Seq.load) (save' := Seq.save) (r := renewSeq s) (R := SeqBack) (Q := True)
    (g := fun x => { x with file := fileRead s (x.file, x.mergeID), mergeID := (fileNumber s (x.file, x.mergeID) : Int) })
    h1 (by
      intro n a b ha hb hab
      obtain ⟨extra, he⟩ := fileRead_append (s := s) (u := (b.file, b.mergeID)) (by
        have : (b.file, b.mergeID) ∈ s.sequences.filterMap (fun p => p.2.map fun x => (x.file, x.mergeID)) :=
          List.mem_filterMap.2 ⟨_, hb, rfl⟩
        unfold usedFiles
        simp only [List.mem_append, this, true_or])
      obtain ⟨y, hy, hR, hs⟩ := seq_item hab extra (fileNumber s (b.file, b.mergeID) : Int)
      dsimp only at he ⊢
      rw [he]
      exact ⟨y, hy, hR, fun _ => hs⟩)
  obtain ⟨u2, e2, r2, s2⟩ := each_back (load := Ssar.load) (save' := Ssar.save) (r := renewSsar s) (R := SsarBack) (Q := True)
    (g := fun x => { x with
      file := fileRead s (x.file, x.mergeID), mergeID := (fileNumber s (x.file, x.mergeID) : Int)
      names := if Named s then x.names else [] })
    h2 (by
      intro n a b ha hb hab
      obtain ⟨extra, he⟩ := fileRead_append (s := s) (u := (b.file, b.mergeID)) (by
        have : (b.file, b.mergeID) ∈ s.sequenceArchives.filterMap (fun p => p.2.map fun x => (x.file, x.mergeID)) :=
          List.mem_filterMap.2 ⟨_, hb, rfl⟩
        unfold usedFiles
        simp only [List.mem_append, this, true_or, or_true])
      obtain ⟨y, hy, hR, hs⟩ := ssar_item hab extra (fileNumber s (b.file, b.mergeID) : Int)
        (if Named s then b.names else []) (names_missing hb)
      dsimp only at he ⊢
      rw [he]
      exact ⟨y, hy, hR, fun _ => hs⟩)
  obtain ⟨u3, e3, r3, s3⟩ := each_back (load := Bank.load choose) (save' := Bank.save) (r := renewBank s) (R := BankBack)
    (Q := ∀ n x, (n, some x) ∈ o.banks → x.obj.inaccessible = [])
    (g := fun x => { x with
      file := fileRead s (x.file, x.mergeID), mergeID := (fileNumber s (x.file, x.mergeID) : Int)
      waveArchiveIDs := fourSlots x.waveArchiveIDs })
    h3 (by
      intro n a b ha hb hab
      obtain ⟨extra, he⟩ := fileRead_append (s := s) (u := (b.file, b.mergeID)) (by
        have : (b.file, b.mergeID) ∈ s.banks.filterMap (fun p => p.2.map fun x => (x.file, x.mergeID)) :=
          List.mem_filterMap.2 ⟨_, hb, rfl⟩
        unfold usedFiles
        simp only [List.mem_append, this, true_or, or_true])
      obtain ⟨y, hy, hR, hs⟩ := bank_item choose hab (hr.banks n a ha) extra (fileNumber s (b.file, b.mergeID) : Int)
      dsimp only at he ⊢
      rw [he]
      exact ⟨y, hy, hR, fun q => hs (q n a ha)⟩)
  obtain ⟨u4, e4, r4, s4⟩ := each_back (load := Swar.load) (save' := Swar.save) (r := renewSwar s) (R := SwarBack) (Q := True)
    (g := fun x => { x with file := fileRead s (x.file, x.mergeID), mergeID := (fileNumber s (x.file, x.mergeID) : Int) })
    h4 (by
      intro n a b ha hb hab
      obtain ⟨extra, he⟩ := fileRead_append (s := s) (u := (b.file, b.mergeID)) (by
        have : (b.file, b.mergeID) ∈ s.waveArchives.filterMap (fun p => p.2.map fun x => (x.file, x.mergeID)) :=
          List.mem_filterMap.2 ⟨_, hb, rfl⟩
        unfold usedFiles
        simp only [List.mem_append, this, true_or, or_true])
      obtain ⟨y, hy, hR, hs⟩ := swar_item hab (hr.waves n a ha) extra (fileNumber s (b.file, b.mergeID) : Int)
      dsimp only at he ⊢
      rw [he]
      exact ⟨y, hy, hR, fun _ => hs⟩)
  obtain ⟨u5, e5, r5, s5⟩ := each_back (load := Strm.load) (save' := Strm.save) (r := renewStrm s) (R := StrmBack) (Q := True)
    (g := fun x => { x with file := fileRead s (x.file, x.mergeID), mergeID := (fileNumber s (x.file, x.mergeID) : Int) })
    h5 (by
      intro n a b ha hb hab
      obtain ⟨extra, he⟩ := fileRead_append (s := s) (u := (b.file, b.mergeID)) (by
        have : (b.file, b.mergeID) ∈ s.streams.filterMap (fun p => p.2.map fun x => (x.file, x.mergeID)) :=
          List.mem_filterMap.2 ⟨_, hb, rfl⟩
        unfold usedFiles
        simp only [List.mem_append, this, or_true])
      obtain ⟨y, hy, hR, hs⟩ := strm_item hab (hr.streams n a ha) extra (fileNumber s (b.file, b.mergeID) : Int)
      dsimp only at he ⊢
      rw [he]
      exact ⟨y, hy, hR, fun _ => hs⟩)
  have hp : Slots PlayerBack o.sequencePlayers t.sequencePlayers := by
    rw [ht.sequencePlayers, h6]
    generalize o.sequencePlayers = l
    induction l with
    | nil => exact .nil
    | cons p l ih =>
      obtain ⟨n, x⟩ := p
      cases x with
      | none => exact .empty ih
      | some x =>
        refine .item ⟨rfl, rfl, ?_, ?_⟩ ih
        · exact (List.pairwise_lt_range).filter _
        · intro c
          simp only [List.mem_filter, List.mem_range, decide_eq_true_eq]
          exact And.comm
  refine ⟨{ sequences := u1, sequenceArchives := u2, banks := u3, waveArchives := u4, streams := u5
            sequencePlayers := t.sequencePlayers, groups := t.groups, streamPlayers := t.streamPlayers
            fatLengthsIncludePadding := t.fatLengthsIncludePadding, firstFileAlignment := t.firstFileAlignment
            fileAlignment := t.fileAlignment, padAtEnd := t.padAtEnd
            padSymbSizeTo4InSDATHeader := t.padSymbSizeTo4InSDATHeader },
    ?_, ⟨r1, r2, r3, r4, hp, ht.groups.trans h7, ht.streamPlayers.trans h8, r5⟩, ?_⟩
  · unfold Archive.make
    rw [ht.sequences, ht.sequenceArchives, ht.banks, ht.waveArchives, ht.streams, e1, bind_ok, e2, bind_ok, e3, bind_ok,
      e4, bind_ok, e5, bind_ok]
    rfl
  · intro q
    unfold Archive.items
    dsimp only
    rw [s1 trivial, bind_ok, s2 trivial, bind_ok, s3 q, bind_ok, s4 trivial, bind_ok, s5 trivial, bind_ok]
    rfl

theorem readable_items {o : Archive} {s : SDAT} (hi : o.items = .ok s) (hr : Readable o) :
    NamesReadable s ∧ GroupsReadable s := by
  refine ⟨?_, ?_⟩
  · intro n hn
    rw [items_names hi] at hn
    exact hr.names n hn
  · obtain ⟨_, _, _, _, _, _, h7, _⟩ := items_ok hi
    unfold GroupsReadable
    rw [h7]
    exact hr.groups

/-- **C117.** Loading a saved archive gives back its objects, in the same places and with the same names. -/
theorem archive_objects {o : Archive} {d : Bytes} (choose : List Nat → Nat) (h : o.save = .ok d) (hr : Readable o) :
    ∃ t, Archive.load choose d = .ok t ∧ ArchiveBack o t := by
  unfold Archive.save at h
  simp only [bind_eq_ok] at h
  obtain ⟨s, hi, hs⟩ := h
  obtain ⟨hn, hg⟩ := readable_items hi hr
  obtain ⟨b, hl, hb⟩ := archive_round_trip hs hn hg
  obtain ⟨u, hu, hub, _⟩ := make_back choose hi hr hb
  refine ⟨u, ?_, hub⟩
  unfold Archive.load
  rw [hl, bind_ok, hu]

/-! ### An example -/

/-- An archive with one object of each kind: a parsed sequence, an unparsed one, an empty slot, a sequence archive, a bank,
a wave archive and a stream. -/
def exObjects : Archive where
  sequences := [(some [0x41], some ⟨⟨[(0, .simple .pan 1), (1, .endTrack)], none, true⟩, 5, 0, 0, 100, 64, 50, 1⟩), (none, none),
    (none, some ⟨⟨[], some [0x80, 5, 0xFF], false⟩, 0, 1, 2, 3, 4, 5, 6⟩)]
  sequenceArchives := [(some [0x42], some ⟨⟨0, [(some [0x43], ⟨.parsed (some 9), 3, 127, 64, 50, 1⟩),
    (none, ⟨.parsed none, 3, 127, 64, 50, 1⟩)], some [(4, .simple .pan 1), (9, .endTrack)], none, true⟩, 0⟩)]
  banks := [(none, some ⟨⟨0, [some 3, none, some 5, some (-1)], [none, some ⟨.single ⟨7, 0, 60, 127, 127, 127, 127, 64, 1⟩, 2, 1⟩],
    []⟩, 0⟩)]
  waveArchives := [(none, some ⟨[⟨2, true, 32728, 512, 1, 2, [1, 2, 3, 4, 5, 6, 7, 8]⟩], 9, 0⟩)]
  sequencePlayers := [(none, some ⟨1, [15, 2, 2, 20], 0x1000⟩)]
  groups := [(none, some [⟨0, 1, true, 1, false, true⟩])]
  streamPlayers := [(none, some [3, 4])]
  streams := [(none, some ⟨Props.SoundStream.exStream, 0, 0, 127, 64, 2, 0⟩)]
  fatLengthsIncludePadding := false
  firstFileAlignment := none
  fileAlignment := 0x20
  padAtEnd := true
  padSymbSizeTo4InSDATHeader := false

/-- The data of the example. -/
def exData : Bytes := match exObjects.save with | .ok d => d | .error _ => []

theorem exObjects_save : exObjects.save = .ok exData := by decide +kernel

theorem exObjects_readable : Readable exObjects where
  names := by
    intro n hn
    have h : ∀ x ∈ namesOf exObjects, ∀ n ∈ x, 0 ∉ n := by decide +kernel
    exact h _ hn n rfl
  groups := by
    intro n g h
    cases (List.mem_singleton.1 h)
    decide
  banks := by
    intro n x h
    cases (List.mem_singleton.1 h)
    intro i hi
    simp only [List.mem_cons, Option.some.injEq, reduceCtorEq, List.not_mem_nil, or_false, false_or] at hi
    subst hi
    simp [Spec.SoundBank.Loadable]
  waves := by
    intro n x h
    cases (List.mem_singleton.1 h)
    decide
  streams := by
    intro n x h
    cases (List.mem_singleton.1 h)
    decide

/-- What comes back of the example. -/
def exBack : Archive := match Archive.load (fun _ => 0) exData with | .ok t => t | .error _ => exObjects

example : exObjects.save = .ok exData ∧ Readable exObjects ∧ Archive.load (fun _ => 0) exData = .ok exBack ∧
    exBack.sequences = [(some [0x41], some ⟨⟨[], some [0xC0, 1, 0xFF], false⟩, 0, 0, 0, 100, 64, 50, 1⟩), (none, none),
      (none, some ⟨⟨[], some [0x80, 5, 0xFF], false⟩, 1, 1, 2, 3, 4, 5, 6⟩)] ∧
    exBack.sequenceArchives = [(some [0x42], some ⟨⟨0, [(some [0x43], ⟨.unparsed (some 2), 3, 127, 64, 50, 1⟩),
      (none, ⟨.unparsed none, 3, 127, 64, 50, 1⟩)], none, some [0xC0, 1, 0xFF], false⟩, 2⟩)] := by
  exact ⟨exObjects_save, exObjects_readable, by decide +kernel, by decide +kernel, by decide +kernel⟩

end Verif.Props.SoundArchiveObject
