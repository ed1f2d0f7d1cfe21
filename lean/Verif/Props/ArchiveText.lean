import Verif.Proofs.ArchiveText
import Verif.Props.EventText

/-!
# C152: the printed form of a sequence archive shows where its sequences begin
-/

namespace Verif.Props.ArchiveText

open Verif Verif.Model.EventText Verif.Spec.EventText Verif.Spec.ArchiveText
open Verif.Model.Repr (lit)
open Verif.Model.SoundSequence (Ev saveSequenceEvents)

/-- C152: `print` of a parsed sequence archive shows the names of the sequences without events, and every event with its number
and the names of the sequences that begin with it, however long the names are. -/
theorem ssar_str_partial (w : World) (seqs : List (Str × Option Nat)) (events : List Nat) (hn : (seqs.map Prod.fst).Nodup)
    (hp : ∀ s ∈ seqs, Plain s.1) (hf : ∀ s ∈ seqs, ∀ e, s.2 = some e → e ∈ events) (hd : Closed w.obj events)
    (hok : ∀ e ∈ events, EvOk (w.obj e)) (hc : ∀ e ∈ events, Clear (w.obj e)) :
    ∃ t, strSSAR w (seqs.map fun s => (some s.1, s.2)) (some events) = .ok t ∧
      readSSAR t = some (silent seqs, rows w.obj events seqs) :=
  Proofs.ArchiveText.read_ssar w seqs events hn hp hf hd hok hc

/-- C152: a sequence archive that is not parsed shows the names of its sequences. -/
theorem ssar_str_unparsed_partial (w : World) (seqs : List (Str × Option Nat)) (h : ∀ s ∈ seqs, 44 ∉ s.1 ∧ s.1 ≠ []) :
    ∃ t, strSSAR w (seqs.map fun s => (some s.1, s.2)) none = .ok t ∧ readUnparsed t = some (seqs.map Prod.fst) :=
  Proofs.ArchiveText.read_unparsed' w seqs h

theorem rows_eq {obj obj' : Nat → Ev} {events events' : List Nat} {seqs seqs' : List (Str × Option Nat)}
    (h : rows obj events seqs = rows obj' events' seqs') : numbered obj events = numbered obj' events' ∧
      ∀ i, i < events.length → namesAt events seqs i = namesAt events' seqs' i := by
  have hlen : events.length = events'.length := by
    have := congrArg List.length h
    simpa [rows, numbered] using this
  constructor
  · have := congrArg (List.map fun p : Nat × List Str × Ev => (p.1, p.2.2)) h
    rw [rows, rows, List.map_map, List.map_map] at this
    have e : ∀ (f : Nat → List Str), ((fun p : Nat × List Str × Ev => (p.1, p.2.2)) ∘ fun p : Nat × Ev => (p.1, f p.1, p.2)) = id :=
      fun f => rfl
    rw [e, e, List.map_id, List.map_id] at this
    exact this
  · intro i hi
    have := congrArg (·[i]?) h
    simp only [rows, numbered, List.getElem?_map, List.getElem?_zipIdx] at this
    rw [List.getElem?_eq_getElem hi, List.getElem?_eq_getElem (hlen ▸ hi)] at this
    simp only [Option.map_some, Option.some.injEq, Prod.mk.injEq, Nat.zero_add] at this
    exact this.2.1

/-- C152: two sequence archives that print alike save as the same bytes of events, and their sequences have the same names and
begin at the same places. -/
theorem same_ssar_partial (w w' : World) (seqs seqs' : List (Str × Option Nat)) (events events' : List Nat)
    (hn : (seqs.map Prod.fst).Nodup) (hp : ∀ s ∈ seqs, Plain s.1) (hf : ∀ s ∈ seqs, ∀ e, s.2 = some e → e ∈ events)
    (hd : Closed w.obj events) (hok : ∀ e ∈ events, EvOk (w.obj e)) (hc : ∀ e ∈ events, Clear (w.obj e)) (he : events.Nodup)
    (hn' : (seqs'.map Prod.fst).Nodup) (hp' : ∀ s ∈ seqs', Plain s.1) (hf' : ∀ s ∈ seqs', ∀ e, s.2 = some e → e ∈ events')
    (hd' : Closed w'.obj events') (hok' : ∀ e ∈ events', EvOk (w'.obj e)) (hc' : ∀ e ∈ events', Clear (w'.obj e)) (he' : events'.Nodup)
    (h : strSSAR w (seqs.map fun s => (some s.1, s.2)) (some events) =
      strSSAR w' (seqs'.map fun s => (some s.1, s.2)) (some events')) :
    saveSequenceEvents (given w.obj events) [] = saveSequenceEvents (given w'.obj events') [] ∧
      (∀ n, (n, none) ∈ seqs ↔ (n, none) ∈ seqs') ∧
      ∀ (n : Str) (i : Nat), (∃ e, (n, some e) ∈ seqs ∧ events[i]? = some e) ↔ ∃ e, (n, some e) ∈ seqs' ∧ events'[i]? = some e := by
  obtain ⟨t, h1, h2⟩ := ssar_str_partial w seqs events hn hp hf hd hok hc
  obtain ⟨t', h1', h2'⟩ := ssar_str_partial w' seqs' events' hn' hp' hf' hd' hok' hc'
  rw [h1, h1'] at h
  cases Except.ok.inj h
  rw [h2] at h2'
  simp only [Option.some.injEq, Prod.mk.injEq] at h2'
  obtain ⟨hs, hr⟩ := h2'
  obtain ⟨hnum, hat⟩ := rows_eq hr
  have hlen : events.length = events'.length := by
    have := congrArg List.length hr
    simpa [rows, numbered] using this
  have hsil : ∀ (S : List (Str × Option Nat)) n, n ∈ silent S ↔ (n, none) ∈ S := by
    intro S n
    rw [silent, List.mem_map]
    constructor
    · rintro ⟨⟨a, b⟩, hm, rfl⟩
      obtain ⟨hm, hb⟩ := List.mem_filter.1 hm
      cases b with
      | none => exact hm
      | some _ => cases hb
    · intro hm
      exact ⟨(n, none), List.mem_filter.2 ⟨hm, rfl⟩, rfl⟩
  have hnam : ∀ (E : List Nat) (S : List (Str × Option Nat)) (n : Str) (i : Nat), E.Nodup → (∀ s ∈ S, ∀ e, s.2 = some e → e ∈ E) →
      ((∃ e, (n, some e) ∈ S ∧ E[i]? = some e) ↔ n ∈ namesAt E S i ∧ i < E.length) := by
    intro E S n i hE hS
    constructor
    · rintro ⟨e, hm, hi⟩
      obtain ⟨hlt, hi⟩ := List.getElem?_eq_some_iff.1 hi
      refine ⟨List.mem_map.2 ⟨(n, some e), List.mem_filter.2 ⟨hm, ?_⟩, rfl⟩, hlt⟩
      have : E.idxOf e = i := by rw [← hi, hE.idxOf_getElem]
      simp [this]
    · rintro ⟨hm, hi⟩
      obtain ⟨⟨a, b⟩, hq, rfl⟩ := List.mem_map.1 hm
      obtain ⟨hm, hb⟩ := List.mem_filter.1 hq
      cases b with
      | none => simp at hb
      | some e =>
        have hidx : E.idxOf e = i := by simpa using hb
        have he := hS _ hm e rfl
        refine ⟨e, hm, ?_⟩
        rw [← hidx, List.getElem?_eq_getElem (List.idxOf_lt_length_iff.2 he), List.getElem_idxOf]
  refine ⟨?_, ?_, ?_⟩
  · rw [← EventText.numbered_save _ _ he hd, ← EventText.numbered_save _ _ he' hd', hnum]
  · intro n
    rw [← hsil, ← hsil, hs]
  · intro n i
    rw [hnam events seqs n i he hf, hnam events' seqs' n i he' hf', ← hlen]
    constructor
    · rintro ⟨a, b⟩
      exact ⟨hat i b ▸ a, b⟩
    · rintro ⟨a, b⟩
      exact ⟨(hat i b).symm ▸ a, b⟩

/-- The line that warns of a sequence whose first event is not in the list. -/
def warning (w : World) (s : Str × Nat) : Py Str := do
  let x ← w.repr s.2
  return chars "    (WARNING: " ++ x ++ chars " (" ++ s.1 ++ chars ") not in events list!)"

theorem labelLoop_lost {w : World} {events : List Nat} {seqs : List (Str × Option Nat)} :
    ∀ {ws lines : List Str} {names : List (Nat × Str)} {len : Nat} {r : List Str × List Str × List (Nat × Str) × Nat},
    labelLoop w (lit "    ") events (seqs.map fun s => (some s.1, s.2)) ws lines names len = .ok r →
    ∃ ws', r.1 = ws ++ ws' ∧
      mapE (warning w) (seqs.filterMap fun s => s.2.bind fun e => if e ∈ events then none else some (s.1, e)) = .ok ws' := by
  induction seqs with
  | nil =>
    intro ws lines names len r h
    cases h
    exact ⟨[], by simp, rfl⟩
  | cons s seqs ih =>
    intro ws lines names len r h
    obtain ⟨n, _ | e⟩ := s
    · rw [List.map_cons, labelLoop] at h
      exact ih h
    · rw [List.map_cons, labelLoop] at h
      unfold indexIn at h
      by_cases he : e ∈ events
      · simp only [if_pos he] at h
        obtain ⟨ws', h1, h2⟩ := ih h
        refine ⟨ws', h1, ?_⟩
        rw [List.filterMap_cons]
        simp only [Option.bind_some, if_pos he]
        exact h2
      · simp only [if_neg he] at h
        obtain ⟨x, hx, h⟩ := bind_eq_ok.1 h
        obtain ⟨ws', h1, h2⟩ := ih h
        refine ⟨(chars "    (WARNING: " ++ x ++ chars " (" ++ n ++ chars ") not in events list!)") :: ws', ?_, ?_⟩
        · rw [h1, List.append_assoc]
          rfl
        · rw [List.filterMap_cons]
          simp only [Option.bind_some, if_neg he]
          rw [mapE_cons_ok]
          exact ⟨_, ws', by unfold warning; rw [hx, bind_ok]; rfl, h2, rfl⟩

theorem eventLoop_length {w : World} {pre : Str} {events : List Nat} {names : List (Nat × Str)} {width numLen : Nat} :
    ∀ {rest : List Nat} {i : Nat} {r : List Str × List Str},
    eventLoop w pre events names width numLen i rest = .ok r → r.1.length = rest.length
  | [], _, _, h => by cases h; rfl
  | e :: rest, i, _, h => by
    obtain ⟨t, ht, h⟩ := bind_eq_ok.1 h
    obtain ⟨r, hr, h⟩ := bind_eq_ok.1 h
    cases h
    rw [List.length_cons, List.length_cons, eventLoop_length hr]

/-- C152: for every sequence whose first event is not in the list, a line at the beginning warns of it, with its name. -/
theorem ssar_str_lost (w : World) (seqs : List (Str × Option Nat)) (events : List Nat) (t : Str)
    (hn : (seqs.map Prod.fst).Nodup) (hne : events ≠ [])
    (h : strSSAR w (seqs.map fun s => (some s.1, s.2)) (some events) = .ok t) : ∃ warnings more,
      t = Model.Repr.join [10] (lit "<ssar" :: (warnings ++ more ++ [lit ">"])) ∧
      mapE (warning w) (seqs.filterMap fun s => s.2.bind fun e => if e ∈ events then none else some (s.1, e)) =
        .ok warnings := by
  unfold strSSAR at h
  obtain ⟨u, hu, h⟩ := bind_eq_ok.1 h
  cases h
  have hlabels : labelsOf (seqs.map fun s => (some s.1, s.2)) = seqs.map fun s => (some s.1, s.2) := by
    rw [labelsOf, Proofs.ArchiveText.labels_nodup _ [] ?_ (by simp), List.nil_append]
    rw [List.map_map]
    have : (Prod.fst ∘ fun s : Str × Option Nat => (some s.1, s.2)) = some ∘ Prod.fst := rfl
    rw [this, ← List.map_map]
    exact List.Pairwise.map some (fun a b h h' => h (Option.some.inj h')) hn
  rw [hlabels] at hu
  unfold printList at hu
  obtain ⟨⟨ws, lines, names, len⟩, hl, hu⟩ := bind_eq_ok.1 hu
  obtain ⟨ws', e, hw⟩ := labelLoop_lost hl
  cases e
  obtain ⟨⟨ls, ws2⟩, hr, hu⟩ := bind_eq_ok.1 hu
  dsimp only at hu
  rw [if_neg (by simpa using hne)] at hu
  cases hu
  refine ⟨ws, ws2 ++ cutLast (lines ++ ls), ?_, hw⟩
  rw [Proofs.EventText.join_lines]
  · simp only [List.append_assoc]
  · have h1 := eventLoop_length hr
    intro e
    have h2 : cutLast (lines ++ ls) = [] := (List.append_eq_nil_iff.1 e).2
    have h3 : lines ++ ls ≠ [] := by
      intro e
      rw [(List.append_eq_nil_iff.1 e).2] at h1
      exact hne (List.length_eq_zero_iff.1 h1.symm)
    obtain ⟨init, last, h4⟩ : ∃ init last, lines ++ ls = init ++ [last] := ⟨_, _, (List.dropLast_concat_getLast h3).symm⟩
    rw [h4] at h2
    simp [cutLast] at h2

/-- C152 is false of names with a comma: one sequence prints like two. -/
theorem ssar_comma (w : World) (a : Nat) :
    strSSAR w [(some (chars "a, b"), some a)] (some [a]) = strSSAR w [(some (chars "a"), some a), (some (chars "b"), some a)] (some [a]) := by
  have h1 : labelLoop w (lit "    ") [a] [(some (chars "a, b"), some a)] [] [] [] 0 = .ok ([], [], [(0, chars "a, b")], 4) := by
    simp [labelLoop, indexIn, dictSet, chars]
  have h2 : labelLoop w (lit "    ") [a] [(some (chars "a"), some a), (some (chars "b"), some a)] [] [] [] 0 =
      .ok ([], [], [(0, chars "a, b")], 4) := by
    simp [labelLoop, indexIn, dictSet, chars, lit]
  have e1 : labelsOf [(some (chars "a, b"), some a)] = [(some (chars "a, b"), some a)] := rfl
  have e2 : labelsOf [(some (chars "a"), some a), (some (chars "b"), some a)] = [(some (chars "a"), some a), (some (chars "b"), some a)] := rfl
  simp only [strSSAR, printList, e1, e2, h1, h2]

/-! ## Examples -/

/-- Two effects that begin with the same event, one with a name of sixty letters, and one that is silent. -/
def effects : List (Str × Option Nat) := [(chars "BONK", some 30), (chars "UNUSED", none), (chars "CLANG", some 50),
  (chars "ABCDEFGHIJKLMNOPQRSTUVWXYZABCDEFGHIJKLMNOPQRSTUVWXYZABCDEFGH", some 30)]

def sounds : World := ⟨id, fun i => match i with
  | 30 => .note 60 127 false 48
  | 40 => .jump 30
  | 50 => .raw [91, 58]
  | _ => .endTrack, id, 5⟩

example : (effects.map Prod.fst).Nodup ∧ (∀ s ∈ effects, Plain s.1) ∧ (∀ s ∈ effects, ∀ e, s.2 = some e → e ∈ [30, 40, 50, 60]) ∧
    Closed sounds.obj [30, 40, 50, 60] ∧ (∀ e ∈ [30, 40, 50, 60], EvOk (sounds.obj e)) ∧
    (∀ e ∈ [30, 40, 50, 60], Clear (sounds.obj e)) ∧ [30, 40, 50, 60].Nodup := by
  refine ⟨by decide, ?_, ?_, ?_, ?_, ?_, by decide⟩
  · have : ∀ s ∈ effects, 10 ∉ s.1 ∧ 44 ∉ s.1 ∧ 58 ∉ s.1 ∧ 91 ∉ s.1 := by decide
    exact this
  · simp [effects]
  · simp [Closed, sounds, dest]
  · simp [EvOk, sounds]
  · simp [Clear, sounds]

example : strSSAR sounds (effects.map fun s => (some s.1, s.2)) (some [30, 40, 50, 60]) = .ok (lit "<ssar
    UNUSED: (none)
    BONK, ABCDEFGHIJKLMNOPQRSTUVWXYZABCDEFGHIJKLMNOPQ
    RSTUVWXYZABCDEFGH:                                 [0] <c' velocity=127 duration=48>,
                                                       [1] <jump @0>,
    CLANG:                                             [2] <raw data b'[:'>,
                                                       [3] <end track>
>") := by decide +kernel

-- the first event of one of the effects is missing
example : (strSSAR sounds (effects.map fun s => (some s.1, s.2)) (some [30, 40])).isOk ∧
    (effects.filterMap fun s => s.2.bind fun e => if e ∈ [30, 40] then none else some (s.1, e)) = [(chars "CLANG", 50)] := by
  decide +kernel

example : silent effects = [chars "UNUSED"] ∧ (rows sounds.obj [30, 40, 50, 60] effects).map (fun r => (r.1, r.2.1.length, r.2.2)) =
    [(0, 2, .note 60 127 false 48), (1, 0, .jump 0), (2, 1, .raw [91, 58]), (3, 0, .endTrack)] := by decide +kernel

example : (∀ s ∈ effects, 44 ∉ s.1 ∧ s.1 ≠ []) ∧ strSSAR sounds ((effects.take 3).map fun s => (some s.1, s.2)) none =
    .ok (lit "<ssar unparsed [BONK, UNUSED, CLANG]>") := by decide +kernel

end Verif.Props.ArchiveText
