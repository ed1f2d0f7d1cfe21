import Verif.Proofs.MusicMinify
import Verif.Spec.MusicPlay

/-! # Playing minified sequences -/

namespace Verif.Proofs.MusicPlay

open Verif Verif.Model.SoundSequence Verif.Model.SoundBank Verif.Model.Music Verif.Spec.Music Verif.Spec.MusicPlay
open Verif.Proofs.MusicMinify

/-- The state with the new number of the instrument. -/
def ren (used : List Nat) (s : State) : State := { s with inst := s.inst.map used.idxOf }

/-- The events with the new numbers. -/
def renE (used : List Nat) (events : List Obj) : List Obj := events.map fun o => (o.1, renumbered used o.2)

theorem renE_get {used : List Nat} {events : List Obj} {i id : Nat} {e : Ev} (h : events[i]? = some (id, e)) :
    (renE used events)[i]? = some (id, renumbered used e) := by
  rw [renE, List.getElem?_map, h]; rfl

theorem renE_get' {used : List Nat} {events : List Obj} {i id : Nat} {e' : Ev} (h : (renE used events)[i]? = some (id, e')) :
    ∃ e, events[i]? = some (id, e) ∧ e' = renumbered used e := by
  rw [renE, List.getElem?_map, Option.map_eq_some_iff] at h
  obtain ⟨⟨id', e⟩, h, h'⟩ := h
  cases h'
  exact ⟨e, h, rfl⟩

theorem passes_ren (used : List Nat) (e : Ev) : passes (renumbered used e) = passes e := by
  cases e <;> rfl

theorem renumbered_eq {used : List Nat} {e : Ev} {e' : Ev} (h : e' = renumbered used e)
    (hn : ∀ b n, e' ≠ .instrumentSwitch b n) : e = e' := by
  cases e with
  | instrumentSwitch b n => exact absurd h (hn _ _)
  | _ => exact h.symm

theorem step_forth {used : List Nat} {events : List Obj} (hf : Fixed events) {s t : State} (h : Step events s t) :
    Step (renE used events) (ren used s) (ren used t) := by
  have mem : ∀ {i o}, events[i]? = some o → o ∈ events := fun h => List.mem_of_getElem? h
  cases h with
  | pass h1 h2 => exact .pass (renE_get h1) (by rw [passes_ren]; exact h2)
  | switch h1 => exact .switch (renE_get h1)
  | switchRandom h1 _ _ => exact absurd rfl ((hf _ (mem h1)).1 _ _ _)
  | switchVariable h1 => exact absurd rfl ((hf _ (mem h1)).2 _ _)
  | jump h1 h2 => exact .jump (renE_get h1) (renE_get h2)
  | call h1 h2 => exact .call (renE_get h1) (renE_get h2)
  | ret h1 h2 => exact .ret (renE_get h1) h2
  | skip h1 => exact .skip (renE_get h1)
  | loop h1 => exact .loop (renE_get h1)
  | again h1 h2 => exact .again (renE_get h1) h2
  | leave h1 => exact .leave (renE_get h1)
  | track h1 h2 => exact .track (renE_get h1) (renE_get h2)

theorem step_back {used : List Nat} {events : List Obj} (hf : Fixed events) {s t' : State}
    (h : Step (renE used events) (ren used s) t') : ∃ t, Step events s t ∧ t' = ren used t := by
  have mem : ∀ {i o}, events[i]? = some o → o ∈ events := fun h => List.mem_of_getElem? h
  cases h with
  | pass h1 h2 =>
    obtain ⟨e, h3, rfl⟩ := renE_get' h1
    exact ⟨_, .pass h3 (by rw [passes_ren] at h2; exact h2), rfl⟩
  | switch h1 =>
    obtain ⟨e, h3, h4⟩ := renE_get' h1
    cases e <;> cases h4
    exact ⟨_, .switch h3, rfl⟩
  | switchRandom h1 _ _ =>
    obtain ⟨e, h3, h4⟩ := renE_get' h1
    cases renumbered_eq h4 (by simp)
    exact absurd rfl ((hf _ (mem h3)).1 _ _ _)
  | switchVariable h1 =>
    obtain ⟨e, h3, h4⟩ := renE_get' h1
    cases renumbered_eq h4 (by simp)
    exact absurd rfl ((hf _ (mem h3)).2 _ _)
  | jump h1 h2 =>
    obtain ⟨e, h3, h4⟩ := renE_get' h1
    cases renumbered_eq h4 (by simp)
    obtain ⟨_, h5, _⟩ := renE_get' h2
    exact ⟨_, .jump h3 h5, rfl⟩
  | call h1 h2 =>
    obtain ⟨e, h3, h4⟩ := renE_get' h1
    cases renumbered_eq h4 (by simp)
    obtain ⟨_, h5, _⟩ := renE_get' h2
    exact ⟨_, .call h3 h5, rfl⟩
  | ret h1 h2 =>
    obtain ⟨e, h3, h4⟩ := renE_get' h1
    cases renumbered_eq h4 (by simp)
    exact ⟨_, .ret h3 h2, rfl⟩
  | skip h1 =>
    obtain ⟨e, h3, h4⟩ := renE_get' h1
    cases renumbered_eq h4 (by simp)
    exact ⟨_, .skip h3, rfl⟩
  | loop h1 =>
    obtain ⟨e, h3, h4⟩ := renE_get' h1
    cases renumbered_eq h4 (by simp)
    exact ⟨_, .loop h3, rfl⟩
  | again h1 h2 =>
    obtain ⟨e, h3, h4⟩ := renE_get' h1
    cases renumbered_eq h4 (by simp)
    exact ⟨_, .again h3 h2, rfl⟩
  | leave h1 =>
    obtain ⟨e, h3, h4⟩ := renE_get' h1
    cases renumbered_eq h4 (by simp)
    exact ⟨_, .leave h3, rfl⟩
  | track h1 h2 =>
    obtain ⟨e, h3, h4⟩ := renE_get' h1
    cases renumbered_eq h4 (by simp)
    obtain ⟨_, h5, _⟩ := renE_get' h2
    exact ⟨_, .track h3 h5, rfl⟩

theorem run_forth {used : List Nat} {events : List Obj} (hf : Fixed events) {l : List State} (h : Run events l) :
    Run (renE used events) (l.map (ren used)) := by
  induction h with
  | start => exact .start
  | step _ h2 ih => exact .step ih (step_forth hf h2)

theorem run_back {used : List Nat} {events : List Obj} (hf : Fixed events) {l' : List State}
    (h : Run (renE used events) l') : ∃ l, Run events l ∧ l' = l.map (ren used) := by
  induction h with
  | start => exact ⟨_, .start, rfl⟩
  | step _ h2 ih =>
    obtain ⟨l, h3, h4⟩ := ih
    match l, h4, h3 with
    | s :: l, h4, h3 =>
      rw [List.map_cons, List.cons_eq_cons] at h4
      obtain ⟨rfl, rfl⟩ := h4
      obtain ⟨t, h5, rfl⟩ := step_back hf h2
      exact ⟨_, .step h3 h5, rfl⟩

theorem notePitch_ren (used : List Nat) (e : Ev) : notePitch (renumbered used e) = notePitch e := by
  cases e <;> rfl

theorem noteAt_ren {used : List Nat} {events : List Obj} {s : State} :
    noteAt (renE used events) (ren used s) =
      (noteAt events s).map fun x => ((s.inst.map used.idxOf).getD 0, x.2) := by
  unfold noteAt ren renE
  dsimp only
  rw [List.getElem?_map]
  cases events[s.pos]? with
  | none => rfl
  | some o =>
    simp only [Option.map_some, Option.bind_some, notePitch_ren, Option.map_map]
    rfl

theorem run_mem {events : List Obj} {l : List State} (h : Run events l) {s : State} (hs : s ∈ l) :
    ∃ l', Run events (s :: l') := by
  induction h with
  | start =>
    rw [List.mem_singleton] at hs
    subst hs
    exact ⟨_, .start⟩
  | step h1 h2 ih =>
    rcases List.mem_cons.1 hs with rfl | hs
    · exact ⟨_, .step h1 h2⟩
    · exact ih hs

/-- The part of the changed events. -/
theorem chunk {used : List Nat} (A E B : List Obj) :
    slice (renE used (A ++ E ++ B)) A.length (A.length + E.length) = renE used E := by
  unfold renE slice
  rw [List.map_append, List.map_append, List.append_assoc, List.drop_append_of_le_length (by simp),
    List.drop_of_length_le (by simp), List.nil_append, Nat.add_sub_cancel_left, List.take_append_of_le_length (by simp),
    List.take_of_length_le (by simp)]

theorem same_sounds {W : Type} {events : List Obj} {insts : List (Option Inst)} {swars : List (List W)}
    {events' : List Obj} {insts' : List (Option Inst)} {swars' : List (List W)}
    (h : minify events insts (some swars) = .ok (events', insts', swars')) (k : Nat)
    (hdefs : ∀ n ∈ (events.map (·.2)).filterMap switchedTo, ∀ inst, insts[n]? = some (some inst) →
      ∀ d ∈ definitions inst.kind, d.waveArchiveIDID = k ∧ d.type = 1)
    (hpitch : ∀ e ∈ events.map (·.2), ∀ p, pitchOf e = some p → 0 ≤ p ∧ p ≤ 127)
    {E : List Obj} (hl : Listed E (events.map (·.2))) {l : List State} (hr : Run E l) :
    SameSounds E insts swars (renE (usedInsts events) E) insts' swars' l (l.map (ren (usedInsts events))) := by
  refine ⟨by rw [List.map_map]; rfl, ?_⟩
  intro i s s' h1 h2
  rw [List.getElem?_map, h1] at h2
  cases h2
  unfold soundAt
  rw [noteAt_ren]
  cases hn : noteAt E s with
  | none => exact ⟨rfl, fun x hx => nomatch hx⟩
  | some x =>
    refine ⟨rfl, ?_⟩
    obtain ⟨n, p⟩ := x
    obtain ⟨l', hl'⟩ := run_mem hr (List.mem_of_getElem? h1)
    obtain ⟨hi, e, he⟩ := hl l' s n p hl' hn
    rw [plays_eq] at he
    intro y hy
    simp only [Option.map_some, Option.some.injEq, hi, Option.getD_some] at hy ⊢
    obtain ⟨_, h3, h4⟩ := mem_playsFrom he
    rw [minify_sound h k hdefs he (hpitch e h3 p h4) (by rw [hy]; simp), hy]

/-! ## Orderly sequences -/

theorem lastSwitch_succ {events : List Obj} {i : Nat} {o : Obj} (h : events[i]? = some o) :
    lastSwitch events (i + 1) = (switchedTo o.2).or (lastSwitch events i) := by
  unfold lastSwitch
  rw [List.take_succ, h, Option.toList_some, List.filterMap_append, List.filterMap_cons, List.filterMap_nil]
  cases switchedTo o.2 with
  | none => simp
  | some n => simp

theorem lastSwitch_none {events : List Obj} {i : Nat} (h : events[i]? = none) :
    lastSwitch events (i + 1) = lastSwitch events i := by
  unfold lastSwitch
  rw [List.take_succ, h]
  simp

/-- What is so in every state of a run of an orderly sequence. -/
def Settled (events : List Obj) (s : State) : Prop :=
  (s.inst.isSome ∧ s.inst = lastSwitch events s.pos) ∨ (s.inst = none ∧ Intro events s.pos)

theorem passes_switch {e : Ev} (h : passes e = true) : switchedTo e = none := by
  cases e <;> first | rfl | cases h

theorem intro_step {events : List Obj} {q : Nat} (h : Intro events q) {o : Obj} (ho : events[q]? = some o)
    (hp : passes o.2 = true) : notePitch o.2 = none ∧ o.2 ≠ .ifE ∧ Intro events (q + 1) := by
  obtain ⟨q', h1, h2, o', h3, h4⟩ := h
  rcases Nat.lt_or_ge q q' with hlt | hge
  · obtain ⟨o2, h5, _, h6, h7⟩ := h2 q (Nat.le_refl _) hlt
    rw [ho] at h5
    cases h5
    exact ⟨h6, h7, q', hlt, fun j hj => h2 j (by omega), o', h3, h4⟩
  · have : q' = q := by omega
    subst this
    rw [ho] at h3
    cases h3
    rcases h4 with h4 | h4
    · rw [passes_switch hp] at h4; cases h4
    · rw [h4] at hp; cases hp

theorem intro_not {events : List Obj} {q : Nat} (h : Intro events q) {o : Obj} (ho : events[q]? = some o)
    (hp : passes o.2 = false) : (switchedTo o.2).isSome ∨ o.2 = .endTrack := by
  obtain ⟨q', h1, h2, o', h3, h4⟩ := h
  rcases Nat.lt_or_ge q q' with hlt | hge
  · obtain ⟨o2, h5, h6, _⟩ := h2 q (Nat.le_refl _) hlt
    rw [ho] at h5
    cases h5
    rw [hp] at h6
    cases h6
  · have : q' = q := by omega
    subst this
    rw [ho] at h3
    cases h3
    exact h4

theorem step_settled {events : List Obj} (ho : Orderly events) {s t : State} (h : Step events s t)
    (hs : Settled events s) (hc : s.calls = []) : Settled events t ∧ t.calls = [] := by
  have mem : ∀ {i o}, events[i]? = some o → o ∈ events := fun h => List.mem_of_getElem? h
  cases h with
  | pass h1 h2 =>
    refine ⟨?_, hc⟩
    rcases hs with ⟨a, b⟩ | ⟨a, b⟩
    · left
      refine ⟨a, ?_⟩
      show s.inst = lastSwitch events (s.pos + 1)
      rw [lastSwitch_succ h1, passes_switch h2, Option.none_or, b]
    · exact .inr ⟨a, (intro_step b h1 h2).2.2⟩
  | switch h1 =>
    refine ⟨.inl ⟨rfl, ?_⟩, hc⟩
    show _ = lastSwitch events (s.pos + 1)
    rw [lastSwitch_succ h1]
    rfl
  | switchRandom h1 _ _ => exact absurd rfl ((ho.fixed _ (mem h1)).1 _ _ _)
  | switchVariable h1 => exact absurd rfl ((ho.fixed _ (mem h1)).2 _ _)
  | jump h1 h2 =>
    refine ⟨?_, hc⟩
    rcases hs with ⟨a, b⟩ | ⟨a, b⟩
    · exact .inl ⟨a, b.trans (ho.jumps _ _ _ _ _ h1 h2)⟩
    · rcases intro_not b h1 rfl with h | h <;> cases h
  | call h1 h2 => exact absurd rfl ((ho.plain _ (mem h1)).1 _)
  | ret h1 h2 => rw [hc] at h2; cases h2
  | skip h1 =>
    refine ⟨?_, hc⟩
    rcases hs with ⟨a, b⟩ | ⟨a, b⟩
    · left
      refine ⟨a, ?_⟩
      show s.inst = lastSwitch events (s.pos + 1 + 1)
      have e1 : lastSwitch events (s.pos + 1) = s.inst := by
        rw [lastSwitch_succ h1, b]; rfl
      cases h2 : events[s.pos + 1]? with
      | none => rw [lastSwitch_none h2, e1]
      | some o =>
        rw [lastSwitch_succ h2, e1]
        obtain ⟨id', e⟩ := o
        cases e with
        | instrumentSwitch bk n => exact absurd h2 (ho.ifs _ _ _ _ _ h1)
        | _ => rfl
    · exact absurd rfl (intro_step b h1 rfl).2.1
  | loop h1 =>
    refine ⟨?_, hc⟩
    rcases hs with ⟨a, b⟩ | ⟨a, b⟩
    · left
      refine ⟨a, ?_⟩
      show s.inst = lastSwitch events (s.pos + 1)
      rw [lastSwitch_succ h1, b]
      rfl
    · rcases intro_not b h1 rfl with h | h <;> cases h
  | again h1 h2 => exact absurd rfl (ho.plain _ (mem h1)).2
  | leave h1 => exact absurd rfl (ho.plain _ (mem h1)).2
  | track h1 h2 => exact ⟨.inr ⟨rfl, ho.tracks _ _ _ _ _ _ h1 h2⟩, rfl⟩

theorem run_settled {events : List Obj} (ho : Orderly events) {l : List State} (h : Run events l) :
    ∀ s ∈ l, Settled events s ∧ s.calls = [] := by
  induction h with
  | start =>
    intro s hs
    rw [List.mem_singleton] at hs
    subst hs
    exact ⟨.inr ⟨rfl, ho.first⟩, rfl⟩
  | step h1 h2 ih =>
    intro s hs
    rcases List.mem_cons.1 hs with rfl | hs
    · obtain ⟨a, b⟩ := ih _ List.mem_cons_self
      exact step_settled ho h2 a b
    · exact ih s hs

/-- In an orderly part of a list every note is played with the instrument that is the last one before it. -/
theorem orderly_listed {A E B : List Obj} (ho : Orderly E) : Listed E ((A ++ E ++ B).map (·.2)) := by
  intro l s n p hr hn
  obtain ⟨hs, -⟩ := run_settled ho hr s List.mem_cons_self
  unfold noteAt at hn
  rw [Option.bind_eq_some_iff] at hn
  obtain ⟨o, h1, hn⟩ := hn
  rw [Option.map_eq_some_iff] at hn
  obtain ⟨p', h2, hn⟩ := hn
  cases hn
  rcases hs with ⟨a, b⟩ | ⟨a, b⟩
  · obtain ⟨m, hm⟩ := Option.isSome_iff_exists.1 a
    rw [hm] at b ⊢
    refine ⟨rfl, o.2, ?_⟩
    unfold plays
    rw [List.mem_filterMap]
    have hlt : s.pos < E.length := (List.getElem?_eq_some_iff.1 h1).1
    refine ⟨A.length + s.pos, by simp; omega, ?_⟩
    have e1 : ((A ++ E ++ B).map (·.2))[A.length + s.pos]? = some o.2 := by
      rw [List.getElem?_map, List.append_assoc, List.getElem?_append_right (by omega), Nat.add_sub_cancel_left,
        List.getElem?_append_left hlt, h1]
      rfl
    rw [e1, Option.bind_some, ← ho.notes o (List.mem_of_getElem? h1), h2, Option.bind_some]
    have e2 : (((A ++ E ++ B).map (·.2)).take (A.length + s.pos)).filterMap switchedTo =
        A.filterMap (fun o => switchedTo o.2) ++ (E.take s.pos).filterMap (fun o => switchedTo o.2) := by
      rw [← List.map_take, List.append_assoc, List.take_append, List.take_of_length_le (by omega), Nat.add_sub_cancel_left,
        List.take_append_of_le_length (by omega), List.map_append, List.filterMap_append, List.filterMap_map,
        List.filterMap_map]
      rfl
    rw [e2, List.getLast?_append]
    unfold lastSwitch at b
    rw [← b]
    rfl
  · exfalso
    by_cases hp : passes o.2 = true
    · rw [(intro_step b h1 hp).1] at h2; cases h2
    · rcases intro_not b h1 (by simpa using hp) with h | h
      · obtain ⟨id, e⟩ := o
        cases e <;> simp_all [switchedTo, notePitch]
      · rw [h] at h2; cases h2

end Verif.Proofs.MusicPlay
