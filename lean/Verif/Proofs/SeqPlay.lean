import Verif.Props.FormatSseq

/-!
# What reading sequence data finds, compared to what playing it reaches
-/

namespace Verif.Proofs.SeqPlay

open Verif Verif.Model.SoundSequence Verif.Spec.FormatSseq Verif.Proofs.SeqRead Verif.Proofs.SeqSave Verif.Props.FormatSseq
open Verif.Spec.Sequence (declared flows refs)

theorem steps_trans {d : Bytes} {a b c : Nat × List Nat} (h1 : Steps d a b) (h2 : Steps d b c) : Steps d a c := by
  induction h2 with
  | refl => exact h1
  | tail _ h ih => exact .tail ih h

theorem steps_one {d : Bytes} {a b : Nat × List Nat} (h : Step d a b) : Steps d a b := .tail (.refl a) h

/-- Playing from the place can end with a return from there. -/
def Returns (d : Bytes) (o : Nat) : Prop := ∃ a n, EventAt d a n .ret ∧ ∀ s, Steps d (o, s) (a, s)

theorem Returns.prep {d : Bytes} {o p : Nat} (h : Returns d p) (hs : ∀ s, Steps d (o, s) (p, s)) : Returns d o := by
  obtain ⟨a, n, h1, h2⟩ := h
  exact ⟨a, n, h1, fun s => steps_trans (hs s) (h2 s)⟩

theorem Returns.back {d : Bytes} {o : Nat} (h : Returns d o) (r : Nat) (s : List Nat) : Steps d (o, r :: s) (r, s) := by
  obtain ⟨a, n, h1, h2⟩ := h
  exact steps_trans (h2 _) (steps_one (.ret h1))

theorem reach_steps {d : Bytes} {starts : List Nat} {o x : Nat} (h : Reachable d starts o)
    (hs : ∀ s, ∃ s', Steps d (o, s) (x, s')) : Reachable d starts x := by
  obtain ⟨a, ha, st, h⟩ := h
  obtain ⟨s', hs⟩ := hs st
  exact ⟨a, ha, s', steps_trans h hs⟩

theorem event_unique {d : Bytes} {o n m : Nat} {e e' : Ev} (h : EventAt d o n e) (h' : EventAt d o m e') : e = e' := by
  have h1 := (event_iff d o e).2 ⟨n, h⟩
  rw [(event_iff d o e').2 ⟨m, h'⟩] at h1
  cases h1; rfl

/-- The next places of a subroutine. -/
def Into (d : Bytes) (a b : Nat) : Prop := ∃ n e, EventAt d a n e ∧
  ((GoesOn e ∧ (∀ t x, e ≠ .beginTrack t x) ∧ b = a + n) ∨ ∃ x, e = .call x ∧ (b = x ∨ b = a + n))

/-- One or more of them. -/
inductive Way (d : Bytes) : Nat → Nat → Prop
  | one {a b} : Into d a b → Way d a b
  | more {a b c} : Way d a b → Into d b c → Way d a c

theorem way_first {d : Bytes} {a b c : Nat} (h : Into d a b) (h2 : Way d b c) : Way d a c := by
  induction h2 with
  | one h3 => exact .more (.one h) h3
  | more _ h3 ih => exact .more ih h3

theorem way_trans {d : Bytes} {a b c : Nat} (h : Way d a b) (h2 : Way d b c) : Way d a c := by
  induction h2 with
  | one h3 => exact .more h h3
  | more _ h3 ih => exact .more ih h3

theorem var_unique {d : Bytes} {o n m v w : Nat} (h : VarAt d o n v) (h' : VarAt d o m w) : n = m := by
  obtain ⟨a1, -, -, a4, a5, -⟩ := h
  obtain ⟨b1, -, -, b4, b5, -⟩ := h'
  rcases Nat.lt_trichotomy n m with hlt | heq | hgt
  · have := b4 (n - 1) (by omega); omega
  · exact heq
  · have := a4 (m - 1) (by omega); omega

theorem width_unique {d : Bytes} {o n m : Nat} {e : Ev} (h : EventAt d o n e) (h' : EventAt d o m e) : n = m := by
  cases e with
  | note p v f dur =>
    obtain ⟨-, -, -, -, -, -, k, x, hk, -, rfl⟩ := h
    obtain ⟨-, -, -, -, -, -, k', x', hk', -, rfl⟩ := h'
    rw [var_unique hk hk']
  | rest dur =>
    obtain ⟨-, k, x, hk, -, rfl⟩ := h
    obtain ⟨-, k', x', hk', -, rfl⟩ := h'
    rw [var_unique hk hk']
  | instrumentSwitch b i =>
    obtain ⟨-, k, x, hk, -, -, rfl⟩ := h
    obtain ⟨-, k', x', hk', -, -, rfl⟩ := h'
    rw [var_unique hk hk']
  | random s args lo hi =>
    obtain ⟨-, k, hk, rfl, -⟩ := h
    obtain ⟨-, k', hk', rfl, -⟩ := h'
    have h1 := (kept_iff (Reader.u8_lt _ _) k).2 hk
    rw [(kept_iff (Reader.u8_lt _ _) k').2 hk'] at h1
    injection h1 with h1
    exact h1.symm
  | fromVariable s v u => rw [h.2.1, h'.2.1]
  | beginTrack t x => rw [h.2.2.2.2, h'.2.2.2.2]
  | jump x => rw [h.2.2, h'.2.2]
  | call x => rw [h.2.2, h'.2.2]
  | ifE => rw [h.2, h'.2]
  | arith a i v => rw [h.2.1, h'.2.1]
  | simple c v => rw [h.2.1, h'.2.1]
  | monoPoly v => rw [h.2.1, h'.2.1]
  | vibratoType v => rw [h.2.1, h'.2.1]
  | tempo v => rw [h.2.1, h'.2.1]
  | sweepPitch v => rw [h.2.1, h'.2.1]
  | endLoop => rw [h.2, h'.2]
  | ret => rw [h.2, h'.2]
  | defineTracks l => rw [h.2.1, h'.2.1]
  | endTrack => rw [h.2, h'.2]
  | raw b => exact h.elim

/-! ## Subroutines -/

theorem sub_inv {d : Bytes} {a n : Nat} {e : Ev} (h : Sub d a) (he : EventAt d a n e) :
    e = .ret ∨ (GoesOn e ∧ (∀ t x, e ≠ .beginTrack t x) ∧ Sub d (a + n)) ∨ ∃ x, e = .call x ∧ Sub d x ∧ Sub d (a + n) := by
  cases h with
  | ret h1 => exact .inl (event_unique he h1)
  | next h1 h2 h3 h4 =>
    cases event_unique he h1
    rw [width_unique he h1]
    exact .inr (.inl ⟨h2, h3, h4⟩)
  | call h1 h2 h3 =>
    cases event_unique he h1
    rw [width_unique he h1]
    exact .inr (.inr ⟨_, rfl, h2, h3⟩)

theorem sub_into {d : Bytes} {a b : Nat} (h : Sub d a) (hi : Into d a b) : Sub d b := by
  obtain ⟨n, e, he, hi⟩ := hi
  rcases sub_inv h he with rfl | ⟨h1, h2, h3⟩ | ⟨x, rfl, h1, h2⟩
  · rcases hi with ⟨h, -⟩ | ⟨x, h, -⟩
    · exact h.elim
    · cases h
  · rcases hi with ⟨-, -, rfl⟩ | ⟨x, rfl, -⟩
    · exact h3
    · exact h1.elim
  · rcases hi with ⟨h, -⟩ | ⟨x, h, rfl | rfl⟩
    · exact h.elim
    · cases h; exact h1
    · exact h2

theorem sub_way {d : Bytes} {a b : Nat} (h : Sub d a) (hw : Way d a b) : Sub d b := by
  induction hw with
  | one hi => exact sub_into h hi
  | more _ hi ih => exact sub_into ih hi

theorem sub_acc {d : Bytes} {a : Nat} (h : Sub d a) : Acc (fun b a => Into d a b) a := by
  induction h with
  | ret h1 =>
    refine ⟨_, ?_⟩
    rintro b ⟨n, e, he, hi⟩
    cases event_unique he h1
    rcases hi with ⟨h, -⟩ | ⟨x, h, -⟩
    · exact h.elim
    · cases h
  | next h1 h2 h3 _ ih =>
    refine ⟨_, ?_⟩
    rintro b ⟨n, e, he, hi⟩
    cases event_unique he h1
    rcases hi with ⟨-, -, rfl⟩ | ⟨x, rfl, -⟩
    · rw [width_unique he h1]; exact ih
    · exact h2.elim
  | call h1 _ _ ih1 ih2 =>
    refine ⟨_, ?_⟩
    rintro b ⟨n, e, he, hi⟩
    cases event_unique he h1
    rcases hi with ⟨h, -⟩ | ⟨x, h, rfl | rfl⟩
    · exact h.elim
    · cases h; exact ih1
    · rw [width_unique he h1]; exact ih2

theorem acc_way {d : Bytes} {a : Nat} (h : Acc (fun b a => Into d a b) a) : Acc (fun b a => Way d a b) a := by
  induction h with
  | intro a _ ih =>
    refine ⟨_, fun c hc => ?_⟩
    induction hc with
    | one hi => exact ih _ hi
    | more _ hi ih2 => exact ih2.inv (Way.one hi)

theorem acc_irrefl {α : Type} {r : α → α → Prop} {a : α} (h : Acc r a) : ¬ r a a := by
  induction h with
  | intro a _ ih => exact fun hr => ih a hr hr

/-- A subroutine does not come back to itself. -/
theorem sub_acyclic {d : Bytes} {a : Nat} (h : Sub d a) : ¬ Way d a a :=
  acc_irrefl (r := fun b a => Way d a b) (acc_way (sub_acc h))

theorem sub_returns {d : Bytes} {a : Nat} (h : Sub d a) : Returns d a := by
  induction h with
  | ret h1 => exact ⟨_, _, h1, fun s => .refl _⟩
  | next h1 h2 _ _ ih => exact ih.prep fun s => steps_one (.next h1 h2)
  | call h1 _ _ ih1 ih2 => exact ih2.prep fun s => steps_trans (steps_one (.call h1)) (ih1.back _ _)

/-! ## The invariant -/

structure Inv (d : Bytes) (starts : List Nat) (st : St) : Prop where
  ev : ∀ o e, st.events o = some e → Reachable d starts o ∧ decode d o = .ok e
  ret : ∀ o, st.fates o = some .ret → Returns d o
  sub : ∀ o, Sub d o → st.fates o = none ∨ st.fates o = some .inProgress ∨ st.fates o = some .ret

theorem Inv.mark {d : Bytes} {starts : List Nat} {st : St} (h : Inv d starts st) {mine : List Nat} {f : Fate}
    (h1 : ∀ m ∈ mine, f = .ret → Returns d m) (h2 : ∀ m ∈ mine, Sub d m → f = .ret) : Inv d starts (st.mark mine f) := by
  refine ⟨h.ev, fun o ho => ?_, fun o ho => ?_⟩
  · simp only [St.mark] at ho
    split at ho
    · rename_i hm
      cases ho
      exact h1 o hm rfl
    · exact h.ret o ho
  · simp only [St.mark]
    split
    · rename_i hm
      rw [h2 o hm ho]
      exact .inr (.inr rfl)
    · exact h.sub o ho

theorem Inv.put {d : Bytes} {starts : List Nat} {st : St} (h : Inv d starts st) {off : Nat} {e : Ev} {f : Fate}
    (h1 : Reachable d starts off) (h2 : decode d off = .ok e) (h3 : f = .ret → Returns d off)
    (h4 : Sub d off → f = .inProgress ∨ f = .ret) : Inv d starts (st.put off e f) := by
  refine ⟨fun o e' ho => ?_, fun o ho => ?_, fun o ho => ?_⟩
  · simp only [St.put] at ho
    split at ho
    · rename_i hm
      cases ho
      subst hm
      exact ⟨h1, h2⟩
    · exact h.ev o e' ho
  · simp only [St.put] at ho
    split at ho
    · rename_i hm
      cases ho
      subst hm
      exact h3 rfl
    · exact h.ret o ho
  · simp only [St.put]
    split
    · rename_i hm
      subst hm
      rcases h4 ho with rfl | rfl
      · exact .inr (.inl rfl)
      · exact .inr (.inr rfl)
    · exact h.sub o ho

/-- The event before a jump that makes it conditional. -/
theorem partOfIf_inv {ev : Nat → Option Ev} : ∀ {off : Nat}, partOfIf ev off = true →
    ∃ x, x < off ∧ ev x = some .ifE ∧ ∀ y, x < y → y < off → ev y = none
  | 0, h => by cases h
  | x + 1, h => by
    rw [partOfIf] at h
    split at h
    · rename_i e he
      have : e = .ifE := by simpa using h
      subst this
      exact ⟨x, by omega, he, fun y h1 h2 => by omega⟩
    · rename_i he
      obtain ⟨y, h1, h2, h3⟩ := partOfIf_inv h
      refine ⟨y, by omega, h2, fun z hz1 hz2 => ?_⟩
      by_cases hzx : z = x
      · rw [hzx]; exact he
      · exact h3 z hz1 (by omega)

theorem flows_goesOn {e : Ev} : flows e = true ↔ GoesOn e := by
  cases e <;> simp [flows, GoesOn]

theorem mark_progress {st : St} {mine : List Nat} {f : Fate} (hf : f ≠ .inProgress) {a : Nat}
    (h : (st.mark mine f).fates a = some .inProgress) : st.fates a = some .inProgress ∧ a ∉ mine := by
  simp only [St.mark] at h
  split at h
  · cases h; exact absurd rfl hf
  · rename_i hm; exact ⟨h, hm⟩

theorem put_progress {st : St} {off a : Nat} {e : Ev} {f : Fate} (h : (st.put off e f).fates a = some .inProgress) :
    a = off ∨ st.fates a = some .inProgress := by
  simp only [St.put] at h
  split at h
  · rename_i ha; exact .inl ha
  · exact .inr h

theorem put_event {st : St} {off o : Nat} {e e' : Ev} {f : Fate} (h : (st.put off e f).events o = some e') :
    (o = off ∧ e' = e) ∨ st.events o = some e' := by
  simp only [St.put] at h
  split at h
  · rename_i ha; cases h; exact .inl ⟨ha, rfl⟩
  · exact .inr h

theorem parse_play {d : Bytes} {starts : List Nat} (hpl : Sane d starts) : ∀ {fuel depth off : Nat} {mine : List Nat} {st : St}
    {r : Fate × St}, Dom st → Inv d starts st → Reachable d starts off → (∀ m ∈ mine, (st.events m).isSome) →
    (∀ m ∈ mine, ∀ s, Steps d (m, s) (off, s)) → (∀ m ∈ mine, Sub d m → Way d m off) →
    (∀ x, st.events x = some .ifE → (st.events (x + 1)).isSome ∨ x + 1 = off) →
    (∀ a, Sub d a → st.fates a = some .inProgress → Way d a off) →
    (∀ o, off = o + 1 → EventAt d o 1 .ifE → Only d starts o → st.events o = some .ifE) →
    parseAt d fuel depth off mine st = .ok r →
    Inv d starts r.2 ∧ (r.1 = .ret → Returns d off) ∧ r.1 ≠ .inProgress ∧ (Sub d off → r.1 = .ret) ∧
    (∀ a, Sub d a → r.2.fates a = some .inProgress → st.fates a = some .inProgress ∧ a ∉ mine) ∧
    (∀ o x, r.2.events o = some (.call x) → Sub d x → st.events o = some (.call x) ∨ (r.2.events (o + 4)).isSome) ∧
    (∀ o x, r.2.events (o + 1) = some (.jump x) → EventAt d o 1 .ifE → Only d starts o →
      st.events (o + 1) = some (.jump x) ∨ (r.2.events (o + 1 + 4)).isSome) := by
  intro fuel
  induction fuel with
  | zero => intro _ _ _ _ _ _ _ _ _ _ _ _ _ _ h; cases h
  | succ fuel ih =>
    intro depth off mine st r hdom hinv hreach hmine hsteps hway hif hip hgd h
    have hT : ∀ o e, True → o < d.length → decode d o = .ok e → (∀ x ∈ refs e, True) ∧ True :=
      fun _ _ _ _ _ => ⟨fun _ _ => trivial, trivial⟩
    rw [parseAt] at h
    split at h
    · cases h
    rename_i hlt
    have hlt : off < d.length := by omega
    split at h
    · rename_i f hf
      cases h
      have hsub : Sub d off → f = .ret := fun hs => by
        rcases hinv.sub off hs with h | h | h
        · rw [hf] at h; cases h
        · exact absurd (hip off hs h) (sub_acyclic hs)
        · rw [hf] at h; cases h; rfl
      have hne : (if f = .inProgress then Fate.loop else f) ≠ .inProgress := by
        split
        · decide
        · assumption
      have hr : (if f = .inProgress then Fate.loop else f) = .ret → f = .ret := by
        split
        · intro h; cases h
        · exact id
      have hr' : f = .ret → (if f = .inProgress then Fate.loop else f) = .ret := by rintro rfl; rfl
      refine ⟨hinv.mark (fun m hm hfr => ?_) (fun m hm hs => ?_), fun h => ?_, hne, fun hs => hr' (hsub hs), fun a ha h => ?_,
        fun o x ho hx => .inl ho, fun o x ho _ _ => .inl ho⟩
      · exact (hinv.ret off (hr hfr ▸ hf)).prep (hsteps m hm)
      · exact hr' (hsub (sub_way hs (hway m hm hs)))
      · exact hinv.ret off (hr h ▸ hf)
      · exact mark_progress hne h
    · rename_i hnf
      simp only [bind_eq_ok, asEof_eq_ok] at h
      obtain ⟨e, hdec, n, hlen, h⟩ := h
      have hnone : st.events off = none := by
        have := hdom off
        rw [hnf] at this
        cases hx : st.events off with
        | none => rfl
        | some e' => rw [hx] at this; cases this
      obtain ⟨n', hev⟩ := (event_iff d off e).1 hdec
      have hn := event_width d off n' e hev (hpl off n' e hreach hev)
      rw [hlen] at hn
      injection hn with hn
      subst hn
      have hdom1 : ∀ f, Dom (st.put off e f) := fun f => hdom.put off e f
      have hmine1 : ∀ f, ∀ m ∈ mine ++ [off], ((st.put off e f).events m).isSome := by
        intro f m hm
        rcases List.mem_append.1 hm with hm | hm
        · exact isSome_mono (put_mono hnone e f) (hmine m hm)
        · rw [List.mem_singleton.1 hm]; exact put_some st off e f
      have hinv1 : Inv d starts (st.put off e .inProgress) :=
        hinv.put hreach hdec (fun h => by cases h) (fun _ => .inl rfl)
      have only : ∀ {o : Nat}, (∀ s, ∃ s', Step d (off, s) (o + 1, s')) → Only d starts o → off = o := by
        intro o hst ho
        obtain ⟨p, hp, s, hs⟩ := hreach
        obtain ⟨s', hs'⟩ := hst s
        exact ho.2 p hp off s s' hs hs'
      -- a call into another place
      have nest : ∀ {depth' x : Nat} {r1 : Fate × St}, (e ≠ .ifE) → (∀ s, ∃ s', Step d (off, s) (x, s')) →
          (∀ a, Sub d a → (st.put off e .inProgress).fates a = some .inProgress → Way d a x) →
          parseAt d fuel depth' x [] (st.put off e .inProgress) = .ok r1 →
          Grew d (fun _ => True) (st.put off e .inProgress).events r1.2.events ∧ Dom r1.2 ∧ (r1.2.events x).isSome ∧
          (∀ m ∈ mine ++ [off], (r1.2.events m).isSome) ∧
          (∀ y, r1.2.events y = some .ifE → (r1.2.events (y + 1)).isSome) ∧
          Inv d starts r1.2 ∧ (r1.1 = .ret → Returns d x) ∧ r1.1 ≠ .inProgress ∧ (Sub d x → r1.1 = .ret) ∧
          (∀ a, Sub d a → r1.2.fates a = some .inProgress → (st.put off e .inProgress).fates a = some .inProgress) ∧
          (∀ o x, r1.2.events o = some (.call x) → Sub d x →
            (o = off ∧ e = .call x) ∨ st.events o = some (.call x) ∨ (r1.2.events (o + 4)).isSome) ∧
          (∀ o x, r1.2.events (o + 1) = some (.jump x) → EventAt d o 1 .ifE → Only d starts o →
            (o + 1 = off ∧ e = .jump x) ∨ st.events (o + 1) = some (.jump x) ∨ (r1.2.events (o + 1 + 4)).isSome) := by
        intro depth' x r1 hni hst hw1 hp
        obtain ⟨g, dm, sm⟩ := parseAt_spec (P := fun _ => True) hT (hdom1 _) trivial (by simp) hp
        have hif1 : ∀ y, (st.put off e .inProgress).events y = some .ifE → ((st.put off e .inProgress).events (y + 1)).isSome := by
          intro y hy
          rcases put_event hy with ⟨-, h⟩ | h
          · exact absurd h.symm hni
          · rcases hif y h with h | h
            · exact isSome_mono (put_mono hnone e _) h
            · rw [h]; exact put_some st off e _
        obtain ⟨i1, i2, i3, i4, i5, i6, i7⟩ := ih (hdom1 _) hinv1 (reach_steps hreach fun s => (hst s).imp fun _ h => steps_one h) (by simp)
          (by simp) (by simp) (fun y hy => .inl (hif1 y hy)) hw1 (fun o hxo hoe ho => by
            subst hxo
            have := only hst ho
            subst this
            exact absurd (event_unique hev hoe) hni) hp
        refine ⟨g, dm, sm, fun m hm => isSome_mono g.mono (hmine1 _ m hm), fun y hy => ?_, i1, i2, i3, i4,
          fun a ha h => (i5 a ha h).1, fun o z ho hz => ?_, fun o z ho hz1 hz2 => ?_⟩
        · cases hb : (st.put off e .inProgress).events y with
          | none =>
            obtain ⟨-, -, h3⟩ := g.new y _ hy hb
            exact h3 rfl
          | some e' =>
            have := g.mono y e' hb
            rw [hy] at this
            cases this
            exact isSome_mono g.mono (hif1 y hb)
        · rcases i6 o z ho hz with h | h
          · rcases put_event h with ⟨h1, h2⟩ | h
            · exact .inl ⟨h1, h2.symm⟩
            · exact .inr (.inl h)
          · exact .inr (.inr h)
        · rcases i7 o z ho hz1 hz2 with h | h
          · rcases put_event h with ⟨h1, h2⟩ | h
            · exact .inl ⟨h1, h2.symm⟩
            · exact .inr (.inl h)
          · exact .inr (.inr h)
      have noSub : ¬ Sub d off → ∀ a, Sub d a → (st.put off e .inProgress).fates a ≠ some .inProgress := by
        intro hns a ha h
        rcases put_progress h with rfl | h
        · exact hns ha
        · exact hns (sub_way ha (hip a ha h))
      have noMine : ¬ Sub d off → ∀ m ∈ mine, ¬ Sub d m := fun hns m hm hs => hns (sub_way hs (hway m hm hs))
      have into : ∀ {b}, Into d off b → ∀ a, Sub d a → (st.put off e .inProgress).fates a = some .inProgress → Way d a b := by
        intro b hb a ha h
        rcases put_progress h with rfl | h
        · exact .one hb
        · exact .more (hip a ha h) hb
      have cont : ∀ {st' : St} {r : Fate × St}, Dom st' → Inv d starts st' → (∀ m ∈ mine ++ [off], (st'.events m).isSome) →
          (∀ s, Steps d (off, s) (off + n, s)) → (Sub d off → Way d off (off + n)) →
          (∀ x, st'.events x = some .ifE → (st'.events (x + 1)).isSome ∨ x + 1 = off + n) →
          (∀ a, Sub d a → st'.fates a = some .inProgress → Way d a (off + n)) →
          (∀ o, off + n = o + 1 → EventAt d o 1 .ifE → Only d starts o → st'.events o = some .ifE) →
          parseAt d fuel depth (off + n) (mine ++ [off]) st' = .ok r →
          Inv d starts r.2 ∧ (r.1 = .ret → Returns d off) ∧ r.1 ≠ .inProgress ∧ (Sub d (off + n) → r.1 = .ret) ∧
          (∀ a, Sub d a → r.2.fates a = some .inProgress → st'.fates a = some .inProgress ∧ a ∉ mine ∧ a ≠ off) ∧
          (∀ o x, r.2.events o = some (.call x) → Sub d x → st'.events o = some (.call x) ∨ (r.2.events (o + 4)).isSome) ∧
          (∀ o x, r.2.events (o + 1) = some (.jump x) → EventAt d o 1 .ifE → Only d starts o →
            st'.events (o + 1) = some (.jump x) ∨ (r.2.events (o + 1 + 4)).isSome) ∧
          (r.2.events (off + n)).isSome ∧ (∀ o, (st'.events o).isSome → (r.2.events o).isSome) := by
        intro st' r hd' hi' hm' hs' hw' hf' hp' hg' h
        obtain ⟨g, -, sm⟩ := parseAt_spec (P := fun _ => True) hT hd' trivial hm' h
        obtain ⟨i1, i2, i3, i4, i5, i6, i7⟩ := ih hd' hi' (reach_steps hreach fun s => ⟨s, hs' s⟩) hm'
          (fun m hm s => by
            rcases List.mem_append.1 hm with hm | hm
            · exact steps_trans (hsteps m hm s) (hs' s)
            · rw [List.mem_singleton.1 hm]; exact hs' s)
          (fun m hm hsub => by
            rcases List.mem_append.1 hm with hm | hm
            · exact way_trans (hway m hm hsub) (hw' (sub_way hsub (hway m hm hsub)))
            · rw [List.mem_singleton.1 hm] at hsub ⊢; exact hw' hsub) hf' hp' hg' h
        refine ⟨i1, fun h => (i2 h).prep hs', i3, i4, fun a ha h => ?_, i6, i7, sm, fun o ho => isSome_mono g.mono ho⟩
        obtain ⟨j1, j2⟩ := i5 a ha h
        refine ⟨j1, fun hm => j2 (by simp [hm]), fun hm => j2 (by simp [hm])⟩
      cases hx : e with
      | beginTrack t x =>
        subst hx
        have hns : ¬ Sub d off := fun hs => by
          rcases sub_inv hs hev with h | ⟨-, h, -⟩ | ⟨_, h, -⟩
          · cases h
          · exact h _ _ rfl
          · cases h
        cases depth with
        | zero => cases h
        | succ depth' =>
          simp only [bind_eq_ok] at h
          obtain ⟨r1, hp, _, -, h⟩ := h
          obtain ⟨n1, n2, -, n4, n5, n6, -, -, -, n10, n11, n12⟩ := nest (by simp) (fun s => ⟨_, .track hev⟩)
            (fun a ha h => absurd h (noSub hns a ha)) hp
          obtain ⟨c1, c2, c3, -, c5, c6, c7, -, c9⟩ := cont n2 n6 n4 (fun s => steps_one (.next hev trivial)) (fun h => absurd h hns)
            (fun x hx => .inl (n5 x hx)) (fun a ha h => absurd (n10 a ha h) (noSub hns a ha))
            (fun o ho1 ho2 ho3 => by
              have := only (fun s => ⟨s, ho1 ▸ .next hev trivial⟩) ho3
              subst this
              cases event_unique hev ho2) h
          refine ⟨c1, c2, c3, fun h => absurd h hns, fun a ha h => absurd (n10 a ha (c5 a ha h).1) (noSub hns a ha), fun o y ho hy => ?_,
            fun o y ho hy1 hy2 => ?_⟩
          · rcases c6 o y ho hy with h | h
            · rcases n11 o y h hy with ⟨-, h⟩ | h | h
              · cases h
              · exact .inl h
              · exact .inr (c9 _ h)
            · exact .inr h
          · rcases c7 o y ho hy1 hy2 with h | h
            · rcases n12 o y h hy1 hy2 with ⟨-, h⟩ | h | h
              · cases h
              · exact .inl h
              · exact .inr (c9 _ h)
            · exact .inr h
      | jump x =>
        subst hx
        have hns : ¬ Sub d off := fun hs => by
          rcases sub_inv hs hev with h | ⟨h, -, -⟩ | ⟨_, h, -⟩
          · cases h
          · exact h
          · cases h
        have hn4 : n = 4 := hev.2.2
        cases depth with
        | zero => cases h
        | succ depth' =>
          simp only [bind_eq_ok] at h
          obtain ⟨r1, hp, _, -, h⟩ := h
          obtain ⟨n1, n2, -, n4, n5, n6, n7, n8, -, n10, n11, n12⟩ := nest (by simp) (fun s => ⟨_, .jump hev⟩)
            (fun a ha h => absurd h (noSub hns a ha)) hp
          have hret : r1.1 = .ret → Returns d off := fun h => (n7 h).prep fun s => steps_one (.jump hev)
          have hmk : Inv d starts (r1.2.mark mine r1.1) :=
            n6.mark (fun m hm h => (hret h).prep (hsteps m hm)) (fun m hm h => absurd h (noMine hns m hm))
          split at h
          · rename_i hpi
            obtain ⟨z, hz1, hz2, hz3⟩ := partOfIf_inv hpi
            have hz : z + 1 = off := by
              have h1 := n5 z hz2
              rcases Nat.lt_or_ge (z + 1) off with h2 | h2
              · rw [hz3 (z + 1) (by omega) h2] at h1; cases h1
              · omega
            obtain ⟨-, hzd⟩ := n6.ev z _ hz2
            obtain ⟨w, hzd⟩ := (event_iff d z .ifE).1 hzd
            have hw : w = 1 := hzd.2
            subst hw
            obtain ⟨c1, c2, c3, -, c5, c6, c7, c8, c9⟩ := cont (n2.mark (fun o ho => n4 o (by simp [ho])) r1.1) hmk n4
              (fun s => steps_one (by subst hz; exact .skip hzd hev)) (fun h => absurd h hns)
              (fun x hx => .inl (n5 x hx)) (fun a ha h => absurd (n10 a ha (mark_progress n8 h).1) (noSub hns a ha))
              (fun o ho1 ho2 ho3 => by
                have := only (fun s => ⟨s, ho1 ▸ (by subst hz; exact .skip hzd hev)⟩) ho3
                subst this
                cases event_unique hev ho2) h
            refine ⟨c1, c2, c3, fun h => absurd h hns,
              fun a ha h => absurd (n10 a ha (mark_progress n8 (c5 a ha h).1).1) (noSub hns a ha), fun o y ho hy => ?_, fun o y ho hy1 hy2 => ?_⟩
            · rcases c6 o y ho hy with h | h
              · rcases n11 o y h hy with ⟨-, h⟩ | h | h
                · cases h
                · exact .inl h
                · exact .inr (c9 _ h)
              · exact .inr h
            · rcases c7 o y ho hy1 hy2 with h | h
              · rcases n12 o y h hy1 hy2 with ⟨h, -⟩ | h | h
                · rw [h]; subst hn4; exact .inr c8
                · exact .inl h
                · exact .inr (c9 _ h)
              · exact .inr h
          · cases h
            refine ⟨hmk, hret, n8, fun h => absurd h hns, fun a ha h => absurd (n10 a ha (mark_progress n8 h).1) (noSub hns a ha),
              fun o y ho hy => ?_, fun o y ho hy1 hy2 => ?_⟩
            · rcases n11 o y ho hy with ⟨-, h⟩ | h | h
              · cases h
              · exact .inl h
              · exact .inr h
            · rcases n12 o y ho hy1 hy2 with ⟨h, -⟩ | h | h
              · rename_i hpi
                have h1 := n1.mono o _ (put_mono hnone _ _ o _ (hgd o h.symm hy1 hy2))
                exact absurd (by rw [← h, partOfIf, h1]; rfl) hpi
              · exact .inl h
              · exact .inr h
      | call x =>
        subst hx
        have hsub : Sub d off → Sub d x ∧ Sub d (off + n) := fun hs => by
          rcases sub_inv hs hev with h | ⟨h, -, -⟩ | ⟨_, h, h1, h2⟩
          · cases h
          · exact h.elim
          · cases h; exact ⟨h1, h2⟩
        have hn4 : n = 4 := hev.2.2
        cases depth with
        | zero => cases h
        | succ depth' =>
          simp only [bind_eq_ok] at h
          obtain ⟨r1, hp, _, -, h⟩ := h
          obtain ⟨n1, n2, -, n4, n5, n6, n7, n8, n9, n10, n11, n12⟩ := nest (by simp) (fun s => ⟨_, .call hev⟩)
            (into ⟨n, _, hev, .inr ⟨x, rfl, .inl rfl⟩⟩) hp
          split at h
          · rename_i hf
            cases h
            have hnr : r1.1 ≠ .ret := by rcases hf with h | h <;> rw [h] <;> decide
            have hnx : ¬ Sub d x := fun h => hnr (n9 h)
            have hns : ¬ Sub d off := fun h => hnx (hsub h).1
            refine ⟨n6.mark (fun m hm h => absurd h hnr) (fun m hm h => ?_), fun h => absurd h hnr, n8, fun h => absurd h hns,
              fun a ha h => absurd (n10 a ha (mark_progress n8 h).1) (noSub hns a ha), fun o y ho hy => ?_,
              fun o y ho hy1 hy2 => ?_⟩
            · rcases List.mem_cons.1 hm with rfl | hm
              · exact absurd h hns
              · exact absurd h (noMine hns m hm)
            · rcases n11 o y ho hy with ⟨-, h⟩ | h | h
              · cases h; exact absurd hy hnx
              · exact .inl h
              · exact .inr h
            · rcases n12 o y ho hy1 hy2 with ⟨-, h⟩ | h | h
              · cases h
              · exact .inl h
              · exact .inr h
          · rename_i hf
            have hr : r1.1 = .ret := by
              cases hc : r1.1 with
              | inProgress => exact absurd hc n8
              | ret => rfl
              | loop => exact absurd (.inr hc) hf
              | eot => exact absurd (.inl hc) hf
            have hinto : Into d off (off + n) := ⟨n, _, hev, .inr ⟨x, rfl, .inr rfl⟩⟩
            obtain ⟨c1, c2, c3, c4, c5, c6, cj, c7, c8⟩ := cont n2 n6 n4
              (fun s => steps_trans (steps_one (.call hev)) ((n7 hr).back _ s)) (fun _ => .one hinto) (fun x hx => .inl (n5 x hx))
              (fun a ha h => into hinto a ha (n10 a ha h))
              (fun o ho1 ho2 ho3 => by
                obtain ⟨a, w, ha1, ha2⟩ := n7 hr
                obtain ⟨p, hp, s, hs⟩ := hreach
                have := ho3.2 p hp a _ s (steps_trans hs (steps_trans (steps_one (.call hev)) (ha2 _))) (ho1 ▸ .ret ha1)
                subst this
                cases event_unique ha1 ho2) h
            refine ⟨c1, c2, c3, fun h => c4 (hsub h).2, fun a ha h => ?_, fun o y ho hy => ?_, fun o y ho hy1 hy2 => ?_⟩
            · obtain ⟨j1, j2, j3⟩ := c5 a ha h
              rcases put_progress (n10 a ha j1) with h | h
              · exact absurd h j3
              · exact ⟨h, j2⟩
            · rcases c6 o y ho hy with h | h
              · rcases n11 o y h hy with ⟨h, -⟩ | h | h
                · subst h; subst hn4; exact .inr c7
                · exact .inl h
                · exact .inr (c8 _ h)
              · exact .inr h
            · rcases cj o y ho hy1 hy2 with h | h
              · rcases n12 o y h hy1 hy2 with ⟨-, h⟩ | h | h
                · cases h
                · exact .inl h
                · exact .inr (c8 _ h)
              · exact .inr h
      | ret =>
        subst hx
        cases h
        have hret : Returns d off := ⟨_, _, hev, fun s => .refl _⟩
        refine ⟨(hinv.put hreach hdec (fun _ => hret) (fun _ => .inr rfl)).mark
          (fun m hm _ => hret.prep (hsteps m hm)) (fun _ _ _ => rfl), fun _ => hret, by simp, fun _ => rfl,
          fun a ha h => ?_, fun o y ho hy => ?_, fun o y ho hy1 hy2 => ?_⟩
        · obtain ⟨h1, h2⟩ := mark_progress (by decide) h
          simp only [St.put] at h1
          split at h1
          · cases h1
          · exact ⟨h1, h2⟩
        · rcases put_event (f := .ret) ho with ⟨-, h⟩ | h
          · cases h
          · exact .inl h
        · rcases put_event (f := .ret) ho with ⟨-, h⟩ | h
          · cases h
          · exact .inl h
      | endTrack =>
        subst hx
        cases h
        have hns : ¬ Sub d off := fun hs => by
          rcases sub_inv hs hev with h | ⟨h, -, -⟩ | ⟨_, h, -⟩
          · cases h
          · exact h
          · cases h
        refine ⟨(hinv.put hreach hdec (fun h => by cases h) (fun h => absurd h hns)).mark
          (fun m hm h => by cases h) (fun m hm h => absurd h (noMine hns m hm)), fun h => (by cases h), by simp, fun h => absurd h hns,
          fun a ha h => ?_, fun o y ho hy => ?_, fun o y ho hy1 hy2 => ?_⟩
        · obtain ⟨h1, h2⟩ := mark_progress (by decide) h
          simp only [St.put] at h1
          split at h1
          · cases h1
          · exact ⟨h1, h2⟩
        · rcases put_event (f := .eot) ho with ⟨-, h⟩ | h
          · cases h
          · exact .inl h
        · rcases put_event (f := .eot) ho with ⟨-, h⟩ | h
          · cases h
          · exact .inl h
      | _ =>
        have hgo : GoesOn e := by rw [hx]; trivial
        have hnb : ∀ t x, e ≠ .beginTrack t x := by rw [hx]; simp
        have hnj : ∀ x, e ≠ .jump x := by rw [hx]; simp
        have hnc : ∀ x, e ≠ .call x := by rw [hx]; simp
        have hif1 : ∀ x, (st.put off e .inProgress).events x = some .ifE →
            ((st.put off e .inProgress).events (x + 1)).isSome ∨ x + 1 = off + n := by
          intro y hy
          rcases put_event hy with ⟨h1, h2⟩ | h
          · rw [← h2] at hev
            have : n = 1 := hev.2
            right; omega
          · rcases hif y h with h | h
            · exact .inl (isSome_mono (put_mono hnone e _) h)
            · rw [h]; exact .inl (put_some st off e _)
        have hinto : Into d off (off + n) := ⟨n, e, hev, .inl ⟨hgo, hnb, rfl⟩⟩
        have h : parseAt d fuel depth (off + n) (mine ++ [off]) (st.put off e .inProgress) = .ok r := by rw [hx] at h ⊢; exact h
        obtain ⟨c1, c2, c3, c4, c5, c6, c7, -, -⟩ := cont (hdom1 _) hinv1 (hmine1 _) (fun s => steps_one (.next hev hgo)) (fun _ => .one hinto)
          hif1 (into hinto) (fun o ho1 ho2 ho3 => by
            have := only (fun s => ⟨s, ho1 ▸ .next hev hgo⟩) ho3
            subst this
            cases event_unique hev ho2
            simp [St.put]) h
        refine ⟨c1, c2, c3, fun h => c4 (sub_into h hinto), fun a ha h => ?_, fun o y ho hy => ?_, fun o y ho hy1 hy2 => ?_⟩
        · obtain ⟨j1, j2, j3⟩ := c5 a ha h
          rcases put_progress j1 with h | h
          · exact absurd h j3
          · exact ⟨h, j2⟩
        · rcases c6 o y ho hy with h | h
          · rcases put_event h with ⟨-, h⟩ | h
            · exact absurd h.symm (hnc y)
            · exact .inl h
          · exact .inr h
        · rcases c7 o y ho hy1 hy2 with h | h
          · rcases put_event h with ⟨-, h⟩ | h
            · exact absurd h.symm (hnj y)
            · exact .inl h
          · exact .inr h

theorem starts_play {d : Bytes} {starts : List Nat} (hpl : Sane d starts) {depth : Nat} : ∀ {ss : List Nat} {st r : St},
    (∀ s ∈ ss, s ∈ starts) → Dom st → Inv d starts st → (∀ x, st.events x = some .ifE → (st.events (x + 1)).isSome) →
    (∀ a, Sub d a → st.fates a ≠ some .inProgress) →
    (∀ o x, st.events o = some (.call x) → Sub d x → (st.events (o + 4)).isSome) →
    (∀ o x, st.events (o + 1) = some (.jump x) → EventAt d o 1 .ifE → Only d starts o → (st.events (o + 1 + 4)).isSome) →
    parseStarts d depth ss st = .ok r →
    Inv d starts r ∧ (∀ o x, r.events o = some (.call x) → Sub d x → (r.events (o + 4)).isSome) ∧
    (∀ o x, r.events (o + 1) = some (.jump x) → EventAt d o 1 .ifE → Only d starts o → (r.events (o + 1 + 4)).isSome)
  | [], st, r, _, _, hi, _, _, hc, hj, h => by cases h; exact ⟨hi, hc, hj⟩
  | s :: ss, st, r, hs, hd, hi, hif, hip, hc, hj, h => by
    rw [parseStarts] at h
    simp only [bind_eq_ok] at h
    obtain ⟨r1, h1, _, _, h⟩ := h
    obtain ⟨g, d1, -⟩ := parseAt_spec (P := fun _ => True) (fun _ _ _ _ _ => ⟨fun _ _ => trivial, trivial⟩) hd trivial (by simp) h1
    obtain ⟨i1, -, -, -, i5, i6, i7⟩ := parse_play hpl hd hi ⟨s, hs s (by simp), [], .refl _⟩ (by simp) (by simp) (by simp)
      (fun x hx => .inl (hif x hx)) (fun a ha h => absurd h (hip a ha)) (fun o ho _ h => absurd (ho ▸ hs s (by simp)) h.1) h1
    refine starts_play hpl (fun x hx => hs x (by simp [hx])) d1 i1 (fun x hx => ?_) (fun a ha h => hip a ha (i5 a ha h).1)
      (fun o x ho hx => ?_) (fun o x ho hx1 hx2 => ?_) h
    · cases hb : st.events x with
      | none => exact (g.new x _ hx hb).2.2 rfl
      | some e' =>
        have := g.mono x e' hb
        rw [hx] at this
        cases this
        exact isSome_mono g.mono (hif x hb)
    · rcases i6 o x ho hx with h | h
      · exact isSome_mono g.mono (hc o x h hx)
      · exact h
    · rcases i7 o x ho hx1 hx2 with h | h
      · exact isSome_mono g.mono (hj o x h hx1 hx2)
      · exact h

theorem read_play {d : Bytes} {depth : Nat} {notable : List Nat} {l : List (Nat × Ev)} {n : List Nat}
    (hpl : Sane d (Proofs.SeqResave.starts notable)) (h : readSequenceEvents depth d notable = .ok (l, n)) :
    ∃ ev : Nat → Option Ev, Covers d ev l 0 ∧ Grew d (fun _ => True) (fun _ => none) ev ∧
      (∀ s ∈ Proofs.SeqResave.starts notable, (ev s).isSome) ∧
      (∀ o e, ev o = some e → Reachable d (Proofs.SeqResave.starts notable) o) ∧
      (∀ o x, ev o = some (.call x) → Sub d x → (ev (o + 4)).isSome) ∧
      (∀ o x, ev (o + 1) = some (.jump x) → EventAt d o 1 .ifE → Only d (Proofs.SeqResave.starts notable) o →
        (ev (o + 1 + 4)).isSome) := by
  unfold readSequenceEvents at h
  simp only [bind_eq_ok, pure_eq_ok, Prod.mk.injEq] at h
  obtain ⟨st, h1, l', h2, _, _, rfl, rfl⟩ := h
  obtain ⟨g, _, s⟩ := parseStarts_spec (P := fun _ => True) (fun _ _ _ _ _ => ⟨fun _ _ => trivial, trivial⟩) (fun _ => rfl)
    (fun _ _ => trivial) h1
  obtain ⟨i, c, j⟩ := starts_play hpl (fun _ h => h) (fun _ => rfl) ⟨fun _ _ h => (by cases h), fun _ h => (by cases h), fun _ _ => .inl rfl⟩
    (fun _ h => by cases h) (fun _ _ h => by cases h) (fun _ _ h => by cases h) (fun _ _ h => by cases h) h1
  refine ⟨st.events, ?_, g, s, fun o e h => (i.ev o e h).1, c, j⟩
  obtain ⟨l, hl, hc⟩ := gather_spec (d := d) (events := st.events)
    (fun o e he => (Proofs.SeqDecode.decode_inv (g.new o e he rfl).1.2.1).1) d.length 0 (by omega)
  rw [hl] at h2
  cases h2
  exact hc

/-- Every event is listed, or inside a listed one. -/
theorem covers_events {d : Bytes} {ev : Nat → Option Ev} (hraw : ∀ o e, ev o = some e → ∀ b, e ≠ .raw b) :
    ∀ {l : List (Nat × Ev)} {i : Nat}, Covers d ev l i → ∀ o e, i ≤ o → o < d.length → ev o = some e →
    (o, e) ∈ l ∨ ∃ x ∈ l, (∀ b, x.2 ≠ .raw b) ∧ x.1 < o ∧ o < x.1 + declared x.2
  | [], i, h, o, e, hi, ho, _ => by
    have : d.length ≤ i := h
    omega
  | (p, e') :: l, i, h, o, e, hi, ho, he => by
    obtain ⟨rfl, h1, h2, h3⟩ := h
    rcases Nat.lt_or_ge o (p + declared e') with hlt | hge
    · rcases h2 with h2 | ⟨j, hj1, hj2, hj3, -, rfl⟩
      · rcases Nat.lt_or_ge p o with h | h
        · exact .inr ⟨_, List.mem_cons_self, hraw p e' h2, h, hlt⟩
        · have : p = o := by omega
          subst this
          rw [h2] at he
          cases he
          exact .inl List.mem_cons_self
      · rw [declared_raw, slice_length_of_le (by omega)] at hlt
        rw [hj3 o hi (by omega)] at he
        cases he
    · rcases covers_events hraw h3 o e hge ho he with h | ⟨x, hx, h⟩
      · exact .inl (List.mem_cons_of_mem _ h)
      · exact .inr ⟨x, List.mem_cons_of_mem _ hx, h⟩

/-- Every place that is got to directly has an event. -/
theorem direct_event {d : Bytes} {starts : List Nat} (hpl : Sane d starts) {ev : Nat → Option Ev}
    (g : Grew d (fun _ => True) (fun _ => none) ev) (hs : ∀ s ∈ starts, (ev s).isSome)
    (hr : ∀ o e, ev o = some e → Reachable d starts o)
    (hc : ∀ o x, ev o = some (.call x) → Sub d x → (ev (o + 4)).isSome)
    (hj : ∀ o x, ev (o + 1) = some (.jump x) → EventAt d o 1 .ifE → Only d starts o → (ev (o + 1 + 4)).isSome) {o : Nat} (h : Direct d starts o) : (ev o).isSome := by
  have at' : ∀ {o n e}, (ev o).isSome → EventAt d o n e → ev o = some e ∧ declared e = n := by
    intro o n e ho he
    obtain ⟨e', ho⟩ := Option.isSome_iff_exists.1 ho
    obtain ⟨⟨-, hd, -⟩, -⟩ := g.new o e' ho rfl
    obtain ⟨m, hm⟩ := (event_iff d o e').1 hd
    cases event_unique he hm
    exact ⟨ho, declared_of (event_width d o n e he (hpl o n e (hr o e ho) he))⟩
  induction h with
  | start h => exact hs _ h
  | next _ he hgo ih =>
    obtain ⟨h1, h2⟩ := at' ih he
    rw [← h2]
    exact (g.new _ _ h1 rfl).2.2 (flows_goesOn.2 hgo)
  | jump _ he ih => exact (g.new _ _ (at' ih he).1 rfl).2.1 _ (by simp [refs])
  | call _ he ih => exact (g.new _ _ (at' ih he).1 rfl).2.1 _ (by simp [refs])
  | track _ he ih => exact (g.new _ _ (at' ih he).1 rfl).2.1 _ (by simp [refs])
  | back _ he hsub ih =>
    have hn := he.2.2
    subst hn
    exact hc _ _ (at' ih he).1 hsub
  | skip _ he hx ho ih =>
    obtain ⟨h1, h2⟩ := at' ih he
    have h3 := (g.new _ _ h1 rfl).2.2 rfl
    have hn := hx.2.2
    subst hn
    exact hj _ _ (at' h3 hx).1 he ho

theorem direct_reach {d : Bytes} {starts : List Nat} {o : Nat} (h : Direct d starts o) : Reachable d starts o := by
  induction h with
  | start h => exact ⟨_, h, [], .refl _⟩
  | next _ he hgo ih => exact reach_steps ih fun s => ⟨_, steps_one (.next he hgo)⟩
  | jump _ he ih => exact reach_steps ih fun s => ⟨_, steps_one (.jump he)⟩
  | call _ he ih => exact reach_steps ih fun s => ⟨_, steps_one (.call he)⟩
  | track _ he ih => exact reach_steps ih fun s => ⟨_, steps_one (.track he)⟩
  | back _ he hsub ih => exact reach_steps ih fun s => ⟨_, steps_trans (steps_one (.call he)) ((sub_returns hsub).back _ _)⟩
  | skip _ he hx ho ih => exact reach_steps ih fun s => ⟨_, steps_trans (steps_one (.next he trivial)) (steps_one (.skip he hx))⟩

end Verif.Proofs.SeqPlay
