import Verif.Proofs.SeqDecode

/-!
# Reading sequence data: what is read, termination, reading after saving and saving after reading
-/

namespace Verif.Proofs.SeqRead

open Verif Verif.Model.SoundSequence Verif.Proofs.SeqVar Verif.Proofs.SeqEvent Verif.Proofs.SeqSave
open Verif.Proofs.SeqDecode Verif.Spec.Sequence

/-! ## The invariant of the parser -/

/-- Offsets have a fate exactly when they have an event. -/
def Dom (st : St) : Prop := ∀ o, (st.fates o).isSome = (st.events o).isSome

/-- `b` has all the events of `a`; the others were decoded at offsets satisfying `P`, and the events they refer to
and the ones that follow them are there too. -/
structure Grew (d : Bytes) (P : Nat → Prop) (a b : Nat → Option Ev) : Prop where
  mono : ∀ o e, a o = some e → b o = some e
  new : ∀ o e, b o = some e → a o = none → (o < d.length ∧ decode d o = .ok e ∧ P o) ∧
    (∀ x ∈ refs e, (b x).isSome) ∧ (flows e = true → (b (o + declared e)).isSome)

theorem Grew.refl (d : Bytes) (P : Nat → Prop) (a : Nat → Option Ev) : Grew d P a a :=
  ⟨fun _ _ h => h, fun _ _ h h' => by rw [h] at h'; cases h'⟩

theorem isSome_mono {a b : Nat → Option Ev} (h : ∀ o e, a o = some e → b o = some e) {o : Nat}
    (ho : (a o).isSome) : (b o).isSome := by
  obtain ⟨e, he⟩ := Option.isSome_iff_exists.1 ho
  rw [h o e he]; rfl

theorem Grew.trans {d : Bytes} {P : Nat → Prop} {a b c : Nat → Option Ev} (h1 : Grew d P a b) (h2 : Grew d P b c) :
    Grew d P a c := by
  refine ⟨fun o e h => h2.mono o e (h1.mono o e h), fun o e hc ha => ?_⟩
  cases hb : b o with
  | none => exact h2.new o e hc hb
  | some e' =>
    have := h2.mono o e' hb
    rw [hc] at this
    cases this
    obtain ⟨k1, k2, k3⟩ := h1.new o e hb ha
    exact ⟨k1, fun x hx => isSome_mono h2.mono (k2 x hx), fun hf => isSome_mono h2.mono (k3 hf)⟩

/-- One new event, and growth from there. -/
theorem Grew.step {d : Bytes} {P : Nat → Prop} {st : St} {off : Nat} {e : Ev} {f : Fate} {b : Nat → Option Ev}
    (h : Grew d P (st.put off e f).events b) (hnone : st.events off = none) (hlt : off < d.length)
    (hdec : decode d off = .ok e) (hP : P off) (hrefs : ∀ x ∈ refs e, (b x).isSome)
    (hflow : flows e = true → (b (off + declared e)).isSome) : Grew d P st.events b := by
  refine ⟨fun o e' ho => ?_, fun o e' ho hn => ?_⟩
  · apply h.mono
    unfold St.put
    by_cases hoo : o = off
    · subst hoo; rw [hnone] at ho; cases ho
    · simp only [if_neg hoo, ho]
  · by_cases hoo : o = off
    · subst hoo
      have : b o = some e := h.mono o e (by simp [St.put])
      rw [this] at ho
      cases ho
      exact ⟨⟨hlt, hdec, hP⟩, hrefs, hflow⟩
    · exact h.new o e' ho (by simp only [St.put, if_neg hoo, hn])

theorem Dom.put {st : St} (h : Dom st) (off : Nat) (e : Ev) (f : Fate) : Dom (st.put off e f) := by
  intro o
  unfold St.put
  by_cases ho : o = off
  · simp [ho]
  · simp only [if_neg ho]; exact h o

theorem Dom.mark {st : St} (h : Dom st) {offs : List Nat} (ho : ∀ o ∈ offs, (st.events o).isSome) (f : Fate) :
    Dom (st.mark offs f) := by
  intro o
  unfold St.mark
  by_cases hm : o ∈ offs
  · simp only [if_pos hm]; rw [ho o hm]; rfl
  · simp only [if_neg hm]; exact h o

theorem asEof_eq_ok {α : Type} {x : Py α} {a : α} : asEof x = .ok a ↔ x = .ok a := by
  constructor
  · intro h
    unfold asEof at h
    split at h
    · cases h
    · cases h
    · exact h
  · rintro rfl; rfl

theorem needEvent_ok {st : St} {o : Nat} {u : Unit} : needEvent st o = .ok u ↔ (st.events o).isSome = true := by
  unfold needEvent
  cases h : st.events o <;> simp

theorem put_some (st : St) (off : Nat) (e : Ev) (f : Fate) : ((st.put off e f).events off).isSome := by
  simp [St.put]

theorem put_mono {st : St} {off : Nat} (h : st.events off = none) (e : Ev) (f : Fate) :
    ∀ o e', st.events o = some e' → (st.put off e f).events o = some e' := by
  intro o e' ho
  by_cases hoo : o = off
  · subst hoo; rw [h] at ho; cases ho
  · simp only [St.put, if_neg hoo, ho]

theorem parseAt_spec {d : Bytes} {P : Nat → Prop}
    (hP : ∀ o e, P o → o < d.length → decode d o = .ok e → (∀ x ∈ refs e, P x) ∧ P (o + declared e)) :
    ∀ {fuel depth off : Nat} {mine : List Nat} {st : St} {r : Fate × St}, Dom st → P off →
    (∀ o ∈ mine, (st.events o).isSome) → parseAt d fuel depth off mine st = .ok r →
    Grew d P st.events r.2.events ∧ Dom r.2 ∧ (r.2.events off).isSome := by
  intro fuel
  induction fuel with
  | zero => intro _ _ _ _ _ _ _ _ h; cases h
  | succ fuel ih =>
    intro depth off mine st r hdom hoff hmine h
    rw [parseAt] at h
    split at h
    · cases h
    rename_i hlt
    split at h
    · rename_i f hf
      cases h
      refine ⟨Grew.refl _ _ _, hdom.mark hmine _, ?_⟩
      show (st.events off).isSome
      rw [← hdom off, hf]; rfl
    rename_i hf
    have hnone : st.events off = none := by
      have := hdom off
      rw [hf] at this
      cases he : st.events off with
      | none => rfl
      | some e => rw [he] at this; cases this
    simp only [bind_eq_ok, asEof_eq_ok] at h
    obtain ⟨e, hdec, n, hn, h⟩ := h
    have hdecl := declared_of hn
    obtain ⟨hPr, hPn⟩ := hP off e hoff (by omega) hdec
    rw [hdecl] at hPn
    have hmine' : ∀ (b : Nat → Option Ev), (∀ o e', (st.put off e .inProgress).events o = some e' → b o = some e') →
        ∀ o ∈ mine ++ [off], (b o).isSome := by
      intro b hb o ho
      rcases List.mem_append.1 ho with ho | ho
      · exact isSome_mono hb (isSome_mono (put_mono hnone _ _) (hmine o ho))
      · rw [List.mem_singleton.1 ho]
        exact isSome_mono hb (put_some _ _ _ _)
    split at h
    · split at h
      · cases h

      simp only [bind_eq_ok, needEvent_ok] at h
      obtain ⟨r1, h1, _, hne, h⟩ := h
      obtain ⟨g1, d1, _⟩ := ih (hdom.put _ _ _) (hPr _ (by simp only [refs, List.mem_singleton])) (by simp) h1
      obtain ⟨g2, d2, s2⟩ := ih d1 hPn (hmine' _ g1.mono) h
      have g := g1.trans g2
      refine ⟨g.step hnone (by omega) hdec hoff ?_ ?_, d2, ?_⟩
      · simp only [refs, List.mem_singleton, forall_eq]
        exact isSome_mono g2.mono hne
      · intro _; rw [hdecl]; exact s2
      · exact isSome_mono g.mono (put_some _ _ _ _)
    · split at h
      · cases h

      simp only [bind_eq_ok, needEvent_ok] at h
      obtain ⟨r1, h1, _, hne, h⟩ := h
      obtain ⟨g1, d1, _⟩ := ih (hdom.put _ _ _) (hPr _ (by simp only [refs, List.mem_singleton])) (by simp) h1
      have hm1 : ∀ o ∈ mine, (r1.2.events o).isSome := fun o ho => hmine' _ g1.mono o (by simp [ho])
      split at h
      · obtain ⟨g2, d2, s2⟩ := ih (d1.mark hm1 r1.1) hPn (hmine' _ g1.mono) h
        have g := g1.trans g2
        refine ⟨g.step hnone (by omega) hdec hoff ?_ (by simp [flows]), d2, ?_⟩
        · simp only [refs, List.mem_singleton, forall_eq]
          exact isSome_mono g2.mono hne
        · exact isSome_mono g.mono (put_some _ _ _ _)
      · cases h
        refine ⟨g1.step hnone (by omega) hdec hoff ?_ (by simp [flows]), d1.mark hm1 _, ?_⟩
        · simpa [refs] using hne
        · exact isSome_mono g1.mono (put_some _ _ _ _)
    · split at h
      · cases h

      simp only [bind_eq_ok, needEvent_ok] at h
      obtain ⟨r1, h1, _, hne, h⟩ := h
      obtain ⟨g1, d1, _⟩ := ih (hdom.put _ _ _) (hPr _ (by simp only [refs, List.mem_singleton])) (by simp) h1
      split at h
      · cases h
        refine ⟨g1.step hnone (by omega) hdec hoff ?_ (by simp [flows]), d1.mark ?_ _, ?_⟩
        · simpa [refs] using hne
        · intro o ho
          apply hmine' _ g1.mono
          simpa [or_comm] using ho
        · exact isSome_mono g1.mono (put_some _ _ _ _)
      · obtain ⟨g2, d2, s2⟩ := ih d1 hPn (hmine' _ g1.mono) h
        have g := g1.trans g2
        refine ⟨g.step hnone (by omega) hdec hoff ?_ (by simp [flows]), d2, ?_⟩
        · simp only [refs, List.mem_singleton, forall_eq]
          exact isSome_mono g2.mono hne
        · exact isSome_mono g.mono (put_some _ _ _ _)
    · cases h
      refine ⟨(Grew.refl d P (st.put off .ret .ret).events).step hnone (by omega) hdec hoff (by simp [refs])
        (by simp [flows]), (hdom.put _ _ _).mark ?_ _, put_some st off .ret .ret⟩
      intro o ho
      exact isSome_mono (put_mono hnone _ _) (hmine o ho)
    · cases h
      refine ⟨(Grew.refl d P (st.put off .endTrack .eot).events).step hnone (by omega) hdec hoff (by simp [refs])
        (by simp [flows]), (hdom.put _ _ _).mark ?_ _, put_some st off .endTrack .eot⟩
      intro o ho
      exact isSome_mono (put_mono hnone _ _) (hmine o ho)
    · rename_i h93 h94 h95 hfd hff
      obtain ⟨g2, d2, s2⟩ := ih (hdom.put off e .inProgress) hPn (hmine' _ (fun _ _ h => h)) h
      refine ⟨g2.step hnone (by omega) hdec hoff ?_ ?_, d2, ?_⟩
      · intro x hx
        cases e <;> first
          | (simp [refs] at hx; done)
          | exact absurd rfl (h93 _ _)
          | exact absurd rfl (h94 _)
          | exact absurd rfl (h95 _)
      · intro _; rw [hdecl]; exact s2
      · exact isSome_mono g2.mono (put_some _ _ _ _)

theorem parseStarts_spec {d : Bytes} {P : Nat → Prop}
    (hP : ∀ o e, P o → o < d.length → decode d o = .ok e → (∀ x ∈ refs e, P x) ∧ P (o + declared e)) {depth : Nat} :
    ∀ {starts : List Nat} {st r : St}, Dom st → (∀ s ∈ starts, P s) → parseStarts d depth starts st = .ok r →
    Grew d P st.events r.events ∧ Dom r ∧ ∀ s ∈ starts, (r.events s).isSome
  | [], st, r, hd, _, h => by cases h; exact ⟨Grew.refl _ _ _, hd, by simp⟩
  | s :: ss, st, r, hd, hs, h => by
    rw [parseStarts] at h
    simp only [bind_eq_ok] at h
    obtain ⟨r1, h1, _, _, h⟩ := h
    obtain ⟨g1, d1, s1⟩ := parseAt_spec hP hd (hs s (by simp)) (by simp) h1
    obtain ⟨g2, d2, s2⟩ := parseStarts_spec hP d1 (fun x hx => hs x (by simp [hx])) h
    refine ⟨g1.trans g2, d2, ?_⟩
    intro x hx
    rcases List.mem_cons.1 hx with rfl | hx
    · exact isSome_mono g2.mono s1
    · exact s2 x hx

/-! ## Termination and exceptions -/

/-- All exceptions of `x` satisfy `p`. -/
def Errs {α : Type} (p : PyErr → Prop) (x : Py α) : Prop := ∀ e, x = .error e → p e

theorem Errs.ok {α : Type} {p : PyErr → Prop} (a : α) : Errs p (.ok a : Py α) := by
  intro e h; cases h

theorem Errs.pure {α : Type} {p : PyErr → Prop} (a : α) : Errs p (pure a : Py α) := Errs.ok a

theorem Errs.error {α : Type} {p : PyErr → Prop} {e : PyErr} (h : p e) : Errs p (.error e : Py α) := by
  intro e' h'; cases h'; exact h

theorem Errs.bind {α β : Type} {p : PyErr → Prop} {x : Py α} {f : α → Py β} (hx : Errs p x)
    (hf : ∀ a, x = .ok a → Errs p (f a)) : Errs p (x >>= f) := by
  intro e h
  rcases bind_eq_error.1 h with h | ⟨a, ha, h⟩
  · exact hx e h
  · exact hf a ha e h

theorem Errs.mapE {α β : Type} {p : PyErr → Prop} {f : α → Py β} (hf : ∀ a, Errs p (f a)) :
    ∀ l : List α, Errs p (mapE f l)
  | [] => Errs.ok _
  | a :: l => (hf a).bind fun _ _ => (Errs.mapE hf l).bind fun _ _ => Errs.ok _

/-- The exceptions of the event decoder. -/
def DecErr (e : PyErr) : Prop := e = .indexError ∨ e = .structError ∨ e = .valueError ∨ e = .keyError

theorem pyIdx_errs {α : Type} (d : List α) (o : Nat) : Errs DecErr (pyIdx d o) := by
  intro e h
  unfold pyIdx at h
  split at h
  · cases h
  · cases h; exact .inl rfl

theorem unpackU_errs (e : Endian) (k : Nat) (d : Bytes) (o : Nat) : Errs DecErr (unpackU e k d o) := by
  intro e h
  exact .inr (.inl (unpackU_err h))

theorem unpackS_errs (e : Endian) (k : Nat) (d : Bytes) (o : Nat) : Errs DecErr (unpackS e k d o) := by
  unfold unpackS
  exact (unpackU_errs _ _ _ _).bind fun _ _ => Errs.pure _

theorem readVarLoop_errs (d : Bytes) : ∀ room off v, Errs DecErr (readVarLoop d room off v) := by
  intro room
  induction room with
  | zero =>
    intro off v
    rw [readVarLoop]
    refine (pyIdx_errs _ _).bind fun a _ => ?_
    split
    · exact Errs.ok _
    · exact (pyIdx_errs _ _).bind fun _ _ => Errs.error (.inr (.inr (.inl rfl)))
  | succ room ih =>
    intro off v
    rw [readVarLoop]
    refine (pyIdx_errs _ _).bind fun a _ => ?_
    split
    · exact Errs.ok _
    · exact (pyIdx_errs _ _).bind fun _ _ => ih _ _

theorem readVar_errs (d : Bytes) (off : Nat) : Errs DecErr (readVar d off) :=
  (pyIdx_errs _ _).bind fun _ _ => readVarLoop_errs _ _ _ _

theorem randomLength_errs (s : Int) : Errs DecErr (randomLength s) := by
  unfold randomLength
  split
  · exact Errs.ok _
  · split
    · exact Errs.error (.inr (.inr (.inr rfl)))
    · split
      · exact Errs.ok _
      · exact Errs.error (.inr (.inr (.inl rfl)))

theorem raiseIf_errs (c : Prop) [Decidable c] : Errs DecErr (raiseIf c .valueError) := by
  unfold raiseIf
  split
  · exact Errs.error (.inr (.inr (.inl rfl)))
  · exact Errs.ok _

theorem fromData_errs (d : Bytes) (o : Nat) (c : Cls) (h : c ≠ .beginTrack ∧ c ≠ .jump ∧ c ≠ .call) :
    Errs DecErr (fromData c d o) := by
  cases c with
  | beginTrack => exact absurd rfl h.1
  | jump => exact absurd rfl h.2.1
  | call => exact absurd rfl h.2.2
  | rest => exact (readVar_errs _ _).bind fun _ _ => Errs.pure _
  | instrumentSwitch => exact (readVar_errs _ _).bind fun _ _ => Errs.pure _
  | random =>
    exact (pyIdx_errs _ _).bind fun _ _ => (randomLength_errs _).bind fun _ _ =>
      (Errs.mapE (fun _ => pyIdx_errs _ _) _).bind fun _ _ => (unpackS_errs _ _ _ _).bind fun _ _ =>
      (unpackS_errs _ _ _ _).bind fun _ _ => Errs.pure _
  | fromVariable =>
    refine (pyIdx_errs _ _).bind fun _ _ => ?_
    split
    · exact (unpackS_errs _ _ _ _).bind fun _ _ => (unpackS_errs _ _ _ _).bind fun _ _ => Errs.pure _
    · exact (unpackS_errs _ _ _ _).bind fun _ _ => Errs.pure _
  | ifE => exact Errs.ok _
  | endLoop => exact Errs.ok _
  | ret => exact Errs.ok _
  | endTrack => exact Errs.ok _
  | arith a => exact (unpackU_errs _ _ _ _).bind fun _ _ => (unpackS_errs _ _ _ _).bind fun _ _ => Errs.pure _
  | simple s => exact (pyIdx_errs _ _).bind fun _ _ => Errs.pure _
  | monoPoly => exact (pyIdx_errs _ _).bind fun _ _ => (raiseIf_errs _).bind fun _ _ => Errs.pure _
  | vibratoType => exact (pyIdx_errs _ _).bind fun _ _ => (raiseIf_errs _).bind fun _ _ => Errs.pure _
  | tempo => exact (unpackU_errs _ _ _ _).bind fun _ _ => Errs.pure _
  | sweepPitch => exact (unpackU_errs _ _ _ _).bind fun _ _ => Errs.pure _
  | defineTracks => exact (unpackU_errs _ _ _ _).bind fun _ _ => Errs.pure _

theorem decode_errs (d : Bytes) (o : Nat) : Errs DecErr (decode d o) := by
  unfold decode
  refine (pyIdx_errs _ _).bind fun t _ => ?_
  split
  · exact (pyIdx_errs _ _).bind fun _ _ => Errs.pure _
  split
  · exact Errs.pure _
  split
  · exact Errs.pure _
  split
  · unfold noteFromData
    exact (pyIdx_errs _ _).bind fun _ _ => (readVar_errs _ _).bind fun _ _ => Errs.pure _
  rename_i h1 h2 h3 _
  split
  · exact Errs.error (.inr (.inr (.inl rfl)))
  · rename_i c hc
    have := clsOf_inv hc
    apply fromData_errs
    refine ⟨?_, ?_, ?_⟩
    · rintro rfl; exact h1 this
    · rintro rfl; exact h2 this
    · rintro rfl; exact h3 this

/-- The exceptions of the parser. -/
def ReadErr (e : PyErr) : Prop := e = .eofError ∨ e = .valueError ∨ e = .keyError ∨ e = .recursionError

theorem asEof_errs {α : Type} {x : Py α} (h : Errs DecErr x) : Errs ReadErr (asEof x) := by
  intro e he
  cases x with
  | ok a => cases he
  | error e' =>
    rcases h e' rfl with rfl | rfl | rfl | rfl <;> cases he
    · exact .inl rfl
    · exact .inl rfl
    · exact .inr (.inl rfl)
    · exact .inr (.inr (.inl rfl))

/-- Offsets of the data without an event. -/
def unvisited (d : Bytes) (a : Nat → Option Ev) : Nat := (List.range d.length).countP fun o => (a o).isNone

theorem countP_le {α : Type} {p q : α → Bool} : ∀ {l : List α}, (∀ x ∈ l, p x = true → q x = true) →
    l.countP p ≤ l.countP q
  | [], _ => Nat.le_refl _
  | a :: l, h => by
    have ih := countP_le (l := l) (fun x hx => h x (by simp [hx]))
    rw [List.countP_cons, List.countP_cons]
    have := h a (by simp)
    split <;> split <;> simp_all <;> omega

theorem countP_lt {α : Type} {p q : α → Bool} : ∀ {l : List α}, (∀ x ∈ l, p x = true → q x = true) →
    (∃ x ∈ l, q x = true ∧ p x = false) → l.countP p < l.countP q
  | [], _, h => by obtain ⟨_, h, _⟩ := h; cases h
  | a :: l, h, hx => by
    rw [List.countP_cons, List.countP_cons]
    have ih := countP_le (l := l) (p := p) (q := q) (fun x hx => h x (by simp [hx]))
    have ha := h a (by simp)
    obtain ⟨x, hx, hq, hp⟩ := hx
    rcases List.mem_cons.1 hx with rfl | hx
    · rw [hq, hp]; simp; omega
    · have := countP_lt (l := l) (p := p) (q := q) (fun x hx => h x (by simp [hx])) ⟨x, hx, hq, hp⟩
      split <;> split <;> simp_all <;> omega

theorem unvisited_le {d : Bytes} {a b : Nat → Option Ev} (h : ∀ o e, a o = some e → b o = some e) :
    unvisited d b ≤ unvisited d a := by
  apply countP_le
  intro o _ hb
  cases ha : a o with
  | none => rfl
  | some e => rw [h o e ha] at hb; cases hb

theorem unvisited_put {d : Bytes} {st : St} {off : Nat} (hlt : off < d.length) (hn : st.events off = none) (e : Ev)
    (f : Fate) : unvisited d (st.put off e f).events < unvisited d st.events := by
  apply countP_lt
  · intro o _ hb
    cases ha : st.events o with
    | none => rfl
    | some e' => rw [put_mono hn e f o e' ha] at hb; cases hb
  · exact ⟨off, by simpa using hlt, by simp [hn], by simp [St.put]⟩

theorem parseAt_errs {d : Bytes} : ∀ {fuel depth off : Nat} {mine : List Nat} {st : St}, Dom st →
    (∀ o ∈ mine, (st.events o).isSome) → unvisited d st.events < fuel →
    Errs ReadErr (parseAt d fuel depth off mine st) := by
  intro fuel
  induction fuel with
  | zero => intro _ _ _ _ _ _ h; omega
  | succ fuel ih =>
    intro depth off mine st hdom hmine hfuel
    rw [parseAt]
    split
    · exact Errs.error (.inl rfl)
    rename_i hlt
    split
    · exact Errs.ok _
    rename_i hf
    have hnone : st.events off = none := by
      have := hdom off
      rw [hf] at this
      cases he : st.events off with
      | none => rfl
      | some e => rw [he] at this; cases this
    refine (asEof_errs (decode_errs _ _)).bind fun e hdec => ?_
    rw [asEof_eq_ok] at hdec
    have hin := (decode_inv hdec).1
    refine Errs.bind ?_ fun n hn => ?_
    · rw [dataLength_inRange (.inl hin)]; exact Errs.ok _
    have hput := unvisited_put (d := d) (off := off) (by omega) hnone e .inProgress
    have hmine' : ∀ (b : Nat → Option Ev), (∀ o e', (st.put off e .inProgress).events o = some e' → b o = some e') →
        ∀ o ∈ mine ++ [off], (b o).isSome := by
      intro b hb o ho
      rcases List.mem_append.1 ho with ho | ho
      · exact isSome_mono hb (isSome_mono (put_mono hnone _ _) (hmine o ho))
      · rw [List.mem_singleton.1 ho]
        exact isSome_mono hb (put_some _ _ _ _)
    have nested : ∀ depth' dest, Errs ReadErr (parseAt d fuel depth' dest [] (st.put off e .inProgress)) :=
      fun depth' dest => ih (hdom.put _ _ _) (by simp) (by omega)
    have after : ∀ depth' dest r, parseAt d fuel depth' dest [] (st.put off e .inProgress) = .ok r →
        Grew d (fun _ => True) (st.put off e .inProgress).events r.2.events ∧ Dom r.2 ∧
          (r.2.events dest).isSome := fun depth' dest r hr =>
      parseAt_spec (fun _ _ _ _ _ => ⟨fun _ _ => trivial, trivial⟩) (hdom.put _ _ _) trivial (by simp) hr
    have need : ∀ (r : Fate × St) dest, (r.2.events dest).isSome = true → Errs ReadErr (needEvent r.2 dest) := by
      intro r dest hs
      rw [needEvent_ok (u := ()) |>.2 hs]; exact Errs.ok _
    split
    · split
      · exact Errs.error (.inr (.inr (.inr rfl)))
      refine (nested _ _).bind fun r hr => ?_
      obtain ⟨g1, d1, s1⟩ := after _ _ r hr
      refine (need r _ s1).bind fun _ _ => ih d1 (hmine' _ g1.mono) ?_
      have := unvisited_le (d := d) g1.mono
      omega
    · split
      · exact Errs.error (.inr (.inr (.inr rfl)))
      refine (nested _ _).bind fun r hr => ?_
      obtain ⟨g1, d1, s1⟩ := after _ _ r hr
      refine (need r _ s1).bind fun _ _ => ?_
      split
      · refine ih (d1.mark (fun o ho => hmine' _ g1.mono o (by simp [ho])) _) (hmine' _ g1.mono) ?_
        have := unvisited_le (d := d) g1.mono
        show unvisited d r.2.events < fuel
        omega
      · exact Errs.ok _
    · split
      · exact Errs.error (.inr (.inr (.inr rfl)))
      refine (nested _ _).bind fun r hr => ?_
      obtain ⟨g1, d1, s1⟩ := after _ _ r hr
      refine (need r _ s1).bind fun _ _ => ?_
      split
      · exact Errs.ok _
      · refine ih d1 (hmine' _ g1.mono) ?_
        have := unvisited_le (d := d) g1.mono
        omega
    · exact Errs.ok _
    · exact Errs.ok _
    · exact ih (hdom.put _ _ _) (hmine' _ (fun _ _ h => h)) (by omega)

theorem unvisited_bound (d : Bytes) (a : Nat → Option Ev) : unvisited d a < d.length + 1 := by
  have : unvisited d a ≤ (List.range d.length).length := List.countP_le_length
  rw [List.length_range] at this
  omega

theorem parseStarts_errs {d : Bytes} {depth : Nat} : ∀ {starts : List Nat} {st : St}, Dom st →
    Errs (fun e => ReadErr e ∨ e = .assertionError) (parseStarts d depth starts st)
  | [], st, _ => Errs.ok _
  | s :: ss, st, hd => by
    rw [parseStarts]
    refine Errs.bind ?_ fun r hr => ?_
    · intro e he
      exact .inl (parseAt_errs hd (by simp) (unvisited_bound _ _) e he)
    obtain ⟨_, d1, _⟩ := parseAt_spec (P := fun _ => True) (fun _ _ _ _ _ => ⟨fun _ _ => trivial, trivial⟩) hd trivial
      (by simp) hr
    refine Errs.bind ?_ fun _ _ => parseStarts_errs d1
    unfold pyAssert
    split
    · exact Errs.ok _
    · exact Errs.error (.inr rfl)

/-! ## Gathering -/

/-- The list covers the data from offset `i` on: events where there are some, raw data in between. -/
def Covers (d : Bytes) (events : Nat → Option Ev) : List (Nat × Ev) → Nat → Prop
  | [], i => d.length ≤ i
  | (o, e) :: l, i => o = i ∧ i < d.length ∧
    (events i = some e ∨ ∃ j, i < j ∧ j ≤ d.length ∧ (∀ k, i ≤ k → k < j → events k = none) ∧
      (j < d.length → (events j).isSome) ∧ e = .raw (slice d i j)) ∧ Covers d events l (i + declared e)

theorem nextEvent_spec (events : Nat → Option Ev) : ∀ (k i : Nat),
    i ≤ nextEvent events k i ∧ nextEvent events k i ≤ i + k ∧
    (∀ x, i ≤ x → x < nextEvent events k i → events x = none) ∧
    (nextEvent events k i < i + k → (events (nextEvent events k i)).isSome)
  | 0, i => ⟨Nat.le_refl _, Nat.le_refl _, fun x h1 h2 => by rw [nextEvent] at h2; omega,
      fun h => by rw [nextEvent] at h; omega⟩
  | k + 1, i => by
    rw [nextEvent]
    split
    · rename_i e he
      exact ⟨Nat.le_refl _, by omega, fun x h1 h2 => by omega, fun _ => by rw [he]; rfl⟩
    · rename_i he
      obtain ⟨h1, h2, h3, h4⟩ := nextEvent_spec events k (i + 1)
      refine ⟨by omega, by omega, fun x hx1 hx2 => ?_, fun h => h4 (by omega)⟩
      by_cases hx : x = i
      · rw [hx, he]
      · exact h3 x (by omega) hx2

theorem declared_raw (b : Bytes) : declared (.raw b) = b.length := rfl

theorem gather_spec {d : Bytes} {events : Nat → Option Ev} (hin : ∀ o e, events o = some e → InRange e) :
    ∀ (fuel i : Nat), d.length ≤ i + fuel → ∃ l, gather d events fuel i = .ok l ∧ Covers d events l i
  | 0, i, h => by
    rw [gather, if_pos (by omega)]
    exact ⟨[], rfl, by simpa [Covers] using h⟩
  | fuel + 1, i, h => by
    rw [gather]
    by_cases hi : d.length ≤ i
    · rw [if_pos hi]; exact ⟨[], rfl, hi⟩
    rw [if_neg hi]
    split
    · rename_i e he
      have hr := hin i e he
      have hpos := evBytes_pos id hr
      obtain ⟨l, hl, hc⟩ := gather_spec (d := d) hin fuel (i + declared e) (by omega)
      rw [dataLength_inRange (.inl hr), bind_ok, hl, bind_ok]
      exact ⟨_, rfl, rfl, by omega, .inl he, hc⟩
    · rename_i he
      obtain ⟨h1, h2, h3, h4⟩ := nextEvent_spec events (d.length - i) i
      have h5 : i < nextEvent events (d.length - i) i := by
        rw [show d.length - i = (d.length - i - 1) + 1 by omega, nextEvent, he]
        have := (nextEvent_spec events (d.length - i - 1) (i + 1)).1
        dsimp only
        omega
      generalize nextEvent events (d.length - i) i = j at h1 h2 h3 h4 h5
      obtain ⟨l, hl, hc⟩ := gather_spec (d := d) hin fuel j (by omega)
      rw [hl, bind_ok]
      refine ⟨_, rfl, rfl, by omega, .inr ⟨j, h5, by omega, h3, fun hj => h4 (by omega), rfl⟩, ?_⟩
      rw [declared_raw, slice_length_of_le (by omega), show i + (j - i) = j by omega]
      exact hc

end Verif.Proofs.SeqRead
