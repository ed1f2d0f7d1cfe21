import Verif.Spec.MinifyArchive
import Verif.Spec.SongFile
import Verif.Proofs.MusicPlay
import Verif.Proofs.SongFile
import Verif.Spec.SoundArchiveObject
import Verif.Props.SongArchive

/-! # Minified sequences in a sound archive: lemmas for C151 -/

namespace Verif.Proofs.MinifyArchive

open Verif Verif.Model.SoundSequence Verif.Model.SoundBank Verif.Model.Music Verif.Model.SoundArchive
open Verif.Model.SoundArchiveObject Verif.Spec.Sequence Verif.Spec.Music Verif.Spec.MusicPlay Verif.Spec.MinifyArchive
open Verif.Spec.SoundArchiveObject Verif.Proofs.MusicMinify Verif.Proofs.MusicPlay

/-! ## Numbers of instruments -/

theorem index_le : ∀ {l : List Nat} {lo : Nat}, l.Pairwise (· < ·) → (∀ x ∈ l, lo ≤ x) → ∀ {n}, n ∈ l → lo + l.idxOf n ≤ n
  | [], _, _, _, _, h => nomatch h
  | a :: l, lo, hp, hlo, n, h => by
    rw [List.pairwise_cons] at hp
    by_cases ha : a = n
    · subst ha
      rw [List.idxOf_cons_self]
      exact hlo a (by simp)
    · have hn := (List.mem_cons.1 h).resolve_left (Ne.symm ha)
      have h1 := hlo a (by simp)
      have h2 := index_le (lo := lo + 1) hp.2 (fun x hx => by have := hp.1 x hx; omega) hn
      rw [List.idxOf_cons, show (a == n) = false from by simpa using ha]
      simp only [cond_false]
      omega

theorem renumbered_inRange {used : List Nat} (hs : used.Pairwise (· < ·)) {e : Ev}
    (hm : ∀ n, switchedTo e = some n → n ∈ used) (h : InRange e) : InRange (renumbered used e) := by
  cases e with
  | instrumentSwitch b n =>
    have := index_le (lo := 0) hs (fun _ _ => Nat.zero_le _) (hm n rfl)
    obtain ⟨h1, h2⟩ := h
    exact ⟨by omega, h2⟩
  | _ => exact h

theorem refs_renumbered (used : List Nat) (e : Ev) : refs (renumbered used e) = refs e := by cases e <;> rfl

theorem flows_renumbered (used : List Nat) (e : Ev) : flows (renumbered used e) = flows e := by cases e <;> rfl

theorem reached_renE {used : List Nat} {events : List Obj} {S : List Nat} {x : Nat} (h : Reached events S x) :
    Reached (renE used events) S x := by
  induction h with
  | start x hx => exact .start x hx
  | ref id x e _ hm hx ih =>
    exact .ref id x (renumbered used e) ih (List.mem_map.2 ⟨_, hm, rfl⟩) (by rw [refs_renumbered]; exact hx)
  | next pre post a b _ he hf ih =>
    refine .next (renE used pre) (renE used post) (a.1, renumbered used a.2) (b.1, renumbered used b.2) ih ?_ ?_
    · rw [he]
      simp [renE]
    · rw [flows_renumbered]; exact hf

theorem readsBack_renE {used : List Nat} {events : List Obj} (hs : used.Pairwise (· < ·))
    (hm : ∀ o ∈ events, ∀ n, switchedTo o.2 = some n → n ∈ used) (h : ReadsBack events) : ReadsBack (renE used events) := by
  have hids : (renE used events).map Prod.fst = events.map Prod.fst := by
    unfold renE
    rw [List.map_map]
    rfl
  refine ⟨by rw [hids]; exact h.objects, ?_, ?_, ⟨?_, ?_⟩, ?_, ?_⟩
  · intro e he
    obtain ⟨o, ho, rfl⟩ := List.mem_map.1 he
    exact renumbered_inRange hs (hm o ho) (h.inRange o ho)
  · intro e he
    obtain ⟨o, ho, rfl⟩ := List.mem_map.1 he
    have := h.fixed o ho
    obtain ⟨i, v⟩ := o
    cases v <;> first | rfl | exact this
  · intro e he
    obtain ⟨o, ho, rfl⟩ := List.mem_map.1 he
    have := h.straight.kinds o ho
    obtain ⟨i, v⟩ := o
    cases v <;> first | exact this | exact ⟨fun _ => nofun, nofun, nofun⟩
  · intro pre e he
    have hne := h.nonempty
    obtain ⟨ev, z, rfl⟩ : ∃ p z, events = p ++ [z] := ⟨_, _, (List.dropLast_concat_getLast hne).symm⟩
    have hz := h.straight.last ev z rfl
    unfold renE at he
    rw [List.map_append] at he
    have := (List.append_inj' he rfl).2
    cases this
    rw [flows_renumbered]
    exact hz
  · have := h.nonempty
    simpa [renE] using this
  · intro e he
    obtain ⟨o, ho, rfl⟩ := List.mem_map.1 he
    have : startIds (renE used events) [] = startIds events [] := by
      unfold startIds
      rw [hids]
    rw [this]
    exact reached_renE (h.played o ho)

theorem count_renE (used : List Nat) (events : List Obj) :
    ((renE used events).filter fun e => !(refs e.2).isEmpty).length = (events.filter fun e => !(refs e.2).isEmpty).length := by
  unfold renE
  rw [List.filter_map, List.length_map]
  congr 2
  funext o
  simp only [Function.comp, refs_renumbered]

/-! ## Other identities -/

open Verif.Spec.SongFile in
theorem passes_mapRefs (g : Nat → Nat) (e : Ev) : passes (mapRefs g e) = passes e := by cases e <;> rfl

theorem notePitch_mapRefs (g : Nat → Nat) (e : Ev) : notePitch (mapRefs g e) = notePitch e := by cases e <;> rfl

theorem moved_get {g : Nat → Nat} {events : List Obj} {i id : Nat} {e : Ev} (h : events[i]? = some (id, e)) :
    (events.map (Spec.SongFile.ren g))[i]? = some (g id, mapRefs g e) := by
  rw [List.getElem?_map, h]; rfl

theorem moved_get' {g : Nat → Nat} {events : List Obj} {i id' : Nat} {e' : Ev}
    (h : (events.map (Spec.SongFile.ren g))[i]? = some (id', e')) :
    ∃ id e, events[i]? = some (id, e) ∧ id' = g id ∧ e' = mapRefs g e := by
  rw [List.getElem?_map, Option.map_eq_some_iff] at h
  obtain ⟨⟨id, e⟩, h, h'⟩ := h
  cases h'
  exact ⟨id, e, h, rfl, rfl⟩

theorem step_moved {g : Nat → Nat} {events : List Obj} {s t : State} (h : Step events s t) :
    Step (events.map (Spec.SongFile.ren g)) s t := by
  cases h with
  | pass h1 h2 => exact .pass (moved_get h1) (by rw [passes_mapRefs]; exact h2)
  | switch h1 => exact .switch (moved_get h1)
  | switchRandom h1 h2 h3 => exact .switchRandom (moved_get h1) h2 h3
  | switchVariable h1 => exact .switchVariable (moved_get h1)
  | jump h1 h2 => exact .jump (moved_get h1) (moved_get h2)
  | call h1 h2 => exact .call (moved_get h1) (moved_get h2)
  | ret h1 h2 => exact .ret (moved_get h1) h2
  | skip h1 => exact .skip (moved_get h1)
  | loop h1 => exact .loop (moved_get h1)
  | again h1 h2 => exact .again (moved_get h1) h2
  | leave h1 => exact .leave (moved_get h1)
  | track h1 h2 => exact .track (moved_get h1) (moved_get h2)

theorem mapRefs_eq {g : Nat → Nat} {e e' : Ev} (h : e' = mapRefs g e) (hr : refs e' = []) : e = e' := by
  cases e <;> first | exact h.symm | (rw [h] at hr; cases hr)

theorem step_unmoved {g : Nat → Nat} {events : List Obj}
    (hg : ∀ o ∈ events, ∀ p ∈ events, ∀ x ∈ refs p.2, g o.1 = g x → o.1 = x) {s t : State}
    (h : Step (events.map (Spec.SongFile.ren g)) s t) : Step events s t := by
  have mem : ∀ {i : Nat} {o : Obj}, events[i]? = some o → o ∈ events := fun h => List.mem_of_getElem? h
  cases h with
  | pass h1 h2 =>
    obtain ⟨_, e, h3, _, rfl⟩ := moved_get' h1
    exact .pass h3 (by rw [passes_mapRefs] at h2; exact h2)
  | switch h1 =>
    obtain ⟨_, e, h3, _, he⟩ := moved_get' h1
    rw [mapRefs_eq he rfl] at h3
    exact .switch h3
  | switchRandom h1 h2 h3 =>
    obtain ⟨_, e, h4, _, he⟩ := moved_get' h1
    rw [mapRefs_eq he rfl] at h4
    exact .switchRandom h4 h2 h3
  | switchVariable h1 =>
    obtain ⟨_, e, h3, _, he⟩ := moved_get' h1
    rw [mapRefs_eq he rfl] at h3
    exact .switchVariable h3
  | jump h1 h2 =>
    obtain ⟨_, e, h3, _, he⟩ := moved_get' h1
    obtain ⟨y, _, h4, hy, _⟩ := moved_get' h2
    cases e with
    | jump d =>
      cases he
      have := hg _ (mem h4) _ (mem h3) d (List.mem_singleton.2 rfl) hy.symm
      dsimp only at this
      subst this
      exact .jump h3 h4
    | _ => cases he
  | call h1 h2 =>
    obtain ⟨_, e, h3, _, he⟩ := moved_get' h1
    obtain ⟨y, _, h4, hy, _⟩ := moved_get' h2
    cases e with
    | call d =>
      cases he
      have := hg _ (mem h4) _ (mem h3) d (List.mem_singleton.2 rfl) hy.symm
      dsimp only at this
      subst this
      exact .call h3 h4
    | _ => cases he
  | ret h1 h2 =>
    obtain ⟨_, e, h3, _, he⟩ := moved_get' h1
    rw [mapRefs_eq he rfl] at h3
    exact .ret h3 h2
  | skip h1 =>
    obtain ⟨_, e, h3, _, he⟩ := moved_get' h1
    rw [mapRefs_eq he rfl] at h3
    exact .skip h3
  | loop h1 =>
    obtain ⟨_, e, h3, _, he⟩ := moved_get' h1
    rw [mapRefs_eq he rfl] at h3
    exact .loop h3
  | again h1 h2 =>
    obtain ⟨_, e, h3, _, he⟩ := moved_get' h1
    rw [mapRefs_eq he rfl] at h3
    exact .again h3 h2
  | leave h1 =>
    obtain ⟨_, e, h3, _, he⟩ := moved_get' h1
    rw [mapRefs_eq he rfl] at h3
    exact .leave h3
  | track h1 h2 =>
    obtain ⟨_, e, h3, _, he⟩ := moved_get' h1
    obtain ⟨y, _, h4, hy, _⟩ := moved_get' h2
    cases e with
    | beginTrack t d =>
      cases he
      have := hg _ (mem h4) _ (mem h3) d (List.mem_singleton.2 rfl) hy.symm
      dsimp only at this
      subst this
      exact .track h3 h4
    | _ => cases he

theorem run_moved {g : Nat → Nat} {events : List Obj}
    (hg : ∀ o ∈ events, ∀ p ∈ events, ∀ x ∈ refs p.2, g o.1 = g x → o.1 = x) {l : List State} :
    Run (events.map (Spec.SongFile.ren g)) l ↔ Run events l := by
  constructor
  · intro h
    induction h with
    | start => exact .start
    | step _ h2 ih => exact .step ih (step_unmoved hg h2)
  · intro h
    induction h with
    | start => exact .start
    | step _ h2 ih => exact .step ih (step_moved h2)

theorem noteAt_moved (g : Nat → Nat) (events : List Obj) (s : State) :
    noteAt (events.map (Spec.SongFile.ren g)) s = noteAt events s := by
  unfold noteAt
  rw [List.getElem?_map]
  cases events[s.pos]? with
  | none => rfl
  | some o =>
    show (notePitch (mapRefs g o.2)).map _ = (notePitch o.2).map _
    rw [notePitch_mapRefs]

/-- With other identities, and other instruments and archives that sound the same, everything plays the same. -/
theorem playsSame_moved {W : Type} {E E' : List Obj} {insts insts' insts'' : List (Option Inst)}
    {swars swars' swars'' : List (List W)} {g : Nat → Nat}
    (hg : ∀ o ∈ E', ∀ p ∈ E', ∀ x ∈ refs p.2, g o.1 = g x → o.1 = x)
    (hs : ∀ n p, sound insts'' swars'' n p = sound insts' swars' n p)
    (h : PlaysSame E insts swars E' insts' swars') :
    PlaysSame E insts swars (E'.map (Spec.SongFile.ren g)) insts'' swars'' := by
  have hat : ∀ s, soundAt (E'.map (Spec.SongFile.ren g)) insts'' swars'' s = soundAt E' insts' swars' s := by
    intro s
    unfold soundAt
    rw [noteAt_moved]
    cases noteAt E' s with
    | none => rfl
    | some x => simp only [Option.map_some, hs]
  have hsame : ∀ l l', SameSounds E insts swars E' insts' swars' l l' →
      SameSounds E insts swars (E'.map (Spec.SongFile.ren g)) insts'' swars'' l l' := by
    intro l l' h
    refine ⟨h.1, fun i s s' h1 h2 => ?_⟩
    rw [hat]
    exact h.2 i s s' h1 h2
  constructor
  · intro l hl
    obtain ⟨l', h1, h2⟩ := h.1 l hl
    exact ⟨l', (run_moved hg).2 h1, hsame l l' h2⟩
  · intro l' hl
    obtain ⟨l, h1, h2⟩ := h.2 l' ((run_moved hg).1 hl)
    exact ⟨l, h1, hsame l l' h2⟩

/-! ## What comes back -/

theorem sound_congr {W : Type} {a b : List (Option Inst)} {A B : List (List W)}
    (h : a.map (Option.map Inst.kind) = b.map (Option.map Inst.kind)) (hw : ∀ k : Nat, (A[k]?).getD [] = (B[k]?).getD [])
    (n : Nat) (p : Int) : sound a A n p = sound b B n p := by
  have hso : ∀ d : Note, soundOf d A = soundOf d B := by
    intro d
    have : ∀ C : List (List W), (C[d.waveArchiveIDID]?.bind fun ws => ws[d.waveID]?) = ((C[d.waveArchiveIDID]?).getD [])[d.waveID]? := by
      intro C
      cases C[d.waveArchiveIDID]? <;> simp
    unfold soundOf
    rw [this A, this B, hw]
  have hk : ∀ (l : List (Option Inst)), ((l[n]?).join.bind fun inst => definitionFor inst.kind p) =
      (((l.map (Option.map Inst.kind))[n]?).join).bind fun k => definitionFor k p := by
    intro l
    rw [List.getElem?_map]
    cases l[n]? with
    | none => rfl
    | some o => cases o <;> rfl
  unfold sound
  rw [hk a, hk b, h]
  congr 1
  funext d
  exact hso d

theorem slots_same {α β γ : Type} {R : α → β → Prop} {f : α → γ} {f' : β → γ} (hR : ∀ a b, R a b → f' b = f a)
    {l : List (Symbol × Option α)} {l' : List (Symbol × Option β)} (h : Slots R l l') : ∀ i : Nat,
    ((l'[i]?).bind (·.2)).map f' = ((l[i]?).bind (·.2)).map f := by
  induction h with
  | nil => intro i; rfl
  | empty _ ih =>
    intro i
    cases i with
    | zero => rfl
    | succ i => simpa using ih i
  | item hab _ ih =>
    intro i
    cases i with
    | zero => simpa using hR _ _ hab
    | succ i => simpa using ih i

theorem wavesOf_back {a t : Archive} {b c : Bank} (hb : BankBack b c) (hw : Slots SwarBack a.waveArchives t.waveArchives) (k : Nat) :
    ((wavesOf t c)[k]?).getD [] = ((wavesOf a b)[k]?).getD [] := by
  have hsame := slots_same (f := fun x : Swar => x.waves) (f' := fun x : Swar => x.waves) (fun x y h => h.waves) hw
  unfold wavesOf
  rw [List.getElem?_map, List.getElem?_map]
  have hk := hb.waveArchives k
  have hneg : ∀ z, (b.obj.waveArchiveIDs[k]?) = some (some z) → z ≠ -1 → (c.obj.waveArchiveIDs[k]?) = some (some z) :=
    fun z h1 h2 => (hk z).2 ⟨h1, h2⟩
  cases hx : b.obj.waveArchiveIDs[k]? with
  | none =>
    cases hy : c.obj.waveArchiveIDs[k]? with
    | none => rfl
    | some o =>
      cases o with
      | none => rfl
      | some z =>
        have := ((hk z).1 hy).1
        rw [hx] at this
        cases this
  | some o =>
    cases o with
    | none =>
      cases hy : c.obj.waveArchiveIDs[k]? with
      | none => rfl
      | some o =>
        cases o with
        | none => rfl
        | some z =>
          have := ((hk z).1 hy).1
          rw [hx] at this
          cases this
    | some z =>
      by_cases hz : z = -1
      · subst hz
        cases hy : c.obj.waveArchiveIDs[k]? with
        | none => rfl
        | some o =>
          cases o with
          | none => rfl
          | some z =>
            have := (hk z).1 hy
            rw [hx] at this
            obtain ⟨h1, h2⟩ := this
            cases h1
            exact absurd rfl h2
      · rw [hneg z hx hz]
        simp only [Option.map_some, Option.getD_some]
        by_cases h0 : z < 0
        · rw [if_pos h0, if_pos h0]
        · rw [if_neg h0, if_neg h0, hsame]

end Verif.Proofs.MinifyArchive
