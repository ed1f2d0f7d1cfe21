import Verif.Spec.MusicInit

/-!
# Lemmas for `Props/MusicInit.lean`
-/

namespace Verif.Proofs.MusicInit

open Verif Verif.Model.SoundSequence Verif.Model.Music Verif.Spec.MusicInit

theorem run_from (starts : List Nat) (o : Obj) (os : List Obj) : Run starts (o :: os) (trackFrom starts (o :: os)) := by
  refine ⟨os.dropWhile fun p => !(starts.contains p.1), ?_, by simp [trackFrom], ?_, ?_⟩
  · rw [trackFrom, List.cons_append, List.takeWhile_append_dropWhile]
  · intro p hp
    have := (List.all_eq_true.1 (List.all_takeWhile (l := os) (p := fun p : Obj => !(starts.contains p.1)))) p hp
    simpa using this
  · intro p hp
    have := List.head?_dropWhile_not (fun p : Obj => !(starts.contains p.1)) os
    rw [hp] at this
    simpa using this

/-- There is only one such part. -/
theorem run_unique {starts : List Nat} {l part : List Obj} (h : Run starts l part) : part = trackFrom starts l ∧ l ≠ [] := by
  obtain ⟨post, rfl, hne, ht, hp⟩ := h
  cases part with
  | nil => exact absurd rfl hne
  | cons o os =>
    refine ⟨?_, by simp⟩
    rw [List.cons_append, trackFrom, List.takeWhile_append_of_pos]
    · have : post.takeWhile (fun p => !(starts.contains p.1)) = [] := by
        cases post with
        | nil => rfl
        | cons p post =>
          have := hp p rfl
          rw [List.takeWhile_cons, if_neg (by simpa using this)]
      rw [this, List.append_nil]
    · intro a ha
      have := ht a ha
      simpa using this

theorem from_ok {first : Nat} : ∀ {events : List Obj}, first ∈ events.map Prod.fst → ∃ pre l, events = pre ++ l ∧
    first ∉ pre.map Prod.fst ∧ l.head?.map Prod.fst = some first ∧ fromEvent first events = .ok l
  | [], h => by simp at h
  | o :: os, h => by
    by_cases e : o.1 = first
    · exact ⟨[], o :: os, rfl, by simp, by simp [e], by rw [fromEvent, if_pos e]⟩
    · have h' : first ∈ os.map Prod.fst := by
        rcases List.mem_cons.1 h with h | h
        · exact absurd h.symm e
        · exact h
      obtain ⟨pre, l, h1, h2, h3, h4⟩ := from_ok h'
      refine ⟨o :: pre, l, by rw [h1]; rfl, ?_, h3, by rw [fromEvent, if_neg e, h4]⟩
      rw [List.map_cons, List.mem_cons, not_or]
      exact ⟨fun h => e h.symm, h2⟩

theorem from_error {first : Nat} : ∀ {events : List Obj}, first ∉ events.map Prod.fst → fromEvent first events = .error .valueError
  | [], _ => rfl
  | o :: os, h => by
    rw [List.map_cons, List.mem_cons, not_or] at h
    rw [fromEvent, if_neg (fun e => h.1 e.symm), from_error h.2]

theorem begins_spec (begins : List (Nat × Nat × Nat)) : ∀ (rest : List Obj),
    Model.Music.begins (begins.map (fun b => (b.1, Ev.beginTrack (b.2.1 : Int) b.2.2)) ++ rest) =
      match rest with
      | [] => .error .indexError
      | o :: os => (Model.Music.begins (o :: os)).map fun r => begins.map (·.2) ++ r := by
  induction begins with
  | nil =>
    intro rest
    cases rest with
    | nil => rfl
    | cons o os =>
      rw [List.map_nil, List.nil_append]
      dsimp only
      cases Model.Music.begins (o :: os) <;> rfl
  | cons b bs ih =>
    intro rest
    rw [List.map_cons, List.cons_append, Model.Music.begins, ih]
    cases rest with
    | nil => rfl
    | cons o os =>
      dsimp only
      cases Model.Music.begins (o :: os) <;> rfl

theorem begins_stop {o : Obj} {os : List Obj} (h : ∀ n x, o.2 ≠ .beginTrack n x) : Model.Music.begins (o :: os) = .ok [] := by
  obtain ⟨i, e⟩ := o
  cases e <;> first | rfl | exact absurd rfl (h _ _)

theorem keys_set {α : Type} (k : Nat) (v : α) : ∀ (d : List (Nat × α)) (n : Nat),
    n ∈ (dictSet d k v).map Prod.fst ↔ n = k ∨ n ∈ d.map Prod.fst
  | [], n => by simp [dictSet]
  | p :: d, n => by
    rw [dictSet]
    by_cases h : p.1 = k
    · rw [if_pos h]
      simp [h]
    · rw [if_neg h]
      have := keys_set k v d n
      rw [List.map_cons, List.mem_cons, this, List.map_cons, List.mem_cons]
      constructor
      · rintro (h | h | h)
        · exact .inr (.inl h)
        · exact .inl h
        · exact .inr (.inr h)
      · rintro (h | h | h)
        · exact .inr (.inl h)
        · exact .inl h
        · exact .inr (.inr h)

theorem nodup_set {α : Type} (k : Nat) (v : α) : ∀ (d : List (Nat × α)), (d.map Prod.fst).Nodup → ((dictSet d k v).map Prod.fst).Nodup
  | [], _ => by simp [dictSet]
  | p :: d, h => by
    rw [List.map_cons, List.nodup_cons] at h
    rw [dictSet]
    by_cases hp : p.1 = k
    · rw [if_pos hp, List.map_cons, List.nodup_cons]
      exact ⟨hp ▸ h.1, h.2⟩
    · rw [if_neg hp, List.map_cons, List.nodup_cons]
      refine ⟨?_, nodup_set k v d h.2⟩
      rw [keys_set]
      rintro (h' | h')
      · exact hp h'
      · exact h.1 h'

theorem mem_set {α : Type} {k : Nat} {v : α} : ∀ {d : List (Nat × α)} {p : Nat × α}, (d.map Prod.fst).Nodup → p ∈ dictSet d k v →
    p = (k, v) ∨ (p ∈ d ∧ p.1 ≠ k)
  | [], p, _, h => by
    rw [dictSet, List.mem_singleton] at h
    exact .inl h
  | q :: d, p, hn, h => by
    rw [List.map_cons, List.nodup_cons] at hn
    rw [dictSet] at h
    by_cases hq : q.1 = k
    · rw [if_pos hq] at h
      rcases List.mem_cons.1 h with h | h
      · exact .inl h
      · refine .inr ⟨List.mem_cons_of_mem _ h, ?_⟩
        intro e
        exact hn.1 (hq ▸ e ▸ List.mem_map_of_mem h)
    · rw [if_neg hq] at h
      rcases List.mem_cons.1 h with rfl | h
      · exact .inr ⟨by simp, hq⟩
      · rcases mem_set hn.2 h with h | h
        · exact .inl h
        · exact .inr ⟨List.mem_cons_of_mem _ h.1, h.2⟩

/-- The loop that makes the tracks. -/
theorem tracks_ok (events : List Obj) (starts : List Nat) : ∀ (bs : List (Nat × Nat)) (tracks : List (Nat × List Obj)),
    (tracks.map Prod.fst).Nodup → (∀ b ∈ bs, b.2 ∈ events.map Prod.fst) →
    ∃ ts, beginTracks events starts bs tracks = .ok ts ∧ (ts.map Prod.fst).Nodup ∧
      (∀ n, n ∈ ts.map Prod.fst ↔ n ∈ tracks.map Prod.fst ∨ ∃ b ∈ bs, b.1 = n) ∧
      ∀ t ∈ ts, (t ∈ tracks ∧ ∀ b ∈ bs, b.1 ≠ t.1) ∨
        ∃ pre b post part, bs = pre ++ b :: post ∧ b.1 = t.1 ∧ (∀ c ∈ post, c.1 ≠ t.1) ∧ PartFrom events starts b.2 part ∧
          t.2 = trackInit part
  | [], tracks, hn, _ => ⟨tracks, rfl, hn, by simp, fun t ht => .inl ⟨ht, by simp⟩⟩
  | (n, first) :: bs, tracks, hn, hb => by
    obtain ⟨pre, l, h1, h2, h3, h4⟩ := from_ok (hb (n, first) (by simp))
    have hl : l ≠ [] := by
      rintro rfl
      simp at h3
    have hrun : Run starts l (trackFrom starts l) := by
      cases l with
      | nil => exact absurd rfl hl
      | cons o os => exact run_from starts o os
    obtain ⟨ts, g1, g2, g3, g4⟩ := tracks_ok events starts bs (dictSet tracks n (trackInit (trackFrom starts l)))
      (nodup_set _ _ _ hn) (fun b hb' => hb b (by simp [hb']))
    refine ⟨ts, ?_, g2, ?_, ?_⟩
    · rw [beginTracks, h4, bind_ok]
      exact g1
    · intro m
      rw [g3 m, keys_set]
      simp only [List.mem_cons, exists_eq_or_imp]
      constructor
      · rintro ((h | h) | h)
        · exact .inr (.inl h.symm)
        · exact .inl h
        · exact .inr (.inr h)
      · rintro (h | h | h)
        · exact .inl (.inr h)
        · exact .inl (.inl h.symm)
        · exact .inr h
    · intro t ht
      rcases g4 t ht with ⟨h, hne⟩ | ⟨pre', b, post, part, e, hb1, hb2, hb3, hb4⟩
      · rcases mem_set hn h with rfl | ⟨h, hk⟩
        · exact .inr ⟨[], (n, first), bs, trackFrom starts l, rfl, rfl, hne, ⟨pre, l, h1, h2, h3, hrun⟩, rfl⟩
        · refine .inl ⟨h, ?_⟩
          intro b hb
          rcases List.mem_cons.1 hb with rfl | hb
          · exact fun e => hk e.symm
          · exact hne b hb
      · exact .inr ⟨(n, first) :: pre', b, post, part, by rw [e]; rfl, hb1, hb2, hb3, hb4⟩

theorem tracks_error (events : List Obj) (starts : List Nat) : ∀ (bs : List (Nat × Nat)) (tracks : List (Nat × List Obj)),
    (∃ b ∈ bs, b.2 ∉ events.map Prod.fst) → beginTracks events starts bs tracks = .error .valueError
  | [], _, h => by simp at h
  | (n, first) :: bs, tracks, h => by
    rw [beginTracks]
    by_cases hf : first ∈ events.map Prod.fst
    · obtain ⟨_, l, _, _, _, h4⟩ := from_ok hf
      rw [h4, bind_ok]
      refine tracks_error events starts bs _ ?_
      obtain ⟨b, hb, hb'⟩ := h
      rcases List.mem_cons.1 hb with rfl | hb
      · exact absurd hf hb'
      · exact ⟨b, hb, hb'⟩
    · rw [from_error hf]
      rfl

theorem noEnd_init (part : List Obj) : NoEnd part (trackInit part) := by
  cases h : part.getLast? with
  | none =>
    have : part = [] := List.getLast?_eq_none_iff.1 h
    subst this
    exact .inr ⟨rfl, by simp⟩
  | some o =>
    obtain ⟨i, e⟩ := o
    by_cases he : e = .endTrack
    · subst he
      refine .inl ⟨i, ?_⟩
      unfold trackInit
      rw [h]
      dsimp only
      obtain ⟨ys, rfl⟩ := List.getLast?_eq_some_iff.1 h
      simp
    · refine .inr ⟨?_, ?_⟩
      · unfold trackInit
        rw [h]
        cases e <;> first | rfl | exact absurd rfl he
      · intro o ho
        rw [h] at ho
        cases ho
        exact he

/-- Every event is in the part that begins the list, or in one that begins later. -/
theorem in_run (starts : List Nat) (o : Obj) : ∀ (l : List Obj), o ∈ l → (∃ part, Run starts l part ∧ o ∈ part) ∨
    ∃ pre a l' part, l = pre ++ a :: l' ∧ pre ≠ [] ∧ a.1 ∈ starts ∧ Run starts (a :: l') part ∧ o ∈ part
  | [], h => by simp at h
  | a :: t, h => by
    rcases List.mem_cons.1 h with rfl | h
    · exact .inl ⟨_, run_from starts o t, by simp [trackFrom]⟩
    rcases in_run starts o t h with ⟨part, ⟨post, rfl, hne, ht, hp⟩, ho⟩ | ⟨pre, b, l', part, rfl, _, hb, hr, ho⟩
    · cases part with
      | nil => exact absurd rfl hne
      | cons c cs =>
        by_cases hc : c.1 ∈ starts
        · exact .inr ⟨[a], c, cs ++ post, c :: cs, rfl, by simp, hc, ⟨post, rfl, hne, ht, hp⟩, ho⟩
        · refine .inl ⟨a :: c :: cs, ⟨post, rfl, by simp, ?_, hp⟩, List.mem_cons_of_mem _ ho⟩
          intro x hx
          rcases List.mem_cons.1 hx with rfl | hx
          · exact hc
          · exact ht x hx
    · exact .inr ⟨a :: pre, b, l', part, rfl, by simp, hb, hr, ho⟩

end Verif.Proofs.MusicInit
