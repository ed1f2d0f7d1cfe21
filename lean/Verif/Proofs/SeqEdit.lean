import Verif.Spec.SequenceEdit
import Verif.Proofs.SeqReread
import Verif.Props.Sequence

namespace Verif.Proofs.SeqEdit

open Verif Verif.Model.SoundSequence Verif.Spec.Sequence Verif.Spec.SequenceEdit Verif.Proofs.SeqDecode Verif.Proofs.SeqRead
open Verif.Proofs.SeqEvent Verif.Proofs.SeqSave Verif.Proofs.SeqResave

/-! ## Reading data in which events have been replaced -/

/-- The state with the events replaced. -/
def editSt (f : Nat → Ev → Ev) (st : St) : St := ⟨fun o => (st.events o).map (f o), st.fates⟩

theorem edit_put (f : Nat → Ev → Ev) (st : St) (o : Nat) (e : Ev) (x : Fate) :
    editSt f (st.put o e x) = (editSt f st).put o (f o e) x := by
  unfold editSt St.put
  congr 1
  funext p
  by_cases h : p = o
  · subst h; simp
  · simp [h]

theorem edit_mark (f : Nat → Ev → Ev) (st : St) (l : List Nat) (x : Fate) :
    editSt f (st.mark l x) = (editSt f st).mark l x := rfl

theorem edit_need (f : Nat → Ev → Ev) (st : St) (o : Nat) : needEvent (editSt f st) o = needEvent st o := by
  unfold needEvent editSt
  dsimp only
  cases st.events o <;> rfl

theorem edit_if {f : Nat → Ev → Ev} {a : Nat → Option Ev} (h : ∀ o e, a o = some e → (f o e = .ifE ↔ e = .ifE)) :
    ∀ x, partOfIf (fun o => (a o).map (f o)) x = partOfIf a x
  | 0 => rfl
  | x + 1 => by
    unfold partOfIf
    cases he : a x with
    | none => exact edit_if h x
    | some e =>
      show decide (f x e = .ifE) = decide (e = .ifE)
      exact decide_eq_decide.2 (h x e he)

/-- The data `d'` has, at the offsets `L` that are visited, the events of `d` that are in `F`, replaced. -/
structure Sim (d d' : Bytes) (L : Nat → Prop) (F : Nat → Option Ev) (f : Nat → Ev → Ev) : Prop where
  len : d'.length = d.length
  dec : ∀ o e, F o = some e → L o → decode d' o = .ok (f o e)
  alike : ∀ o e, F o = some e → Alike e (f o e)
  ref : ∀ o e, F o = some e → L o → ∀ x ∈ refs e, L x
  next : ∀ o e, F o = some e → L o → L (o + declared e)

theorem alike_declared {e e' : Ev} (h : Alike e e') : declared e' = declared e := by
  rcases h with rfl | ⟨_, _, _, _, h⟩
  · rfl
  · exact h

theorem alike_if {e e' : Ev} (h : Alike e e') : e' = .ifE ↔ e = .ifE := by
  rcases h with rfl | ⟨h1, h2, _⟩
  · rfl
  · constructor
    · rintro rfl
      cases h2
    · rintro rfl
      cases h1

theorem length_of {e e' : Ev} {n : Nat} (h : Alike e e') (hn : e.dataLength = .ok n) : e'.dataLength = .ok n := by
  rcases h with rfl | ⟨_, _, h1, _, h⟩
  · exact hn
  · have h2 := declared_of hn
    have h3 := evBytes_pos id h1
    rw [h] at h3
    unfold declared at h
    cases he : e'.dataLength with
    | ok m =>
      rw [he, hn] at h
      dsimp only at h
      rw [h]
    | error x =>
      rw [he, hn] at h
      dsimp only at h
      omega

theorem parseAt_sim {d d' : Bytes} {L : Nat → Prop} {F : Nat → Option Ev} {f : Nat → Ev → Ev} (hs : Sim d d' L F f) :
    ∀ {fuel depth off : Nat} {mine : List Nat} {st : St} {r : Fate × St}, Dom st → L off →
    (∀ o ∈ mine, (st.events o).isSome) → parseAt d fuel depth off mine st = .ok r →
    (∀ o e, r.2.events o = some e → F o = some e) →
    parseAt d' fuel depth off mine (editSt f st) = .ok (r.1, editSt f r.2) := by
  have spec := @parseAt_spec d (fun _ => True) (fun _ _ _ _ _ => ⟨fun _ _ => trivial, trivial⟩)
  intro fuel
  induction fuel with
  | zero => intro _ _ _ _ _ _ _ _ h; cases h
  | succ fuel ih =>
    intro depth off mine st r hdom hoff hmine h hF
    obtain ⟨_, _, hvis⟩ := spec hdom trivial hmine h
    have h0 := h
    rw [parseAt] at h ⊢
    rw [hs.len]
    split at h
    · cases h
    rename_i hlt
    rw [if_neg hlt]
    split at h
    · rename_i x hx
      cases h
      rw [show (editSt f st).fates off = some x from hx]
      rfl
    rename_i hf
    have hnone : st.events off = none := by
      have := hdom off
      rw [hf] at this
      cases he : st.events off with
      | none => rfl
      | some e => rw [he] at this; cases this
    rw [show (editSt f st).fates off = none from hf]
    simp only [bind_eq_ok, asEof_eq_ok] at h
    obtain ⟨e, hdec, n, hn, h⟩ := h
    have hdecl := declared_of hn
    have hFe : F off = some e := by
      obtain ⟨e', he'⟩ := Option.isSome_iff_exists.1 hvis
      have g := (spec hdom trivial hmine h0).1
      have := (g.new off e' he' hnone).1.2.1
      rw [hdec] at this
      cases this
      exact hF off e he'
    have hal := hs.alike off e hFe
    have hd' := hs.dec off e hFe hoff
    have hn' := length_of hal hn
    have hPr := hs.ref off e hFe hoff
    have hPn := hs.next off e hFe hoff
    rw [hdecl] at hPn
    have hmine' : ∀ (b : Nat → Option Ev), (∀ o e', (st.put off e .inProgress).events o = some e' → b o = some e') →
        ∀ o ∈ mine ++ [off], (b o).isSome := by
      intro b hb o ho
      rcases List.mem_append.1 ho with ho | ho
      · exact isSome_mono hb (isSome_mono (put_mono hnone _ _) (hmine o ho))
      · rw [List.mem_singleton.1 ho]
        exact isSome_mono hb (put_some _ _ _ _)
    rw [hd']
    simp only [asEof, bind_ok]
    rw [hn']
    simp only [asEof, bind_ok]
    split at h
    · have hfe : f off _ = _ := hal.resolve_right (fun h => by cases h.1)
      rw [hfe]
      dsimp only
      split at h
      · cases h
      simp only [bind_eq_ok, needEvent_ok] at h
      obtain ⟨r1, h1, _, hne, h⟩ := h
      obtain ⟨g1, d1, _⟩ := spec (hdom.put _ _ _) trivial (by simp) h1
      obtain ⟨g2, _, _⟩ := spec d1 trivial (hmine' _ g1.mono) h
      have i1 := ih (hdom.put _ _ _) (hPr _ (by simp only [refs, List.mem_singleton])) (by simp) h1
        (fun o e h => hF o e (g2.mono o e h))
      rw [edit_put, hfe] at i1
      rw [i1]
      simp only [bind_ok]
      rw [edit_need, (needEvent_ok (u := ())).2 hne]
      exact ih d1 hPn (hmine' _ g1.mono) h hF
    · have hfe : f off _ = _ := hal.resolve_right (fun h => by cases h.1)
      rw [hfe]
      dsimp only
      split at h
      · cases h
      simp only [bind_eq_ok, needEvent_ok] at h
      obtain ⟨r1, h1, _, hne, h⟩ := h
      obtain ⟨g1, d1, _⟩ := spec (hdom.put _ _ _) trivial (by simp) h1
      have hm1 : ∀ o ∈ mine, (r1.2.events o).isSome := fun o ho => hmine' _ g1.mono o (by simp [ho])
      have hF1 : ∀ o e, r1.2.events o = some e → F o = some e := by
        split at h
        · obtain ⟨g2, _, _⟩ := spec (d1.mark hm1 r1.1) trivial (hmine' _ g1.mono) h
          exact fun o e h => hF o e (g2.mono o e h)
        · cases h
          exact hF
      have i1 := ih (hdom.put _ _ _) (hPr _ (by simp only [refs, List.mem_singleton])) (by simp) h1 hF1
      rw [edit_put, hfe] at i1
      rw [i1]
      simp only [bind_ok]
      rw [edit_need, (needEvent_ok (u := ())).2 hne]
      have hif : partOfIf (editSt f r1.2).events off = partOfIf r1.2.events off :=
        edit_if (fun o e h => alike_if (hs.alike o e (hF1 o e h))) off
      simp only [bind_ok]
      rw [hif]
      split at h
      · rename_i hc
        rw [if_pos hc]
        exact ih (d1.mark hm1 r1.1) hPn (hmine' _ g1.mono) h hF
      · rename_i hc
        rw [if_neg hc]
        cases h
        rfl
    · have hfe : f off _ = _ := hal.resolve_right (fun h => by cases h.1)
      rw [hfe]
      dsimp only
      split at h
      · cases h
      simp only [bind_eq_ok, needEvent_ok] at h
      obtain ⟨r1, h1, _, hne, h⟩ := h
      obtain ⟨g1, d1, _⟩ := spec (hdom.put _ _ _) trivial (by simp) h1
      have hF1 : ∀ o e, r1.2.events o = some e → F o = some e := by
        split at h
        · cases h
          exact hF
        · obtain ⟨g2, _, _⟩ := spec d1 trivial (hmine' _ g1.mono) h
          exact fun o e h => hF o e (g2.mono o e h)
      have i1 := ih (hdom.put _ _ _) (hPr _ (by simp only [refs, List.mem_singleton])) (by simp) h1 hF1
      rw [edit_put, hfe] at i1
      rw [i1]
      simp only [bind_ok]
      rw [edit_need, (needEvent_ok (u := ())).2 hne]
      simp only [bind_ok]
      split at h
      · rename_i hc
        rw [if_pos hc]
        cases h
        rfl
      · rename_i hc
        rw [if_neg hc]
        exact ih d1 hPn (hmine' _ g1.mono) h hF
    · have hfe : f off _ = _ := hal.resolve_right (fun h => by cases h.1)
      rw [hfe]
      cases h
      rw [edit_mark, edit_put, hfe]
    · have hfe : f off _ = _ := hal.resolve_right (fun h => by cases h.1)
      rw [hfe]
      cases h
      rw [edit_mark, edit_put, hfe]
    · rename_i h93 h94 h95 hfd hff
      have i1 := ih (hdom.put off e .inProgress) hPn (hmine' _ (fun _ _ h => h)) h hF
      rw [edit_put] at i1
      have hst : f off e = e ∨ steers (f off e) = false := by
        rcases hal with h | ⟨_, h, _⟩
        · exact .inl h
        · exact .inr h
      split
      · rename_i t x hx
        rcases hst with h | h
        · exact absurd (h.symm.trans hx) (h93 _ _)
        · rw [hx] at h; cases h
      · rename_i x hx
        rcases hst with h | h
        · exact absurd (h.symm.trans hx) (h94 _)
        · rw [hx] at h; cases h
      · rename_i x hx
        rcases hst with h | h
        · exact absurd (h.symm.trans hx) (h95 _)
        · rw [hx] at h; cases h
      · rename_i hx
        rcases hst with h | h
        · exact absurd (h.symm.trans hx) hfd
        · rw [hx] at h; cases h
      · rename_i hx
        rcases hst with h | h
        · exact absurd (h.symm.trans hx) hff
        · rw [hx] at h; cases h
      · exact i1

theorem parseStarts_sim {d d' : Bytes} {L : Nat → Prop} {F : Nat → Option Ev} {f : Nat → Ev → Ev} (hs : Sim d d' L F f)
    {depth : Nat} : ∀ {starts : List Nat} {st r : St}, Dom st → (∀ s ∈ starts, L s) → parseStarts d depth starts st = .ok r →
    (∀ o e, r.events o = some e → F o = some e) → parseStarts d' depth starts (editSt f st) = .ok (editSt f r)
  | [], st, r, _, _, h, _ => by cases h; rfl
  | s :: ss, st, r, hd, hl, h, hF => by
    have spec := @parseAt_spec d (fun _ => True) (fun _ _ _ _ _ => ⟨fun _ _ => trivial, trivial⟩)
    have spec2 := @parseStarts_spec d (fun _ => True) (fun _ _ _ _ _ => ⟨fun _ _ => trivial, trivial⟩)
    rw [parseStarts] at h ⊢
    simp only [bind_eq_ok] at h
    obtain ⟨r1, h1, u, hu, h⟩ := h
    obtain ⟨_, d1, _⟩ := spec hd trivial (by simp) h1
    obtain ⟨g2, _, _⟩ := spec2 d1 (fun _ _ => trivial) h
    rw [hs.len, parseAt_sim hs hd (hl s (.head _)) (by simp) h1 (fun o e h => hF o e (g2.mono o e h))]
    simp only [bind_ok]
    rw [hu]
    simp only [bind_ok]
    exact parseStarts_sim hs d1 (fun x hx => hl x (.tail _ hx)) h hF

theorem nextEvent_edit (f : Nat → Ev → Ev) (a : Nat → Option Ev) : ∀ k j,
    nextEvent (fun o => (a o).map (f o)) k j = nextEvent a k j
  | 0, _ => rfl
  | k + 1, j => by
    rw [nextEvent, nextEvent]
    cases a j with
    | none => exact nextEvent_edit f a k (j + 1)
    | some e => rfl

/-- The list with the events replaced. -/
def editList (f : Nat → Ev → Ev) (l : List (Nat × Ev)) : List (Nat × Ev) := l.map fun x => (x.1, f x.1 x.2)

theorem gather_edit {d d' : Bytes} {f : Nat → Ev → Ev} {a : Nat → Option Ev} (hlen : d'.length = d.length)
    (ha : ∀ o e, Alike e (f o e)) : ∀ {fuel i : Nat} {l : List (Nat × Ev)}, gather d a fuel i = .ok l →
    (∀ o b, (o, Ev.raw b) ∈ l → a o = none → slice d' o (o + b.length) = b) →
    gather d' (fun o => (a o).map (f o)) fuel i = .ok (editList f l)
  | 0, i, l, h, _ => by
    rw [gather] at h ⊢
    rw [hlen]
    split at h
    · rename_i hc
      rw [if_pos hc]
      cases h; rfl
    · cases h
  | fuel + 1, i, l, h, hr => by
    rw [gather] at h ⊢
    rw [hlen]
    split at h
    · rename_i hc
      rw [if_pos hc]
      cases h; rfl
    rename_i hc
    rw [if_neg hc]
    cases hi : a i with
    | some e =>
      rw [hi] at h
      dsimp only at h
      simp only [bind_eq_ok, pure_eq_ok] at h
      obtain ⟨n, hn, r, hg, rfl⟩ := h
      dsimp only [Option.map_some]
      rw [length_of (ha i e) hn]
      simp only [bind_ok]
      rw [gather_edit hlen ha hg (fun o b hm => hr o b (.tail _ hm))]
      rfl
    | none =>
      rw [hi] at h
      dsimp only at h
      simp only [bind_eq_ok, pure_eq_ok] at h
      obtain ⟨r, hg, rfl⟩ := h
      have hj := nextEvent_spec a (d.length - i) i
      dsimp only [Option.map_none]
      rw [nextEvent_edit]
      generalize nextEvent a (d.length - i) i = j at hg hr hj
      rw [gather_edit hlen ha hg (fun o b hm => hr o b (.tail _ hm))]
      have hb := hr i _ (.head _) hi
      rw [slice_length_of_le (by omega), show i + (j - i) = j by omega] at hb
      rw [hb]
      have hraw : f i (.raw (slice d i j)) = .raw (slice d i j) := (ha i (.raw (slice d i j))).resolve_right (fun h => by cases h.1)
      show Except.ok _ = Except.ok (editList f ((i, .raw (slice d i j)) :: r))
      unfold editList
      rw [List.map_cons, hraw]

/-! ## Saving the edited list -/

theorem alike_refs {e e' : Ev} (h : Alike e e') : refs e' = refs e := by
  rcases h with rfl | ⟨h1, h2, _⟩
  · rfl
  · have key : ∀ e : Ev, steers e = false → refs e = [] := by
      intro e h
      cases e <;> first | rfl | cases h
    rw [key e h1, key e' h2]

theorem mapRefs_self {g : Nat → Nat} {e : Ev} (h : ∀ x ∈ refs e, g x = x) : mapRefs g e = e := by
  cases e <;> first
    | rfl
    | (simp only [mapRefs, refs, List.mem_singleton, forall_eq] at h ⊢; rw [h])

theorem editList_fst (f : Nat → Ev → Ev) (l : List (Nat × Ev)) : (editList f l).map Prod.fst = l.map Prod.fst := by
  unfold editList
  rw [List.map_map]
  rfl

theorem editList_total {f : Nat → Ev → Ev} : ∀ {l : List (Nat × Ev)}, (∀ x ∈ l, Alike x.2 (f x.1 x.2)) →
    total (editList f l) = total l
  | [], _ => rfl
  | x :: l, h => by
    show total ((x.1, f x.1 x.2) :: editList f l) = _
    rw [total_cons, total_cons, editList_total (fun y hy => h y (.tail _ hy)), alike_declared (h x (.head _))]

theorem editList_position' {f : Nat → Ev → Ev} : ∀ {l : List (Nat × Ev)}, (∀ x ∈ l, declared (f x.1 x.2) = declared x.2) →
    ∀ id, position (editList f l) id = position l id
  | [], _, _ => rfl
  | x :: l, h, id => by
    show position ((x.1, f x.1 x.2) :: editList f l) id = _
    rw [position, position, editList_position' (fun y hy => h y (.tail _ hy)), h x (.head _)]

theorem editList_position {f : Nat → Ev → Ev} {l : List (Nat × Ev)} (h : ∀ x ∈ l, Alike x.2 (f x.1 x.2)) :
    ∀ id, position (editList f l) id = position l id :=
  editList_position' (fun x hx => alike_declared (h x hx))

theorem editList_mem {f : Nat → Ev → Ev} {l : List (Nat × Ev)} {x : Nat × Ev} (h : x ∈ editList f l) :
    ∃ e, (x.1, e) ∈ l ∧ x.2 = f x.1 e := by
  obtain ⟨y, hy, rfl⟩ := List.mem_map.1 h
  exact ⟨y.2, hy, rfl⟩

theorem covers_next {d : Bytes} {ev : Nat → Option Ev} : ∀ {l : List (Nat × Ev)} {i : Nat}, Covers d ev l i →
    ∀ x ∈ l, x.1 + declared x.2 ∈ l.map Prod.fst ∨ d.length ≤ x.1 + declared x.2
  | [], _, _, x, hx => by cases hx
  | (o, e) :: l, i, h, x, hx => by
    obtain ⟨rfl, _, _, h3⟩ := h
    rcases List.mem_cons.1 hx with rfl | hx
    · cases l with
      | nil => exact .inr h3
      | cons y l =>
        left
        show o + declared e ∈ _
        rw [← h3.1]
        simp
    · rcases covers_next h3 x hx with h | h
      · exact .inl (.tail _ h)
      · exact .inr h

theorem covers_fit {d : Bytes} {ev : Nat → Option Ev} : ∀ {l : List (Nat × Ev)} {i : Nat}, Covers d ev l i →
    i ≤ d.length → (∀ x ∈ l, x.1 + declared x.2 ≤ d.length) → i + total l ≤ d.length
  | [], _, _, hi, _ => by rw [total_nil]; exact hi
  | (o, e) :: l, i, h, _, hf => by
    obtain ⟨rfl, _, _, h3⟩ := h
    have := covers_fit h3 (hf _ (.head _)) (fun x hx => hf x (.tail _ hx))
    rw [total_cons]
    dsimp only
    omega

/-! ## Both -/

theorem edit_read {d : Bytes} {depth : Nat} {notable : List Nat} {l : List (Nat × Ev)} {n : List Nat}
    (h : readSequenceEvents depth d notable = .ok (l, n)) (hv : ∀ x ∈ l, isFromVariable x.2 = false)
    (hend : ∀ x ∈ l, x.1 + declared x.2 ≤ d.length)
    (hrefs : ∀ x ∈ l, ∀ y ∈ refs x.2, y ∈ l.map Prod.fst) (hno : ∀ y ∈ notable, y ∈ l.map Prod.fst)
    {f : Nat → Ev → Ev} (ha : ∀ o e, Alike e (f o e)) :
    ∃ d', saveSequenceEvents (editList f l) notable = .ok (d', notable) ∧ d'.length = d.length ∧
      readSequenceEvents depth d' notable = .ok (editList f l, notable) := by
  unfold readSequenceEvents at h
  simp only [bind_eq_ok, pure_eq_ok, Prod.mk.injEq] at h
  obtain ⟨st, h1, l', h2, u, hu, hll, rfl⟩ := h
  subst hll
  obtain ⟨g, _, s⟩ := parseStarts_spec (P := fun _ => True) (fun _ _ _ _ _ => ⟨fun _ _ => trivial, trivial⟩) (fun _ => rfl)
    (fun _ _ => trivial) h1
  have hdec : ∀ o e, st.events o = some e → o < d.length ∧ decode d o = .ok e :=
    fun o e he => ⟨(g.new o e he rfl).1.1, (g.new o e he rfl).1.2.1⟩
  have hin : ∀ o e, st.events o = some e → InRange e := fun o e he => (decode_inv (hdec o e he).2).1
  have hc : Covers d st.events l' 0 := by
    obtain ⟨l, hl, hc⟩ := gather_spec (d := d) hin d.length 0 (by omega)
    rw [hl] at h2
    cases h2
    exact hc
  have hpos : ∀ y ∈ l'.map Prod.fst, position (editList f l') y = some y := by
    intro y hy
    rw [editList_position (fun x _ => ha x.1 x.2), covers_position hin hc hy]
  have hkind : ∀ x ∈ l', (InRange x.2 ∧ ∀ y ∈ refs x.2, y < 2 ^ 24) ∨ ∃ b, x.2 = .raw b := by
    intro x hx
    obtain ⟨_, _, k⟩ := covers_mem hc x hx
    rcases k with k | ⟨j, _, _, _, _, k⟩
    · exact .inl ⟨hin _ _ k, decode_refs_lt (hdec _ _ k).2⟩
    · exact .inr ⟨_, k⟩
  have hkind' : ∀ x ∈ editList f l', (InRange x.2 ∨ ∃ b, x.2 = .raw b) ∧ isFromVariable x.2 = false ∧
      ∀ y ∈ refs x.2, position (editList f l') y = some y ∧ y < 2 ^ 24 := by
    intro x hx
    obtain ⟨e, hm, he⟩ := editList_mem hx
    rw [he]
    have hr := alike_refs (ha x.1 e)
    refine ⟨?_, ?_, ?_⟩
    · rcases ha x.1 e with h | ⟨_, _, h, _⟩
      · rw [h]
        rcases hkind _ hm with k | k
        · exact .inl k.1
        · exact .inr k
      · exact .inl h
    · rcases ha x.1 e with h | ⟨_, _, _, h, _⟩
      · rw [h]; exact hv _ hm
      · exact h
    · intro y hy
      rw [hr] at hy
      refine ⟨hpos y (hrefs _ hm y hy), ?_⟩
      rcases hkind _ hm with k | ⟨b, k⟩
      · exact k.2 y hy
      · dsimp only at k
        rw [k] at hy
        cases hy
  have hnd : ((editList f l').map Prod.fst).Nodup := by
    rw [editList_fst]; exact covers_nodup hin hc
  have hself : ∀ y ∈ l'.map Prod.fst, resolve (editList f l') y = y := fun y hy => by
    rw [resolve, hpos y hy]; rfl
  have hn := mapE_ok_of_forall (f := offsetOf (position (editList f l'))) (g := id) (as := notable)
    (fun x hx => by rw [offsetOf, hpos x (hno x hx)]; rfl)
  rw [List.map_id] at hn
  have hs : ∀ e ∈ editList f l', Saves e.2 := fun e he => by
    rcases (hkind' e he).1 with h | ⟨b, h⟩
    · exact saves_of_inRange h
    · rw [h]; trivial
  obtain ⟨d', hd'⟩ := save_mk hnd (fun e he => dataLength_inRange (hkind' e he).1)
    (fun e he => ⟨hs e he, fun y hy => ⟨y, (hkind' e he).2.2 y hy⟩⟩) hn
  have hl : ∀ e ∈ editList f l', (evBytes (resolve (editList f l')) e.2).length = declared e.2 := fun e he =>
    declared_eq _ (hkind' e he).1 (hkind' e he).2.1
  obtain ⟨_, _, _, _, h5, _⟩ := save_ok hnd (fun e he => Nat.le_of_eq (hl e he).symm) hd'
  have hcut := h5 hl
  have hlen : d'.length = d.length := by
    rw [hcut, cut_length _ _ (fun e he => Nat.le_of_eq (hl e he).symm), editList_total (fun x _ => ha x.1 x.2)]
    have k1 := covers_total hc
    have k2 := covers_fit hc (Nat.zero_le _) hend
    omega
  have hat : ∀ x ∈ l', At d' x.1 (evBytes (resolve (editList f l')) (f x.1 x.2)) := by
    intro x hx
    obtain ⟨pre, post, hl'⟩ := List.append_of_mem hx
    have hsp : editList f l' = editList f pre ++ (x.1, f x.1 x.2) :: editList f post := by
      rw [hl']; unfold editList; simp
    have hx1 : x.1 = total (editList f pre) := by
      rw [hl'] at hc
      rw [editList_total (fun x _ => ha x.1 x.2), covers_split hc]; omega
    have k := cut_at (resolve (editList f l')) (pre := editList f pre) (post := editList f post) (e := (x.1, f x.1 x.2))
      (fun y hy => Nat.le_of_eq (hl y (by rw [hsp]; simp [hy])).symm)
    rw [← hsp, ← hcut, List.take_of_length_le (Nat.le_of_eq (hl (x.1, f x.1 x.2) (by rw [hsp]; simp))), ← hx1] at k
    exact k
  have hsim : Sim d d' (fun o => o ∈ l'.map Prod.fst ∨ d.length ≤ o) st.events f := by
    have hent : ∀ o e, st.events o = some e → (o ∈ l'.map Prod.fst ∨ d.length ≤ o) → (o, e) ∈ l' := by
      intro o e he hL
      have hlt := (hdec o e he).1
      obtain ⟨x, hx, rfl⟩ := List.mem_map.1 (hL.resolve_right (by omega))
      obtain ⟨_, _, k⟩ := covers_mem hc x hx
      rcases k with k | ⟨j, hj, _, k, _⟩
      · rw [he] at k
        cases k
        exact hx
      · rw [k x.1 (Nat.le_refl _) hj] at he
        cases he
    refine ⟨hlen, ?_, fun o e _ => ha o e, ?_, ?_⟩
    · intro o e he hL
      have hm := hent o e he hL
      have hm' : (o, f o e) ∈ editList f l' := List.mem_map.2 ⟨(o, e), hm, rfl⟩
      have hir : InRange (f o e) := by
        rcases ha o e with h | ⟨_, _, h, _⟩
        · rw [h]; exact hin o e he
        · exact h
      have hr : ∀ y ∈ refs (f o e), resolve (editList f l') y = y := fun y hy => by
        rw [resolve, ((hkind' _ hm').2.2 y hy).1]; rfl
      rw [decode_at _ hir (fun y hy => by rw [hr y hy]; exact ((hkind' _ hm').2.2 y hy).2) (hat _ hm), mapRefs_self hr]
    · intro o e he hL y hy
      exact .inl (hrefs _ (hent o e he hL) y hy)
    · intro o e he hL
      exact covers_next hc _ (hent o e he hL)
  refine ⟨d', hd', hlen, ?_⟩
  have hstart : ∀ s ∈ (if notable = [] then [0] else notable), s ∈ l'.map Prod.fst ∨ d.length ≤ s := by
    intro s hs
    split at hs
    · rw [List.mem_singleton.1 hs]
      cases l' with
      | nil => exact .inr hc
      | cons x l =>
        left
        rw [← hc.1]
        simp
    · exact .inl (hno s hs)
  have k1 := parseStarts_sim hsim (st := ⟨fun _ => none, fun _ => none⟩) (fun _ => rfl) hstart h1 (fun _ _ h => h)
  have k2 := gather_edit hlen ha h2 (fun o b hm _ => by
    have k := hat (o, .raw b) hm
    have hraw : f o (.raw b) = .raw b := (ha o (.raw b)).resolve_right (fun h => by cases h.1)
    dsimp only at k
    rw [hraw] at k
    exact k.slice_eq rfl)
  unfold readSequenceEvents
  rw [show (⟨fun _ => none, fun _ => none⟩ : St) = editSt f ⟨fun _ => none, fun _ => none⟩ from rfl, k1]
  simp only [bind_ok]
  rw [hlen, show (editSt f st).events = fun o => (st.events o).map (f o) from rfl, k2]
  simp only [bind_ok]
  rw [show needEvent (editSt f st) = needEvent st from funext (edit_need f st), hu]
  rfl

/-- Only what is done with the entries matters. -/
theorem edit_read_entries {d : Bytes} {depth : Nat} {notable : List Nat} {l : List (Nat × Ev)} {n : List Nat}
    (h : readSequenceEvents depth d notable = .ok (l, n)) (hv : ∀ x ∈ l, isFromVariable x.2 = false)
    (hend : ∀ x ∈ l, x.1 + declared x.2 ≤ d.length)
    (hrefs : ∀ x ∈ l, ∀ y ∈ refs x.2, y ∈ l.map Prod.fst) (hno : ∀ y ∈ notable, y ∈ l.map Prod.fst)
    {f : Nat → Ev → Ev} (ha : ∀ x ∈ l, Alike x.2 (f x.1 x.2)) :
    ∃ d', saveSequenceEvents (editList f l) notable = .ok (d', notable) ∧ d'.length = d.length ∧
      readSequenceEvents depth d' notable = .ok (editList f l, notable) := by
  classical
  have he : editList f l = editList (fun o e => if (o, e) ∈ l then f o e else e) l := by
    unfold editList
    apply List.map_congr_left
    intro x hx
    dsimp only
    rw [if_pos hx]
  rw [he]
  apply edit_read h hv hend hrefs hno
  intro o e
  split
  · rename_i hm; exact ha _ hm
  · exact .inl rfl

/-- What saving the events that were read says about them. -/
theorem saved_conds {d : Bytes} {depth : Nat} {notable : List Nat} {l : List (Nat × Ev)} {n : List Nat}
    (h : readSequenceEvents depth d notable = .ok (l, n)) (hv : ∀ x ∈ l, isFromVariable x.2 = false)
    {d1 : Bytes} {n1 : List Nat} (hs : saveSequenceEvents l notable = .ok (d1, n1)) :
    (∀ x ∈ l, ∀ y ∈ refs x.2, y ∈ l.map Prod.fst) ∧ (∀ y ∈ notable, y ∈ l.map Prod.fst) ∧ n1 = notable ∧
    (d1.length = d.length → ∀ x ∈ l, x.1 + declared x.2 ≤ d.length) := by
  obtain ⟨_, ev, g, s, hc⟩ := read_ok (P := fun _ => True) (fun _ _ _ _ _ => ⟨fun _ _ => trivial, trivial⟩)
    (fun _ _ => trivial) h
  have hin : ∀ o e, ev o = some e → InRange e := fun o e he => (decode_inv (g.new o e he rfl).1.2.1).1
  have hkind : ∀ x ∈ l, InRange x.2 ∨ ∃ b, x.2 = .raw b := by
    intro x hx
    obtain ⟨_, _, k⟩ := covers_mem hc x hx
    rcases k with k | ⟨j, _, _, _, _, k⟩
    · exact .inl (hin _ _ k)
    · exact .inr ⟨_, k⟩
  have hl : ∀ e ∈ l, (evBytes (resolve l) e.2).length = declared e.2 := fun e he => declared_eq _ (hkind e he) (hv e he)
  have hnd := covers_nodup hin hc
  obtain ⟨_, h2, _, _, h5, h6⟩ := save_ok hnd (fun e he => Nat.le_of_eq (hl e he).symm) hs
  have hpos : ∀ {y o}, position l y = some o → y ∈ l.map Prod.fst := by
    intro y o hy
    obtain ⟨pre, e, post, h1, _⟩ := position_inv hy
    rw [h1]
    simp
  have hno : ∀ y ∈ notable, y ∈ l.map Prod.fst := by
    intro y hy
    have hm := SeqReread.notable_offsets h6
    have : position l y ∈ notable.map (position l) := List.mem_map.2 ⟨y, hy, rfl⟩
    rw [hm] at this
    obtain ⟨o, _, ho⟩ := List.mem_map.1 this
    exact hpos ho.symm
  refine ⟨?_, hno, ?_, ?_⟩
  · intro x hx y hy
    obtain ⟨o, ho, _⟩ := (h2 x hx).2 y hy
    exact hpos ho
  · have hn := mapE_ok_of_forall (f := offsetOf (position l)) (g := id) (as := notable)
      (fun x hx => by rw [offsetOf, covers_position hin hc (hno x hx)]; rfl)
    rw [h6, List.map_id] at hn
    cases hn
    rfl
  · intro hlen x hx
    rw [h5 hl, cut_length _ _ (fun e he => Nat.le_of_eq (hl e he).symm)] at hlen
    obtain ⟨pre, post, hsp⟩ := List.append_of_mem hx
    rw [hsp] at hc hlen
    have k := covers_split hc
    rw [total_append, total_cons] at hlen
    omega

theorem pitch_alike {p : Int} (hp : 0 ≤ p ∧ p ≤ 127) {e : Ev} (h : InRange e ∨ ∃ b, e = .raw b) : Alike e (withPitch p e) := by
  cases e with
  | note q v fl dur =>
    right
    rcases h with h | ⟨b, h⟩
    · exact ⟨rfl, rfl, ⟨hp, h.2⟩, rfl, rfl⟩
    · cases h
  | _ => exact .inl rfl

/-! ## Notes that cannot be saved -/

theorem writeEvents_err {offs : Nat → Option Nat} {x : PyErr} : ∀ {es : List (Nat × Ev)} {off : Nat} {data : Bytes},
    (∀ e ∈ es, (∃ b, e.2.save offs = .ok b) ∨ e.2.save offs = .error x) → (∃ e ∈ es, e.2.save offs = .error x) →
    writeEvents offs (layout es off) data = .error x
  | [], _, _, _, ⟨_, h, _⟩ => by cases h
  | e :: es, off, data, h, ⟨e', hm, he⟩ => by
    rw [layout, writeEvents]
    dsimp only
    rcases h e (.head _) with ⟨b, hb⟩ | hb
    · rw [hb, bind_ok]
      rcases List.mem_cons.1 hm with rfl | hm
      · rw [hb] at he; cases he
      · exact writeEvents_err (fun y hy => h y (.tail _ hy)) ⟨e', hm, he⟩
    · rw [hb, bind_error]

theorem pitch_length (p : Int) (e : Ev) : (withPitch p e).dataLength = e.dataLength := by
  cases e <;> rfl

theorem pitch_refused {d : Bytes} {depth : Nat} {notable : List Nat} {l : List (Nat × Ev)} {n : List Nat}
    (h : readSequenceEvents depth d notable = .ok (l, n))
    {d1 : Bytes} {n1 : List Nat} (hs : saveSequenceEvents l notable = .ok (d1, n1)) {p : Int} (hp : p < 0 ∨ 127 < p)
    (hnote : ∃ o q v fl dur, (o, Ev.note q v fl dur) ∈ l) :
    saveSequenceEvents (editList (fun _ e => withPitch p e) l) notable = .error .valueError := by
  obtain ⟨_, ev, g, s, hc⟩ := read_ok (P := fun _ => True) (fun _ _ _ _ _ => ⟨fun _ _ => trivial, trivial⟩)
    (fun _ _ => trivial) h
  have hin : ∀ o e, ev o = some e → InRange e := fun o e he => (decode_inv (g.new o e he rfl).1.2.1).1
  have hkind : ∀ x ∈ l, InRange x.2 ∨ ∃ b, x.2 = .raw b := by
    intro x hx
    obtain ⟨_, _, k⟩ := covers_mem hc x hx
    rcases k with k | ⟨j, _, _, _, _, k⟩
    · exact .inl (hin _ _ k)
    · exact .inr ⟨_, k⟩
  have hnd := covers_nodup hin hc
  obtain ⟨h1, h2, _⟩ := save_ok hnd (fun e he => declared_le _ (hkind e he)) hs
  have hdecl : ∀ e : Ev, declared (withPitch p e) = declared e := fun e => by unfold declared; rw [pitch_length]
  have hpos : position (editList (fun _ e => withPitch p e) l) = position l :=
    funext (editList_position' (fun x _ => hdecl x.2))
  have hbad : ∀ (offs : Nat → Option Nat) (q v : Int) (fl : Bool) (dur : Int),
      Ev.save offs (withPitch p (.note q v fl dur)) = .error .valueError := by
    intro offs q v fl dur
    unfold withPitch Ev.save
    dsimp only
    by_cases h0 : p < 0
    · rw [show raiseIf (p < 0) .valueError = .error .valueError from if_pos h0, bind_error]
    · rw [raiseIf_false h0, bind_ok, show raiseIf (p > 127) .valueError = .error .valueError from if_pos (by omega), bind_error]
  have hsave : ∀ e ∈ editList (fun _ e => withPitch p e) l, (∃ b, e.2.save (position l) = .ok b) ∨
      e.2.save (position l) = .error .valueError := by
    intro x hx
    obtain ⟨e, hm, he⟩ := editList_mem hx
    rw [he]
    have k := save_eq_ok.2 ⟨(h2 _ hm).1, (h2 _ hm).2, rfl⟩
    cases e with
    | note q v fl dur => exact .inr (hbad _ _ _ _ _)
    | _ => exact .inl ⟨_, k⟩
  obtain ⟨o, q, v, fl, dur, hm⟩ := hnote
  unfold saveSequenceEvents
  rw [placeEvents_mk (by simpa [editList_fst] using hnd) (fun x hx => by
    obtain ⟨e, hm, he⟩ := editList_mem hx
    rw [he, pitch_length, hdecl]
    exact h1 _ hm), bind_ok]
  simp only [List.nil_append, Nat.zero_add]
  rw [layout_zero, hpos, writeEvents_err hsave ⟨_, List.mem_map.2 ⟨_, hm, rfl⟩, hbad _ q v fl dur⟩, bind_error]

end Verif.Proofs.SeqEdit
