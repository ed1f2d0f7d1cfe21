import Verif.Proofs.SeqResave

/-!
# Reading what was saved
-/

namespace Verif.Proofs.SeqReread

open Verif Verif.Model.SoundSequence Verif.Proofs.SeqVar Verif.Proofs.SeqEvent Verif.Proofs.SeqSave
open Verif.Proofs.SeqDecode Verif.Proofs.SeqRead Verif.Proofs.SeqResave Verif.Spec.Sequence

/-- What is known about saved data. -/
structure Saved (events : List (Nat × Ev)) (data : Bytes) : Prop where
  len : data.length = total events
  dec : ∀ pre e post, events = pre ++ e :: post → decode data (total pre) = .ok (mapRefs (resolve events) e.2)
  pos : ∀ pre e post, events = pre ++ e :: post → resolve events e.1 = total pre
  inr : ∀ e ∈ events, InRange e.2
  ref : ∀ e ∈ events, ∀ x ∈ refs e.2, ∃ pre e' post, events = pre ++ (x, e') :: post ∧ resolve events x = total pre
  nodup : (events.map Prod.fst).Nodup

theorem saved {events : List (Nat × Ev)} {notable : List Nat} {data : Bytes} {noffs : List Nat}
    (hn : (events.map Prod.fst).Nodup) (hin : ∀ e ∈ events, InRange e.2)
    (hf : ∀ e ∈ events, isFromVariable e.2 = false) (h : saveSequenceEvents events notable = .ok (data, noffs)) :
    Saved events data ∧ mapE (offsetOf (position events)) notable = .ok noffs := by
  have hlen : ∀ e ∈ events, (evBytes (resolve events) e.2).length = declared e.2 := fun e he =>
    declared_eq _ (.inl (hin e he)) (hf e he)
  obtain ⟨_, h2, _, _, h5, h6⟩ := save_ok hn (fun e he => Nat.le_of_eq (hlen e he).symm) h
  have hd := h5 hlen
  refine ⟨⟨?_, ?_, ?_, hin, ?_, hn⟩, h6⟩
  · rw [hd, cut_length _ _ (fun e he => Nat.le_of_eq (hlen e he).symm)]
  · intro pre e post he
    have hm : e ∈ events := by rw [he]; simp
    have hat := cut_at (resolve events) (pre := pre) (post := post) (e := e)
      (fun x hx => Nat.le_of_eq (hlen x (by rw [he]; simp [hx])).symm)
    rw [← he, ← hd, List.take_of_length_le (Nat.le_of_eq (hlen e hm))] at hat
    refine decode_at _ (hin e hm) ?_ hat
    intro r hr
    obtain ⟨o, h1, h2⟩ := (h2 e hm).2 r hr
    rw [resolve, h1]; exact h2
  · intro pre e post he
    rw [he] at hn
    rw [resolve, he, position_split hn]; rfl
  · intro e he x hx
    obtain ⟨o, h1, _⟩ := (h2 e he).2 x hx
    obtain ⟨pre, e', post, h3, h4⟩ := position_inv h1
    exact ⟨pre, e', post, h3, by rw [resolve, h1, h4]; rfl⟩

/-- Boundaries between events. -/
def Bound (events : List (Nat × Ev)) (o : Nat) : Prop := ∃ pre post, events = pre ++ post ∧ o = total pre

theorem declared_mapRefs (g : Nat → Nat) (e : Ev) : declared (mapRefs g e) = declared e := by
  cases e <;> rfl

theorem refs_mapRefs (g : Nat → Nat) (e : Ev) : refs (mapRefs g e) = (refs e).map g := by
  cases e <;> rfl

theorem flows_mapRefs (g : Nat → Nat) (e : Ev) : flows (mapRefs g e) = flows e := by
  cases e <;> rfl

theorem Saved.at_bound {events : List (Nat × Ev)} {data : Bytes} (hs : Saved events data) {o : Nat}
    (hb : Bound events o) (hlt : o < data.length) : ∃ pre e post, events = pre ++ e :: post ∧ o = total pre := by
  obtain ⟨pre, post, he, rfl⟩ := hb
  cases post with
  | nil =>
    rw [List.append_nil] at he
    rw [hs.len, he] at hlt; omega
  | cons e post => exact ⟨pre, e, post, he, rfl⟩

theorem Saved.closed {events : List (Nat × Ev)} {data : Bytes} (hs : Saved events data) :
    ∀ o e, Bound events o → o < data.length → decode data o = .ok e →
      (∀ x ∈ refs e, Bound events x) ∧ Bound events (o + declared e) := by
  intro o e hb hlt hd
  obtain ⟨pre, e', post, he, rfl⟩ := hs.at_bound hb hlt
  rw [hs.dec pre e' post he] at hd
  cases hd
  refine ⟨?_, ?_⟩
  · intro x hx
    rw [refs_mapRefs] at hx
    obtain ⟨y, hy, rfl⟩ := List.mem_map.1 hx
    obtain ⟨p, e'', q, h1, h2⟩ := hs.ref e' (by rw [he]; simp) y hy
    exact ⟨p, (y, e'') :: q, h1, h2⟩
  · rw [declared_mapRefs]
    exact ⟨pre ++ [e'], post, by rw [he]; simp, by rw [total_append, total_cons, total_nil]; omega⟩

theorem covers_regroup {events : List (Nat × Ev)} {data : Bytes} (hs : Saved events data) {ev : Nat → Option Ev}
    (hev : ∀ o e, ev o = some e → o < data.length ∧ decode data o = .ok e ∧ Bound events o) :
    ∀ {l : List (Nat × Ev)} {pre post : List (Nat × Ev)}, events = pre ++ post → Covers data ev l (total pre) →
    Regroup data (resolve events) (total pre) post l
  | [], pre, post, he, h => by
    simp only [Covers] at h
    cases post with
    | nil => exact .nil _
    | cons e post =>
      have := evBytes_pos id (hs.inr e (by rw [he]; simp))
      rw [hs.len, he, total_append, total_cons] at h
      omega
  | (o, e') :: l, pre, post, he, h => by
    obtain ⟨rfl, h1, h2, h3⟩ := h
    rcases h2 with h2 | ⟨j, hj1, hj2, _, hj3, rfl⟩
    · obtain ⟨_, hd, _⟩ := hev _ _ h2
      cases post with
      | nil =>
        rw [List.append_nil] at he
        rw [hs.len, he] at h1; omega
      | cons e post =>
        rw [hs.dec pre e post he] at hd
        cases hd
        refine .keep _ e post l ?_
        rw [declared_mapRefs] at h3
        have ht : total pre + declared e.2 = total (pre ++ [e]) := by rw [total_append, total_cons, total_nil]; omega
        rw [ht] at h3 ⊢
        exact covers_regroup hs hev (by rw [he]; simp) h3
    · have hbj : Bound events j := by
        by_cases hjl : j < data.length
        · obtain ⟨e, hje⟩ := Option.isSome_iff_exists.1 (hj3 hjl)
          exact (hev _ _ hje).2.2
        · exact ⟨events, [], by simp, by rw [← hs.len]; omega⟩
      obtain ⟨p, q, hpq, hjt⟩ := hbj
      have hpre : ∃ run, p = pre ++ run ∧ run ≠ [] := by
        rw [he] at hpq
        rcases List.append_eq_append_iff.1 hpq with ⟨a, h1, h2⟩ | ⟨a, h1, h2⟩
        · refine ⟨a, h1, ?_⟩
          rintro rfl
          rw [List.append_nil] at h1
          rw [h1] at hjt; omega
        · rw [h1, total_append] at hj1
          omega
      obtain ⟨run, rfl, hrun⟩ := hpre
      have hpost : post = run ++ q := by
        rw [he, List.append_assoc] at hpq
        exact List.append_cancel_left hpq
      subst hpost
      have ht : total pre + total run = j := by rw [hjt, total_append]
      rw [← ht]
      refine .raw _ run q l hrun ?_
      rw [declared_raw, slice_length_of_le hj2, show total pre + (j - total pre) = j by omega, hjt] at h3
      rw [ht, hjt]
      exact covers_regroup hs hev hpq h3

theorem regroup_no_raw {data : Bytes} {g : Nat → Nat} {o : Nat} {es l : List (Nat × Ev)}
    (h : Regroup data g o es l) : (∀ x ∈ l, ∀ b, x.2 ≠ .raw b) →
    l.map Prod.snd = es.map (fun e => mapRefs g e.2) := by
  induction h with
  | nil => intro _; rfl
  | keep o e es l _ ih =>
    intro hx
    rw [List.map_cons, List.map_cons, ih (fun x hx' => hx x (by simp [hx']))]
  | raw o run es l _ _ _ =>
    intro hx
    exact absurd rfl (hx _ (List.mem_cons_self ..) _)

theorem regroup_renamed {events : List (Nat × Ev)} {data : Bytes} (hs : Saved events data) :
    ∀ {l pre post : List (Nat × Ev)}, events = pre ++ post → Regroup data (resolve events) (total pre) post l →
    (∀ x ∈ l, ∀ b, x.2 ≠ .raw b) → l = post.map fun e => (resolve events e.1, mapRefs (resolve events) e.2) := by
  intro l pre post he h
  generalize ho : total pre = o at h
  induction h generalizing pre with
  | nil => intro _; rfl
  | keep o e es l _ ih =>
    intro hx
    rw [List.map_cons, hs.pos pre e es he, ho,
      ← ih (pre := pre ++ [e]) (by rw [he]; simp) (by rw [total_append, total_cons, total_nil]; omega)
        (fun x hx' => hx x (by simp [hx']))]
  | raw o run es l _ _ _ =>
    intro hx
    exact absurd rfl (hx _ (List.mem_cons_self ..) _)

theorem notable_offsets {offs : Nat → Option Nat} : ∀ {l r : List Nat}, mapE (offsetOf offs) l = .ok r →
    l.map offs = r.map some
  | [], r, h => by cases h; rfl
  | x :: xs, r, h => by
    obtain ⟨o, os, ho, hos, rfl⟩ := mapE_cons_ok.1 h
    rw [List.map_cons, List.map_cons, notable_offsets hos]
    unfold offsetOf at ho
    split at ho
    · rename_i h'; cases ho; rw [h']
    · cases ho

theorem starts_bound {events : List (Nat × Ev)} {notable noffs : List Nat}
    (h : mapE (offsetOf (position events)) notable = .ok noffs) : ∀ s ∈ starts noffs, Bound events s := by
  intro s hs
  unfold starts at hs
  split at hs
  · rw [List.mem_singleton.1 hs]; exact ⟨[], events, rfl, rfl⟩
  · have := notable_offsets h
    have hm : some s ∈ noffs.map some := List.mem_map.2 ⟨s, hs, rfl⟩
    rw [← this] at hm
    obtain ⟨x, hx, hx'⟩ := List.mem_map.1 hm
    obtain ⟨pre, e, post, h1, h2⟩ := position_inv hx'
    exact ⟨pre, _, h1, h2⟩

theorem reread {events : List (Nat × Ev)} {notable : List Nat} {data : Bytes} {noffs : List Nat}
    (hn : (events.map Prod.fst).Nodup) (hin : ∀ e ∈ events, InRange e.2)
    (hf : ∀ e ∈ events, isFromVariable e.2 = false) (h : saveSequenceEvents events notable = .ok (data, noffs))
    {depth : Nat} {l : List (Nat × Ev)} {n : List Nat} (hr : readSequenceEvents depth data noffs = .ok (l, n)) :
    n = noffs ∧ Regroup data (resolve events) 0 events l ∧
      ((∀ x ∈ l, ∀ b, x.2 ≠ .raw b) → l = renamed events) := by
  obtain ⟨hs, hno⟩ := saved hn hin hf h
  obtain ⟨rfl, ev, g, s, hc⟩ := read_ok hs.closed (starts_bound hno) hr
  have hre := covers_regroup hs (fun o e he => (g.new o e he rfl).1) (pre := []) (post := events) rfl hc
  refine ⟨rfl, hre, ?_⟩
  exact regroup_renamed hs (pre := []) rfl hre

/-! ## Reading succeeds -/

/-- Reference events not yet parsed. -/
def openRefs (events : List (Nat × Ev)) (a : Nat → Option Ev) : Nat :=
  events.countP fun e => !(refs e.2).isEmpty && (a (resolve events e.1)).isNone

theorem openRefs_le {events : List (Nat × Ev)} {a b : Nat → Option Ev} (h : ∀ o e, a o = some e → b o = some e) :
    openRefs events b ≤ openRefs events a := by
  apply countP_le
  intro x _ hb
  rw [Bool.and_eq_true] at hb ⊢
  refine ⟨hb.1, ?_⟩
  cases ha : a (resolve events x.1) with
  | none => rfl
  | some e => rw [h _ e ha] at hb; cases hb.2

theorem openRefs_put {events : List (Nat × Ev)} {data : Bytes} (hs : Saved events data) {st : St}
    {pre post : List (Nat × Ev)} {e : Nat × Ev} (he : events = pre ++ e :: post) (hr : refs e.2 ≠ [])
    (hn : st.events (total pre) = none) (e' : Ev) (f : Fate) :
    openRefs events (st.put (total pre) e' f).events < openRefs events st.events := by
  apply countP_lt
  · intro x _ hb
    rw [Bool.and_eq_true] at hb ⊢
    refine ⟨hb.1, ?_⟩
    cases ha : st.events (resolve events x.1) with
    | none => rfl
    | some e'' => rw [put_mono hn e' f _ e'' ha] at hb; cases hb.2
  · refine ⟨e, by rw [he]; simp, ?_, ?_⟩
    · rw [hs.pos pre e post he, hn]
      cases h : refs e.2 with
      | nil => exact absurd h hr
      | cons a b => rfl
    · rw [hs.pos pre e post he]
      simp [St.put]

theorem partOfIf_false {a : Nat → Option Ev} (h : ∀ o, a o ≠ some .ifE) : ∀ x, partOfIf a x = false
  | 0 => rfl
  | x + 1 => by
    rw [partOfIf]
    split
    · rename_i e he
      have : e ≠ .ifE := fun h' => h x (by rw [he, h'])
      simp [this]
    · exact partOfIf_false h x

/-- Offsets of events. -/
def Event (events : List (Nat × Ev)) (o : Nat) : Prop := ∃ pre e post, events = pre ++ e :: post ∧ o = total pre

theorem Event.lt {events : List (Nat × Ev)} {data : Bytes} (hs : Saved events data) {o : Nat} (h : Event events o) :
    o < data.length := by
  obtain ⟨pre, e, post, he, rfl⟩ := h
  have := evBytes_pos id (hs.inr e (by rw [he]; simp))
  rw [hs.len, he, total_append, total_cons]; omega

theorem no_ifE {events : List (Nat × Ev)} {data : Bytes} (hs : Saved events data) (hst : Straight events)
    {a b : Nat → Option Ev} (ha : ∀ o, a o ≠ some .ifE) (g : Grew data (Bound events) a b) :
    ∀ o, b o ≠ some .ifE := by
  intro o hb
  cases hao : a o with
  | some e =>
    have := g.mono o e hao
    rw [hb] at this; cases this
    exact ha o hao
  | none =>
    obtain ⟨h1, h2, h3⟩ := (g.new o _ hb hao).1
    obtain ⟨pre, e, post, he, rfl⟩ := hs.at_bound h3 h1
    rw [hs.dec pre e post he] at h2
    have hk := (hst.kinds e (by rw [he]; simp)).2.2
    cases hee : e.2 <;> rw [hee] at h2 hk <;> cases h2
    exact hk rfl

theorem parseAt_succeeds {events : List (Nat × Ev)} {data : Bytes} (hs : Saved events data) (hst : Straight events) :
    ∀ {fuel depth off : Nat} {mine : List Nat} {st : St}, Dom st → Event events off →
    (∀ o ∈ mine, (st.events o).isSome) → (∀ o, st.fates o ≠ some .ret) → (∀ o, st.events o ≠ some .ifE) →
    unvisited data st.events < fuel → openRefs events st.events ≤ depth →
    ∃ r, parseAt data fuel depth off mine st = .ok r ∧ (r.1 = .eot ∨ r.1 = .loop) ∧
      ∀ o, r.2.fates o ≠ some .ret := by
  intro fuel
  induction fuel with
  | zero => intro _ _ _ _ _ _ _ _ _ h; omega
  | succ fuel ih =>
    intro depth off mine st hdom hoff hmine hret hif hfuel hdepth
    have hlt := hoff.lt hs
    have markRet : ∀ (s : St) (offs : List Nat) (f : Fate), (∀ o, s.fates o ≠ some .ret) → f ≠ .ret →
        ∀ o, (s.mark offs f).fates o ≠ some .ret := by
      intro s offs f h1 h2 o
      unfold St.mark
      dsimp only
      split
      · intro h; cases h; exact h2 rfl
      · exact h1 o
    have putRet : ∀ (s : St) (o' : Nat) (e : Ev) (f : Fate), (∀ o, s.fates o ≠ some .ret) → f ≠ .ret →
        ∀ o, (s.put o' e f).fates o ≠ some .ret := by
      intro s o' e f h1 h2 o
      unfold St.put
      dsimp only
      split
      · intro h; cases h; exact h2 rfl
      · exact h1 o
    rw [parseAt, if_neg (by omega)]
    cases hf : st.fates off with
    | some f =>
      dsimp only
      have hfr : f ≠ .ret := fun h => hret off (by rw [hf, h])
      refine ⟨_, rfl, ?_, markRet _ _ _ hret ?_⟩
      · cases f <;> simp_all
      · cases f <;> simp_all
    | none =>
    have hnone : st.events off = none := by
      have := hdom off
      rw [hf] at this
      cases he : st.events off with
      | none => rfl
      | some e => rw [he] at this; cases this
    obtain ⟨pre, e, post, he, rfl⟩ := hoff
    have hm : e ∈ events := by rw [he]; simp
    have hdec := hs.dec pre e post he
    have hlen : (mapRefs (resolve events) e.2).dataLength = .ok (declared e.2) := by
      have := dataLength_inRange (.inl (hs.inr e hm))
      rw [← this]
      cases e.2 <;> rfl
    dsimp only
    rw [asEof_eq_ok.2 hdec, bind_ok, asEof_eq_ok.2 hlen, bind_ok]
    have next : flows e.2 = true → Event events (total pre + declared e.2) := by
      intro hfl
      cases post with
      | nil => rw [hst.last pre e he] at hfl; cases hfl
      | cons b post =>
        refine ⟨pre ++ [e], b, post, by rw [he]; simp, ?_⟩
        rw [total_append, total_cons, total_nil]; omega
    have bnd : ∀ {o}, Event events o → Bound events o := fun ⟨p, x, q, h1, h2⟩ => ⟨p, x :: q, h1, h2⟩
    have hput := unvisited_put (d := data) hlt hnone (mapRefs (resolve events) e.2) .inProgress
    have hmine' : ∀ (b : Nat → Option Ev), (∀ o e', (st.put (total pre) (mapRefs (resolve events) e.2)
        .inProgress).events o = some e' → b o = some e') → ∀ o ∈ mine ++ [total pre], (b o).isSome := by
      intro b hb o ho
      rcases List.mem_append.1 ho with ho | ho
      · exact isSome_mono hb (isSome_mono (put_mono hnone _ _) (hmine o ho))
      · rw [List.mem_singleton.1 ho]
        exact isSome_mono hb (put_some _ _ _ _)
    have hnoif : ∀ o, (st.put (total pre) (mapRefs (resolve events) e.2) .inProgress).events o ≠ some .ifE := by
      intro o
      unfold St.put
      dsimp only
      split
      · have hk := (hst.kinds e hm).2.2
        intro h
        cases hee : e.2 <;> rw [hee] at h hk <;> cases h
        exact hk rfl
      · exact hif o
    have nested : ∀ dest depth', dest ∈ refs e.2 → depth = depth' + 1 →
        ∃ r, parseAt data fuel depth' (resolve events dest) []
          (st.put (total pre) (mapRefs (resolve events) e.2) .inProgress) = .ok r ∧
          (r.1 = .eot ∨ r.1 = .loop) ∧ (∀ o, r.2.fates o ≠ some .ret) ∧
          Grew data (Bound events) (st.put (total pre) (mapRefs (resolve events) e.2) .inProgress).events r.2.events ∧
          Dom r.2 ∧ (r.2.events (resolve events dest)).isSome := by
      intro dest depth' hd hdep
      obtain ⟨p, e', q, h1, h2⟩ := hs.ref e hm dest hd
      have hev : Event events (resolve events dest) := ⟨p, _, q, h1, h2⟩
      have hopen := openRefs_put hs he (by rintro h; rw [h] at hd; cases hd) hnone
        (mapRefs (resolve events) e.2) .inProgress
      obtain ⟨r, hr, hfate, hfr⟩ := ih (depth := depth') (mine := []) (hdom.put _ _ _) hev (by simp) (putRet _ _ _ _ hret (by simp)) hnoif
        (by omega) (by omega)
      obtain ⟨g1, d1, s1⟩ := parseAt_spec hs.closed (mine := []) (hdom.put _ _ _) (bnd hev) (by simp) hr
      exact ⟨r, hr, hfate, hfr, g1, d1, s1⟩
    have pos : ∀ dest, dest ∈ refs e.2 → 0 < depth := by
      intro dest hd
      have := openRefs_put hs he (by rintro h; rw [h] at hd; cases hd) hnone
        (mapRefs (resolve events) e.2) .inProgress
      omega
    cases hee : e.2 with
    | beginTrack t dest =>
      rw [hee] at nested pos next hput hmine' hnoif
      obtain ⟨depth', rfl⟩ : ∃ k, depth = k + 1 := ⟨depth - 1, by have := pos dest (by simp [refs]); omega⟩
      obtain ⟨r, hr, _, hfr, g1, d1, s1⟩ := nested dest depth' (by simp [refs]) rfl
      simp only [mapRefs] at hr ⊢
      rw [hr, bind_ok, needEvent_ok (u := ()) |>.2 s1, bind_ok]
      refine ih d1 (next rfl) (hmine' _ g1.mono) hfr (no_ifE hs hst hnoif g1) ?_ ?_
      · have := unvisited_le (d := data) g1.mono; omega
      · have h1 := openRefs_le (events := events) (put_mono hnone (.beginTrack t (resolve events dest)) .inProgress)
        have h2 := openRefs_le (events := events) g1.mono
        simp only [mapRefs] at h2
        omega
    | jump dest =>
      rw [hee] at nested pos next hput hmine' hnoif
      obtain ⟨depth', rfl⟩ : ∃ k, depth = k + 1 := ⟨depth - 1, by have := pos dest (by simp [refs]); omega⟩
      obtain ⟨r, hr, hfate, hfr, g1, d1, s1⟩ := nested dest depth' (by simp [refs]) rfl
      simp only [mapRefs] at hr ⊢
      rw [hr, bind_ok, needEvent_ok (u := ()) |>.2 s1, bind_ok, partOfIf_false (no_ifE hs hst hnoif g1)]
      refine ⟨_, rfl, hfate, markRet _ _ _ hfr ?_⟩
      rcases hfate with h | h <;> rw [h] <;> simp
    | call dest => exact absurd hee ((hst.kinds e hm).1 dest)
    | ret => exact absurd hee (hst.kinds e hm).2.1
    | ifE => exact absurd hee (hst.kinds e hm).2.2
    | endTrack =>
      exact ⟨_, rfl, .inl rfl, markRet _ _ _ (putRet _ _ _ _ hret (by simp)) (by simp)⟩
    | raw b =>
      have := hs.inr e hm
      rw [hee] at this
      exact this.elim
    | _ =>
      rw [hee] at next hput hmine' hnoif
      simp only [mapRefs] at hput hmine' hnoif ⊢
      refine ih (hdom.put _ _ _) (next rfl) (hmine' _ (fun _ _ h => h)) (putRet _ _ _ _ hret (by simp)) hnoif
        (by omega) ?_
      exact Nat.le_trans (openRefs_le (put_mono hnone _ _)) hdepth

theorem parseStarts_succeeds {events : List (Nat × Ev)} {data : Bytes} (hs : Saved events data)
    (hst : Straight events) {depth : Nat} :
    ∀ {ss : List Nat} {st : St}, Dom st → (∀ s ∈ ss, Event events s) → (∀ o, st.fates o ≠ some .ret) →
    (∀ o, st.events o ≠ some .ifE) → openRefs events st.events ≤ depth →
    ∃ r, parseStarts data depth ss st = .ok r
  | [], st, _, _, _, _, _ => ⟨st, rfl⟩
  | s :: ss, st, hd, hss, hret, hif, hdep => by
    obtain ⟨r, hr, hfate, hfr⟩ := parseAt_succeeds hs hst hd (hss s (by simp)) (mine := []) (by simp) hret hif
      (unvisited_bound data st.events) hdep
    obtain ⟨p, x, q, h1, h2⟩ := hss s (by simp)
    obtain ⟨g1, d1, s1⟩ := parseAt_spec hs.closed hd ⟨p, _, h1, h2⟩ (by simp) hr
    rw [parseStarts, hr, bind_ok, pyAssert_true hfate, bind_ok]
    exact parseStarts_succeeds hs hst d1 (fun y hy => hss y (by simp [hy])) hfr (no_ifE hs hst hif g1)
      (Nat.le_trans (openRefs_le g1.mono) hdep)

theorem reached_isSome {events : List (Nat × Ev)} {data : Bytes} (hs : Saved events data) {ev : Nat → Option Ev}
    (g : Grew data (Bound events) (fun _ => none) ev) {from' : List Nat}
    (hfrom : ∀ x ∈ from', (ev (resolve events x)).isSome) {x : Nat} (h : Reached events from' x) :
    (ev (resolve events x)).isSome := by
  have key : ∀ pre e post, events = pre ++ e :: post → (ev (total pre)).isSome →
      (∀ x ∈ refs e.2, (ev (resolve events x)).isSome) ∧
      (flows e.2 = true → (ev (total pre + declared e.2)).isSome) := by
    intro pre e post he hsome
    obtain ⟨e', he'⟩ := Option.isSome_iff_exists.1 hsome
    obtain ⟨⟨_, h2, _⟩, h3, h4⟩ := g.new _ _ he' rfl
    rw [hs.dec pre e post he] at h2
    cases h2
    rw [refs_mapRefs] at h3
    rw [flows_mapRefs, declared_mapRefs] at h4
    exact ⟨fun x hx => h3 _ (List.mem_map.2 ⟨x, hx, rfl⟩), h4⟩
  induction h with
  | start x hx => exact hfrom x hx
  | ref id x e _ hmem hx ih =>
    obtain ⟨pre, post, he⟩ := List.append_of_mem hmem
    rw [hs.pos pre _ post he] at ih
    exact (key pre _ post he ih).1 x hx
  | next pre post a b _ he hfl ih =>
    rw [hs.pos pre a (b :: post) he] at ih
    have := (key pre a (b :: post) he ih).2 hfl
    have he2 : events = (pre ++ [a]) ++ b :: post := by rw [he]; simp
    rw [hs.pos _ b post he2, total_append, total_cons, total_nil]
    exact this

theorem regroup_all {events : List (Nat × Ev)} {data : Bytes} (hs : Saved events data) {ev : Nat → Option Ev}
    (hall : ∀ pre e post, events = pre ++ e :: post → (ev (total pre)).isSome)
    (hev : ∀ o e, ev o = some e → decode data o = .ok e) :
    ∀ {l pre post : List (Nat × Ev)}, events = pre ++ post → Covers data ev l (total pre) →
    l = post.map fun e => (resolve events e.1, mapRefs (resolve events) e.2)
  | [], pre, post, he, h => by
    simp only [Covers] at h
    cases post with
    | nil => rfl
    | cons e post =>
      have := evBytes_pos id (hs.inr e (by rw [he]; simp))
      rw [hs.len, he, total_append, total_cons] at h
      omega
  | (o, e') :: l, pre, post, he, h => by
    obtain ⟨rfl, h1, h2, h3⟩ := h
    cases post with
    | nil =>
      rw [List.append_nil] at he
      rw [hs.len, he] at h1; omega
    | cons e post =>
      have hsome := hall pre e post he
      rcases h2 with h2 | ⟨j, hj1, hj2, hnone, _, _⟩
      · have hd := hev _ _ h2
        rw [hs.dec pre e post he] at hd
        cases hd
        rw [declared_mapRefs] at h3
        have ht : total pre + declared e.2 = total (pre ++ [e]) := by rw [total_append, total_cons, total_nil]; omega
        rw [ht] at h3
        rw [List.map_cons, ← regroup_all hs hall hev (by rw [he]; simp) h3, hs.pos pre e post he]
      · rw [hnone _ (Nat.le_refl _) hj1] at hsome
        cases hsome

theorem reread_complete {events : List (Nat × Ev)} {notable : List Nat} {data : Bytes} {noffs : List Nat}
    (hn : (events.map Prod.fst).Nodup) (hin : ∀ e ∈ events, InRange e.2)
    (hf : ∀ e ∈ events, isFromVariable e.2 = false) (hst : Straight events) (hne : events ≠ [])
    (h : saveSequenceEvents events notable = .ok (data, noffs))
    (hreach : ∀ e ∈ events, Reached events (startIds events notable) e.1)
    {depth : Nat} (hdepth : (events.filter fun e => !(refs e.2).isEmpty).length ≤ depth) :
    readSequenceEvents depth data noffs = .ok (renamed events, noffs) := by
  obtain ⟨hs, hno⟩ := saved hn hin hf h
  have hoffs := notable_offsets hno
  have hnn : notable = [] ↔ noffs = [] := by
    have := mapE_length hno
    rw [← List.length_eq_zero_iff, ← List.length_eq_zero_iff, this]
  have hse : ∀ s ∈ starts noffs, Event events s := by
    intro s hs'
    unfold starts at hs'
    split at hs'
    · rw [List.mem_singleton.1 hs']
      cases events with
      | nil => exact absurd rfl hne
      | cons e es => exact ⟨[], e, es, rfl, rfl⟩
    · have hm : some s ∈ noffs.map some := List.mem_map.2 ⟨s, hs', rfl⟩
      rw [← hoffs] at hm
      obtain ⟨x, hx, hx'⟩ := List.mem_map.1 hm
      obtain ⟨pre, e, post, h1, h2⟩ := position_inv hx'
      exact ⟨pre, _, post, h1, h2⟩
  have hopen : openRefs events (fun _ => none) ≤ depth := by
    refine Nat.le_trans ?_ hdepth
    rw [← List.countP_eq_length_filter]
    apply countP_le
    intro x _ hx
    rw [Bool.and_eq_true] at hx
    exact hx.1
  obtain ⟨st, hps⟩ := parseStarts_succeeds hs hst (depth := depth) (ss := starts noffs)
    (st := ⟨fun _ => none, fun _ => none⟩) (fun _ => rfl) hse (fun _ h => by cases h) (fun _ h => by cases h) hopen
  obtain ⟨g, _, hsome⟩ := parseStarts_spec hs.closed (fun _ => rfl) (starts_bound hno) hps
  obtain ⟨l, hl, hc⟩ := gather_spec (d := data) (events := st.events)
    (fun o e he => (decode_inv (g.new o e he rfl).1.2.1).1) data.length 0 (by omega)
  have hnotable : mapE (needEvent st) noffs = .ok (noffs.map fun _ => ()) := by
    apply mapE_ok_of_forall
    intro x hx
    rw [needEvent_ok]
    apply hsome
    unfold starts
    rw [if_neg]
    · exact hx
    · rintro rfl; cases hx
  have hfrom : ∀ x ∈ startIds events notable, (st.events (resolve events x)).isSome := by
    intro x hx
    unfold startIds at hx
    split at hx
    · rename_i hnil
      apply hsome
      unfold starts
      rw [if_pos (hnn.1 hnil)]
      cases events with
      | nil => cases hx
      | cons e es =>
        simp only [List.map_cons, List.take_succ_cons, List.take_zero, List.mem_singleton] at hx
        rw [hx, hs.pos [] e es rfl]; simp [total]
    · rename_i hnil
      have hm := List.mem_map_of_mem (f := position events) hx
      rw [hoffs] at hm
      obtain ⟨o, ho, ho'⟩ := List.mem_map.1 hm
      apply hsome
      unfold starts
      rw [if_neg (fun h => hnil (hnn.2 h)), resolve, ← ho']
      exact ho
  have hlr : l = renamed events := regroup_all hs (fun pre e post he => by
    have := reached_isSome hs g hfrom (hreach e (by rw [he]; simp))
    rwa [hs.pos pre e post he] at this) (fun o e he => (g.new o e he rfl).1.2.1) (pre := []) (post := events) rfl hc
  unfold readSequenceEvents
  unfold starts at hps
  rw [hps, bind_ok, hl, bind_ok, hnotable, bind_ok, hlr]
  rfl

end Verif.Proofs.SeqReread
