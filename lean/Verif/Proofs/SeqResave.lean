import Verif.Proofs.SeqRead

/-!
# Saving what was read, and reading what was saved
-/

namespace Verif.Proofs.SeqResave

open Verif Verif.Model.SoundSequence Verif.Proofs.SeqVar Verif.Proofs.SeqEvent Verif.Proofs.SeqSave
open Verif.Proofs.SeqDecode Verif.Proofs.SeqRead Verif.Spec.Sequence

/-! ## What a successful read means -/

/-- The offsets at which parsing starts. -/
def starts (notable : List Nat) : List Nat := if notable = [] then [0] else notable

theorem read_ok {d : Bytes} {P : Nat → Prop}
    (hP : ∀ o e, P o → o < d.length → decode d o = .ok e → (∀ x ∈ refs e, P x) ∧ P (o + declared e))
    {depth : Nat} {notable : List Nat} {l : List (Nat × Ev)} {n : List Nat} (hs : ∀ s ∈ starts notable, P s)
    (h : readSequenceEvents depth d notable = .ok (l, n)) :
    n = notable ∧ ∃ ev : Nat → Option Ev, Grew d P (fun _ => none) ev ∧ (∀ s ∈ starts notable, (ev s).isSome) ∧
      Covers d ev l 0 := by
  unfold readSequenceEvents at h
  simp only [bind_eq_ok, pure_eq_ok, Prod.mk.injEq] at h
  obtain ⟨st, h1, l', h2, _, _, rfl, rfl⟩ := h
  obtain ⟨g, _, s⟩ := parseStarts_spec hP (fun _ => rfl) hs h1
  refine ⟨rfl, st.events, g, s, ?_⟩
  obtain ⟨l, hl, hc⟩ := gather_spec (d := d) (events := st.events)
    (fun o e he => (decode_inv (g.new o e he rfl).1.2.1).1) d.length 0 (by omega)
  rw [hl] at h2
  cases h2
  exact hc

theorem read_errs (depth : Nat) (d : Bytes) (notable : List Nat) :
    Errs (fun e => ReadErr e ∨ e = .assertionError) (readSequenceEvents depth d notable) := by
  unfold readSequenceEvents
  refine (parseStarts_errs (fun _ => rfl)).bind fun st hst => ?_
  obtain ⟨g, _, s⟩ := parseStarts_spec (P := fun _ => True) (fun _ _ _ _ _ => ⟨fun _ _ => trivial, trivial⟩)
    (fun _ => rfl) (fun _ _ => trivial) hst
  obtain ⟨l, hl, hc⟩ := gather_spec (d := d) (events := st.events)
    (fun o e he => (decode_inv (g.new o e he rfl).1.2.1).1) d.length 0 (by omega)
  rw [hl, bind_ok]
  refine Errs.bind ?_ fun _ _ => Errs.ok _
  have : mapE (needEvent st) notable = .ok (notable.map fun _ => ()) := by
    apply mapE_ok_of_forall
    intro x hx
    rw [needEvent_ok]
    apply s
    rw [if_neg]
    · exact hx
    · rintro rfl; cases hx
  rw [this]; exact Errs.ok _

/-! ## Lists that cover the data -/

/-- A listed entry. -/
theorem covers_mem {d : Bytes} {ev : Nat → Option Ev} : ∀ {l : List (Nat × Ev)} {i : Nat}, Covers d ev l i →
    ∀ x ∈ l, i ≤ x.1 ∧ x.1 < d.length ∧ (ev x.1 = some x.2 ∨ ∃ j, x.1 < j ∧ j ≤ d.length ∧
      (∀ k, x.1 ≤ k → k < j → ev k = none) ∧ (j < d.length → (ev j).isSome) ∧ x.2 = .raw (slice d x.1 j))
  | [], _, _, x, hx => by cases hx
  | (o, e) :: l, i, h, x, hx => by
    obtain ⟨rfl, h1, h2, h3⟩ := h
    rcases List.mem_cons.1 hx with rfl | hx
    · exact ⟨Nat.le_refl _, h1, h2⟩
    · obtain ⟨k1, k2, k3⟩ := covers_mem h3 x hx
      exact ⟨by omega, k2, k3⟩

theorem covers_split {d : Bytes} {ev : Nat → Option Ev} : ∀ {pre post : List (Nat × Ev)} {x : Nat × Ev} {i : Nat},
    Covers d ev (pre ++ x :: post) i → x.1 = i + total pre
  | [], post, (o, e), i, h => by rw [total_nil]; exact h.1
  | (o, e) :: pre, post, x, i, h => by
    rw [covers_split h.2.2.2, total_cons]; dsimp only; omega

/-- Entries declare at least one byte when the events are in range. -/
theorem covers_pos {d : Bytes} {ev : Nat → Option Ev} {l : List (Nat × Ev)} {i : Nat} (h : Covers d ev l i)
    (hin : ∀ o e, ev o = some e → InRange e) : ∀ x ∈ l, 0 < declared x.2 := by
  intro x hx
  obtain ⟨_, _, h2⟩ := covers_mem h x hx
  rcases h2 with h2 | ⟨j, h3, h4, _, _, h5⟩
  · exact evBytes_pos id (hin _ _ h2)
  · rw [h5, declared_raw, slice_length_of_le h4]; omega

theorem covers_nodup {d : Bytes} {ev : Nat → Option Ev} (hin : ∀ o e, ev o = some e → InRange e) :
    ∀ {l : List (Nat × Ev)} {i : Nat}, Covers d ev l i → (l.map Prod.fst).Nodup
  | [], _, _ => List.nodup_nil
  | (o, e) :: l, i, h => by
    have hpos := covers_pos h hin (o, e) (by simp)
    obtain ⟨rfl, h1, h2, h3⟩ := h
    rw [List.map_cons, List.nodup_cons]
    refine ⟨?_, covers_nodup hin h3⟩
    intro hm
    obtain ⟨x, hx, hxo⟩ := List.mem_map.1 hm
    have := (covers_mem h3 x hx).1
    dsimp only at hpos hxo
    omega

theorem covers_position {d : Bytes} {ev : Nat → Option Ev} (hin : ∀ o e, ev o = some e → InRange e)
    {l : List (Nat × Ev)} (h : Covers d ev l 0) {o : Nat} (ho : o ∈ l.map Prod.fst) : position l o = some o := by
  have hnd := covers_nodup hin h
  obtain ⟨x, hx, rfl⟩ := List.mem_map.1 ho
  obtain ⟨pre, post, rfl⟩ := List.append_of_mem hx
  rw [position_split hnd]
  have := covers_split h
  congr 1; omega

theorem covers_total {d : Bytes} {ev : Nat → Option Ev} : ∀ {l : List (Nat × Ev)} {i : Nat}, Covers d ev l i →
    d.length ≤ i + total l
  | [], i, h => by rw [total_nil]; exact h
  | (o, e) :: l, i, h => by
    have := covers_total h.2.2.2
    rw [total_cons]; dsimp only; omega

theorem covers_cut {d : Bytes} {ev : Nat → Option Ev} : ∀ {l : List (Nat × Ev)} {i : Nat}, Covers d ev l i →
    (∀ x ∈ l, At d x.1 ((evBytes id x.2).take (declared x.2)) ∧ declared x.2 ≤ (evBytes id x.2).length) →
    cut id l = d.drop i
  | [], i, h, _ => by
    simp only [Covers] at h
    rw [List.drop_eq_nil_of_le h]; rfl
  | (o, e) :: l, i, h, hat => by
    obtain ⟨rfl, h1, h2, h3⟩ := h
    obtain ⟨ha, hl⟩ := hat (o, e) (by simp)
    rw [cut_cons, covers_cut h3 (fun x hx => hat x (by simp [hx]))]
    have hs := ha.slice_eq (b := o + declared e) (by rw [List.length_take]; dsimp only at hl ⊢; omega)
    simp only at hs ⊢
    rw [← hs, slice, ← List.drop_drop, Nat.add_sub_cancel_left, List.take_append_drop]

/-! ## Saving what was read -/

theorem evBytes_congr {g h : Nat → Nat} {e : Ev} (hg : ∀ x ∈ refs e, g x = h x) : evBytes g e = evBytes h e := by
  cases e <;> first
    | rfl
    | (simp only [evBytes, refs, List.mem_singleton, forall_eq] at hg ⊢; rw [hg])

theorem written_eq (g : Nat → Nat) {e : Ev} (h : InRange e ∨ ∃ b, e = .raw b) : (evBytes g e).length = written e := by
  by_cases hf : isFromVariable e = false
  · rw [declared_eq g h hf]
    cases e <;> first | rfl | (simp [isFromVariable] at hf)
  · cases e with
    | fromVariable s v u =>
      rw [written]
      split
      · rename_i hs; exact ((fromVariable_length g s v u).1 hs).2
      · rename_i hs; exact ((fromVariable_length g s v u).2 hs).2
    | _ => exact absurd rfl hf

theorem declared_le_written {e : Ev} (h : InRange e ∨ ∃ b, e = .raw b) : declared e ≤ written e := by
  rw [← written_eq id h]; exact declared_le id h

theorem decode_refs_lt {d : Bytes} {o : Nat} {e : Ev} (h : decode d o = .ok e) : ∀ x ∈ refs e, x < 2 ^ 24 := by
  have key : ∀ i, leVal (slice d i (i + 3)) < 2 ^ 24 := by
    intro i
    have h1 := leVal_lt (slice d i (i + 3))
    have h2 : (slice d i (i + 3)).length ≤ 3 := by rw [slice_length]; omega
    have h3 : 256 ^ (slice d i (i + 3)).length ≤ 256 ^ 3 := Nat.pow_le_pow_right (by decide) h2
    have : (256 : Nat) ^ 3 = 2 ^ 24 := by decide
    omega
  unfold decode at h
  simp only [bind_eq_ok] at h
  obtain ⟨t, ht, h⟩ := h
  split at h
  · simp only [bind_eq_ok, pure_eq_ok] at h
    obtain ⟨_, _, rfl⟩ := h
    simpa [refs] using key (o + 2)
  split at h
  · cases h; simpa [refs] using key (o + 1)
  split at h
  · cases h; simpa [refs] using key (o + 1)
  split at h
  · unfold noteFromData noteInit at h
    simp only [bind_eq_ok, pure_eq_ok] at h
    obtain ⟨_, _, _, _, rfl⟩ := h
    simp [refs]
  split at h
  · cases h
  rename_i c _
  cases c with
  | fromVariable =>
    simp only [fromData, fromVariableFromData, bind_eq_ok] at h
    obtain ⟨s, hs, h⟩ := h
    split at h
    · simp only [bind_eq_ok, pure_eq_ok] at h
      obtain ⟨_, _, _, _, rfl⟩ := h
      simp [refs]
    · simp only [bind_eq_ok, pure_eq_ok] at h
      obtain ⟨_, _, rfl⟩ := h
      simp [refs]
  | _ =>
    simp only [fromData, randomFromData, bind_eq_ok, pure_eq_ok] at h
    first
      | (cases h <;> simp [refs]; done)
      | (obtain ⟨_, _, rfl⟩ := h; simp [refs]; done)
      | (obtain ⟨_, _, _, _, rfl⟩ := h; simp [refs]; done)
      | (obtain ⟨_, _, _, _, _, _, _, _, _, _, rfl⟩ := h; simp [refs]; done)

theorem writeEvents_length {offs : Nat → Option Nat} : ∀ {es : List (Nat × Ev)} {off : Nat} {data r : Bytes},
    (∀ pre e post, es = pre ++ e :: post →
      off + total pre + (evBytes (fun r => (offs r).getD 0) e.2).length ≤ data.length) →
    writeEvents offs (layout es off) data = .ok r → r.length = data.length
  | [], off, data, r, _, h => by cases h; rfl
  | e :: es, off, data, r, hb, h => by
    rw [layout, writeEvents] at h
    simp only [bind_eq_ok] at h
    obtain ⟨b, hs, h⟩ := h
    obtain ⟨_, _, rfl⟩ := save_eq_ok.1 hs
    have h0 := hb [] e es rfl
    rw [total_nil] at h0
    have hl : (patch data off (evBytes (fun r => (offs r).getD 0) e.2)).length = data.length := by
      rw [Proofs.SeqSave.patch_length _ _ (by omega)]; omega
    rw [← hl]
    refine writeEvents_length ?_ h
    rintro pre x post rfl
    have := hb (e :: pre) x post rfl
    rw [total_cons] at this
    rw [hl]; omega

theorem save_length {events : List (Nat × Ev)} {notable : List Nat} {data : Bytes} {noffs : List Nat}
    (hn : (events.map Prod.fst).Nodup)
    (hb : ∀ pre e post, events = pre ++ e :: post →
      total pre + (evBytes (resolve events) e.2).length ≤ total events)
    (h : saveSequenceEvents events notable = .ok (data, noffs)) : data.length = total events := by
  unfold saveSequenceEvents at h
  simp only [bind_eq_ok, pure_eq_ok, Prod.mk.injEq] at h
  obtain ⟨r, hp, data', hw, noffs', hno, rfl, rfl⟩ := h
  obtain ⟨h1, rfl⟩ := placeEvents_ok (by simpa using hn) hp
  simp only [List.nil_append, Nat.zero_add] at hw hno
  rw [layout_zero] at hw
  rw [writeEvents_length (offs := position events) ?_ hw]
  · simp [zeros]
  · intro pre e post he
    have := hb pre e post he
    simp only [zeros_length, Nat.zero_add]
    exact this

theorem resave {d : Bytes} {depth : Nat} {notable : List Nat} {l : List (Nat × Ev)} {n : List Nat}
    (h : readSequenceEvents depth d notable = .ok (l, n))
    (hshort : ∀ x ∈ l, Shortest d x.1 x.2) (hend : ∀ x ∈ l, x.1 + written x.2 ≤ d.length)
    (hrefs : ∀ x ∈ l, ∀ y ∈ refs x.2, y ∈ l.map Prod.fst) (hno : ∀ y ∈ notable, y ∈ l.map Prod.fst) :
    saveSequenceEvents l n = .ok (d, notable) := by
  obtain ⟨rfl, ev, g, s, hc⟩ := read_ok (P := fun _ => True) (fun _ _ _ _ _ => ⟨fun _ _ => trivial, trivial⟩)
    (fun _ _ => trivial) h
  have hdec : ∀ o e, ev o = some e → decode d o = .ok e := fun o e he => (g.new o e he rfl).1.2.1
  have hin : ∀ o e, ev o = some e → InRange e := fun o e he => (decode_inv (hdec o e he)).1
  have hkind : ∀ x ∈ l, InRange x.2 ∨ ∃ b, x.2 = .raw b := by
    intro x hx
    rcases (covers_mem hc x hx).2.2 with h' | ⟨j, _, _, _, _, h'⟩
    · exact .inl (hin _ _ h')
    · exact .inr ⟨_, h'⟩
  have hnd := covers_nodup hin hc
  have hpos : ∀ o ∈ l.map Prod.fst, position l o = some o := fun o ho => covers_position hin hc ho
  have hres : ∀ x ∈ l, evBytes (resolve l) x.2 = evBytes id x.2 := by
    intro x hx
    apply evBytes_congr
    intro y hy
    rw [resolve, hpos y (hrefs x hx y hy)]; rfl
  have hlt : ∀ x ∈ l, ∀ y ∈ refs x.2, y < 2 ^ 24 := by
    intro x hx y hy
    rcases (covers_mem hc x hx).2.2 with h' | ⟨j, _, _, _, _, h'⟩
    · exact decode_refs_lt (hdec _ _ h') y hy
    · rw [h'] at hy; cases hy
  have hn : mapE (offsetOf (position l)) n = .ok n := by
    have := mapE_ok_of_forall (f := offsetOf (position l)) (g := id) (as := n) (fun y hy => by
      rw [offsetOf, hpos y (hno y hy)]; rfl)
    rwa [List.map_id] at this
  obtain ⟨data, hdata⟩ := save_mk hnd (fun x hx => dataLength_inRange (hkind x hx)) (fun x hx => ⟨by
    rcases hkind x hx with h' | ⟨b, h'⟩
    · exact saves_of_inRange h'
    · rw [h']; trivial, fun y hy => ⟨y, hpos y (hrefs x hx y hy), hlt x hx y hy⟩⟩) hn
  rw [hdata]
  have hle : ∀ x ∈ l, x.1 + declared x.2 ≤ d.length := fun x hx => by
    have := declared_le_written (hkind x hx)
    have := hend x hx
    omega
  have htot : total l = d.length := by
    have h1 := covers_total hc
    rcases List.eq_nil_or_concat l with h' | ⟨pre, x, h'⟩
    · rw [h', total_nil] at h1 ⊢; omega
    · have h2 := hle x (by rw [h']; simp)
      have h3 : x.1 = 0 + total pre := covers_split (post := []) (by rw [← List.concat_eq_append, ← h']; exact hc)
      rw [h', List.concat_eq_append, total_append, total_cons, total_nil] at h1 ⊢
      omega
  have hlen : data.length = total l := by
    refine save_length hnd ?_ hdata
    intro pre x post he
    have hx : x ∈ l := by rw [he]; simp
    have h3 : x.1 = 0 + total pre := covers_split (by rw [← he]; exact hc)
    rw [written_eq _ (hkind x hx), htot]
    have := hend x hx
    omega
  obtain ⟨_, _, h3, _, _, _⟩ := save_ok hnd (fun x hx => declared_le _ (hkind x hx)) hdata
  rw [List.take_of_length_le (by omega)] at h3
  have hcut : cut (resolve l) l = cut id l := by
    unfold cut
    congr 1
    apply List.map_congr_left
    intro x hx
    rw [hres x hx]
  have : cut id l = d.drop 0 := by
    refine covers_cut hc fun x hx => ⟨?_, declared_le _ (hkind x hx)⟩
    rcases (covers_mem hc x hx).2.2 with h' | ⟨j, h1, h2, _, _, h'⟩
    · exact (decode_inv (hdec _ _ h')).2 (hshort x hx) (hle x hx)
    · rw [h', evBytes, declared_raw, List.take_of_length_le (Nat.le_refl _)]
      exact At.of_slice h2 (by omega) rfl
  rw [h3, hcut, this]; rfl

end Verif.Proofs.SeqResave
