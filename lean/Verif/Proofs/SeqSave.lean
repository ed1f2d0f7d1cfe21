import Verif.Proofs.SeqEvent

/-!
# `saveSequenceEvents`: where events are written
-/

namespace Verif.Proofs.SeqSave

open Verif Verif.Model.SoundSequence Verif.Proofs.SeqVar Verif.Proofs.SeqEvent Verif.Spec.Sequence

theorem total_cons (e : Nat × Ev) (es : List (Nat × Ev)) : total (e :: es) = declared e.2 + total es := rfl

theorem total_nil : total [] = 0 := rfl

theorem total_append (a b : List (Nat × Ev)) : total (a ++ b) = total a + total b := by
  simp [total]

/-- The dictionary of offsets for distinct events. -/
def layout : List (Nat × Ev) → Nat → List (Nat × Nat × Ev)
  | [], _ => []
  | e :: es, off => (e.1, off, e.2) :: layout es (off + declared e.2)

theorem declared_of {e : Ev} {n : Nat} (h : e.dataLength = .ok n) : declared e = n := by
  unfold declared; rw [h]

theorem layout_fst : ∀ (es : List (Nat × Ev)) (off : Nat), (layout es off).map Prod.fst = es.map Prod.fst
  | [], _ => rfl
  | e :: es, off => by rw [layout, List.map_cons, layout_fst]; rfl

theorem placeEvents_ok : ∀ {es : List (Nat × Ev)} {dict : List (Nat × Nat × Ev)} {off : Nat}
    {r : List (Nat × Nat × Ev) × Nat},
    ((dict.map Prod.fst) ++ (es.map Prod.fst)).Nodup → placeEvents es dict off = .ok r →
    (∀ e ∈ es, e.2.dataLength = .ok (declared e.2)) ∧ r = (dict ++ layout es off, off + total es)
  | [], dict, off, r, _, h => by
    cases h
    refine ⟨by simp, ?_⟩
    simp [layout, total]
  | e :: es, dict, off, r, hn, h => by
    rw [placeEvents] at h
    simp only [bind_eq_ok] at h
    obtain ⟨n, hl, h⟩ := h
    have hnew : e.1 ∉ dict.map Prod.fst := by
      intro hm
      rw [List.map_cons, List.nodup_append] at hn
      exact hn.2.2 _ hm _ (by simp) rfl
    rw [dictSet_new hnew] at h
    have hd := declared_of hl
    have := placeEvents_ok (by
      rw [List.map_append, List.append_assoc]
      exact hn) h
    obtain ⟨h1, rfl⟩ := this
    refine ⟨?_, ?_⟩
    · intro x hx
      rcases List.mem_cons.1 hx with rfl | hx
      · rw [hl, hd]
      · exact h1 x hx
    · rw [layout, total_cons, hd]
      simp; omega

theorem placeEvents_mk : ∀ {es : List (Nat × Ev)} {dict : List (Nat × Nat × Ev)} {off : Nat},
    ((dict.map Prod.fst) ++ (es.map Prod.fst)).Nodup → (∀ e ∈ es, e.2.dataLength = .ok (declared e.2)) →
    placeEvents es dict off = .ok (dict ++ layout es off, off + total es)
  | [], dict, off, _, _ => by simp [placeEvents, layout, total]
  | e :: es, dict, off, hn, h => by
    have hnew : e.1 ∉ dict.map Prod.fst := by
      intro hm
      rw [List.map_cons, List.nodup_append] at hn
      exact hn.2.2 _ hm _ (by simp) rfl
    rw [placeEvents, h e (by simp), bind_ok, dictSet_new hnew, placeEvents_mk (by
      rw [List.map_append, List.append_assoc]
      exact hn) (fun x hx => h x (by simp [hx])), layout, total_cons]
    simp; omega

theorem layout_lookup : ∀ (es : List (Nat × Ev)) (off id : Nat),
    ((layout es off).lookup id).map Prod.fst = (position es id).map (off + ·)
  | [], _, _ => rfl
  | e :: es, off, id => by
    rw [layout, List.lookup_cons, position]
    by_cases h : e.1 = id
    · simp [h]
    · have : (id == e.1) = false := beq_false_of_ne (fun h' => h h'.symm)
      rw [this, if_neg h]
      simp only [Option.map_map]
      rw [layout_lookup es]
      cases position es id with
      | none => rfl
      | some p => simp [Nat.add_assoc]

theorem layout_zero (es : List (Nat × Ev)) : (fun id => ((layout es 0).lookup id).map Prod.fst) = position es := by
  funext id
  rw [layout_lookup]
  cases position es id <;> simp

/-- The bytes the events are saved to, cut to their declared lengths. -/
def cut (g : Nat → Nat) (es : List (Nat × Ev)) : Bytes :=
  (es.map fun e => (evBytes g e.2).take (declared e.2)).flatten

theorem cut_cons (g : Nat → Nat) (e : Nat × Ev) (es : List (Nat × Ev)) :
    cut g (e :: es) = (evBytes g e.2).take (declared e.2) ++ cut g es := rfl

theorem cut_append (g : Nat → Nat) (a b : List (Nat × Ev)) : cut g (a ++ b) = cut g a ++ cut g b := by
  simp [cut]

theorem cut_length (g : Nat → Nat) : ∀ (es : List (Nat × Ev)), (∀ e ∈ es, declared e.2 ≤ (evBytes g e.2).length) →
    (cut g es).length = total es
  | [], _ => rfl
  | e :: es, h => by
    rw [cut_cons, List.length_append, List.length_take, cut_length g es (fun x hx => h x (by simp [hx])), total_cons]
    have := h e (by simp)
    omega

theorem patch_take {d b : Bytes} {o n : Nat} (ho : o ≤ d.length) (hn : n ≤ b.length) :
    (patch d o b).take (o + n) = d.take o ++ b.take n := by
  unfold patch
  rw [List.take_append_of_le_length (by simp; omega), List.take_append]
  simp only [List.length_take, Nat.min_eq_left ho, Nat.add_sub_cancel_left, List.take_take]
  rw [Nat.min_eq_right (by omega)]

theorem patch_length (d b : Bytes) {o : Nat} (ho : o ≤ d.length) :
    (patch d o b).length = max d.length (o + b.length) := by
  unfold patch
  simp only [List.length_append, List.length_take, List.length_drop]
  omega

theorem writeEvents_ok {offs : Nat → Option Nat} : ∀ {es : List (Nat × Ev)} {off : Nat} {data r : Bytes},
    (∀ e ∈ es, declared e.2 ≤ (evBytes (fun r => (offs r).getD 0) e.2).length) → off + total es ≤ data.length →
    writeEvents offs (layout es off) data = .ok r →
    (∀ e ∈ es, Saves e.2 ∧ ∀ x ∈ refs e.2, ∃ o, offs x = some o ∧ o < 2 ^ 24) ∧
    r.take (off + total es) = data.take off ++ cut (fun r => (offs r).getD 0) es ∧ off + total es ≤ r.length ∧
    ((∀ e ∈ es, (evBytes (fun r => (offs r).getD 0) e.2).length = declared e.2) → r.length = data.length)
  | [], off, data, r, _, hl, h => by
    cases h
    simp only [total_nil, Nat.add_zero] at hl
    refine ⟨by simp, ?_, hl, fun _ => rfl⟩
    simp [cut, total]
  | e :: es, off, data, r, hd, hl, h => by
    rw [layout, writeEvents] at h
    simp only [bind_eq_ok, save_eq_ok] at h
    obtain ⟨b, ⟨hs, hr, rfl⟩, h⟩ := h
    have he := hd e (by simp)
    have ho : off ≤ data.length := by omega
    rw [total_cons] at hl ⊢
    have ih := writeEvents_ok (fun x hx => hd x (by simp [hx]))
      (by rw [patch_length _ _ ho]; omega) h
    obtain ⟨i1, i2, i3, i4⟩ := ih
    refine ⟨?_, ?_, by omega, ?_⟩
    · intro x hx
      rcases List.mem_cons.1 hx with rfl | hx
      · exact ⟨hs, hr⟩
      · exact i1 x hx
    · rw [← Nat.add_assoc, i2, patch_take ho he, cut_cons, List.append_assoc]
    · intro hall
      rw [i4 (fun x hx => hall x (by simp [hx])), patch_length _ _ ho]
      have := hall e (by simp)
      omega

theorem writeEvents_mk {offs : Nat → Option Nat} : ∀ {es : List (Nat × Ev)} {off : Nat} {data : Bytes},
    (∀ e ∈ es, Saves e.2 ∧ ∀ x ∈ refs e.2, ∃ o, offs x = some o ∧ o < 2 ^ 24) →
    ∃ r, writeEvents offs (layout es off) data = .ok r
  | [], off, data, _ => ⟨data, rfl⟩
  | e :: es, off, data, h => by
    rw [layout, writeEvents]
    obtain ⟨h1, h2⟩ := h e (by simp)
    have := save_eq_ok.2 ⟨h1, h2, rfl⟩
    dsimp only
    rw [this, bind_ok]
    exact writeEvents_mk (fun x hx => h x (by simp [hx]))

/-- How an event is resolved once events have been placed. -/
def resolve (events : List (Nat × Ev)) (id : Nat) : Nat := (position events id).getD 0

/-- Saving distinct events, none of which saves to fewer bytes than it declares. -/
theorem save_ok {events : List (Nat × Ev)} {notable : List Nat} {data : Bytes} {noffs : List Nat}
    (hn : (events.map Prod.fst).Nodup)
    (hd : ∀ e ∈ events, declared e.2 ≤ (evBytes (resolve events) e.2).length)
    (h : saveSequenceEvents events notable = .ok (data, noffs)) :
    (∀ e ∈ events, e.2.dataLength = .ok (declared e.2)) ∧
    (∀ e ∈ events, Saves e.2 ∧ ∀ x ∈ refs e.2, ∃ o, position events x = some o ∧ o < 2 ^ 24) ∧
    data.take (total events) = cut (resolve events) events ∧ total events ≤ data.length ∧
    ((∀ e ∈ events, (evBytes (resolve events) e.2).length = declared e.2) →
      data = cut (resolve events) events) ∧
    mapE (offsetOf (position events)) notable = .ok noffs := by
  unfold saveSequenceEvents at h
  simp only [bind_eq_ok, pure_eq_ok, Prod.mk.injEq] at h
  obtain ⟨r, hp, data', hw, noffs', hno, rfl, rfl⟩ := h
  obtain ⟨h1, rfl⟩ := placeEvents_ok (by simpa using hn) hp
  simp only [List.nil_append, Nat.zero_add] at hw hno
  rw [layout_zero] at hw hno
  obtain ⟨w1, w2, w3, w4⟩ := writeEvents_ok (offs := position events) hd (by simp [zeros]) hw
  simp only [Nat.zero_add, List.take_zero, List.nil_append] at w2 w3 w4
  refine ⟨h1, w1, w2, w3, ?_, hno⟩
  intro hall
  have := w4 hall
  have e : data'.take (total events) = data' := List.take_of_length_le (by rw [this]; simp [zeros])
  rw [← e]; exact w2

theorem save_mk {events : List (Nat × Ev)} {notable : List Nat} (hn : (events.map Prod.fst).Nodup)
    (h1 : ∀ e ∈ events, e.2.dataLength = .ok (declared e.2))
    (h2 : ∀ e ∈ events, Saves e.2 ∧ ∀ x ∈ refs e.2, ∃ o, position events x = some o ∧ o < 2 ^ 24)
    {noffs : List Nat} (h3 : mapE (offsetOf (position events)) notable = .ok noffs) :
    ∃ data, saveSequenceEvents events notable = .ok (data, noffs) := by
  unfold saveSequenceEvents
  rw [placeEvents_mk (by simpa using hn) h1, bind_ok]
  simp only [List.nil_append, Nat.zero_add]
  rw [layout_zero]
  obtain ⟨r, hr⟩ := writeEvents_mk (offs := position events) (off := 0) (data := zeros (total events)) h2
  rw [hr, bind_ok, h3, bind_ok]
  exact ⟨r, rfl⟩

/-- In-range events and raw data never save to fewer bytes than they declare. -/
theorem declared_le (g : Nat → Nat) {e : Ev} (h : InRange e ∨ ∃ b, e = .raw b) :
    declared e ≤ (evBytes g e).length := by
  rcases h with h | ⟨b, rfl⟩
  · by_cases hf : isFromVariable e = false
    · rw [declared_of (dataLength_eq g h hf)]; exact Nat.le_refl _
    · cases e with
      | fromVariable s v u =>
        by_cases hs : 0xB0 ≤ s ∧ s ≤ 0xBD
        · obtain ⟨h1, h2⟩ := (fromVariable_length g s v u).1 hs
          rw [declared_of h1, h2]; omega
        · obtain ⟨h1, h2⟩ := (fromVariable_length g s v u).2 hs
          rw [declared_of h1, h2]; omega
      | _ => exact absurd rfl hf
  · exact Nat.le_refl _

theorem declared_eq (g : Nat → Nat) {e : Ev} (h : InRange e ∨ ∃ b, e = .raw b) (hf : isFromVariable e = false) :
    (evBytes g e).length = declared e := by
  rcases h with h | ⟨b, rfl⟩
  · rw [declared_of (dataLength_eq g h hf)]
  · rfl

theorem dataLength_inRange {e : Ev} (h : InRange e ∨ ∃ b, e = .raw b) : e.dataLength = .ok (declared e) := by
  rcases h with h | ⟨b, rfl⟩
  · by_cases hf : isFromVariable e = false
    · have := dataLength_eq id h hf
      rw [this, declared_of this]
    · cases e with
      | fromVariable s v u => rfl
      | _ => exact absurd rfl hf
  · rfl

theorem evBytes_pos (g : Nat → Nat) {e : Ev} (h : InRange e) : 0 < declared e := by
  cases e with
  | note p v f dur =>
    rw [declared_of (dataLength_eq g h rfl)]; simp [evBytes]; omega
  | rest dur => rw [declared_of (dataLength_eq g h rfl)]; simp [evBytes]
  | instrumentSwitch b i => rw [declared_of (dataLength_eq g h rfl)]; simp [evBytes]
  | random s args lo hi => rw [declared_of (dataLength_eq g h rfl)]; simp [evBytes]
  | fromVariable s v u =>
    simp only [declared, Ev.dataLength]; split <;> omega
  | raw b => exact h.elim
  | _ => simp [declared, Ev.dataLength]

/-- The event at a given place. -/
theorem cut_at (g : Nat → Nat) {pre post : List (Nat × Ev)} {e : Nat × Ev}
    (hd : ∀ x ∈ pre, declared x.2 ≤ (evBytes g x.2).length) :
    At (cut g (pre ++ e :: post)) (total pre) ((evBytes g e.2).take (declared e.2)) := by
  rw [cut_append, cut_cons, ← List.append_assoc]
  exact At.mk' (cut_length g pre hd)

theorem At.of_take {d s : Bytes} {o n : Nat} (h : At (d.take n) o s) : At d o s := by
  have := h.append_right (d.drop n)
  rwa [List.take_append_drop] at this

theorem position_split {pre post : List (Nat × Ev)} {e : Nat × Ev}
    (hn : ((pre ++ e :: post).map Prod.fst).Nodup) : position (pre ++ e :: post) e.1 = some (total pre) := by
  induction pre with
  | nil => simp [position, total]
  | cons x pre ih =>
    simp only [List.cons_append, List.map_cons, List.nodup_cons] at hn
    have hne : x.1 ≠ e.1 := by
      intro he
      apply hn.1
      rw [he]; simp
    rw [List.cons_append, position, if_neg hne, ih hn.2, total_cons]
    rfl

theorem position_inv : ∀ {es : List (Nat × Ev)} {id p : Nat}, position es id = some p →
    ∃ pre e post, es = pre ++ (id, e) :: post ∧ p = total pre
  | [], _, _, h => by cases h
  | x :: es, id, p, h => by
    rw [position] at h
    split at h
    · rename_i hx
      cases h
      exact ⟨[], x.2, es, by rw [← hx]; rfl, rfl⟩
    · cases hp : position es id with
      | none => rw [hp] at h; cases h
      | some q =>
        rw [hp] at h; cases h
        obtain ⟨pre, e, post, rfl, rfl⟩ := position_inv hp
        exact ⟨x :: pre, e, post, rfl, rfl⟩

end Verif.Proofs.SeqSave
