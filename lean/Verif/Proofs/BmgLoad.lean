import Verif.Proofs.BmgSave

/-!
# When reading a message ends, and what it can give
-/

namespace Verif.Proofs.Bmg

open Verif Verif.Model.Text Verif.Spec.Text Verif.Model.Bmg Verif.Spec.Bmg

/-- The special units are not empty and equally long. -/
structure Shape (c : Codec) : Prop where
  pos : 0 < c.null.length
  sub_len : c.sub.length = c.null.length

theorem Shape.of_lawful {c : Codec} {P : Nat → Prop} (L : Lawful c P) : Shape c := ⟨L.pos, L.sub_len⟩

theorem slice_past {c : Codec} (C : Shape c) {dat : Bytes} {o : Nat} (h : dat.length ≤ o) :
    slice dat o (o + c.null.length) ≠ c.null ∧ slice dat o (o + c.null.length) ≠ c.sub := by
  have hl : (slice dat o (o + c.null.length)).length = 0 := by
    rw [slice_length]; omega
  have h1 := C.pos
  have h2 := C.sub_len
  exact ⟨fun e => by rw [e] at hl; omega, fun e => by rw [e] at hl; omega⟩

theorem found_bound {c : Codec} (C : Shape c) {dat : Bytes} {o : Nat}
    (h : slice dat o (o + c.null.length) = c.null ∨ slice dat o (o + c.null.length) = c.sub) :
    o + c.null.length ≤ dat.length := by
  have h1 := C.pos
  have h2 := C.sub_len
  have hl := slice_length dat o (o + c.null.length)
  rcases h with h | h <;> rw [h] at hl <;> omega

theorem escapeHead_eq {c : Codec} {dat : Bytes} {o : Nat} {h : Nat × Nat} (he : escapeHead c dat o = .ok h) :
    ∃ l t : UInt8, slice dat (o + c.sub.length) (o + c.sub.length + 2) = [l, t] ∧ h = (l.toNat, t.toNat) := by
  unfold escapeHead at he
  split at he
  · rename_i l t hs
    cases he
    exact ⟨l, t, hs, rfl⟩
  · cases he

theorem escapeHead_of {c : Codec} {dat : Bytes} {o : Nat} {l t : UInt8}
    (h : slice dat (o + c.sub.length) (o + c.sub.length + 2) = [l, t]) :
    escapeHead c dat o = .ok (l.toNat, t.toNat) := by
  unfold escapeHead
  rw [h]

theorem escapeHead_err {c : Codec} {dat : Bytes} {o : Nat} {e : PyErr} (he : escapeHead c dat o = .error e) :
    e = .valueError := by
  unfold escapeHead at he
  split at he
  · cases he
  · cases he; rfl

theorem flush_err {c : Codec} {dat : Bytes} {start o : Nat} {acc : List Part} {e : PyErr}
    (hd : ∀ b, c.dec b ≠ .error .outOfFuel) (h : flush c dat start o acc = .error e) : e ≠ .outOfFuel := by
  unfold flush at h
  split at h
  · rcases bind_eq_error.1 h with h | ⟨a, _, h⟩
    · intro e'; rw [e'] at h; exact hd _ h
    · cases h
  · cases h

/-- Past the end, reading goes on for ever. -/
theorem readParts_past {c : Codec} (C : Shape c) {dat : Bytes} : ∀ (fuel start o : Nat) (acc : List Part),
    dat.length ≤ o → readParts c dat fuel start o acc = .error .outOfFuel
  | 0, _, _, _, _ => rfl
  | fuel + 1, start, o, acc, h => by
    obtain ⟨h1, h2⟩ := slice_past C h
    rw [readParts, if_neg h1, if_neg h2, readParts_past C fuel start _ acc (by omega)]

theorem flush_self (c : Codec) (dat : Bytes) (o : Nat) (acc : List Part) : flush c dat o o acc = .ok acc := by
  unfold flush
  rw [if_neg (by omega)]

/-- At an escape of length 0, reading goes on for ever. -/
theorem readParts_zero {c : Codec} {dat : Bytes} {o : Nat} {t : UInt8}
    (h0 : slice dat o (o + c.null.length) ≠ c.null) (h1 : slice dat o (o + c.null.length) = c.sub)
    (h2 : slice dat (o + c.sub.length) (o + c.sub.length + 2) = [0, t]) : ∀ (fuel : Nat) (acc : List Part),
    readParts c dat fuel o o acc = .error .outOfFuel
  | 0, _ => rfl
  | fuel + 1, acc => by
    rw [readParts, if_neg h0, if_pos h1, flush_self, bind_ok, escapeHead_of h2, bind_ok]
    exact readParts_zero h0 h1 h2 fuel _

/-- From a place that leads to a stuck place, no message is ever read. -/
theorem readParts_stuck {c : Codec} (C : Shape c) {dat : Bytes} {o o' : Nat} (h : Visits c dat o o')
    (hs : Stuck c dat o') : ∀ (fuel start : Nat) (acc : List Part) r, readParts c dat fuel start o acc ≠ .ok r := by
  induction h with
  | here o =>
    intro fuel start acc r
    rcases hs with hs | ⟨h0, h1, t, h2⟩
    · rw [readParts_past C _ _ _ _ hs]; simp
    · cases fuel with
      | zero => simp [readParts]
      | succ fuel =>
        rw [readParts, if_neg h0, if_pos h1, escapeHead_of h2]
        cases hf : flush c dat start o acc with
        | error e => simp [bind_error]
        | ok a =>
          rw [bind_ok, bind_ok]
          have := readParts_zero h0 h1 h2 fuel
          dsimp only
          rw [show o + (0 : UInt8).toNat = o from rfl, this]
          simp
  | text h0 h1 _ ih =>
    intro fuel start acc r
    cases fuel with
    | zero => simp [readParts]
    | succ fuel =>
      rw [readParts, if_neg h0, if_neg h1]
      exact ih hs fuel start acc r
  | @escape o o' l t h0 h1 h2 _ ih =>
    intro fuel start acc r
    cases fuel with
    | zero => simp [readParts]
    | succ fuel =>
      rw [readParts, if_neg h0, if_pos h1, escapeHead_of h2]
      cases hf : flush c dat start o acc with
      | error e => simp [bind_error]
      | ok a =>
        rw [bind_ok, bind_ok]
        exact ih hs fuel _ _ r

/-- If no stuck place is ahead, reading ends within as many rounds as there are bytes left, plus one. -/
theorem readParts_ends {c : Codec} (C : Shape c) (hd : ∀ b, c.dec b ≠ .error .outOfFuel) {dat : Bytes} :
    ∀ (n : Nat) (fuel start o : Nat) (acc : List Part), dat.length - o ≤ n → n < fuel →
    (∀ o', Visits c dat o o' → ¬ Stuck c dat o') → readParts c dat fuel start o acc ≠ .error .outOfFuel
  | n, 0, _, _, _, _, hf, _ => by omega
  | n, fuel + 1, start, o, acc, hn, hf, hv => by
    have hlt : o < dat.length := by
      have := hv o (.here o)
      unfold Stuck at this
      omega
    have hp := C.pos
    rw [readParts]
    by_cases h0 : slice dat o (o + c.null.length) = c.null
    · rw [if_pos h0]
      cases hfl : flush c dat start o acc with
      | error e =>
        rw [bind_error]
        intro e'
        cases e'
        exact flush_err hd hfl rfl
      | ok a => rw [bind_ok]; simp [pure_def]
    · rw [if_neg h0]
      by_cases h1 : slice dat o (o + c.null.length) = c.sub
      · rw [if_pos h1]
        cases hfl : flush c dat start o acc with
        | error e =>
          rw [bind_error]
          intro e'
          cases e'
          exact flush_err hd hfl rfl
        | ok a =>
          rw [bind_ok]
          cases hh : escapeHead c dat o with
          | error e =>
            rw [bind_error]
            intro e'
            cases e'
            have := escapeHead_err hh
            cases this
          | ok x =>
            obtain ⟨l, t, hs, rfl⟩ := escapeHead_eq hh
            rw [bind_ok]
            dsimp only
            have hl : 0 < l.toNat := by
              rcases Nat.eq_zero_or_pos l.toNat with h | h
              · exfalso
                have : l = 0 := UInt8.toNat_inj.1 h
                subst this
                exact hv o (.here o) (.inr ⟨h0, h1, t, hs⟩)
              · exact h
            exact readParts_ends C hd (n - 1) fuel _ _ _ (by omega) (by omega)
              (fun o' h' => hv o' (.escape h0 h1 hs h'))
      · rw [if_neg h1]
        exact readParts_ends C hd (n - 1) fuel _ _ _ (by omega) (by omega) (fun o' h' => hv o' (.text h0 h1 h'))

/-- More rounds than bytes never matter. -/
theorem readParts_more {c : Codec} (C : Shape c) {dat : Bytes} :
    ∀ (n : Nat) (f g start o : Nat) (acc : List Part), dat.length - o ≤ n → n < f → n < g →
    readParts c dat f start o acc = readParts c dat g start o acc
  | n, 0, _, _, _, _, _, hf, _ => by omega
  | n, f + 1, 0, _, _, _, _, _, hg => by omega
  | n, f + 1, g + 1, start, o, acc, hn, hf, hg => by
    have hp := C.pos
    by_cases hlt : o < dat.length
    · rw [readParts, readParts]
      by_cases h0 : slice dat o (o + c.null.length) = c.null
      · rw [if_pos h0, if_pos h0]
      · rw [if_neg h0, if_neg h0]
        by_cases h1 : slice dat o (o + c.null.length) = c.sub
        · rw [if_pos h1, if_pos h1]
          cases hfl : flush c dat start o acc with
          | error e => rfl
          | ok a =>
            rw [bind_ok, bind_ok]
            cases hh : escapeHead c dat o with
            | error e => rfl
            | ok x =>
              obtain ⟨l, t, hs, rfl⟩ := escapeHead_eq hh
              rw [bind_ok, bind_ok]
              dsimp only
              rcases Nat.eq_zero_or_pos l.toNat with h | h
              · have : l = 0 := UInt8.toNat_inj.1 h
                subst this
                rw [show o + (0 : UInt8).toNat = o from rfl]
                rw [readParts_zero h0 h1 hs, readParts_zero h0 h1 hs]
              · exact readParts_more C (n - 1) f g _ _ _ (by omega) (by omega) (by omega)
        · rw [if_neg h1, if_neg h1]
          exact readParts_more C (n - 1) f g _ _ _ (by omega) (by omega) (by omega)
    · rw [readParts_past C _ _ _ _ (by omega), readParts_past C _ _ _ _ (by omega)]

/-! ## What loading gives -/

/-- Parts without empty texts and neighbouring texts, the last of which is an escape. -/
def Closed (ps : List Part) : Prop :=
  (∀ s, .text s ∈ ps → s ≠ []) ∧ ∀ (qs rs : List Part) (s : Str), ps = qs ++ .text s :: rs →
    ∃ t d rs', rs = .escape t d :: rs'

theorem closed_nil : Closed [] := ⟨by simp, by intro qs rs s h; simp at h⟩

theorem merged_of_closed : ∀ {ps : List Part}, Closed ps → Merged ps
  | [], _ => trivial
  | .escape t d :: ps, h => by
    refine merged_of_closed (ps := ps) ⟨fun s hs => h.1 s (by simp [hs]), ?_⟩
    intro qs rs s hq
    exact h.2 (.escape t d :: qs) rs s (by rw [hq]; rfl)
  | .text s :: ps, h => by
    refine ⟨h.1 s (by simp), ?_, merged_of_closed (ps := ps) ⟨fun s hs => h.1 s (by simp [hs]), ?_⟩⟩
    · intro t r hr
      obtain ⟨t', d, rs', h'⟩ := h.2 [] ps s rfl
      rw [hr] at h'
      cases h'
    · intro qs rs s' hq
      exact h.2 (.text s :: qs) rs s' (by rw [hq]; rfl)

theorem merged_append_text : ∀ {ps : List Part} {s : Str}, Closed ps → s ≠ [] → Merged (ps ++ [.text s])
  | [], s, _, hs => ⟨hs, by simp, trivial⟩
  | .escape t d :: ps, s, h, hs => by
    refine merged_append_text (ps := ps) ⟨fun s hs => h.1 s (by simp [hs]), ?_⟩ hs
    intro qs rs s hq
    exact h.2 (.escape t d :: qs) rs s (by rw [hq]; rfl)
  | .text s' :: ps, s, h, hs => by
    have hc : Closed ps := ⟨fun s hs => h.1 s (by simp [hs]), fun qs rs s'' hq =>
      h.2 (.text s' :: qs) rs s'' (by rw [hq]; rfl)⟩
    refine ⟨h.1 s' (by simp), ?_, merged_append_text (ps := ps) hc hs⟩
    obtain ⟨t', d, rs', h'⟩ := h.2 [] ps s' rfl
    rw [h']
    intro t r hr
    cases hr

theorem closed_escape {ps : List Part} (h : Closed ps) (t : Nat) (d : Bytes) : Closed (ps ++ [.escape t d]) := by
  refine ⟨fun s hs => h.1 s (by simpa using hs), ?_⟩
  intro qs rs s he
  rcases List.append_eq_append_iff.1 he with ⟨as, h1, h2⟩ | ⟨bs, h1, h2⟩
  · cases as with
    | nil => cases h2
    | cons a as =>
      have := congrArg List.length h2
      simp at this
  · cases bs with
    | nil => cases h2
    | cons b bs =>
      injection h2 with h3 h4
      subst h3
      obtain ⟨t', d', rs', rfl⟩ := h.2 qs bs s h1
      exact ⟨t', d', rs' ++ [.escape t d], by rw [h4]; rfl⟩

theorem closed_text_escape {ps : List Part} (h : Closed ps) {s : Str} (hs : s ≠ []) (t : Nat) (d : Bytes) :
    Closed (ps ++ [.text s] ++ [.escape t d]) := by
  refine ⟨?_, ?_⟩
  · intro s' hs'
    simp only [List.mem_append, List.mem_singleton, reduceCtorEq, or_false, Part.text.injEq] at hs'
    rcases hs' with h' | h'
    · exact h.1 s' h'
    · rw [h']; exact hs
  · intro qs rs s' he
    rw [List.append_assoc] at he
    rcases List.append_eq_append_iff.1 he with ⟨as, h1, h2⟩ | ⟨bs, h1, h2⟩
    · cases as with
      | nil =>
        simp only [List.cons_append, List.nil_append, List.cons.injEq] at h2
        exact ⟨t, d, [], h2.2.symm⟩
      | cons a as =>
        simp only [List.cons_append, List.nil_append, List.cons.injEq] at h2
        cases as with
        | nil => simp at h2
        | cons a' as =>
          have := congrArg List.length h2.2
          simp at this
    · cases bs with
      | nil =>
        simp only [List.cons_append, List.nil_append, List.cons.injEq] at h2
        exact ⟨t, d, [], h2.2⟩
      | cons b bs =>
        injection h2 with h3 h4
        subst h3
        obtain ⟨t', d', rs', rfl⟩ := h.2 qs bs s' h1
        exact ⟨t', d', rs' ++ ([.text s] ++ [.escape t d]), by rw [h4]; rfl⟩

/-- Bytes that decode to nothing are no bytes. -/
def DecNil (c : Codec) : Prop := ∀ b, c.dec b = .ok [] → b = []

theorem DecNil.of_strict {c : Codec} {P : Nat → Prop} (L : Lawful c P) (S : Strict c) : DecNil c := by
  intro b h
  have := S.encode b [] h
  rw [L.nil] at this
  cases this
  rfl

theorem flush_cases {c : Codec} (D : DecNil c) {dat : Bytes} {start o : Nat} {acc r : List Part} (hle : start ≤ o)
    (hb : o ≤ dat.length) (h : flush c dat start o acc = .ok r) :
    r = acc ∨ ∃ s, s ≠ [] ∧ r = acc ++ [.text s] := by
  unfold flush at h
  split at h
  · rename_i hc
    obtain ⟨s, hs, h'⟩ := bind_eq_ok.1 h
    cases h'
    refine .inr ⟨s, ?_, rfl⟩
    rintro rfl
    have := congrArg List.length (D _ hs)
    rw [slice_length_of_le hb] at this
    simp at this
    omega
  · cases h
    exact .inl rfl

theorem readParts_merged {c : Codec} (C : Shape c) (D : DecNil c) {dat : Bytes} : ∀ (fuel start o : Nat)
    (acc : List Part) (r : List Part × Nat), start ≤ o → Closed acc → readParts c dat fuel start o acc = .ok r →
    Merged r.1 ∧ (o ≤ r.2) ∧ (r.2 = 0 → r.1 = acc)
  | 0, _, _, _, _, _, _, h => by cases h
  | fuel + 1, start, o, acc, r, hle, hc, h => by
    have hp := C.pos
    rw [readParts] at h
    split at h
    · rename_i h0
      have hb := found_bound C (.inl h0)
      obtain ⟨a, ha, h'⟩ := bind_eq_ok.1 h
      cases h'
      refine ⟨?_, Nat.le_refl _, ?_⟩
      · rcases flush_cases D hle (by omega) ha with rfl | ⟨s, hs, rfl⟩
        · exact merged_of_closed hc
        · exact merged_append_text hc hs
      · intro h00
        dsimp only at h00 ⊢
        subst h00
        have : start = 0 := by omega
        subst this
        rw [flush_self] at ha
        cases ha; rfl
    · split at h
      · rename_i h0 h1
        have hb := found_bound C (.inr h1)
        obtain ⟨a, ha, h'⟩ := bind_eq_ok.1 h
        obtain ⟨x, hx, h''⟩ := bind_eq_ok.1 h'
        have hc' : Closed (a ++ [.escape x.2 (slice dat (o + c.sub.length + 2) (o + x.1))]) := by
          rcases flush_cases D hle (by omega) ha with rfl | ⟨s, hs, rfl⟩
          · exact closed_escape hc _ _
          · exact closed_text_escape hc hs _ _
        obtain ⟨m1, m2, m3⟩ := readParts_merged C D fuel _ _ _ r (Nat.le_refl _) hc' h''
        refine ⟨m1, by omega, ?_⟩
        intro h00
        exfalso
        -- offset 0 can only be left by growing
        have ho : o + x.1 = 0 := by omega
        have hx0 : x.1 = 0 := by omega
        obtain ⟨l, t, hs, rfl⟩ := escapeHead_eq hx
        have : l = 0 := UInt8.toNat_inj.1 hx0
        subst this
        have ho' : o = 0 := by omega
        subst ho'
        have := readParts_zero h0 h1 hs fuel
        dsimp only at h''
        rw [show 0 + (0 : UInt8).toNat = 0 from rfl] at h''
        rw [this] at h''
        cases h''
      · obtain ⟨m1, m2, m3⟩ := readParts_merged C D fuel start (o + c.null.length) acc r (by omega) hc h
        exact ⟨m1, by omega, fun h00 => by omega⟩

/-- What a loaded message looks like. -/
theorem readMessage_normal {c : Codec} (C : Shape c) (D : DecNil c) {dat : Bytes} {fuel : Nat} {x : Nat × Bytes}
    {m : Message} (h : readMessage c dat fuel x = .ok m) :
    (m.isNull = true → m.parts = []) ∧ Merged m.parts := by
  unfold readMessage at h
  obtain ⟨r, hr, h'⟩ := bind_eq_ok.1 h
  cases h'
  obtain ⟨m1, _, m3⟩ := readParts_merged C D _ _ _ _ _ (Nat.le_refl _) closed_nil hr
  refine ⟨?_, m1⟩
  intro hn
  exact m3 (of_decide_eq_true hn)

theorem merge_of_merged : ∀ {ps : List Part}, Merged ps → merge ps = ps
  | [], _ => rfl
  | .escape t d :: ps, h => by rw [merge, merge_of_merged (ps := ps) h]
  | .text s :: ps, h => by
    rw [merge, merge_of_merged h.2.2, joinText, if_neg h.1]
    match ps, h.2.1 with
    | [], _ => intro t r h; cases h
    | .escape t d :: ps, _ => intro t r h; cases h
    | .text t :: ps, h' => exact absurd rfl (h' t ps)

theorem merged_joinText {s : Str} {ps : List Part} (h : Merged ps) : Merged (joinText s ps) := by
  unfold joinText
  split
  · exact h
  · rename_i hs
    match ps, h with
    | [], _ => exact ⟨hs, by simp, trivial⟩
    | .escape t d :: ps, h => exact ⟨hs, by simp, h⟩
    | .text t :: ps, h => exact ⟨by simp [hs], h.2.1, h.2.2⟩

theorem merged_merge : ∀ ps : List Part, Merged (merge ps)
  | [] => trivial
  | .escape _ _ :: ps => merged_merge ps
  | .text _ :: ps => merged_joinText (merged_merge ps)

theorem tokens_joinText (s : Str) (ps : List Part) : tokens (joinText s ps) = s.map .char ++ tokens ps := by
  unfold joinText
  split
  · rename_i h; simp [h]
  · match ps with
    | [] => rfl
    | .escape t d :: ps => rfl
    | .text t :: ps => simp [tokens]

theorem tokens_merge : ∀ ps : List Part, tokens (merge ps) = tokens ps
  | [] => rfl
  | .escape t d :: ps => by rw [merge, tokens, tokens, tokens_merge ps]
  | .text s :: ps => by rw [merge, tokens_joinText, tokens, tokens_merge ps]

theorem normal_eq_iff (b : BMG) : normal b = b ↔ Canonical b := by
  have hm : ∀ m : Message, normalMessage m = m ↔
      (m.isNull = true → m.parts = []) ∧ (m.isNull = false → Merged m.parts) := by
    intro m
    obtain ⟨info, parts, n⟩ := m
    cases n with
    | true => simp [normalMessage, eq_comm]
    | false =>
      simp only [normalMessage, Bool.false_eq_true, if_false, Message.mk.injEq, true_and, and_true, false_implies,
        true_implies]
      exact ⟨fun h => h ▸ merged_merge parts, merge_of_merged⟩
  have hmap : ∀ {α : Type} (f : α → α) (l : List α), l.map f = l ↔ ∀ a ∈ l, f a = a := by
    intro α f l
    induction l with
    | nil => simp
    | cons a l ih => simp [ih]
  have key : normal b = b ↔ b.messages.map normalMessage = b.messages ∧
      b.instructions.filter (fun i => i ≠ zeros 8) = b.instructions ∧
      b.labels.filter (fun l => l ≠ (0, 0)) = b.labels ∧
      b.scripts.map (fun s => (s.1, firstHalf b.endianness s.2)) = b.scripts := by
    obtain ⟨ms, is, ls, ss, id, enc, e, u1, u2, u3⟩ := b
    simp [normal]
  rw [key, hmap, hmap, List.filter_eq_self, List.filter_eq_self]
  constructor
  · rintro ⟨h1, h2, h3, h4⟩
    exact ⟨fun m hm' => ((hm m).1 (h1 m hm')).1, fun m hm' => ((hm m).1 (h1 m hm')).2,
      fun i hi => by simpa using h2 i hi, fun l hl => of_decide_eq_true (h3 l hl), fun s hs => by
        have := h4 s hs
        exact congrArg Prod.snd this⟩
  · rintro ⟨h1, h2, h3, h4, h5⟩
    exact ⟨fun m hm' => (hm m).2 ⟨h1 m hm', h2 m hm'⟩, fun i hi => by simpa using h3 i hi,
      fun l hl => decide_eq_true (h4 l hl), fun s hs => by
        have := h5 s hs
        rw [this]⟩

/-- What the sections can give. -/
structure RawOk (r : Raw) : Prop where
  instructions : ∀ i ∈ r.instructions, i ≠ zeros 8
  labels : ∀ l ∈ r.labels, l ≠ (0, 0)
  scripts : ∀ s ∈ r.scripts, s.2 < 0x10000

theorem parseSection_ok {e : Endian} {data magic : Bytes} {off len : Nat} {r r' : Raw} (hr : RawOk r)
    (h : parseSection e data off magic len r = .ok r') : RawOk r' := by
  unfold parseSection at h
  split at h
  · unfold parseINF1 at h
    obtain ⟨f, _, h⟩ := bind_eq_ok.1 h
    split at h
    · obtain ⟨es, _, h⟩ := bind_eq_ok.1 h
      cases h
      exact ⟨hr.1, hr.2, hr.3⟩
    · cases h
  · split at h
    · cases h
      exact ⟨hr.1, hr.2, hr.3⟩
    · split at h
      · unfold parseFLW1 at h
        obtain ⟨f, _, h⟩ := bind_eq_ok.1 h
        split at h
        · obtain ⟨ls, _, h⟩ := bind_eq_ok.1 h
          cases h
          refine ⟨?_, ?_, hr.3⟩
          · intro i hi
            rcases List.mem_append.1 hi with hi | hi
            · exact hr.1 i hi
            · exact of_decide_eq_true (List.mem_filter.1 hi).2
          · intro l hl
            rcases List.mem_append.1 hl with hl | hl
            · exact hr.2 l hl
            · have := of_decide_eq_true (List.mem_filter.1 hl).2
              rintro rfl
              simp at this
        · cases h
      · split at h
        · unfold parseFLI1 at h
          obtain ⟨f, _, h⟩ := bind_eq_ok.1 h
          split at h
          · obtain ⟨_, _, h⟩ := bind_eq_ok.1 h
            obtain ⟨ss, hss, h⟩ := bind_eq_ok.1 h
            cases h
            refine ⟨hr.1, hr.2, ?_⟩
            intro s hs
            rcases List.mem_append.1 hs with hs | hs
            · exact hr.3 s hs
            · refine mapE_forall (P := fun s : Nat × Nat => s.2 < 0x10000) ?_ hss s hs
              intro i s hi
              unfold scriptAt at hi
              obtain ⟨g, hg, hi⟩ := bind_eq_ok.1 hi
              split at hi
              · cases hi
                dsimp only
                rw [unpackUs] at hg
                obtain ⟨_, _, hg⟩ := bind_eq_ok.1 hg
                obtain ⟨_, hg, hg'⟩ := bind_eq_ok.1 hg
                rw [unpackUs] at hg
                obtain ⟨x, hx, hg⟩ := bind_eq_ok.1 hg
                obtain ⟨_, _, hg⟩ := bind_eq_ok.1 hg
                cases hg
                cases hg'
                exact unpackU_lt hx
              · cases hi
          · cases h
        · cases h

theorem parseSections_ok {e : Endian} {data : Bytes} : ∀ {n off : Nat} {r r' : Raw}, RawOk r →
    parseSections e data n off r = .ok r' → RawOk r'
  | 0, _, _, _, hr, h => by cases h; exact hr
  | n + 1, off, r, r', hr, h => by
    rw [parseSections] at h
    obtain ⟨_, _, h⟩ := bind_eq_ok.1 h
    obtain ⟨_, _, h⟩ := bind_eq_ok.1 h
    obtain ⟨_, h1, h⟩ := bind_eq_ok.1 h
    exact parseSections_ok (parseSection_ok hr h1) h

/-- A loaded BMG can be stored exactly, apart from the scripts of big-endian files. -/
theorem load_canonical {sjis : Codec} {fuel : Nat} {data : Bytes} {id0 : Nat} {b : BMG}
    (C : Shape (codecOf sjis b.encoding b.endianness)) (D : DecNil (codecOf sjis b.encoding b.endianness))
    (h : BMG.load sjis fuel data id0 = .ok b) (hs : b.endianness = .big → ∀ s ∈ b.scripts, s.2 = 0) : Canonical b := by
  unfold BMG.load at h
  obtain ⟨_, _, h⟩ := bind_eq_ok.1 h
  obtain ⟨le, _, h⟩ := bind_eq_ok.1 h
  obtain ⟨be, _, h⟩ := bind_eq_ok.1 h
  unfold BMG.loadAs at h
  obtain ⟨f, _, h⟩ := bind_eq_ok.1 h
  split at h
  · obtain ⟨enc, _, h⟩ := bind_eq_ok.1 h
    obtain ⟨r, hr, h⟩ := bind_eq_ok.1 h
    obtain ⟨ms, hms, h⟩ := bind_eq_ok.1 h
    cases h
    dsimp only at C D hs
    have ok := parseSections_ok (r := ⟨[], [], [], [], [], id0⟩) ⟨by simp, by simp, by simp⟩ hr
    have hm := mapE_forall (P := fun m : Message => (m.isNull = true → m.parts = []) ∧ Merged m.parts)
      (fun x m h => readMessage_normal C D h) hms
    refine ⟨fun m h => (hm m h).1, fun m h _ => (hm m h).2, ok.1, ok.2, ?_⟩
    intro s h
    have hlt := ok.3 s h
    dsimp only
    cases hg : guessEndian le be with
    | little => simp only [firstHalf]; omega
    | big => rw [hs hg s h]; rfl
  · cases h

end Verif.Proofs.Bmg
