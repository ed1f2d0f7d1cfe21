import Verif.Proofs.Text
import Verif.Spec.Bmg

/-!
# Reading the messages of a BMG
-/

namespace Verif.Proofs.Bmg

open Verif Verif.Model.Text Verif.Spec.Text Verif.Model.Bmg Verif.Spec.Bmg

theorem joinText_joinText (p s : Str) (r : List Part) : joinText p (joinText s r) = joinText (p ++ s) r := by
  unfold joinText
  by_cases hp : p = []
  · subst hp; simp
  · by_cases hs : s = []
    · subst hs; simp
    · have : p ++ s ≠ [] := by simp [hp]
      simp only [hp, hs, this, if_false]
      match r with
      | [] => rfl
      | .text t :: r => simp
      | .escape t d :: r => rfl

theorem joinText_nil (r : List Part) : joinText [] r = r := by simp [joinText]

theorem joinText_escape (p : Str) (t : Nat) (d : Bytes) (r : List Part) :
    joinText p (.escape t d :: r) = (if p = [] then [] else [.text p]) ++ .escape t d :: r := by
  unfold joinText
  split <;> simp_all

theorem joinText_end (p : Str) : joinText p [] = (if p = [] then [] else [.text p]) := by
  unfold joinText
  split <;> simp_all

theorem slice_add {α : Type _} (d : List α) (a n : Nat) : slice d a (a + n) = (d.drop a).take n := by
  rw [slice]; congr 1; omega

/-- Text is passed over unit by unit. -/
theorem readParts_units {c : Codec} {dat : Bytes} (start : Nat) (acc : List Part) :
    ∀ (us : List Bytes) (o fuel : Nat), (∀ u ∈ us, u.length = c.null.length) →
      (∀ u ∈ us, u ≠ c.null ∧ u ≠ c.sub) → At dat o us.flatten →
      readParts c dat (fuel + us.length) start o acc = readParts c dat fuel start (o + us.flatten.length) acc
  | [], o, fuel, _, _, _ => by simp
  | u :: us, o, fuel, hl, hc, h => by
    rw [List.flatten_cons, At.split] at h
    have hu := hl u (by simp)
    have hs : slice dat o (o + c.null.length) = u := h.1.slice_eq (by omega)
    have : fuel + (u :: us).length = (fuel + us.length) + 1 := by simp; omega
    rw [this, readParts, hs, if_neg (hc u (by simp)).1, if_neg (hc u (by simp)).2,
      readParts_units start acc us (o + c.null.length) fuel (fun v hv => hl v (by simp [hv]))
        (fun v hv => hc v (by simp [hv])) (h.2.cast (by omega))]
    congr 1
    simp; omega

theorem Units.length {w : Nat} {us : List Bytes} {b : Bytes} (h : Units w us b) : b.length = us.length * w := by
  rw [h.1, flatten_length_const (n := w) h.2]

theorem dec_nil {c : Codec} {P : Nat → Prop} (L : Lawful c P) : c.dec [] = .ok [] :=
  L.roundtrip [] [] (by simp) L.nil

theorem enc_eq_nil {c : Codec} {P : Nat → Prop} (L : Lawful c P) {p : Str} {b : Bytes} (hp : ∀ x ∈ p, P x)
    (h : c.enc p = .ok b) : b = [] ↔ p = [] := by
  constructor
  · rintro rfl
    have := L.roundtrip p [] hp h
    rw [dec_nil L] at this
    cases this; rfl
  · rintro rfl
    rw [L.nil] at h
    cases h; rfl

/-- The pending text becomes a part unless it is empty. -/
theorem flush_eq {c : Codec} {P : Nat → Prop} (L : Lawful c P) {dat : Bytes} {start o : Nat} {acc : List Part}
    {p : Str} (hp : ∀ x ∈ p, P x) (h0 : start ≠ 0) (hle : start ≤ o) (hb : o ≤ dat.length)
    (h : c.enc p = .ok (slice dat start o)) :
    flush c dat start o acc = .ok (acc ++ if p = [] then [] else [.text p]) := by
  have hn := enc_eq_nil L hp h
  have hl : (slice dat start o).length = o - start := slice_length_of_le hb
  unfold flush
  by_cases he : start = o
  · have : p = [] := hn.1 (List.eq_nil_of_length_eq_zero (by omega))
    rw [if_neg (by omega), if_pos this]
    simp
  · have : p ≠ [] := by
      intro e
      have := hn.2 e
      rw [this] at hl
      simp at hl
      omega
    rw [if_pos ⟨h0, he⟩, L.roundtrip p _ hp h, bind_ok, if_neg this]
    rfl

theorem savePart_text {c : Codec} {s : Str} {b : Bytes} :
    savePart c (.text s) = .ok b ↔ 0 ∉ s ∧ 0x1A ∉ s ∧ c.enc s = .ok b := by
  unfold savePart
  simp only [bind_eq_ok, raiseIf_eq_ok]
  constructor
  · rintro ⟨_, h1, _, h2, h3⟩; exact ⟨h1, h2, h3⟩
  · rintro ⟨h1, h2, h3⟩; exact ⟨(), h1, (), h2, h3⟩

theorem savePart_escape {c : Codec} {t : Nat} {d b : Bytes} :
    savePart c (.escape t d) = .ok b ↔ d.length + 2 + c.sub.length < 256 ∧ t < 256 ∧
      b = c.sub ++ [UInt8.ofNat (d.length + 2 + c.sub.length)] ++ [UInt8.ofNat t] ++ d := by
  unfold savePart saveEscape
  simp only [bind_eq_ok, byteOf_eq_ok, pure_eq_ok]
  constructor
  · rintro ⟨l, ⟨h1, rfl⟩, t', ⟨h2, rfl⟩, rfl⟩; exact ⟨h1, h2, rfl⟩
  · rintro ⟨h1, h2, rfl⟩; exact ⟨_, ⟨h1, rfl⟩, _, ⟨h2, rfl⟩, rfl⟩

/-- The characters of the parts belong to `P`. -/
def PartsIn (P : Nat → Prop) (ps : List Part) : Prop := ∀ x ∈ chars ps, P x

/-- Reading what was written, with text `p` already passed over. -/
theorem readParts_saved {c : Codec} {P : Nat → Prop} (L : Lawful c P) {dat : Bytes} : ∀ (ps : List Part)
    (bs : List Bytes) (start o : Nat) (p : Str) (acc : List Part), mapE (savePart c) ps = .ok bs →
    PartsIn P ps → (∀ x ∈ p, P x) → start ≠ 0 → start ≤ o → c.enc p = .ok (slice dat start o) →
    At dat o (bs.flatten ++ c.null) →
    ∃ n, n ≤ (bs.flatten ++ c.null).length ∧ ∀ fuel, readParts c dat (fuel + n) start o acc
      = .ok (acc ++ joinText p (merge ps), o + bs.flatten.length)
  | [], bs, start, o, p, acc, h, _, hp, h0, hle, he, ha => by
    cases h
    have hbd := ha.bound
    have hpos := L.pos
    refine ⟨1, by simp; omega, ?_⟩
    intro fuel
    have hs : slice dat o (o + c.null.length) = c.null := At.slice_eq (s := c.null) (by simpa using ha) rfl
    rw [readParts, if_pos hs, flush_eq L hp h0 hle (by omega) he, bind_ok, merge, joinText_end]
    rfl
  | .text s :: ps, bs, start, o, p, acc, h, hP, hp, h0, hle, he, ha => by
    obtain ⟨b, bs', hb, hbs, rfl⟩ := mapE_cons_ok.1 h
    obtain ⟨hs0, hs1, hse⟩ := savePart_text.1 hb
    obtain ⟨us, hU, hcl⟩ := L.units s b hs0 hs1 hse
    rw [List.flatten_cons, List.append_assoc, At.split] at ha
    have hsl : slice dat start (o + b.length) = slice dat start o ++ b := by
      rw [← slice_append_slice dat hle (Nat.le_add_right o b.length), ha.1.slice_eq rfl]
    obtain ⟨n, hn, hr⟩ := readParts_saved L ps bs' start (o + b.length) (p ++ s) acc hbs
      (fun x hx => hP x (by simp [chars, hx]))
      (by
        intro x hx
        rcases List.mem_append.1 hx with h | h
        · exact hp x h
        · exact hP x (by simp [chars, h]))
      h0 (by omega) (by rw [hsl]; exact L.append _ _ _ _ he hse) ha.2
    have hul : us.length ≤ b.length := by
      rw [Units.length hU]
      exact Nat.le_mul_of_pos_right _ L.pos
    refine ⟨n + us.length, ?_, ?_⟩
    · simp only [List.flatten_cons, List.length_append] at hn ⊢; omega
    · intro fuel
      have := readParts_units (c := c) start acc us o (fuel + n) hU.2 hcl (by rw [← hU.1]; exact ha.1)
      rw [← Nat.add_assoc, this, ← hU.1, hr, merge, joinText_joinText]
      simp only [List.flatten_cons, List.length_append, Nat.add_assoc]
  | .escape t d :: ps, bs, start, o, p, acc, h, hP, hp, h0, hle, he, ha => by
    obtain ⟨b, bs', hb, hbs, rfl⟩ := mapE_cons_ok.1 h
    obtain ⟨hl, ht, rfl⟩ := savePart_escape.1 hb
    have hbd := ha.bound
    have hsub := L.sub_len
    have hpos := L.pos
    simp only [List.flatten_cons, List.append_assoc] at ha
    rw [At.split] at ha
    obtain ⟨a1, a2⟩ := ha
    rw [← List.append_assoc [UInt8.ofNat (d.length + 2 + c.sub.length)]] at a2
    have a3 := (At.split.1 a2).1
    have a4 := (At.split.1 (At.split.1 a2).2).1
    have a5 := (At.split.1 (At.split.1 a2).2).2
    simp only [List.length_append, List.length_cons, List.length_nil, Nat.zero_add, Nat.reduceAdd] at a4 a5 hbd
    have e1 : slice dat o (o + c.null.length) = c.sub := a1.slice_eq (by omega)
    have e2 : escapeHead c dat o = .ok (d.length + 2 + c.sub.length, t) := by
      unfold escapeHead
      have : slice dat (o + c.sub.length) (o + c.sub.length + 2)
          = [UInt8.ofNat (d.length + 2 + c.sub.length)] ++ [UInt8.ofNat t] := a3.slice_eq rfl
      rw [this]
      simp only [List.cons_append, List.nil_append]
      rw [Verif.Proofs.Text.toNat_ofNat hl, Verif.Proofs.Text.toNat_ofNat ht]
    have e3 : slice dat (o + c.sub.length + 2) (o + (d.length + 2 + c.sub.length)) = d := a4.slice_eq (by omega)
    obtain ⟨n, hn, hr⟩ := readParts_saved L ps bs' (o + (d.length + 2 + c.sub.length)) (o + (d.length + 2 + c.sub.length))
      [] (acc ++ (if p = [] then [] else [.text p]) ++ [.escape t d]) hbs
      (fun x hx => hP x (by simpa [chars] using hx)) (by simp) (by omega) (by omega)
      (by rw [slice_self]; exact L.nil) (a5.cast (by omega))
    refine ⟨n + 1, ?_, ?_⟩
    · simp only [List.flatten_cons, List.length_append, List.length_cons] at hn ⊢; omega
    · intro fuel
      rw [← Nat.add_assoc, readParts, e1, if_neg L.ne, if_pos rfl, flush_eq L hp h0 hle (by omega) he, bind_ok, e2,
        bind_ok]
      dsimp only
      rw [e3, hr, merge, joinText_escape, joinText_nil]
      simp only [List.append_assoc, List.cons_append, List.nil_append, List.flatten_cons, List.length_append,
        List.length_cons]
      congr 2
      omega

/-- The characters of the message belong to `P`, unless it is null. -/
def MessageIn (P : Nat → Prop) (m : Message) : Prop := m.isNull = false → PartsIn P m.parts

theorem Message.save_ok {c : Codec} {m : Message} {d : Bytes} (h0 : m.isNull = false) :
    m.save c = .ok d ↔ ∃ bs, mapE (savePart c) m.parts = .ok bs ∧ d = bs.flatten ++ c.null := by
  unfold Message.save
  rw [h0]
  simp only [Bool.false_eq_true, if_false, bind_eq_ok, pure_eq_ok, eq_comm (a := d)]

/-- A message that is in the data is read back. -/
theorem readMessage_at {c : Codec} {P : Nat → Prop} (L : Lawful c P) {dat : Bytes} {m : Message} {d : Bytes}
    {o fuel : Nat} (h0 : m.isNull = false) (hP : MessageIn P m) (h : m.save c = .ok d) (ha : At dat o d)
    (ho : o ≠ 0) (hf : d.length ≤ fuel) : readMessage c dat fuel (o, m.info) = .ok (normalMessage m) := by
  obtain ⟨bs, hbs, rfl⟩ := (Message.save_ok h0).1 h
  obtain ⟨n, hn, hr⟩ := readParts_saved L m.parts bs o o [] [] hbs (hP h0) (by simp) ho (Nat.le_refl _)
    (by rw [slice_self]; exact L.nil) ha
  have : fuel = (fuel - n) + n := by omega
  unfold readMessage
  dsimp only
  rw [this, hr, bind_ok, joinText_nil]
  simp only [pure_def, List.nil_append, normalMessage, h0]
  have : decide (o + bs.flatten.length = 0) = false := by simp; omega
  rw [this]
  simp

/-- A null message is read back. -/
theorem readMessage_null {c : Codec} {dat : Bytes} {m : Message} {fuel : Nat} (h0 : m.isNull = true)
    (ha : At dat 0 c.null) (hf : 0 < fuel) : readMessage c dat fuel (0, m.info) = .ok (normalMessage m) := by
  obtain ⟨f, rfl⟩ : ∃ f, fuel = f + 1 := ⟨fuel - 1, by omega⟩
  have hs : slice dat 0 (0 + c.null.length) = c.null := ha.slice_eq rfl
  unfold readMessage
  dsimp only
  rw [readParts, if_pos hs, flush, if_neg (by omega), bind_ok, pure_def, bind_ok]
  simp [normalMessage, h0, pure_def]

/-- The bytes of an entry of INF1. -/
def entryBytes (e : Endian) (x : Nat × Bytes) : Bytes := enBytes e 4 x.1 ++ x.2

/-- The loop over the messages: what it writes, and what reading finds there. -/
theorem saveMessages_ok {c : Codec} {P : Nat → Prop} (L : Lawful c P) {e : Endian} {k : Nat} :
    ∀ (ms : List Message) (dat inf out : Bytes), saveMessages c e k ms dat = .ok (inf, out) →
    (∀ m ∈ ms, MessageIn P m) → At dat 0 c.null →
    (∃ t, out = dat ++ t) ∧ ∃ ents : List (Nat × Bytes), inf = (ents.map (entryBytes e)).flatten ∧
      ents.length = ms.length ∧ (∀ x ∈ ents, x.1 < 256 ^ 4 ∧ x.2.length = k) ∧
      (∀ pad fuel, out.length ≤ fuel → mapE (readMessage c (out ++ pad) fuel) ents = .ok (ms.map normalMessage)) ∧
      ∀ (i : Nat) (m : Message) (x : Nat × Bytes), ms[i]? = some m → ents[i]? = some x → x.2 = m.info ∧ (m.isNull = true → x.1 = 0) ∧
        (m.isNull = false → dat.length ≤ x.1 ∧ ∃ d, m.save c = .ok d ∧ At out x.1 d ∧
          ∀ (j : Nat) (m' : Message) (x' : Nat × Bytes), i < j → ms[j]? = some m' → ents[j]? = some x' →
            m'.isNull = false → x.1 + d.length ≤ x'.1)
  | [], dat, inf, out, h, _, _ => by
    cases h
    exact ⟨⟨[], by simp⟩, [], rfl, rfl, by simp, fun _ _ _ => rfl, by simp⟩
  | m :: ms, dat, inf, out, h, hP, h0 => by
    simp only [saveMessages, bind_eq_ok, raiseIf_eq_ok, pure_eq_ok, packU_eq_ok] at h
    obtain ⟨_, hl, o, ⟨ho, rfl⟩, d, hd, ⟨inf', out'⟩, hr, he⟩ := h
    cases he
    obtain ⟨⟨t, ht⟩, ents, hi, hlen, hx, hread, hlay⟩ := saveMessages_ok L ms (dat ++ d) inf' out' hr
      (fun m' hm' => hP m' (by simp [hm'])) (h0.append_right d)
    have h0' : At out' 0 c.null := by rw [ht]; exact (h0.append_right d).append_right t
    have hp := L.pos
    refine ⟨⟨d ++ t, by rw [ht]; simp⟩, (if m.isNull = true then 0 else dat.length, m.info) :: ents, ?_, ?_, ?_, ?_, ?_⟩
    · simp [hi, entryBytes]
    · simp [hlen]
    · intro x hx'
      rcases List.mem_cons.1 hx' with rfl | hx'
      · exact ⟨ho, Decidable.not_not.1 hl⟩
      · exact hx x hx'
    · intro pad fuel hf
      dsimp only at hf
      rw [mapE_cons]
      have hb := h0'.bound
      have hm : readMessage c (out' ++ pad) fuel (if m.isNull = true then 0 else dat.length, m.info)
          = .ok (normalMessage m) := by
        cases hn : m.isNull with
        | true => exact readMessage_null hn (h0'.append_right pad) (by omega)
        | false =>
          simp only [Bool.false_eq_true, if_false]
          have ha : At out' dat.length d := by rw [ht]; exact (At.last dat d).append_right t
          have hb' := ha.bound
          have hb0 := h0.bound
          exact readMessage_at L hn (hP m (by simp)) hd (ha.append_right pad) (by omega) (by omega)
      rw [hm, bind_ok, hread pad fuel hf, bind_ok]
      rfl
    · intro i m' x hm' hx'
      cases i with
      | zero =>
        simp only [List.getElem?_cons_zero, Option.some.injEq] at hm' hx'
        subst hm'; subst hx'
        refine ⟨rfl, fun h => by simp [h], fun h => ?_⟩
        simp only [h, Bool.false_eq_true, if_false]
        refine ⟨Nat.le_refl _, d, hd, by rw [ht]; exact (At.last dat d).append_right t, ?_⟩
        intro j m' x' hj hm' hx' hn'
        obtain ⟨j, rfl⟩ : ∃ k, j = k + 1 := ⟨j - 1, by omega⟩
        simp only [List.getElem?_cons_succ] at hm' hx'
        have := ((hlay j m' x' hm' hx').2.2 hn').1
        rw [List.length_append] at this
        exact this
      | succ i =>
        simp only [List.getElem?_cons_succ] at hm' hx'
        obtain ⟨h1, h2, h3⟩ := hlay i m' x hm' hx'
        refine ⟨h1, h2, fun h => ?_⟩
        obtain ⟨h4, d', h5, h6, h7⟩ := h3 h
        rw [List.length_append] at h4
        refine ⟨by omega, d', h5, h6, ?_⟩
        intro j m'' x'' hj hm'' hx'' hn''
        obtain ⟨j, rfl⟩ : ∃ k, j = k + 1 := ⟨j - 1, by omega⟩
        simp only [List.getElem?_cons_succ] at hm'' hx''
        exact h7 j m'' x'' (by omega) hm'' hx'' hn''

end Verif.Proofs.Bmg
