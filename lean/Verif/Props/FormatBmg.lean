import Verif.Proofs.FormatBmg
import Verif.Props.Bmg

/-!
# BMG files, byte by byte (C108)
-/

namespace Verif.Props.FormatBmg

open Verif Verif.Model.Text Verif.Model.Bmg Verif.Spec.Reader Verif.Spec.FormatBmg Verif.Proofs.Reader Verif.Proofs.Bmg
open Verif.Proofs.FormatBmg

theorem mapE_iff_get {α β : Type _} {f : α → Py β} {l : List α} {r : List β} : mapE f l = .ok r ↔
    r.length = l.length ∧ ∀ (i : Nat) (b : β) (a : α), r[i]? = some b → l[i]? = some a → f a = .ok b := by
  constructor
  · intro h
    have hl := mapE_length h
    refine ⟨hl, fun i b a hb ha => ?_⟩
    obtain ⟨h1, rfl⟩ := List.getElem?_eq_some_iff.1 hb
    obtain ⟨h2, rfl⟩ := List.getElem?_eq_some_iff.1 ha
    exact mapE_getElem h i h2 h1
  · rintro ⟨hl, h⟩
    induction l generalizing r with
    | nil =>
      cases r with
      | nil => rfl
      | cons => simp at hl
    | cons a l ih =>
      cases r with
      | nil => simp at hl
      | cons b r =>
        exact mapE_cons_ok.2 ⟨b, r, h 0 b a rfl rfl, ih (by simpa using hl) fun i b a hb ha => h (i + 1) b a (by simpa using hb)
          (by simpa using ha), rfl⟩

theorem units {sjis : Codec} (h1 : sjis.null = [0]) (h2 : sjis.sub = [0x1A]) (enc : Encoding) (e : Endian) :
    (codecOf sjis enc e).null = nulUnit enc ∧ (codecOf sjis enc e).sub = subUnit enc e := by
  cases enc <;> cases e <;> first | exact ⟨rfl, rfl⟩ | exact ⟨h1, h2⟩

theorem units_ne (enc : Encoding) (e : Endian) : nulUnit enc ≠ subUnit enc e := by
  cases enc <;> cases e <;> decide

theorem readMessage_iff {sjis : Codec} (h1 : sjis.null = [0]) (h2 : sjis.sub = [0x1A]) {enc : Encoding} {e : Endian} {dat : Bytes}
    {f : Nat} {x : Nat × Bytes} {m : Message} (hf : dat.length < f) : readMessage (codecOf sjis enc e) dat f x = .ok m ↔
      m.info = x.2 ∧ ∃ q, MessageAt (nulUnit enc) (subUnit enc e) (codecOf sjis enc e).dec dat x.1 m.parts q ∧ (m.isNull = true ↔ q = 0) := by
  obtain ⟨u1, u2⟩ := units h1 h2 enc e
  have C : Shape (codecOf sjis enc e) := codec_shape e fun _ => ⟨by rw [h1]; decide, by rw [h1, h2]; rfl⟩
  unfold readMessage
  rw [bind_eq_ok]
  obtain ⟨info, parts, isNull⟩ := m
  constructor
  · rintro ⟨⟨ps, q⟩, hr, h⟩
    cases pure_eq_ok.1 h
    rw [readParts_iff C (by rw [u1, u2]; exact units_ne enc e) hf, u1, u2] at hr
    exact ⟨rfl, q, hr, by simp⟩
  · rintro ⟨hi, q, hm, hn⟩
    rw [← u1, ← u2, ← readParts_iff C (by rw [u1, u2]; exact units_ne enc e) hf] at hm
    refine ⟨_, hm, pure_eq_ok.2 ?_⟩
    dsimp only at hi hn
    subst hi
    congr 1
    cases isNull
    · exact decide_eq_false fun h => by simpa using hn.2 h
    · exact decide_eq_true (hn.1 rfl)

theorem encodingOf_iff {n : Nat} {enc : Encoding} : encodingOf n = .ok enc ↔ (n, enc) ∈ encodings := by
  constructor
  · intro h
    unfold encodingOf at h
    split at h <;> cases h <;> simp [encodings]
  · intro h
    simp only [encodings, List.mem_cons, Prod.mk.injEq, List.not_mem_nil, or_false] at h
    rcases h with ⟨rfl, rfl⟩ | ⟨rfl, rfl⟩ | ⟨rfl, rfl⟩ | ⟨rfl, rfl⟩ <;> rfl

theorem text_length {e : Endian} {d : Bytes} {l : List Nat} : (textOf e d l).length ≤ d.length := by
  unfold textOf
  split
  · simp
  · rw [span_length]; omega

/-- Loading bytes as a BMG gives exactly what the bytes say, and fails for all others. -/
theorem bmg_load_iff {sjis : Codec} (h1 : sjis.null = [0]) (h2 : sjis.sub = [0x1A]) {data : Bytes} {fuel id0 : Nat} {b : BMG}
    (hf : data.length < fuel) : BMG.load sjis fuel data id0 = .ok b ↔ IsBmg sjis data id0 b := by
  have hT : ∀ (e : Endian) (l : List Nat), lastD (fun o => span data (o + 8) (o + e32 e data (o + 4))) [] (named data DAT1 l) =
      textOf e data l := fun e l => by unfold lastD textOf; cases (named data DAT1 l).getLast? <;> rfl
  have hI : ∀ (e : Endian) (l : List Nat), lastD (fun o => e32 e data (o + 12)) id0 (named data INF1 l) =
      idOf e data l id0 := fun e l => by unfold lastD idOf; cases (named data INF1 l).getLast? <;> rfl
  have hp : ∀ e, places e data (e32 e data (8 + 4)) 0x20 = sectionPlaces e data := fun _ => rfl
  have hA : ∀ e l, (named data INF1 l).flatMap (entries e data) = allEntries e data l := fun _ _ => rfl
  unfold BMG.load BMG.loadAs
  simp only [bind_eq_ok, raiseIf_iff, en4, Classical.not_not]
  constructor
  · rintro ⟨_, hm, le, ⟨hle, rfl⟩, be, ⟨-, rfl⟩, fs, hfs, h⟩
    rw [fieldsHead] at hfs
    obtain ⟨hl, rfl⟩ := hfs
    simp only [bind_eq_ok, pure_eq_ok, parseSections_iff, mapE_iff_get] at h
    obtain ⟨enc, henc, r, ⟨hs, rfl⟩, ms, ⟨hc, hms⟩, rfl⟩ := h
    rw [encodingOf_iff] at henc
    rw [show guessEndian (e32 .little data 8) (e32 .big data 8) = orderOf data from rfl] at *
    rw [hp] at hs hc hms ⊢
    rw [foldl_add _ _ hs, hT, hI] at hc hms ⊢
    simp only [List.nil_append, hA] at hc hms ⊢
    refine ⟨hm, by omega, rfl, henc, rfl, rfl, rfl, hs, rfl, hc, ?_, rfl, rfl, rfl⟩
    intro i m x hm hx
    have := text_length (e := orderOf data) (d := data) (l := sectionPlaces (orderOf data) data)
    exact (readMessage_iff h1 h2 (by dsimp only; omega)).1 (hms i m x hm hx)
  · intro h
    obtain ⟨hm, hl, ho, henc, k1, k2, k3, hs, hid, hc, hms, hi, hlb, hsc⟩ := h
    obtain ⟨ms, insts, lbs, scs, id, enc, e, w1, w2, w3⟩ := b
    dsimp only at *
    subst ho k1 k2 k3 hid hi hlb hsc
    refine ⟨(), hm, _, ⟨by omega, rfl⟩, _, ⟨by omega, rfl⟩, ?_⟩
    rw [show guessEndian (e32 .little data 8) (e32 .big data 8) = orderOf data from rfl]
    refine ⟨_, fieldsHead.2 ⟨by omega, rfl⟩, ?_⟩
    simp only [bind_eq_ok, pure_eq_ok, parseSections_iff, mapE_iff_get, encodingOf_iff]
    refine ⟨enc, henc, _, ⟨hs, rfl⟩, ms, ?_, ?_⟩
    · rw [hp, foldl_add _ _ hs, hT]
      simp only [List.nil_append, hA]
      refine ⟨hc, fun i m x hm hx => (readMessage_iff h1 h2 ?_).2 (hms i m x hm hx)⟩
      have := text_length (e := orderOf data) (d := data) (l := sectionPlaces (orderOf data) data)
      omega
    · rw [hp, foldl_add _ _ hs, hI]
      simp only [List.nil_append]

/-- What loads is described by the bytes of the file alone. -/
theorem bmg_contents_unique {sjis : Codec} (h1 : sjis.null = [0]) (h2 : sjis.sub = [0x1A]) {data : Bytes} {id0 : Nat} {b b' : BMG}
    (h : IsBmg sjis data id0 b) (h' : IsBmg sjis data id0 b') : b = b' := by
  rw [← bmg_load_iff h1 h2 (Nat.lt_succ_self _)] at h h'
  rw [h] at h'
  cases h'
  rfl

/-- A saved BMG whose byte order can be told from its length has its contents at these places, apart from what a file does not hold
(see C40). -/
theorem saved_bmg {sjis : Codec} (h1 : sjis.null = [0]) (h2 : sjis.sub = [0x1A]) {P : Nat → Prop} {b : BMG} {data : Bytes}
    (hP : Verif.Spec.Bmg.TextOk sjis P b) (h : b.save sjis = .ok data)
    (ht : Verif.Spec.Bmg.Tellable b.endianness (Verif.Spec.Bmg.statedLength data.length)) (id0 : Nat) :
    IsBmg sjis data id0 (Verif.Spec.Bmg.normal b) :=
  (bmg_load_iff h1 h2 (Nat.lt_succ_self _)).1 (Verif.Props.Bmg.bmg_roundtrip_partial hP h ht _ id0 (Nat.le_succ _))

/-! ## Examples -/

/-- A file in big-endian byte order with two messages ("Hi", an escape sequence and "!"; an empty one), an instruction, a label and a
script. -/
def sample : Bytes :=
  [0x4D, 0x45, 0x53, 0x47, 0x62, 0x6D, 0x67, 0x31, 0, 0, 0, 0xA0, 0, 0, 0, 4, 2, 0, 0, 0, 7, 0, 0, 0, 0, 0, 0, 0, 0, 0, 0, 0,
   0x49, 0x4E, 0x46, 0x31, 0, 0, 0, 0x20, 0, 2, 0, 6, 0, 0, 0, 9, 0, 0, 0, 2, 0xAA, 0xBB, 0, 0, 0, 0, 0xCC, 0xDD, 0, 0, 0, 0,
   0x44, 0x41, 0x54, 0x31, 0, 0, 0, 0x20, 0, 0, 0, 0x48, 0, 0x69, 0, 0x1A, 5, 1, 0xEE, 0, 0x21, 0, 0, 0, 0, 0, 0, 0, 0, 0, 0, 0,
   0x46, 0x4C, 0x57, 0x31, 0, 0, 0, 0x20, 0, 1, 0, 1, 0, 0, 0, 0, 1, 2, 3, 4, 5, 6, 7, 8, 0xFF, 0xFE, 0xFF, 0, 0, 0, 0, 0,
   0x46, 0x4C, 0x49, 0x31, 0, 0, 0, 0x18, 0, 1, 0, 8, 0, 0, 0, 0, 0, 0, 1, 2, 0, 3, 0, 0]

def sampleBmg : BMG :=
  ⟨[⟨[0xAA, 0xBB], [.text [0x48, 0x69], .escape 1 [0xEE], .text [0x21]], false⟩, ⟨[0xCC, 0xDD], [], true⟩],
    [[1, 2, 3, 4, 5, 6, 7, 8]], [(-1, -2)], [(0x102, 3)], 9, .utf16, .big, 7, 0, 0⟩

/-- A stand-in for Shift-JIS, with its special units. -/
def plain : Codec := cp1252

example : IsBmg plain sample 0 sampleBmg := (bmg_load_iff rfl rfl (fuel := 200) (by decide +kernel)).1 (by decide +kernel)

/-- Nothing else is in it. -/
example (b : BMG) (h : IsBmg plain sample 0 b) : b = sampleBmg :=
  bmg_contents_unique rfl rfl h ((bmg_load_iff rfl rfl (fuel := 200) (by decide +kernel)).1 (by decide +kernel))

/-- Saving it gives a file that says the same, but for the index of the script: `save` writes it as 32 bits. -/
example : ∃ data, sampleBmg.save plain = .ok data ∧ IsBmg plain data 0 (Verif.Spec.Bmg.normal sampleBmg) ∧
    (Verif.Spec.Bmg.normal sampleBmg).scripts = [(0x102, 0)] := by
  have hs : ∃ data, sampleBmg.save plain = .ok data ∧
      Verif.Spec.Bmg.Tellable .big (Verif.Spec.Bmg.statedLength data.length) := by
    refine ⟨(sampleBmg.save plain).toOption.getD [], by decide +kernel, ?_⟩
    unfold Verif.Spec.Bmg.Tellable
    decide +kernel
  obtain ⟨data, hd, ht⟩ := hs
  exact ⟨data, hd, saved_bmg (P := fun _ => True) rfl rfl (fun h => by cases h) hd ht 0, by decide +kernel⟩

/-- One byte less, in the middle of the script, and it does not load. -/
example (b : BMG) : ¬IsBmg plain (sample.take 0x97) 0 b := fun h => by
  have := h.sections 0x80 (by rw [h.order]; decide +kernel)
  obtain ⟨-, h' | h' | h' | h'⟩ := this
  · exact absurd h'.1 (by decide +kernel)
  · exact absurd h' (by decide +kernel)
  · exact absurd h'.1 (by decide +kernel)
  · have := h'.2.1
    rw [h.order] at this
    exact absurd this (by decide +kernel)

/-- A message at the place 0 of the text data: its text up to the first escape sequence is ignored. -/
example : MessageAt [0] [0x1A] cp1252.dec [0x48, 0x69, 0x1A, 3, 1, 0x21, 0] 0 [.escape 1 [], .text [0x21]] 6 :=
  .ignored (n := 2) (by decide) (by intro k hk; match k, hk with | 0, _ => decide | 1, _ => decide) (.inr (by decide))
    (.escape (by decide) (by decide) (.text (n := 1) (o := 5) (by decide) (by decide)
      (by intro k hk; match k, hk with | 0, _ => decide) (.inl (by decide)) (by decide +kernel) (.done (by decide))))

end Verif.Props.FormatBmg
