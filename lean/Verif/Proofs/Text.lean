import Verif.Spec.Text

/-!
# Properties of the text codecs
-/

namespace Verif.Proofs.Text

open Verif Verif.Model.Text Verif.Spec.Text

theorem encodeWith_nil (f : Nat → Py Bytes) : encodeWith f [] = .ok [] := rfl

theorem encodeWith_ok {f : Nat → Py Bytes} {s : Str} {b : Bytes} :
    encodeWith f s = .ok b ↔ ∃ r, mapE f s = .ok r ∧ b = r.flatten := by
  unfold encodeWith
  simp only [bind_eq_ok, pure_eq_ok, eq_comm (a := b)]

theorem encodeWith_cons {f : Nat → Py Bytes} {x : Nat} {s : Str} {b : Bytes} :
    encodeWith f (x :: s) = .ok b ↔ ∃ a t, f x = .ok a ∧ encodeWith f s = .ok t ∧ b = a ++ t := by
  simp only [encodeWith_ok, mapE_cons_ok]
  constructor
  · rintro ⟨r, ⟨a, as, ha, has, rfl⟩, rfl⟩
    exact ⟨a, as.flatten, ha, ⟨as, has, rfl⟩, by simp⟩
  · rintro ⟨a, t, ha, ⟨as, has, rfl⟩, rfl⟩
    exact ⟨a :: as, ⟨a, as, ha, has, rfl⟩, by simp⟩

theorem encodeWith_append {f : Nat → Py Bytes} : ∀ {s t : Str} {a b : Bytes}, encodeWith f s = .ok a →
    encodeWith f t = .ok b → encodeWith f (s ++ t) = .ok (a ++ b)
  | [], t, a, b, ha, hb => by cases ha; simpa using hb
  | x :: s, t, a, b, ha, hb => by
    obtain ⟨p, q, hp, hq, rfl⟩ := encodeWith_cons.1 ha
    rw [List.cons_append]
    exact encodeWith_cons.2 ⟨p, q ++ b, hp, encodeWith_append hq hb, by simp⟩

theorem consOk_ok {c : Nat} {r : Py Str} {s : Str} : consOk c r = .ok s ↔ ∃ t, r = .ok t ∧ s = c :: t := by
  unfold consOk
  simp only [bind_eq_ok, pure_eq_ok, eq_comm (a := s)]

/-- Decoding undoes encoding if it does so character by character. -/
theorem dec_enc {f : Nat → Py Bytes} {dec : Bytes → Py Str} (h0 : dec [] = .ok [])
    (h : ∀ x a t, f x = .ok a → dec (a ++ t) = consOk x (dec t)) : ∀ (s : Str) (b : Bytes),
    encodeWith f s = .ok b → dec b = .ok s
  | [], b, hb => by cases hb; exact h0
  | x :: s, b, hb => by
    obtain ⟨a, t, ha, ht, rfl⟩ := encodeWith_cons.1 hb
    rw [h x a t ha, dec_enc h0 h s t ht]
    rfl

/-- Cutting an encoding into units, character by character. -/
theorem units_of {f : Nat → Py Bytes} {w : Nat} {null sub : Bytes}
    (h : ∀ x a, f x = .ok a → ∃ us, Units w us a ∧ (x ≠ 0 → x ≠ 0x1A → ∀ u ∈ us, u ≠ null ∧ u ≠ sub)) :
    ∀ (s : Str) (b : Bytes), 0 ∉ s → 0x1A ∉ s → encodeWith f s = .ok b →
      ∃ us, Units w us b ∧ ∀ u ∈ us, u ≠ null ∧ u ≠ sub
  | [], b, _, _, hb => by cases hb; exact ⟨[], ⟨rfl, by simp⟩, by simp⟩
  | x :: s, b, h0, h1, hb => by
    obtain ⟨a, t, ha, ht, rfl⟩ := encodeWith_cons.1 hb
    simp only [List.mem_cons, not_or] at h0 h1
    obtain ⟨us, ⟨e, hl⟩, hu⟩ := h x a ha
    obtain ⟨vs, ⟨e', hl'⟩, hv⟩ := units_of h s t h0.2 h1.2 ht
    refine ⟨us ++ vs, ⟨by simp [e, e'], ?_⟩, ?_⟩
    · intro u hu'
      rcases List.mem_append.1 hu' with h' | h'
      · exact hl u h'
      · exact hl' u h'
    · intro u hu'
      rcases List.mem_append.1 hu' with h' | h'
      · exact hu (fun e => h0.1 e.symm) (fun e => h1.1 e.symm) u h'
      · exact hv u h'

/-- The same, keeping the units of the two special characters. -/
theorem units_mem {f : Nat → Py Bytes} {w : Nat} {null sub : Bytes}
    (h : ∀ x a, f x = .ok a → ∃ us, Units w us a ∧ (x = 0 → null ∈ us) ∧ (x = 0x1A → sub ∈ us)) :
    ∀ (s : Str) (b : Bytes), encodeWith f s = .ok b →
      ∃ us, Units w us b ∧ (0 ∈ s → null ∈ us) ∧ (0x1A ∈ s → sub ∈ us)
  | [], b, hb => by cases hb; exact ⟨[], ⟨rfl, by simp⟩, by simp, by simp⟩
  | x :: s, b, hb => by
    obtain ⟨a, t, ha, ht, rfl⟩ := encodeWith_cons.1 hb
    obtain ⟨us, ⟨e, hl⟩, hu, hu2⟩ := h x a ha
    obtain ⟨vs, ⟨e', hl'⟩, hv, hv2⟩ := units_mem h s t ht
    refine ⟨us ++ vs, ⟨by simp [e, e'], ?_⟩, ?_, ?_⟩
    · intro u hu'
      rcases List.mem_append.1 hu' with h' | h'
      · exact hl u h'
      · exact hl' u h'
    · intro h'
      rcases List.mem_cons.1 h' with h' | h'
      · exact List.mem_append_left _ (hu h'.symm)
      · exact List.mem_append_right _ (hv h')
    · intro h'
      rcases List.mem_cons.1 h' with h' | h'
      · exact List.mem_append_left _ (hu2 h'.symm)
      · exact List.mem_append_right _ (hv2 h')

/-! ## UTF-16 -/

theorem enVal_two (e : Endian) {n : Nat} (h : n < 0x10000) : ∃ a b, enBytes e 2 n = [a, b] ∧ enVal e [a, b] = n := by
  have hl := enBytes_length e 2 n
  have hv := enVal_enBytes (e := e) (k := 2) (n := n) (by omega)
  match hx : enBytes e 2 n, hl with
  | [a, b], _ => exact ⟨a, b, rfl, by rw [← hx]; exact hv⟩

theorem two_enVal (e : Endian) (a b : UInt8) : enBytes e 2 (enVal e [a, b]) = [a, b] ∧ enVal e [a, b] < 0x10000 :=
  ⟨enBytes_enVal e [a, b], by have := enVal_lt e [a, b]; simpa using this⟩

theorem enBytes_two_inj {e : Endian} {m n : Nat} (hm : m < 0x10000) (hn : n < 0x10000)
    (h : enBytes e 2 m = enBytes e 2 n) : m = n := by
  have h1 := enVal_enBytes (e := e) (k := 2) (n := m) (by omega)
  have h2 := enVal_enBytes (e := e) (k := 2) (n := n) (by omega)
  rw [← h1, ← h2, h]

theorem utf16Char_ok {e : Endian} {x : Nat} {a : Bytes} (h : utf16Char e x = .ok a) :
    ((x < 0xD800 ∨ (0xE000 ≤ x ∧ x < 0x10000)) ∧ a = enBytes e 2 x) ∨
    ((0x10000 ≤ x ∧ x < 0x110000) ∧
      a = enBytes e 2 (0xD800 + (x - 0x10000) / 0x400) ++ enBytes e 2 (0xDC00 + (x - 0x10000) % 0x400)) := by
  unfold utf16Char at h
  split at h
  · cases h; exact .inl ⟨by assumption, rfl⟩
  · split at h
    · cases h; exact .inr ⟨by assumption, rfl⟩
    · cases h

theorem utf16_step (e : Endian) (x : Nat) (a t : Bytes) (h : utf16Char e x = .ok a) :
    utf16Dec e (a ++ t) = consOk x (utf16Dec e t) := by
  rcases utf16Char_ok h with ⟨hx, rfl⟩ | ⟨hx, rfl⟩
  · obtain ⟨p, q, hp, hv⟩ := enVal_two e (n := x) (by omega)
    rw [hp]
    simp only [List.cons_append, List.nil_append]
    rw [utf16Dec.eq_def]
    dsimp only
    rw [hv, if_pos (by omega)]
  · obtain ⟨p, q, hp, hv⟩ := enVal_two e (n := 0xD800 + (x - 0x10000) / 0x400) (by omega)
    obtain ⟨p', q', hp', hv'⟩ := enVal_two e (n := 0xDC00 + (x - 0x10000) % 0x400) (by omega)
    rw [hp, hp']
    simp only [List.cons_append, List.nil_append]
    rw [utf16Dec.eq_def]
    dsimp only
    have hx' : 0x10000 + (0xD800 + (x - 0x10000) / 0x400 - 0xD800) * 0x400 + (0xDC00 + (x - 0x10000) % 0x400 - 0xDC00)
        = x := by omega
    rw [hv, hv', if_neg (by omega), if_neg (by omega), if_pos (by omega), hx']

theorem utf16_units (e : Endian) (x : Nat) (a : Bytes) (h : utf16Char e x = .ok a) :
    ∃ us, Units 2 us a ∧ (x ≠ 0 → x ≠ 0x1A → ∀ u ∈ us, u ≠ enBytes e 2 0 ∧ u ≠ enBytes e 2 0x1A) := by
  rcases utf16Char_ok h with ⟨hx, rfl⟩ | ⟨hx, rfl⟩
  · refine ⟨[enBytes e 2 x], ⟨by simp, by simp⟩, ?_⟩
    intro h0 h1 u hu
    cases List.mem_singleton.1 hu
    exact ⟨fun h => h0 (enBytes_two_inj (by omega) (by omega) h), fun h => h1 (enBytes_two_inj (by omega) (by omega) h)⟩
  · refine ⟨[_, _], ⟨by simp; rfl, by simp⟩, ?_⟩
    intro h0 h1 u hu
    rcases List.mem_cons.1 hu with rfl | hu
    · constructor <;> intro h <;> have := enBytes_two_inj (by omega) (by omega) h <;> omega
    · cases List.mem_singleton.1 hu
      constructor <;> intro h <;> have := enBytes_two_inj (by omega) (by omega) h <;> omega

theorem utf16_lawful (e : Endian) : Lawful (utf16 e) fun _ => True where
  pos := by simp [utf16]
  sub_len := by simp [utf16]
  ne := by
    intro h
    have := enBytes_two_inj (by omega) (by omega) h
    omega
  nil := encodeWith_nil _
  append := fun _ _ _ _ => encodeWith_append
  roundtrip := fun s b _ h => dec_enc rfl (utf16_step e) s b h
  units := by
    intro s b h0 h1 h
    have := units_of (utf16_units e) s b h0 h1 h
    simpa [utf16] using this

theorem utf16_enc (e : Endian) : ∀ (b : Bytes) (s : Str), utf16Dec e b = .ok s → encodeWith (utf16Char e) s = .ok b
  | [], s, h => by cases h; rfl
  | [_], s, h => by cases h
  | a :: b :: t, s, h => by
    obtain ⟨hb, hlt⟩ := two_enVal e a b
    rw [utf16Dec.eq_def] at h
    dsimp only at h
    split at h
    · rename_i hc
      obtain ⟨r, hr, rfl⟩ := consOk_ok.1 h
      refine encodeWith_cons.2 ⟨[a, b], t, ?_, utf16_enc e t r hr, rfl⟩
      rw [utf16Char, if_pos (by omega), hb]
    · split at h
      · cases h
      · rename_i hc hd
        split at h
        · rename_i a' b' t'
          obtain ⟨hb', hlt'⟩ := two_enVal e a' b'
          split at h
          · rename_i hc'
            obtain ⟨r, hr, rfl⟩ := consOk_ok.1 h
            refine encodeWith_cons.2 ⟨[a, b, a', b'], t', ?_, utf16_enc e t' r hr, rfl⟩
            rw [utf16Char, if_neg (by omega), if_pos (by omega)]
            have e1 : 0xD800 + (0x10000 + (enVal e [a, b] - 0xD800) * 0x400 + (enVal e [a', b'] - 0xDC00) - 0x10000) / 0x400
                = enVal e [a, b] := by omega
            have e2 : 0xDC00 + (0x10000 + (enVal e [a, b] - 0xD800) * 0x400 + (enVal e [a', b'] - 0xDC00) - 0x10000) % 0x400
                = enVal e [a', b'] := by omega
            rw [e1, e2, hb, hb']
            rfl
          · cases h
        · cases h

theorem utf16_strict (e : Endian) : Strict (utf16 e) where
  encode := utf16_enc e
  units := by
    intro s b h
    have := units_mem (w := 2) (null := enBytes e 2 0) (sub := enBytes e 2 0x1A) (f := utf16Char e) ?_ s b h
    · simpa [utf16] using this
    · intro x a hx
      rcases utf16Char_ok hx with ⟨h1, rfl⟩ | ⟨h1, rfl⟩
      · exact ⟨[enBytes e 2 x], ⟨by simp, by simp⟩, by rintro rfl; simp, by rintro rfl; simp⟩
      · exact ⟨[_, _], ⟨by simp; rfl, by simp⟩, by omega, by omega⟩

/-! ## UTF-8 -/

theorem utf8Char_ok {x : Nat} {a : Bytes} (h : utf8Char x = .ok a) :
    (x < 0x80 ∧ a = [UInt8.ofNat x]) ∨
    ((0x80 ≤ x ∧ x < 0x800) ∧ a = [UInt8.ofNat (0xC0 + x / 0x40), UInt8.ofNat (0x80 + x % 0x40)]) ∨
    ((0x800 ≤ x ∧ (x < 0xD800 ∨ (0xE000 ≤ x ∧ x < 0x10000))) ∧
      a = [UInt8.ofNat (0xE0 + x / 0x1000), UInt8.ofNat (0x80 + x / 0x40 % 0x40), UInt8.ofNat (0x80 + x % 0x40)]) ∨
    ((0x10000 ≤ x ∧ x < 0x110000) ∧
      a = [UInt8.ofNat (0xF0 + x / 0x40000), UInt8.ofNat (0x80 + x / 0x1000 % 0x40),
        UInt8.ofNat (0x80 + x / 0x40 % 0x40), UInt8.ofNat (0x80 + x % 0x40)]) := by
  unfold utf8Char at h
  split at h
  · cases h; exact .inl ⟨by assumption, rfl⟩
  · split at h
    · cases h; exact .inr (.inl ⟨by omega, rfl⟩)
    · split at h
      · cases h; exact .inr (.inr (.inl ⟨by omega, rfl⟩))
      · split at h
        · cases h; exact .inr (.inr (.inr ⟨by omega, rfl⟩))
        · cases h

theorem toNat_ofNat {n : Nat} (h : n < 256) : (UInt8.ofNat n).toNat = n := by
  rw [UInt8.toNat_ofNat']; omega

theorem isCont_ofNat {n : Nat} (h : n < 256) : isCont (UInt8.ofNat n) = true ↔ 0x80 ≤ n ∧ n < 0xC0 := by
  unfold isCont
  rw [toNat_ofNat h]
  simp

theorem isCont_iff {b : UInt8} : isCont b = true ↔ 0x80 ≤ b.toNat ∧ b.toNat < 0xC0 := by
  unfold isCont
  simp

theorem utf8_step (x : Nat) (a t : Bytes) (h : utf8Char x = .ok a) : utf8Dec (a ++ t) = consOk x (utf8Dec t) := by
  rcases utf8Char_ok h with ⟨hx, rfl⟩ | ⟨hx, rfl⟩ | ⟨hx, rfl⟩ | ⟨hx, rfl⟩
  · simp only [List.cons_append, List.nil_append]
    rw [utf8Dec.eq_def]
    dsimp only
    rw [toNat_ofNat (by omega), if_pos (by omega)]
  · simp only [List.cons_append, List.nil_append]
    rw [utf8Dec.eq_def]
    dsimp only
    have c1 := (isCont_ofNat (n := 0x80 + x % 0x40) (by omega)).2 (by omega)
    have hx' : (0xC0 + x / 0x40 - 0xC0) * 0x40 + (0x80 + x % 0x40 - 0x80) = x := by omega
    rw [toNat_ofNat (by omega), toNat_ofNat (by omega), if_neg (by omega), if_pos (by omega),
      if_pos ⟨by omega, c1⟩, hx']
  · simp only [List.cons_append, List.nil_append]
    rw [utf8Dec.eq_def]
    dsimp only
    have c1 := (isCont_ofNat (n := 0x80 + x % 0x40) (by omega)).2 (by omega)
    have c2 := (isCont_ofNat (n := 0x80 + x / 0x40 % 0x40) (by omega)).2 (by omega)
    have hx' : (0xE0 + x / 0x1000 - 0xE0) * 0x1000 + (0x80 + x / 0x40 % 0x40 - 0x80) * 0x40 + (0x80 + x % 0x40 - 0x80)
        = x := by omega
    rw [toNat_ofNat (by omega), toNat_ofNat (by omega), toNat_ofNat (by omega), if_neg (by omega), if_neg (by omega),
      if_pos (by omega), hx', if_pos ⟨c2, c1, by omega, by omega⟩]
  · simp only [List.cons_append, List.nil_append]
    rw [utf8Dec.eq_def]
    dsimp only
    have c1 := (isCont_ofNat (n := 0x80 + x % 0x40) (by omega)).2 (by omega)
    have c2 := (isCont_ofNat (n := 0x80 + x / 0x40 % 0x40) (by omega)).2 (by omega)
    have c3 := (isCont_ofNat (n := 0x80 + x / 0x1000 % 0x40) (by omega)).2 (by omega)
    have hx' : (0xF0 + x / 0x40000 - 0xF0) * 0x40000 + (0x80 + x / 0x1000 % 0x40 - 0x80) * 0x1000
        + (0x80 + x / 0x40 % 0x40 - 0x80) * 0x40 + (0x80 + x % 0x40 - 0x80) = x := by omega
    rw [toNat_ofNat (by omega), toNat_ofNat (by omega), toNat_ofNat (by omega), toNat_ofNat (by omega),
      if_neg (by omega), if_neg (by omega), if_neg (by omega), hx', if_pos ⟨c3, c2, c1, by omega, by omega⟩]

theorem singletons_units (a : Bytes) : Units 1 (a.map fun b => [b]) a := by
  refine ⟨?_, ?_⟩
  · induction a with
    | nil => rfl
    | cons x a ih => simp only [List.map_cons, List.flatten_cons, ← ih]; rfl
  · intro u hu
    obtain ⟨b, _, rfl⟩ := List.mem_map.1 hu
    rfl

theorem clean_bytes {a : Bytes} (h : ∀ b ∈ a, b.toNat ≠ 0 ∧ b.toNat ≠ 0x1A) :
    ∀ u ∈ a.map fun b => [b], u ≠ ([0] : Bytes) ∧ u ≠ ([0x1A] : Bytes) := by
  intro u hu
  obtain ⟨b, hb, rfl⟩ := List.mem_map.1 hu
  have := h b hb
  constructor
  · intro e
    injection e with e _
    rw [e] at this
    exact this.1 rfl
  · intro e
    injection e with e _
    rw [e] at this
    exact this.2 rfl

theorem utf8_clean (x : Nat) (a : Bytes) (h : utf8Char x = .ok a) (h0 : x ≠ 0) (h1 : x ≠ 0x1A) :
    ∀ b ∈ a, b.toNat ≠ 0 ∧ b.toNat ≠ 0x1A := by
  intro b hb
  rcases utf8Char_ok h with ⟨hx, rfl⟩ | ⟨hx, rfl⟩ | ⟨hx, rfl⟩ | ⟨hx, rfl⟩ <;>
    simp only [List.mem_cons, List.not_mem_nil, or_false] at hb
  · subst hb; rw [toNat_ofNat (by omega)]; exact ⟨h0, h1⟩
  · rcases hb with rfl | rfl <;> rw [toNat_ofNat (by omega)] <;> omega
  · rcases hb with rfl | rfl | rfl <;> rw [toNat_ofNat (by omega)] <;> omega
  · rcases hb with rfl | rfl | rfl | rfl <;> rw [toNat_ofNat (by omega)] <;> omega

theorem utf8_lawful : Lawful utf8 fun _ => True where
  pos := by simp [utf8]
  sub_len := rfl
  ne := by decide
  nil := encodeWith_nil _
  append := fun _ _ _ _ => encodeWith_append
  roundtrip := fun s b _ h => dec_enc rfl utf8_step s b h
  units := fun s b h0 h1 h => units_of (w := 1) (fun x a hx =>
    ⟨_, singletons_units a, fun h0 h1 => clean_bytes (utf8_clean x a hx h0 h1)⟩) s b h0 h1 h

theorem ofNat_eq {b : UInt8} {n : Nat} (h : n = b.toNat) : UInt8.ofNat n = b := by
  rw [h]; exact UInt8.ofNat_toNat

theorem utf8_enc : ∀ (b : Bytes) (s : Str), utf8Dec b = .ok s → encodeWith utf8Char s = .ok b
  | [], s, h => by cases h; rfl
  | a :: t, s, h => by
    have ha := a.toNat_lt
    rw [utf8Dec.eq_def] at h
    dsimp only at h
    split at h
    · obtain ⟨r, hr, rfl⟩ := consOk_ok.1 h
      refine encodeWith_cons.2 ⟨[a], t, ?_, utf8_enc t r hr, rfl⟩
      rw [utf8Char, if_pos (by omega), UInt8.ofNat_toNat]
    · split at h
      · cases h
      · rename_i b t
        have hb := b.toNat_lt
        split at h
        · split at h
          · rename_i hc
            rw [isCont_iff] at hc
            obtain ⟨r, hr, rfl⟩ := consOk_ok.1 h
            refine encodeWith_cons.2 ⟨[a, b], t, ?_, utf8_enc t r hr, rfl⟩
            rw [utf8Char, if_neg (by omega), if_pos (by omega)]
            rw [ofNat_eq (b := a) (by omega), ofNat_eq (b := b) (by omega)]
          · cases h
        · split at h
          · cases h
          · rename_i c t
            split at h
            · split at h
              · rename_i hc
                rw [isCont_iff, isCont_iff] at hc
                obtain ⟨r, hr, rfl⟩ := consOk_ok.1 h
                refine encodeWith_cons.2 ⟨[a, b, c], t, ?_, utf8_enc t r hr, rfl⟩
                rw [utf8Char, if_neg (by omega), if_neg (by omega), if_pos (by omega)]
                rw [ofNat_eq (b := a) (by omega), ofNat_eq (b := b) (by omega), ofNat_eq (b := c) (by omega)]
              · cases h
            · split at h
              · cases h
              · rename_i d t
                split at h
                · rename_i hc
                  rw [isCont_iff, isCont_iff, isCont_iff] at hc
                  obtain ⟨r, hr, rfl⟩ := consOk_ok.1 h
                  refine encodeWith_cons.2 ⟨[a, b, c, d], t, ?_, utf8_enc t r hr, rfl⟩
                  rw [utf8Char, if_neg (by omega), if_neg (by omega), if_neg (by omega), if_pos (by omega)]
                  rw [ofNat_eq (b := a) (by omega), ofNat_eq (b := b) (by omega), ofNat_eq (b := c) (by omega),
                    ofNat_eq (b := d) (by omega)]
                · cases h

theorem utf8_strict : Strict utf8 where
  encode := utf8_enc
  units := fun s b h => units_mem (w := 1) (fun x a hx => ⟨_, singletons_units a, by
      rintro rfl; cases hx; decide, by rintro rfl; cases hx; decide⟩) s b h

/-! ## CP-1252 -/

/-- Every byte: what it decodes to encodes to it. -/
theorem cp1252_all : ∀ n < 256, ∀ c, cp1252Of (UInt8.ofNat n) = some c → cp1252Char c = .ok [UInt8.ofNat n] := by
  have : ∀ n < 256, (cp1252Of (UInt8.ofNat n)).all (fun c => decide (cp1252Char c = .ok [UInt8.ofNat n])) = true := by
    decide +kernel
  intro n hn c hc
  have := this n hn
  rw [hc] at this
  exact of_decide_eq_true this

theorem cp1252_table : ∀ i < 32, ∀ c, cp1252Table[i]? = some (some c) →
    cp1252Of (UInt8.ofNat (0x80 + i)) = some c := by
  intro i hi c hc
  unfold cp1252Of
  rw [toNat_ofNat (by omega), if_neg (by omega)]
  have : 0x80 + i - 0x80 = i := by omega
  rw [this, List.getD_eq_getElem?_getD, hc]
  rfl

theorem cp1252Char_ok {x : Nat} {a : Bytes} (h : cp1252Char x = .ok a) :
    ∃ b, a = [b] ∧ cp1252Of b = some x ∧ (x ≠ 0 → x ≠ 0x1A → b.toNat ≠ 0 ∧ b.toNat ≠ 0x1A) := by
  unfold cp1252Char at h
  split at h
  · cases h
    refine ⟨_, rfl, ?_, ?_⟩
    · unfold cp1252Of
      rw [toNat_ofNat (by omega), if_pos (by omega)]
    · rw [toNat_ofNat (by omega)]; exact fun h h' => ⟨h, h'⟩
  · split at h
    · rename_i hi
      cases h
      refine ⟨_, rfl, ?_, ?_⟩
      · refine cp1252_table _ hi x ?_
        have hl : cp1252Table.idxOf (some x) < cp1252Table.length := hi
        rw [List.getElem?_eq_getElem hl, List.getElem_idxOf]
      · rw [toNat_ofNat (by omega)]; omega
    · cases h

theorem cp1252_step (x : Nat) (a t : Bytes) (h : cp1252Char x = .ok a) :
    cp1252Dec (a ++ t) = consOk x (cp1252Dec t) := by
  obtain ⟨b, rfl, hb, _⟩ := cp1252Char_ok h
  simp only [List.cons_append, List.nil_append, cp1252Dec, mapE_cons, hb, bind_ok]
  rfl

theorem cp1252_lawful : Lawful cp1252 fun _ => True where
  pos := by simp [cp1252]
  sub_len := rfl
  ne := by decide
  nil := encodeWith_nil _
  append := fun _ _ _ _ => encodeWith_append
  roundtrip := fun s b _ h => dec_enc rfl cp1252_step s b h
  units := fun s b h0 h1 h => units_of (w := 1) (fun x a hx => ⟨_, singletons_units a, fun h0 h1 => by
    obtain ⟨b, rfl, _, hc⟩ := cp1252Char_ok hx
    refine clean_bytes ?_
    intro u hu
    cases List.mem_singleton.1 hu
    exact hc h0 h1⟩) s b h0 h1 h

theorem cp1252_enc : ∀ (b : Bytes) (s : Str), cp1252Dec b = .ok s → encodeWith cp1252Char s = .ok b
  | [], s, h => by cases h; rfl
  | a :: t, s, h => by
    rw [cp1252Dec] at h
    obtain ⟨c, r, hc, hr, rfl⟩ := mapE_cons_ok.1 h
    refine encodeWith_cons.2 ⟨[a], t, ?_, cp1252_enc t r hr, rfl⟩
    cases ho : cp1252Of a with
    | none => rw [ho] at hc; cases hc
    | some d =>
      rw [ho] at hc
      cases hc
      have := cp1252_all a.toNat a.toNat_lt c
      rw [UInt8.ofNat_toNat] at this
      exact this ho

theorem cp1252_strict : Strict cp1252 where
  encode := cp1252_enc
  units := fun s b h => units_mem (w := 1) (fun x a hx => ⟨_, singletons_units a, by
      rintro rfl; cases hx; decide, by rintro rfl; cases hx; decide⟩) s b h

end Verif.Proofs.Text
