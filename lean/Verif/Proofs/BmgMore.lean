import Verif.Proofs.BmgLoad

/-!
# Byte order, number of rounds, layout
-/

namespace Verif.Proofs.Bmg

open Verif Verif.Model.Text Verif.Spec.Text Verif.Model.Bmg Verif.Spec.Bmg

theorem swap32_eq (n : Nat) : swap32 n = n / 256 / 256 / 256 % 256 + 256 * (n / 256 / 256 % 256 +
    256 * (n / 256 % 256 + 256 * (n % 256))) := by
  unfold swap32
  simp only [leBytes, List.reverse_cons, List.reverse_nil, List.nil_append, List.cons_append, leVal,
    UInt8.toNat_ofNat', Nat.mul_zero, Nat.add_zero, Nat.reducePow]

theorem tellable_small (e : Endian) {n : Nat} (h0 : 0 < n) (h : n < 0x10000) : Tellable e n := by
  unfold Tellable
  rw [swap32_eq]
  have h1 : n / 256 / 256 = 0 := by omega
  have h2 : n / 256 < 256 := by omega
  have h3 : n = 256 * (n / 256) + n % 256 := by omega
  rw [h1, Nat.mod_eq_of_lt h2]
  have h4 : n % 256 < 256 := by omega
  generalize n / 256 = x at *
  generalize n % 256 = y at *
  cases e <;> dsimp only <;> omega

/-! ### Decoding raises no exception of the model's own -/

def DecErr (c : Codec) : Prop := ∀ b, c.dec b ≠ .error .outOfFuel

theorem consOk_err {x : Nat} {r : Py Str} (h : r ≠ .error .outOfFuel) : consOk x r ≠ .error .outOfFuel := by
  cases r with
  | error e => intro h'; exact h h'
  | ok s => simp [consOk, bind_ok, pure_def]

theorem utf16_decErr (e : Endian) : ∀ b, utf16Dec e b ≠ .error .outOfFuel
  | [] => by simp [utf16Dec]
  | [_] => by simp [utf16Dec]
  | a :: b :: t => by
    rw [utf16Dec.eq_def]
    dsimp only
    split
    · exact consOk_err (utf16_decErr e t)
    · split
      · simp
      · split
        · rename_i t'
          split
          · exact consOk_err (utf16_decErr e t')
          · simp
        · simp

theorem utf8_decErr : ∀ b, utf8Dec b ≠ .error .outOfFuel
  | [] => by simp [utf8Dec]
  | a :: t => by
    rw [utf8Dec.eq_def]
    dsimp only
    split
    · exact consOk_err (utf8_decErr t)
    · split
      · simp
      · split
        · split
          · exact consOk_err (utf8_decErr _)
          · simp
        · split
          · simp
          · split
            · split
              · exact consOk_err (utf8_decErr _)
              · simp
            · split
              · simp
              · split
                · exact consOk_err (utf8_decErr _)
                · simp

theorem cp1252_decErr (b : Bytes) : cp1252Dec b ≠ .error .outOfFuel := by
  unfold cp1252Dec
  induction b with
  | nil => simp [mapE_nil]
  | cons a b ih =>
    rw [mapE_cons]
    cases cp1252Of a with
    | none => simp [bind_error]
    | some c =>
      dsimp only
      rw [bind_ok]
      cases h : mapE (fun x => match cp1252Of x with | some c => (.ok c : Py Nat) | none => .error .unicodeError) b with
      | error e =>
        rw [bind_error]
        intro e'
        cases e'
        exact ih h
      | ok r => rw [bind_ok]; simp

/-- The codecs other than Shift-JIS. -/
theorem codec_lawful {sjis : Codec} {enc : Encoding} (e : Endian) {P : Nat → Prop}
    (h : enc = .shiftJis → Lawful sjis P) : Lawful (codecOf sjis enc e) (fun x => enc = .shiftJis → P x) := by
  have weaken : ∀ {c : Codec} {Q : Nat → Prop}, Lawful c (fun _ => True) → Lawful c Q := fun L =>
    { L with roundtrip := fun s b _ => L.roundtrip s b (fun _ _ => trivial) }
  cases enc with
  | cp1252 => exact weaken Text.cp1252_lawful
  | utf16 => exact weaken (Text.utf16_lawful e)
  | utf8 => exact weaken Text.utf8_lawful
  | shiftJis =>
    have L := h rfl
    exact { L with roundtrip := fun s b hs => L.roundtrip s b (fun x hx => hs x hx rfl) }

theorem codec_strict {sjis : Codec} {enc : Encoding} (e : Endian) (h : enc = .shiftJis → Strict sjis) :
    Strict (codecOf sjis enc e) := by
  cases enc with
  | cp1252 => exact Text.cp1252_strict
  | utf16 => exact Text.utf16_strict e
  | utf8 => exact Text.utf8_strict
  | shiftJis => exact h rfl

theorem codec_shape {sjis : Codec} {enc : Encoding} (e : Endian) (h : enc = .shiftJis → Shape sjis) :
    Shape (codecOf sjis enc e) := by
  cases enc with
  | cp1252 => exact ⟨by simp [codecOf, cp1252], rfl⟩
  | utf16 => exact ⟨by simp [codecOf, utf16], by simp [codecOf, utf16]⟩
  | utf8 => exact ⟨by simp [codecOf, utf8], rfl⟩
  | shiftJis => exact h rfl

theorem codec_decErr {sjis : Codec} {enc : Encoding} (e : Endian) (h : enc = .shiftJis → DecErr sjis) :
    DecErr (codecOf sjis enc e) := by
  cases enc with
  | cp1252 => exact cp1252_decErr
  | utf16 => exact utf16_decErr e
  | utf8 => exact utf8_decErr
  | shiftJis => exact h rfl

/-! ### The number of rounds -/

theorem parseSections_dat {e : Endian} {data : Bytes} : ∀ {n off : Nat} {r r' : Raw}, r.dat1.length ≤ data.length →
    parseSections e data n off r = .ok r' → r'.dat1.length ≤ data.length
  | 0, _, _, _, hr, h => by cases h; exact hr
  | n + 1, off, r, r', hr, h => by
    rw [parseSections] at h
    obtain ⟨_, _, h⟩ := bind_eq_ok.1 h
    obtain ⟨len, _, h⟩ := bind_eq_ok.1 h
    obtain ⟨r1, h1, h⟩ := bind_eq_ok.1 h
    refine parseSections_dat ?_ h
    unfold parseSection at h1
    split at h1
    · unfold parseINF1 at h1
      obtain ⟨f, _, h1⟩ := bind_eq_ok.1 h1
      split at h1
      · obtain ⟨es, _, h1⟩ := bind_eq_ok.1 h1
        cases h1
        exact hr
      · cases h1
    · split at h1
      · cases h1
        dsimp only
        rw [slice_length]
        omega
      · split at h1
        · unfold parseFLW1 at h1
          obtain ⟨f, _, h1⟩ := bind_eq_ok.1 h1
          split at h1
          · obtain ⟨es, _, h1⟩ := bind_eq_ok.1 h1
            cases h1
            exact hr
          · cases h1
        · split at h1
          · unfold parseFLI1 at h1
            obtain ⟨f, _, h1⟩ := bind_eq_ok.1 h1
            split at h1
            · obtain ⟨_, _, h1⟩ := bind_eq_ok.1 h1
              obtain ⟨es, _, h1⟩ := bind_eq_ok.1 h1
              cases h1
              exact hr
            · cases h1
          · cases h1

theorem mapE_congr {α β : Type _} {f g : α → Py β} : ∀ {l : List α}, (∀ a ∈ l, f a = g a) → mapE f l = mapE g l
  | [], _ => rfl
  | a :: l, h => by
    rw [mapE_cons, mapE_cons, h a (by simp), mapE_congr (fun x hx => h x (by simp [hx]))]

/-- After as many rounds as the file has bytes, plus one, the result of loading is settled. -/
theorem load_more {sjis : Codec} (hs : Shape sjis) (data : Bytes) (id0 f g : Nat) (hf : data.length < f)
    (hg : data.length < g) : BMG.load sjis f data id0 = BMG.load sjis g data id0 := by
  unfold BMG.load
  cases raiseIf (data.take 8 ≠ magicMESG) .valueError with
  | error e => rfl
  | ok _ =>
    rw [bind_ok, bind_ok]
    cases unpackU .little 4 data 8 with
    | error e => rfl
    | ok le =>
      rw [bind_ok, bind_ok]
      cases unpackU .big 4 data 8 with
      | error e => rfl
      | ok be =>
        rw [bind_ok, bind_ok]
        unfold BMG.loadAs
        cases unpackUs (guessEndian le be) [4, 4, 1, 4, 4, 4] data 8 with
        | error e => rfl
        | ok fs =>
          rw [bind_ok, bind_ok]
          split
          · rename_i enc _ _ _
            cases encodingOf enc with
            | error e => rfl
            | ok enc =>
              rw [bind_ok, bind_ok]
              cases hr : parseSections (guessEndian le be) data _ 0x20 (⟨[], [], [], [], [], id0⟩ : Raw) with
              | error e => rfl
              | ok r =>
                rw [bind_ok, bind_ok]
                have hd := parseSections_dat (by simp) hr
                rw [mapE_congr (g := readMessage (codecOf sjis enc (guessEndian le be)) r.dat1 g)]
                intro x _
                unfold readMessage
                rw [readParts_more (codec_shape _ fun _ => hs) r.dat1.length f g _ _ _ (by omega) (by omega) (by omega)]
          · rfl

/-! ### Layout -/

theorem inf_length {e : Endian} {k : Nat} {ents : List (Nat × Bytes)} (h : ∀ x ∈ ents, x.1 < 256 ^ 4 ∧ x.2.length = k) :
    ((ents.map (entryBytes e)).flatten).length = ents.length * (4 + k) := by
  rw [flatten_length_const (n := 4 + k), List.length_map]
  intro p hp
  obtain ⟨x, hx, rfl⟩ := List.mem_map.1 hp
  simp [entryBytes, (h x hx).2]

theorem entryLength_eq (b : BMG) : entryLength b = 4 + infoLength b.messages := by
  unfold entryLength infoLength
  cases b.messages <;> rfl

theorem saved_layout {sjis : Codec} {P : Nat → Prop} {b : BMG} {data : Bytes}
    (L : Lawful (codecOf sjis b.encoding b.endianness) P) (h : b.save sjis = .ok data)
    (hP : ∀ m ∈ b.messages, MessageIn P m) :
    At data 0 [0x4D, 0x45, 0x53, 0x47, 0x62, 0x6D, 0x67, 0x31] ∧ At data 0x20 [0x49, 0x4E, 0x46, 0x31] ∧
    At data 0x24 (enBytes b.endianness 4 (statedLength (16 + b.messages.length * entryLength b)) ++
      enBytes b.endianness 2 b.messages.length ++ enBytes b.endianness 2 (entryLength b) ++ enBytes b.endianness 4 b.id) ∧
    b.messages.length < 256 ^ 2 ∧ entryLength b < 256 ^ 2 ∧ b.id < 256 ^ 4 ∧
    At data (0x20 + statedLength (16 + b.messages.length * entryLength b)) [0x44, 0x41, 0x54, 0x31] ∧
    At data 8 (enBytes b.endianness 4 (statedLength data.length)) ∧ statedLength data.length < 256 ^ 4 ∧
    ∃ offs : List Nat, offs.length = b.messages.length ∧
      ∀ (i : Nat) (m : Message) (o : Nat), b.messages[i]? = some m → offs[i]? = some o →
        At data (0x30 + i * entryLength b) (enBytes b.endianness 4 o ++ m.info) ∧ o < 256 ^ 4 ∧
        (m.isNull = true → o = 0) ∧
        (m.isNull = false → 0 < o ∧ ∃ d, m.save (codecOf sjis b.encoding b.endianness) = .ok d ∧
          At data (0x28 + statedLength (16 + b.messages.length * entryLength b) + o) d ∧
          ∀ (j : Nat) (m' : Message) (o' : Nat), i < j → b.messages[j]? = some m' → offs[j]? = some o' →
            m'.isNull = false → o + d.length ≤ o') := by
  rw [entryLength_eq]
  obtain ⟨S⟩ := saved_of h
  obtain ⟨⟨t, ht⟩, ents, hinf, hel, hents, hread, hlay⟩ := saveMessages_ok L b.messages _ S.inf S.dat S.messages hP
    (At.refl _)
  obtain ⟨inf, dat, hms, hi, hl, hs, h1, h2, h3, h4, h5, h6, h7, h8, h9, h10, hf, hb⟩ := S
  dsimp only at *
  obtain ⟨aH, aS⟩ := at_of_append hb
  rw [head_length] at aS
  rw [At.split, At.split, At.split] at aS
  obtain ⟨⟨⟨aI, aD⟩, aW⟩, aL⟩ := aS
  rw [At.split, At.split] at aH
  obtain ⟨b1, b2, _⟩ := aH
  have b3 : At data 8 (enBytes b.endianness 4 (up32 data.length)) := by
    have := b2
    unfold headFields structBytes at this
    exact (At.split.1 this).1
  have hT : up32 data.length < 256 ^ 4 := hf.1
  rw [up32_eq] at b3 hT
  have lI : (sectionBytes b.endianness magicINF1 (up32 (16 + inf.length)) b.messages.length (4 + infoLength b.messages)
      b.id inf (padLen (16 + inf.length) 32)).length = up32 (16 + inf.length) := by
    rw [sectionBytes_length _ _ _ _ _ _ _ _ rfl, up32]
  rw [lI] at aD
  have hil : inf.length = b.messages.length * (4 + infoLength b.messages) := by
    rw [hinf, inf_length hents, hel]
  rw [hil, up32_eq] at aD
  have aI0 : At data 0x20 magicINF1 := by
    have := aI
    unfold sectionBytes at this
    exact (At.split.1 this).1.cast (by omega)
  have aI1 : At data 0x24 (enBytes b.endianness 4 (statedLength (16 + b.messages.length * (4 + infoLength b.messages))) ++
      enBytes b.endianness 2 b.messages.length ++ enBytes b.endianness 2 (4 + infoLength b.messages) ++
      enBytes b.endianness 4 b.id) := by
    have := aI
    unfold sectionBytes structBytes structBytes structBytes structBytes at this
    rw [At.split, At.split, At.split, At.split, At.split, At.split] at this
    obtain ⟨-, k1, ⟨k2, k3, k4, -⟩, -⟩ := this
    dsimp only at k1 k2 k3 k4
    rw [hil, up32_eq] at k1
    simp only [enBytes_length] at k2 k3 k4
    rw [At.split, At.split, At.split]
    refine ⟨⟨⟨k1.cast ?_, k2.cast ?_⟩, k3.cast ?_⟩, k4.cast ?_⟩ <;>
      first | rfl | (simp only [enBytes_length, List.length_append]; rfl)
  obtain ⟨_, _, _, aB⟩ := section_fields rfl h1 h2 h3 h4 aI
  have aB := (At.split.1 aB).1
  rw [hinf] at aB
  unfold datBytes at aD
  rw [At.split, At.split, At.split] at aD
  obtain ⟨aD0, _, aE, _⟩ := aD
  rw [enBytes_length] at aE
  refine ⟨b1, aI0, aI1, h2, h3, h4, aD0.cast (by omega), b3, hT, ents.map Prod.fst, by simp [hel], ?_⟩
  intro i m o hm ho
  rw [List.getElem?_map] at ho
  obtain ⟨x, hx, rfl⟩ := Option.map_eq_some_iff.1 ho
  obtain ⟨q1, q2, q3⟩ := hlay i m x hm hx
  have hxm := hents x (List.mem_of_getElem? hx)
  refine ⟨?_, hxm.1, q2, ?_⟩
  · obtain ⟨hlt, hxe⟩ := List.getElem?_eq_some_iff.1 hx
    have hfa := flatten_at (n := 4 + infoLength b.messages) (parts := ents.map (entryBytes b.endianness)) (by
      intro p hp
      obtain ⟨x, hx', rfl⟩ := List.mem_map.1 hp
      simp [entryBytes, (hents x hx').2]) (i := i) (by simpa using hlt)
    rw [List.getElem_map, hxe, entryBytes, q1] at hfa
    exact aB.sub hfa
  · intro hn
    obtain ⟨q4, d, q5, q6, q7⟩ := q3 hn
    have := L.pos
    refine ⟨by omega, d, q5, ?_, ?_⟩
    · refine (aE.sub q6).cast ?_
      simp [magicDAT1]
      omega
    · intro j m' o' hj hm' ho' hn'
      rw [List.getElem?_map] at ho'
      obtain ⟨x', hx', rfl⟩ := Option.map_eq_some_iff.1 ho'
      exact q7 j m' x' hj hm' hx' hn'

end Verif.Proofs.Bmg
