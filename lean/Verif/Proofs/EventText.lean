import Verif.Spec.EventText
import Verif.Proofs.Listing

/-!
# Lemmas for `Props/EventText.lean`
-/

namespace Verif.Proofs.EventText

open Verif Verif.Model.Repr Verif.Model.ReprClasses Verif.Model.NoteName Verif.Model.EventText Verif.Spec.PyExpr Verif.Spec.EventText
open Verif.Spec.Listing (splitLines)
open Verif.Model.SoundSequence (Ev Arith Simple placeEvents writeEvents saveSequenceEvents offsetOf)
open Verif.Proofs.PyExpr Verif.Proofs.Listing

/-! ## Numbers -/

theorem nat_repr (n : Nat) : nat? (reprNat n) = some n := by
  have := number_repr n (rest := []) (by simp [Ends])
  rw [List.append_nil] at this
  simp [nat?, this]

theorem nat_hex (n : Nat) : nat? (reprHex n) = some n := by
  have := number_hex n (rest := []) (by simp [Ends])
  rw [List.append_nil] at this
  simp [nat?, this]

theorem head_nat (n : Nat) : (reprNat n).head? ≠ some 45 := by
  obtain ⟨c, t, e, h⟩ := reprNat_head n
  rw [e]
  intro h'
  cases h'
  cases h

theorem int_repr (n : Int) : int? (reprInt n) = some n := by
  unfold int? reprInt
  by_cases h : n < 0
  · rw [if_pos h, List.head?_cons, if_pos rfl, List.tail_cons, nat_repr, Option.map_some]
    congr 1
    omega
  · rw [if_neg h, if_neg (head_nat _), nat_repr, Option.map_some]
    congr 1
    show ((n.natAbs : Nat) : Int) = n
    omega

theorem int_hex (n : Int) : int? (reprHexInt n) = some n := by
  unfold int? reprHexInt
  by_cases h : n < 0
  · rw [if_pos h, List.head?_cons, if_pos rfl, List.tail_cons, nat_hex, Option.map_some]
    congr 1
    omega
  · have : (reprHex n.natAbs).head? = some 48 := rfl
    rw [if_neg h, this, if_neg (by decide), nat_hex, Option.map_some]
    congr 1
    show ((n.natAbs : Nat) : Int) = n
    omega

/-- The characters of numbers. -/
theorem nat_chars (n : Nat) : ∀ c ∈ reprNat n, 48 ≤ c ∧ c ≤ 57 := by
  intro c hc
  have := (reprNat_digits n).2.1 c hc
  simpa [isDigit] using this

theorem int_chars (n : Int) : ∀ c ∈ reprInt n, c = 45 ∨ 48 ≤ c ∧ c ≤ 57 := by
  intro c hc
  unfold reprInt at hc
  split at hc
  · rcases List.mem_cons.1 hc with rfl | hc
    · exact .inl rfl
    · exact .inr (nat_chars _ c hc)
  · exact .inr (nat_chars _ c hc)

theorem hex_chars (n : Int) : ∀ c ∈ reprHexInt n, c = 45 ∨ 48 ≤ c := by
  have hd : ∀ n, ∀ c ∈ reprHex n, 48 ≤ c := by
    intro n c hc
    unfold reprHex at hc
    rcases List.mem_append.1 hc with hc | hc
    · have : c = 48 ∨ c = 120 := by simpa [lit] using hc
      omega
    · exact digitsF_all (b := 16) (digit := Model.Util.hexDigit) (p := fun c => 48 ≤ c) (by omega) (fun d hd => by
        show 48 ≤ Model.Util.hexDigit d
        unfold Model.Util.hexDigit
        split <;> omega) _ _ c hc
  intro c hc
  unfold reprHexInt at hc
  split at hc
  · rcases List.mem_cons.1 hc with rfl | hc
    · exact .inl rfl
    · exact .inr (hd _ c hc)
  · exact .inr (hd _ c hc)

theorem sp_nat (n : Nat) : 32 ∉ reprNat n := fun h => by have := nat_chars n 32 h; omega
theorem sp_int (n : Int) : 32 ∉ reprInt n := fun h => by have := int_chars n 32 h; omega
theorem sp_hex (n : Int) : 32 ∉ reprHexInt n := fun h => by have := hex_chars n 32 h; omega

theorem sp_note (v : Int) : ∀ c ∈ noteName v, c ≠ 32 ∧ c ≠ 10 := by
  intro c hc
  have hr := Props.NoteName.note_name_reads v
  rw [Props.NoteName.noteName_eq] at hc
  have hm : (v % 12).toNat < 12 := by omega
  simp only [List.mem_append, List.mem_singleton, List.mem_replicate] at hc
  rcases hc with (hc | hc) | ⟨_, rfl⟩ | ⟨_, rfl⟩
  · have : ∀ k : Fin 12, 97 ≤ letters[k.val]?.getD 0 ∧ letters[k.val]?.getD 0 ≤ 103 := by decide
    have := this ⟨_, hm⟩
    dsimp only at this
    split at hc <;> omega
  · have : ∀ k : Fin 12, ∀ c ∈ sharps[k.val]?.getD [], c = 0x266F := by decide
    have := this ⟨_, hm⟩ c hc
    omega
  · omega
  · omega

/-! ## Words -/

theorem split_one (c : Nat) : ∀ (w : Str), c ∉ w → splitOn c w = [w]
  | [], _ => rfl
  | d :: w, h => by
    rw [splitOn, if_neg (by rintro rfl; simp at h), split_one c w (by intro hm; exact h (by simp [hm]))]

theorem split_cons (c : Nat) : ∀ (w s : Str), c ∉ w → splitOn c (w ++ c :: s) = w :: splitOn c s
  | [], s, _ => by rw [List.nil_append, splitOn, if_pos rfl]
  | d :: w, s, h => by
    rw [List.cons_append, splitOn, if_neg (by rintro rfl; simp at h), split_cons c w s (by intro hm; exact h (by simp [hm]))]

theorem split_join (c : Nat) : ∀ (ws : List Str), ws ≠ [] → (∀ w ∈ ws, c ∉ w) → splitOn c (join [c] ws) = ws
  | [], h, _ => absurd rfl h
  | [w], _, h => split_one c w (h w (by simp))
  | w :: w' :: ws, _, h => by
    rw [join, List.append_assoc, List.cons_append, List.nil_append, split_cons c w _ (h w (by simp)),
      split_join c (w' :: ws) (by simp) (fun x hx => h x (by simp [hx]))]

theorem after_append (p s : Str) : after p (p ++ s) = some s := by
  unfold after
  rw [List.take_left, if_pos rfl, List.drop_left]

theorem after_some {p s d : Str} (h : after p s = some d) : s = p ++ d := by
  unfold after at h
  split at h
  · rename_i hp
    cases h
    conv => lhs; rw [← List.take_append_drop p.length s]
    rw [hp]
  · cases h

theorem last_word (t : Str) (c : Nat) : (t ++ [c]).getLast? = some c := by simp

theorem last_word' (t : List Str) (c : Str) : (t ++ [c]).getLast? = some c := by simp

theorem read_words (ws : List Str) (h : ws ≠ []) (hs : ∀ w ∈ ws, 32 ∉ w) (hr : ws.head? ≠ some (chars "raw")) :
    readEvent (60 :: (join [32] ws ++ [62])) = readWords ws := by
  unfold readEvent
  have hl : (60 :: (join [32] ws ++ [62])).getLast? = some 62 := by
    rw [← List.cons_append, last_word]
  rw [if_pos ⟨rfl, hl⟩]
  simp only [List.tail_cons, List.dropLast_concat]
  cases e : after (chars "raw data ") (join [32] ws) with
  | none => simp only [split_join 32 ws h hs]
  | some d =>
    exfalso
    have e := after_some e
    have hj := split_join 32 ws h hs
    have : chars "raw data " ++ d = chars "raw" ++ 32 :: (chars "data " ++ d) := rfl
    rw [e, this, split_cons 32 _ _ (by decide)] at hj
    rw [← hj] at hr
    exact hr rfl

theorem read_bytes (b : Bytes) : bytes? (reprBytes b) = some b := by
  unfold bytes?
  have hq := quote_cases (b.map UInt8.toNat)
  have hlen : b.length ≤ ((b.map UInt8.toNat).flatMap (reprByteIn (quoteFor (b.map UInt8.toNat)))).length := by
    have : ∀ (q : Nat) (l : List Nat), l.length ≤ (l.flatMap (reprByteIn q)).length := by
      intro q l
      induction l with
      | nil => simp
      | cons x l ih =>
        rw [List.flatMap_cons, List.length_append, List.length_cons]
        have : 1 ≤ (reprByteIn q x).length := by
          unfold reprByteIn Model.Util.reprByte
          split
          · simp
          · repeat' split
            all_goals simp
        omega
    have := this (quoteFor (b.map UInt8.toNat)) (b.map UInt8.toNat)
    rwa [List.length_map] at this
  have : expr ((reprBytes b).length + 1) (reprBytes b) = some (.bytes (b.map UInt8.toNat), []) := by
    have hm : (reprBytes b).length = ((b.map UInt8.toNat).flatMap (reprByteIn (quoteFor (b.map UInt8.toNat)))).length + 3 := by
      unfold reprBytes
      simp
    rw [hm]
    unfold reprBytes
    dsimp only
    rw [expr_bytes hq, literal_pieces _ _ (fun c hc X => piece_byte hq (by
        obtain ⟨x, _, rfl⟩ := List.mem_map.1 hc
        exact x.toNat_lt)) [] _ (by rw [List.length_map]; omega)]
    rfl
  rw [this]
  simp only [List.map_map]
  have : (UInt8.ofNat ∘ UInt8.toNat) = id := by funext x; simp
  rw [this, List.map_id]

theorem all_repr {α : Type} {f : α → Str} {g : Str → Option α} (h : ∀ x, g (f x) = some x) : ∀ l : List α, all? g (l.map f) = some l
  | [] => rfl
  | x :: l => by rw [List.map_cons, all?, h, all_repr h l]; rfl

theorem field_text (name : String) (v : Int) : field name (chars name ++ 61 :: reprInt v) = some v := by
  have : chars name ++ 61 :: reprInt v = (chars name ++ [61]) ++ reprInt v := by simp
  rw [field, this, after_append]
  exact int_repr v

theorem place_text (n : Nat) : place (lit "@" ++ reprNat n) = some n := by
  have : lit "@" ++ reprNat n = [64] ++ reprNat n := rfl
  rw [place, this, after_append]
  exact nat_repr n

/-! ## Events -/

theorem not_velocity {w : Str} (h : ∀ c, w.head? = some c → c ≠ 118) : ¬ w.take 9 = chars "velocity=" := by
  intro e
  cases w with
  | nil => cases e
  | cons c t =>
    have : c = 118 := by
      have := congrArg List.head? e
      rw [List.take_succ_cons, List.head?_cons] at this
      exact Option.some.inj this
    exact h c rfl this

theorem head_lt {w : Str} (h : ∀ c ∈ w, c = 45 ∨ 48 ≤ c ∧ c ≤ 57) (s : Str) (hs : ∀ c, s.head? = some c → c ≠ 118) :
    ∀ c, (w ++ s).head? = some c → c ≠ 118 := by
  intro c hc
  cases w with
  | nil => exact hs c hc
  | cons d t =>
    cases hc
    have := h c (by simp)
    omega

theorem hex_head (n : Int) : ∀ c, (reprHexInt n).head? = some c → c ≠ 118 := by
  intro c hc
  unfold reprHexInt at hc
  split at hc
  · cases hc; decide
  · have : (reprHex n.natAbs).head? = some 48 := rfl
    rw [this] at hc
    cases hc; decide

theorem onOff_text (v : Int) : onOff (if v = 0 then lit "off" else if v = 1 then lit "on" else reprInt v) = some v := by
  by_cases h0 : v = 0
  · subst h0; rfl
  · by_cases h1 : v = 1
    · subst h1; rfl
    · rw [if_neg h0, if_neg h1, onOff, if_neg, if_neg, int_repr]
      · intro e
        have := int_chars v 111 (by rw [e]; decide)
        omega
      · intro e
        have := int_chars v 111 (by rw [e]; decide)
        omega

theorem not_word (v : Int) (w : Str) (h : ∃ c ∈ w, 57 < c) : reprInt v ≠ w := by
  rintro rfl
  obtain ⟨c, hc, h⟩ := h
  have := int_chars v c hc
  omega

theorem read_simple (ref : Nat → Str) (k : Simple) (v : Int) (h : k = .portamentoOnOff → v = 0 ∨ v = 1) :
    readEvent (evText ref (.simple k v)) = some (.simple k v) := by
  have two : ∀ (a x : Str) (r : Option Ev), 32 ∉ a → 32 ∉ x → a ≠ chars "raw" → read2 a x = r →
      readEvent (lit "<" ++ a ++ lit " " ++ x ++ lit ">") = r := by
    intro a x r h1 h2 h3 h4
    have : lit "<" ++ a ++ lit " " ++ x ++ lit ">" = 60 :: (join [32] [a, x] ++ [62]) := rfl
    rw [this, read_words _ (by simp) (by simp [h1, h2]) (by simpa using h3)]
    exact h4
  have three : ∀ (a b x : Str) (r : Option Ev), 32 ∉ a → 32 ∉ b → 32 ∉ x → a ≠ chars "raw" →
      ¬ b.take 9 = chars "velocity=" → ¬ (a = chars "begin" ∧ b = chars "track") → a ≠ chars "random" →
      ¬ (a = chars "from" ∧ b = chars "variable") → a ≠ chars "(var" → ¬ (a = chars "define" ∧ b = chars "tracks") →
      read3 a b x = r → readEvent (lit "<" ++ (a ++ lit " " ++ b) ++ lit " " ++ x ++ lit ">") = r := by
    intro a b x r h1 h2 h3 h4 h5 h6 h7 h8 h9 h10 h11
    have : lit "<" ++ (a ++ lit " " ++ b) ++ lit " " ++ x ++ lit ">" = 60 :: (join [32] [a, b, x] ++ [62]) := by
      have e1 : lit "<" = [60] := rfl
      have e2 : lit " " = [32] := rfl
      have e3 : lit ">" = [62] := rfl
      rw [e1, e2, e3]
      simp [join]
    rw [this, read_words _ (by simp) (by simp [h1, h2, h3]) (by simpa using h4), readWords, if_neg h5, if_neg h6, if_neg h7,
      if_neg h8, if_neg h9, if_neg h10, if_pos rfl] <;> first | exact h11 | simp
  have three' : ∀ (a b : String) (x : Str) (r : Option Ev), 32 ∉ x →
      (32 ∉ lit a ∧ 32 ∉ lit b ∧ lit a ≠ chars "raw" ∧
      ¬ (lit b).take 9 = chars "velocity=" ∧ ¬ (lit a = chars "begin" ∧ lit b = chars "track") ∧ lit a ≠ chars "random" ∧
      ¬ (lit a = chars "from" ∧ lit b = chars "variable") ∧ lit a ≠ chars "(var" ∧
      ¬ (lit a = chars "define" ∧ lit b = chars "tracks")) →
      read3 (lit a) (lit b) x = r → readEvent (lit "<" ++ (lit a ++ lit " " ++ lit b) ++ lit " " ++ x ++ lit ">") = r :=
    fun a b x r h1 ⟨h2, h3, h4, h5, h6, h7, h8, h9, h10⟩ h11 => three _ _ _ r h2 h3 h1 h4 h5 h6 h7 h8 h9 h10 h11
  cases k <;> rw [evText]
  case pan =>
    exact two (lit "pan") (reprInt v) _ (by decide) (sp_int v) (by decide)
      (by simp (decide := true) only [read2, if_true, if_false, int_repr, Option.map_some])
  case transpose =>
    exact two (lit "transpose") (reprInt v) _ (by decide) (sp_int v) (by decide)
      (by simp (decide := true) only [read2, if_true, if_false, int_repr, Option.map_some])
  case expression =>
    exact two (lit "expression") (reprInt v) _ (by decide) (sp_int v) (by decide)
      (by simp (decide := true) only [read2, if_true, if_false, int_repr, Option.map_some])
  case portamento =>
    exact two (lit "portamento") (reprInt v) _ (by decide) (sp_int v) (by decide)
      (by
        have h1 : reprInt v ≠ chars "on" := not_word v _ ⟨111, by decide, by decide⟩
        have h2 : reprInt v ≠ chars "off" := not_word v _ ⟨111, by decide, by decide⟩
        simp (decide := true) only [read2, if_true, if_false, int_repr, Option.map_some, h1, h2])
  case tie =>
    refine two (lit "tie") _ _ (by decide) ?_ (by decide) ?_
    · show 32 ∉ (if v = 0 then lit "off" else if v = 1 then lit "on" else reprInt v)
      split
      · decide
      · split
        · decide
        · exact sp_int v
    · have := onOff_text v
      show read2 (lit "tie") (if v = 0 then lit "off" else if v = 1 then lit "on" else reprInt v) = _
      simp (decide := true) only [read2, if_true, if_false, this, Option.map_some]
  case portamentoOnOff =>
    rcases h rfl with rfl | rfl <;> rfl
  case portamentoFrom =>
    refine three' "portamento" "from" (noteName v) _ (fun h => (sp_note v 32 h).1 rfl) (by decide +kernel) ?_
    simp (decide := true) only [read3, if_true, if_false, Props.NoteName.note_name_reads, Option.map_some]
  case trackVolume =>
    refine three' "track" "volume" (reprInt v) _ (sp_int v) (by decide +kernel) ?_
    simp (decide := true) only [read3, if_true, if_false, int_repr, Option.map_some]
  case globalVolume =>
    refine three' "global" "volume" (reprInt v) _ (sp_int v) (by decide +kernel) ?_
    simp (decide := true) only [read3, if_true, if_false, int_repr, Option.map_some]
  case portamentoRange =>
    refine three' "portamento" "range" (reprInt v) _ (sp_int v) (by decide +kernel) ?_
    simp (decide := true) only [read3, if_true, if_false, int_repr, Option.map_some]
  case trackPriority =>
    refine three' "track" "priority" (reprInt v) _ (sp_int v) (by decide +kernel) ?_
    simp (decide := true) only [read3, if_true, if_false, int_repr, Option.map_some]
  case vibratoDepth =>
    refine three' "vibrato" "depth" (reprInt v) _ (sp_int v) (by decide +kernel) ?_
    simp (decide := true) only [read3, if_true, if_false, int_repr, Option.map_some]
  case vibratoSpeed =>
    refine three' "vibrato" "speed" (reprInt v) _ (sp_int v) (by decide +kernel) ?_
    simp (decide := true) only [read3, if_true, if_false, int_repr, Option.map_some]
  case vibratoRange =>
    refine three' "vibrato" "range" (reprInt v) _ (sp_int v) (by decide +kernel) ?_
    simp (decide := true) only [read3, if_true, if_false, int_repr, Option.map_some]
  case portamentoDuration =>
    refine three' "portamento" "duration" (reprInt v) _ (sp_int v) (by decide +kernel) ?_
    simp (decide := true) only [read3, if_true, if_false, int_repr, Option.map_some]
  case attackRate =>
    refine three' "attack" "rate" (reprInt v) _ (sp_int v) (by decide +kernel) ?_
    simp (decide := true) only [read3, if_true, if_false, int_repr, Option.map_some]
  case decayRate =>
    refine three' "decay" "rate" (reprInt v) _ (sp_int v) (by decide +kernel) ?_
    simp (decide := true) only [read3, if_true, if_false, int_repr, Option.map_some]
  case sustainRate =>
    refine three' "sustain" "rate" (reprInt v) _ (sp_int v) (by decide +kernel) ?_
    simp (decide := true) only [read3, if_true, if_false, int_repr, Option.map_some]
  case releaseRate =>
    refine three' "release" "rate" (reprInt v) _ (sp_int v) (by decide +kernel) ?_
    simp (decide := true) only [read3, if_true, if_false, int_repr, Option.map_some]
  case beginLoop =>
    refine three' "begin" "loop" (reprInt v) _ (sp_int v) (by decide +kernel) ?_
    simp (decide := true) only [read3, if_true, if_false, int_repr, Option.map_some]
  case printVariable =>
    refine three' "print" "variable" (reprInt v) _ (sp_int v) (by decide +kernel) ?_
    simp (decide := true) only [read3, if_true, if_false, int_repr, Option.map_some]
  case vibratoDelay =>
    refine three' "vibrato" "delay" (reprInt v) _ (sp_int v) (by decide +kernel) ?_
    simp (decide := true) only [read3, if_true, if_false, int_repr, Option.map_some]

theorem words_random {b c : Str} {rest : List Str} (h : ¬ b.take 9 = chars "velocity=") :
    readWords (chars "random" :: b :: c :: rest) =
      (int? b).bind fun s => (all? int? ((c :: rest).dropLast.dropLast)).bind fun args =>
        (range? ((c :: rest).dropLast.getLast?.getD []) ((c :: rest).getLast?.getD [])).map fun r => .random s args r.1 r.2 := by
  match rest with
  | [] | [_] | [_, _] | _ :: _ :: _ :: _ => simp (decide := true) only [readWords, h, if_true, if_false, false_and]

theorem words_tracks (c : Str) (rest : List Str) :
    readWords (chars "define" :: chars "tracks" :: c :: rest) =
      if c :: rest = [[]] then some (.defineTracks []) else (all? nat? (c :: rest)).map .defineTracks := by
  match rest with
  | [] | [_] | [_, _] | _ :: _ :: _ :: _ => simp (decide := true) only [readWords, if_true, if_false, and_self]

theorem read_event (f : Nat → Nat) (e : Ev) (hok : EvOk e) (hc : Clear e) :
    readEvent (evText (fun i => lit "@" ++ reprNat (f i)) e) = some (withPlaces f e) := by
  have l1 : lit "<" = [60] := rfl
  have l2 : lit ">" = [62] := rfl
  have l3 : lit " " = [32] := rfl
  have hp : ∀ n : Nat, 32 ∉ lit "@" ++ reprNat n := by
    intro n
    have h1 := sp_nat n
    have h2 : lit "@" = [64] := rfl
    rw [h2]
    simp [h1]
  cases e with
  | note p v flag d =>
    have hn : 32 ∉ noteName p := fun h => (sp_note p 32 h).1 rfl
    have h1 : 32 ∉ chars "velocity" ++ 61 :: reprInt v := by
      have := sp_int v
      have : 32 ∉ chars "velocity" := by decide
      simp [*]
    have h2 : 32 ∉ chars "duration" ++ 61 :: reprInt d := by
      have := sp_int d
      have : 32 ∉ chars "duration" := by decide
      simp [*]
    have h3 : (chars "velocity" ++ 61 :: reprInt v).take 9 = chars "velocity=" := rfl
    have hraw : noteName p ≠ chars "raw" := by
      intro e
      have := Props.NoteName.note_name_reads p
      rw [e] at this
      cases this
    have e4 : lit " velocity=" = 32 :: (chars "velocity" ++ [61]) := rfl
    have e5 : lit " duration=" = 32 :: (chars "duration" ++ [61]) := rfl
    have e6 : lit " unknown-flag" = 32 :: chars "unknown-flag" := rfl
    cases flag with
    | false =>
      have : evText (fun i => lit "@" ++ reprNat (f i)) (.note p v false d) =
          60 :: (join [32] [noteName p, chars "velocity" ++ 61 :: reprInt v, chars "duration" ++ 61 :: reprInt d] ++ [62]) := by
        rw [evText, l1, l2, e4, e5]
        simp [join]
      rw [this, read_words _ (by simp) (by simp only [List.forall_mem_cons]; exact ⟨hn, h1, h2, by simp⟩) (by simpa using hraw),
        readWords, if_pos h3, Props.NoteName.note_name_reads, field_text, field_text]
      · rfl
      all_goals simp
    | true =>
      have : evText (fun i => lit "@" ++ reprNat (f i)) (.note p v true d) =
          60 :: (join [32] [noteName p, chars "velocity" ++ 61 :: reprInt v, chars "duration" ++ 61 :: reprInt d, chars "unknown-flag"] ++ [62]) := by
        rw [evText, l1, l2, e4, e5, if_pos rfl, e6]
        simp [join]
      rw [this, read_words _ (by simp) (by simp only [List.forall_mem_cons]; exact ⟨hn, h1, h2, by decide, by simp⟩) (by simpa using hraw),
        readWords, if_pos h3, Props.NoteName.note_name_reads, field_text, field_text]
      · rfl
      all_goals simp
  | rest d =>
    have : evText (fun i => lit "@" ++ reprNat (f i)) (.rest d) = 60 :: (join [32] [lit "rest", reprInt d] ++ [62]) := rfl
    rw [this, read_words _ (by simp) (by simp only [List.forall_mem_cons]; exact ⟨by decide, sp_int d, by simp⟩) (by simp; decide)]
    simp (decide := true) only [readWords, read2, if_true, if_false, int_repr, Option.map_some, withPlaces]
  | instrumentSwitch b i =>
    have : evText (fun i => lit "@" ++ reprNat (f i)) (.instrumentSwitch b i) =
        60 :: (join [32] [lit "instrument", join [47] [reprNat b, reprNat i]] ++ [62]) := by
      have e4 : lit "<instrument " = 60 :: (lit "instrument" ++ [32]) := rfl
      have e5 : lit "/" = [47] := rfl
      rw [evText, l2, e4, e5]
      simp [join]
    have h47 : ∀ n, 47 ∉ reprNat n := fun n h => by have := nat_chars n 47 h; omega
    rw [this, read_words _ (by simp) (by
      simp only [List.forall_mem_cons]
      refine ⟨by decide, ?_, by simp⟩
      have := sp_nat b
      have := sp_nat i
      simp [join, *]) (by simp; decide)]
    simp (decide := true) only [readWords, read2, if_true, if_false]
    rw [split_join 47 [reprNat b, reprNat i] (by simp) (by simp [h47])]
    simp only [nat_repr, Option.bind_some, Option.map_some, withPlaces]
  | beginTrack n i =>
    have : evText (fun i => lit "@" ++ reprNat (f i)) (.beginTrack n i) =
        60 :: (join [32] [lit "begin", lit "track", reprInt n, lit "@" ++ reprNat (f i)] ++ [62]) := by
      have e4 : lit "<begin track " = 60 :: (lit "begin" ++ 32 :: (lit "track" ++ [32])) := rfl
      rw [evText, l2, l3, e4]
      simp [join]
    rw [this, read_words _ (by simp) (by
      simp only [List.forall_mem_cons]
      exact ⟨by decide, by decide, sp_int n, hp _, by simp⟩) (by simp; decide)]
    simp (decide := true) only [readWords, if_true, if_false, int_repr, place_text, Option.bind_some, Option.map_some, withPlaces]
  | jump i =>
    have : evText (fun i => lit "@" ++ reprNat (f i)) (.jump i) = 60 :: (join [32] [lit "jump", lit "@" ++ reprNat (f i)] ++ [62]) := rfl
    rw [this, read_words _ (by simp) (by simp only [List.forall_mem_cons]; exact ⟨by decide, hp _, by simp⟩) (by simp; decide)]
    simp (decide := true) only [readWords, read2, if_true, if_false, place_text, Option.map_some, withPlaces]
  | call i =>
    have : evText (fun i => lit "@" ++ reprNat (f i)) (.call i) = 60 :: (join [32] [lit "call", lit "@" ++ reprNat (f i)] ++ [62]) := rfl
    rw [this, read_words _ (by simp) (by simp only [List.forall_mem_cons]; exact ⟨by decide, hp _, by simp⟩) (by simp; decide)]
    simp (decide := true) only [readWords, read2, if_true, if_false, place_text, Option.map_some, withPlaces]
  | random s args lo hi =>
    have e4 : lit "<random " = 60 :: (lit "random" ++ [32]) := rfl
    have e5 : lit "(" = [40] := rfl
    have e6 : lit ", " = [44, 32] := rfl
    have e7 : lit ")>" = [41, 62] := rfl
    have hj : ∀ (ws : List Str) (a b : Str), ws ≠ [] → join [32] (ws ++ [a, b]) = join [32] ws ++ 32 :: (a ++ 32 :: b) := by
      intro ws a b hne
      induction ws with
      | nil => exact absurd rfl hne
      | cons w ws ih =>
        cases ws with
        | nil => simp [join]
        | cons w' ws =>
          have ih := ih (by simp)
          rw [List.cons_append, List.cons_append, join, ← List.cons_append, ih, join]
          simp
    have : evText (fun i => lit "@" ++ reprNat (f i)) (.random s args lo hi) =
        60 :: (join [32] (lit "random" :: reprHexInt s :: (args.map reprInt ++ [40 :: (reprInt lo ++ [44]), reprInt hi ++ [41]])) ++ [62]) := by
      rw [evText, l3, e4, e5, e6, e7]
      cases args with
      | nil => simp [join]
      | cons a args =>
        have := hj (lit "random" :: reprHexInt s :: (a :: args).map reprInt) (40 :: (reprInt lo ++ [44])) (reprInt hi ++ [41]) (by simp)
        rw [List.cons_append, List.cons_append] at this
        rw [this, List.map_cons, join, join]
        simp
    have hw : ∀ w ∈ (lit "random" :: reprHexInt s :: (args.map reprInt ++ [40 :: (reprInt lo ++ [44]), reprInt hi ++ [41]])), 32 ∉ w := by
      intro w hw
      simp only [List.mem_cons, List.mem_append, List.mem_map, List.not_mem_nil, or_false] at hw
      have h1 := sp_int lo
      have h2 := sp_int hi
      rcases hw with rfl | rfl | ⟨x, _, rfl⟩ | rfl | rfl
      · decide
      · exact sp_hex s
      · exact sp_int x
      · simp [h1]
      · simp [h2]
    rw [this, read_words _ (by simp) hw (by simp; decide)]
    have hcr : ∃ c rest, args.map reprInt ++ [40 :: (reprInt lo ++ [44]), reprInt hi ++ [41]] = c :: rest := by
      cases args with
      | nil => exact ⟨_, _, rfl⟩
      | cons a args => exact ⟨_, _, rfl⟩
    obtain ⟨c, rest, hcr⟩ := hcr
    have hw := words_random (b := reprHexInt s) (c := c) (rest := rest) (not_velocity (hex_head s))
    rw [hcr]
    refine hw.trans ?_
    rw [← hcr, int_hex]
    · have d1 : (args.map reprInt ++ [40 :: (reprInt lo ++ [44]), reprInt hi ++ [41]]).dropLast = args.map reprInt ++ [40 :: (reprInt lo ++ [44])] := by
        rw [show args.map reprInt ++ [40 :: (reprInt lo ++ [44]), reprInt hi ++ [41]] =
          (args.map reprInt ++ [40 :: (reprInt lo ++ [44])]) ++ [reprInt hi ++ [41]] by simp, List.dropLast_concat]
      have d2 : (args.map reprInt ++ [40 :: (reprInt lo ++ [44]), reprInt hi ++ [41]]).getLast? = some (reprInt hi ++ [41]) := by simp
      rw [d1, d2, List.dropLast_concat, all_repr int_repr]
      have d3 : (args.map reprInt ++ [40 :: (reprInt lo ++ [44])]).getLast? = some (40 :: (reprInt lo ++ [44])) := by simp
      rw [d3]
      have d4 : after [40] (40 :: (reprInt lo ++ [44])) = some (reprInt lo ++ [44]) := after_append [40] _
      simp [range?, d4, int_repr, withPlaces]
  | fromVariable s v u =>
    have e4 : lit "<from variable " = 60 :: (lit "from" ++ 32 :: (lit "variable" ++ [32])) := rfl
    cases u with
    | none =>
      have : evText (fun i => lit "@" ++ reprNat (f i)) (.fromVariable s v none) =
          60 :: (join [32] [lit "from", lit "variable", reprHexInt s, reprInt v] ++ [62]) := by
        rw [evText, l2, l3, e4]
        simp [join]
      rw [this, read_words _ (by simp) (by
        simp only [List.forall_mem_cons]
        exact ⟨by decide, by decide, sp_hex s, sp_int v, by simp⟩) (by simp; decide)]
      simp (decide := true) only [readWords, if_true, if_false, int_repr, int_hex, Option.bind_some, Option.map_some, withPlaces]
    | some u =>
      have : evText (fun i => lit "@" ++ reprNat (f i)) (.fromVariable s v (some u)) =
          60 :: (join [32] [lit "from", lit "variable", reprHexInt s, reprInt v, reprInt u] ++ [62]) := by
        rw [evText, l2, l3, e4]
        simp [join]
      rw [this, read_words _ (by simp) (by
        simp only [List.forall_mem_cons]
        exact ⟨by decide, by decide, sp_hex s, sp_int v, sp_int u, by simp⟩) (by simp; decide)]
      simp (decide := true) only [readWords, if_true, if_false, int_repr, int_hex, Option.bind_some, Option.map_some, withPlaces]
  | ifE => rfl
  | arith op v x =>
    have : evText (fun i => lit "@" ++ reprNat (f i)) (.arith op v x) =
        60 :: (join [32] [lit "(var", reprInt v ++ [41], lit (symbol op), reprInt x] ++ [62]) := by
      have e4 : lit "<(var " = 60 :: (lit "(var" ++ [32]) := rfl
      have e5 : lit ") " = [41, 32] := rfl
      rw [evText, l2, l3, e4, e5]
      simp [join]
    have hv : 32 ∉ reprInt v ++ [41] := by
      have := sp_int v
      simp [this]
    have hsym : 32 ∉ lit (symbol op) ∧ arithOf (lit (symbol op)) = some op := by
      cases op <;> decide +kernel
    have hvel : ¬ (reprInt v ++ [41]).take 9 = chars "velocity=" :=
      not_velocity (head_lt (int_chars v) _ (by simp))
    rw [this, read_words _ (by simp) (by
      simp only [List.forall_mem_cons]
      exact ⟨by decide, hv, hsym.1, sp_int x, by simp⟩) (by simp; decide)]
    simp (decide := true) only [readWords, if_true, if_false, hvel, false_and, last_word, List.dropLast_concat, int_repr, hsym.2,
      Option.bind_some, Option.map_some, withPlaces]
  | simple k v =>
    refine read_simple _ k v ?_
    rintro rfl
    exact hc
  | monoPoly v =>
    rcases hok with rfl | rfl <;> rfl
  | vibratoType v =>
    rcases hok with rfl | rfl | rfl <;> rfl
  | tempo v =>
    have : evText (fun i => lit "@" ++ reprNat (f i)) (.tempo v) = 60 :: (join [32] [lit "tempo", reprInt v] ++ [62]) := rfl
    rw [this, read_words _ (by simp) (by simp only [List.forall_mem_cons]; exact ⟨by decide, sp_int v, by simp⟩) (by simp; decide)]
    simp (decide := true) only [readWords, read2, if_true, if_false, int_repr, Option.map_some, withPlaces]
  | sweepPitch v =>
    have : evText (fun i => lit "@" ++ reprNat (f i)) (.sweepPitch v) =
        60 :: (join [32] [lit "sweep", lit "pitch", reprInt v] ++ [62]) := rfl
    rw [this, read_words _ (by simp) (by
      simp only [List.forall_mem_cons]
      exact ⟨by decide, by decide, sp_int v, by simp⟩) (by simp; decide)]
    simp (decide := true) only [readWords, read3, if_true, if_false, int_repr, Option.map_some, withPlaces]
  | endLoop => rfl
  | ret => rfl
  | defineTracks l =>
    have e4 : lit "<define tracks " = 60 :: (lit "define" ++ 32 :: (lit "tracks" ++ [32])) := rfl
    cases l with
    | nil => rfl
    | cons a l =>
      have : evText (fun i => lit "@" ++ reprNat (f i)) (.defineTracks (a :: l)) =
          60 :: (join [32] (lit "define" :: lit "tracks" :: (a :: l).map reprNat) ++ [62]) := by
        rw [evText, l2, l3, e4, List.map_cons, join, join]
        simp
      rw [this, read_words _ (by simp) (by
        intro w hw
        simp only [List.mem_cons, List.mem_map] at hw
        rcases hw with rfl | rfl | ⟨x, _, rfl⟩
        · decide
        · decide
        · exact sp_nat x) (by simp; decide), List.map_cons]
      have hne : reprNat a :: l.map reprNat ≠ [[]] := by
        intro e
        obtain ⟨c, t, h, _⟩ := reprNat_head a
        rw [h] at e
        simp at e
      have hall : all? nat? (reprNat a :: l.map reprNat) = some (a :: l) := all_repr nat_repr (a :: l)
      refine (words_tracks _ _).trans ?_
      rw [if_neg hne, hall]
      rfl
  | endTrack => rfl
  | raw d =>
    have : evText (fun i => lit "@" ++ reprNat (f i)) (.raw d) = 60 :: ((chars "raw data " ++ reprBytes d) ++ [62]) := rfl
    rw [this]
    unfold readEvent
    rw [if_pos ⟨rfl, by rw [← List.cons_append, last_word]⟩]
    simp only [List.tail_cons, List.dropLast_concat, after_append, read_bytes, Option.map_some, withPlaces]

/-! ## Lines -/

theorem nl_nat (n : Nat) : 10 ∉ reprNat n := fun h => by have := nat_chars n 10 h; omega
theorem nl_int (n : Int) : 10 ∉ reprInt n := fun h => by have := int_chars n 10 h; omega
theorem nl_hex (n : Int) : 10 ∉ reprHexInt n := fun h => by have := hex_chars n 10 h; omega
theorem nl_note (n : Int) : 10 ∉ noteName n := fun h => (sp_note n 10 h).2 rfl

theorem nl_bytes (b : Bytes) : 10 ∉ reprBytes b := by
  rw [reprBytes]
  have hq : 10 ≠ quoteFor (b.map UInt8.toNat) := by
    unfold quoteFor
    split <;> decide
  have : ∀ x, 10 ∉ reprByteIn (quoteFor (b.map UInt8.toNat)) x := by
    intro x
    unfold reprByteIn
    split
    · rename_i h
      simp [h, hq]
    · exact reprByte_no10 x
  simp [hq, this]

theorem nl_join {α : Type} {g : α → Str} (h : ∀ x, 10 ∉ g x) : ∀ l : List α, 10 ∉ join (lit " ") (l.map g)
  | [] => by simp [join]
  | [a] => by simpa [join] using h a
  | a :: b :: l => by
    have ih := nl_join h (b :: l)
    rw [List.map_cons, List.map_cons, join, ← List.map_cons]
    simp only [List.mem_append, not_or]
    exact ⟨⟨h a, by decide⟩, ih⟩

theorem nl_event (ref : Nat → Str) (hr : ∀ i, 10 ∉ ref i) (e : Ev) : 10 ∉ evText ref e := by
  cases e with
  | simple k v =>
    have : 10 ∉ lit (shortName k) := by cases k <;> decide
    have : 10 ∉ valueText k v := by
      cases k <;> simp only [valueText] <;> first | exact nl_int v | exact nl_note v | skip
      all_goals (split; · decide
                 split; · decide
                 exact nl_int v)
    simp only [evText, List.mem_append, not_or]
    exact ⟨⟨⟨⟨by decide, by assumption⟩, by decide⟩, this⟩, by decide⟩
  | note p v flag d =>
    simp only [evText, List.mem_append, not_or]
    refine ⟨⟨⟨⟨⟨⟨⟨by decide, nl_note p⟩, by decide⟩, nl_int v⟩, by decide⟩, nl_int d⟩, ?_⟩, by decide⟩
    cases flag <;> decide
  | rest d => simp only [evText, List.mem_append, not_or]; exact ⟨⟨by decide, nl_int d⟩, by decide⟩
  | instrumentSwitch b i =>
    simp only [evText, List.mem_append, not_or]
    exact ⟨⟨⟨⟨by decide, nl_nat b⟩, by decide⟩, nl_nat i⟩, by decide⟩
  | beginTrack n i =>
    simp only [evText, List.mem_append, not_or]
    exact ⟨⟨⟨⟨by decide, nl_int n⟩, by decide⟩, hr i⟩, by decide⟩
  | jump i => simp only [evText, List.mem_append, not_or]; exact ⟨⟨by decide, hr i⟩, by decide⟩
  | call i => simp only [evText, List.mem_append, not_or]; exact ⟨⟨by decide, hr i⟩, by decide⟩
  | random s args lo hi =>
    simp only [evText, List.mem_append, not_or]
    refine ⟨⟨⟨⟨⟨⟨⟨⟨⟨by decide, nl_hex s⟩, by decide⟩, nl_join nl_int args⟩, ?_⟩, by decide⟩, nl_int lo⟩, by decide⟩, nl_int hi⟩, by decide⟩
    split <;> decide
  | fromVariable s v u =>
    simp only [evText, List.mem_append, not_or]
    refine ⟨⟨⟨⟨⟨by decide, nl_hex s⟩, by decide⟩, nl_int v⟩, ?_⟩, by decide⟩
    cases u with
    | none => simp
    | some u => simp only [List.mem_append, not_or]; exact ⟨by decide, nl_int u⟩
  | arith op v x =>
    simp only [evText, List.mem_append, not_or]
    exact ⟨⟨⟨⟨⟨⟨by decide, nl_int v⟩, by decide⟩, by cases op <;> decide⟩, by decide⟩, nl_int x⟩, by decide⟩
  | monoPoly v => simp only [evText]; split <;> decide
  | vibratoType v =>
    simp only [evText, List.mem_append, not_or]
    refine ⟨⟨by decide, ?_⟩, by decide⟩
    split; · decide
    split; · decide
    split; · decide
    exact nl_int v
  | tempo v => simp only [evText, List.mem_append, not_or]; exact ⟨⟨by decide, nl_int v⟩, by decide⟩
  | sweepPitch v => simp only [evText, List.mem_append, not_or]; exact ⟨⟨by decide, nl_int v⟩, by decide⟩
  | defineTracks l => simp only [evText, List.mem_append, not_or]; exact ⟨⟨by decide, nl_join nl_nat l⟩, by decide⟩
  | raw d => simp only [evText, List.mem_append, not_or]; exact ⟨⟨by decide, nl_bytes d⟩, by decide⟩
  | _ => simp only [evText]; decide

/-- Every event ends with `>`. -/
theorem last_event (ref : Nat → Str) (e : Ev) : (evText ref e).getLast? = some 62 := by
  have l2 : lit ">" = [62] := rfl
  have e7 : lit ")>" = [41] ++ [62] := rfl
  cases e <;> simp only [evText, l2, e7, ← List.append_assoc, last_word] <;> first | rfl | skip
  split <;> rfl

/-- The number in brackets. -/
theorem read_number (n i : Nat) (t : Str) (c : Bool) (e : Ev) (hl : t.getLast? = some 62) (ht : readEvent t = some e) :
    readLine (lit "  " ++ [32] ++ lit "  [" ++ padLeft n i ++ lit "] " ++ t ++ (if c then [44] else [])) = some (i, e) := by
  have h1 : lit "  " = [32, 32] := rfl
  have h2 : lit "  [" = [32, 32, 91] := rfl
  have h3 : lit "] " = [93, 32] := rfl
  have hp : ∀ x ∈ padLeft n i, x ≠ 93 := by
    intro x hx
    rw [padLeft, List.mem_append, List.mem_replicate] at hx
    rcases hx with h | h
    · omega
    · have := nat_chars i x h
      omega
  have hd : ∀ k, (List.replicate k 32 ++ reprNat i).dropWhile (fun x => decide (x = 32)) = reprNat i := by
    intro k
    induction k with
    | zero =>
      obtain ⟨c, t, h, _⟩ := reprNat_head i
      have hc : c ≠ 32 := by
        rintro rfl
        exact sp_nat i (by rw [h]; simp)
      rw [List.replicate_zero, List.nil_append, h, List.dropWhile_cons, if_neg (by simpa using hc)]
    | succ k ih => rw [List.replicate_succ, List.cons_append, List.dropWhile_cons, if_pos (by decide), ih]
  have hw : ∀ (u v : Str), (∀ x ∈ u, x ≠ 93) → (u ++ 93 :: v).takeWhile (fun x => decide (x ≠ 93)) = u ∧
      (u ++ 93 :: v).dropWhile (fun x => decide (x ≠ 93)) = 93 :: v := by
    intro u v hu
    induction u with
    | nil => simp
    | cons a u ih =>
      have := ih (fun x hx => hu x (by simp [hx]))
      have ha := hu a (by simp)
      constructor
      · rw [List.cons_append, List.takeWhile_cons, if_pos (by simpa using ha), this.1]
      · rw [List.cons_append, List.dropWhile_cons, if_pos (by simpa using ha), this.2]
  have hs : (lit "  " ++ [32] ++ lit "  [" ++ padLeft n i ++ lit "] " ++ t ++ (if c then [44] else [])) =
      32 :: 32 :: 32 :: 32 :: 32 :: 91 :: (padLeft n i ++ 93 :: (32 :: (t ++ (if c then [44] else [])))) := by
    rw [h1, h2, h3]
    simp
  have hdw : (32 :: 32 :: 32 :: 32 :: 32 :: 91 :: (padLeft n i ++ 93 :: (32 :: (t ++ (if c then [44] else []))))).dropWhile
      (fun x => decide (x ≠ 91)) = [91] ++ (padLeft n i ++ 93 :: (32 :: (t ++ (if c then [44] else [])))) := by
    simp [List.dropWhile]
  have hcut : (if (t ++ (if c then [44] else [])).getLast? = some 44 then (t ++ (if c then [44] else [])).dropLast
      else t ++ (if c then [44] else [])) = t := by
    cases c with
    | true => simp
    | false => simp [hl]
  have h93 : after [93, 32] (93 :: 32 :: (t ++ (if c then [44] else []))) = some (t ++ (if c then [44] else [])) :=
    after_append [93, 32] _
  unfold readLine
  rw [hs, hdw]
  simp only [after_append, Option.bind_some, (hw _ _ hp).1, (hw _ _ hp).2, h93, hcut, ht, Option.map_some]
  rw [padLeft, hd, nat_repr]
  rfl

/-! ## A list of events -/

theorem text_of_dest {ref ref' : Nat → Str} {e : Ev} (h : ∀ d, dest e = some d → ref d = ref' d) : evText ref e = evText ref' e := by
  cases e <;> first | rfl | (simp only [evText]; rw [h _ rfl])

/-- The destination's text. -/
def placeText (events : List Nat) (i : Nat) : Str := lit "@" ++ reprNat (events.idxOf i)

theorem nl_place (events : List Nat) (i : Nat) : 10 ∉ placeText events i := by
  rw [placeText, List.mem_append, not_or]
  exact ⟨by decide, nl_nat _⟩

theorem event_text (w : World) (pre : Str) (events : List Nat) (e : Nat) (h : ∀ d, dest (w.obj e) = some d → d ∈ events) :
    eventText w pre events e = .ok (evText (placeText events) (w.obj e), []) := by
  have key : ∀ d, dest (w.obj e) = some d → destination w pre events e d = .ok (placeText events d, []) := by
    intro d hd
    rw [destination, indexIn, if_pos (h d hd)]
    rfl
  unfold eventText
  cases he : w.obj e <;> first
    | (rw [he] at key
       dsimp only
       rw [key _ rfl, bind_ok]
       rfl)
    | (dsimp only
       rw [strEvent]
       exact congrArg (fun t => Except.ok (t, [])) (text_of_dest (fun d hd => nomatch hd)))

/-- A line without the comma. -/
def bare (w : World) (events : List Nat) (n i e : Nat) : Str :=
  lit "  " ++ [32] ++ lit "  [" ++ padLeft n i ++ lit "] " ++ evText (placeText events) (w.obj e)

theorem event_loop (w : World) (events : List Nat) (n : Nat) : ∀ (es : List Nat) (i : Nat),
    (∀ e ∈ es, ∀ d, dest (w.obj e) = some d → d ∈ events) →
    eventLoop w (lit "  ") events [] 1 n i es = .ok ((es.zipIdx i).map fun p => bare w events n p.2 p.1 ++ [44], [])
  | [], _, _ => rfl
  | e :: es, i, h => by
    rw [eventLoop, event_text w _ events e (h e (by simp)), bind_ok,
      event_loop w events n es (i + 1) (fun x hx => h x (by simp [hx])), bind_ok, List.zipIdx_cons, List.map_cons]
    rfl

theorem cut_last (ls : List Str) (l : Str) : cutLast (ls.map (· ++ [44]) ++ [l ++ [44]]) = ls.map (· ++ [44]) ++ [l] := by
  rw [cutLast]
  simp

theorem join_lines (t : Str) : ∀ (ls : List Str), ls ≠ [] → join [10] [a, join [10] ls, t] = join [10] (a :: (ls ++ [t])) := by
  intro ls hne
  have : ∀ ls : List Str, ls ≠ [] → join [10] (ls ++ [t]) = join [10] ls ++ 10 :: t := by
    intro ls hne
    induction ls with
    | nil => exact absurd rfl hne
    | cons x ls ih =>
      cases ls with
      | nil => simp [join]
      | cons y ls =>
        rw [List.cons_append, List.cons_append, join, ← List.cons_append, ih (by simp), join]
        simp
  have hne' : ls ++ [t] ≠ [] := by simp
  rw [join, join, join]
  cases hl : ls ++ [t] with
  | nil => exact absurd hl hne'
  | cons y rest =>
    rw [join, ← hl, this ls hne]
    simp

theorem nl_bare (w : World) (events : List Nat) (n i e : Nat) : 10 ∉ bare w events n i e := by
  have h1 : 10 ∉ padLeft n i := by
    rw [padLeft, List.mem_append, not_or, List.mem_replicate]
    exact ⟨by omega, nl_nat i⟩
  simp only [bare, List.mem_append, not_or]
  exact ⟨⟨⟨⟨⟨by decide, by decide⟩, by decide⟩, h1⟩, by decide⟩, nl_event _ (nl_place events) _⟩

theorem fields_words (f : Fields) : fieldsText f = join [32] [chars "bankID" ++ 61 :: reprInt f.bankID,
    chars "volume" ++ 61 :: reprInt f.volume, chars "channelPressure" ++ 61 :: reprInt f.channelPressure,
    chars "polyphonicPressure" ++ 61 :: reprInt f.polyphonicPressure, chars "playerID" ++ 61 :: reprInt f.playerID] := by
  have h1 : lit "bankID=" = chars "bankID" ++ [61] := rfl
  have h2 : lit " volume=" = 32 :: (chars "volume" ++ [61]) := rfl
  have h3 : lit " channelPressure=" = 32 :: (chars "channelPressure" ++ [61]) := rfl
  have h4 : lit " polyphonicPressure=" = 32 :: (chars "polyphonicPressure" ++ [61]) := rfl
  have h5 : lit " playerID=" = 32 :: (chars "playerID" ++ [61]) := rfl
  rw [fieldsText, h1, h2, h3, h4, h5]
  simp [join]

theorem read_fields (f : Fields) : readFields (splitOn 32 (fieldsText f)) = some f := by
  have h : ∀ (c : String) (v : Int), 32 ∉ chars c → 32 ∉ chars c ++ 61 :: reprInt v := by
    intro c v hc
    have := sp_int v
    simp [hc, this]
  rw [fields_words, split_join]
  · simp only [readFields, field_text, Option.bind_some, Option.map_some]
  · simp
  · simp only [List.forall_mem_cons]
    exact ⟨h _ _ (by decide), h _ _ (by decide), h _ _ (by decide), h _ _ (by decide), h _ _ (by decide), by simp⟩

theorem nl_fields (f : Fields) : 10 ∉ fieldsText f := by
  simp only [fieldsText, List.mem_append, not_or]
  exact ⟨⟨⟨⟨⟨⟨⟨⟨⟨by decide, nl_int _⟩, by decide⟩, nl_int _⟩, by decide⟩, nl_int _⟩, by decide⟩, nl_int _⟩, by decide⟩, nl_int _⟩

/-- The printed lines. -/
def shown (w : World) (events : List Nat) (n : Nat) : List Str :=
  cutLast ((events.zipIdx 0).map fun p => bare w events n p.2 p.1 ++ [44])

theorem shown_eq (w : World) (events : List Nat) (n : Nat) (hne : events ≠ []) :
    shown w events n = (events.dropLast.zipIdx 0).map (fun p => bare w events n p.2 p.1 ++ [44]) ++
      [bare w events n (events.length - 1) (events.getLast hne)] := by
  have he : events.zipIdx 0 = events.dropLast.zipIdx 0 ++ [(events.getLast hne, events.length - 1)] := by
    conv => lhs; rw [← List.dropLast_concat_getLast hne]
    rw [List.zipIdx_append]
    simp
  have := cut_last ((events.dropLast.zipIdx 0).map fun p => bare w events n p.2 p.1) (bare w events n (events.length - 1) (events.getLast hne))
  rw [List.map_map] at this
  rw [shown, he, List.map_append]
  exact this

theorem str_sseq (w : World) (f : Fields) (events : List Nat) (h : ∀ e ∈ events, ∀ d, dest (w.obj e) = some d → d ∈ events) :
    strSSEQ w f (some events) = .ok (join [10] [lit "<sseq " ++ fieldsText f,
      join [10] (shown w events (reprNat (events.length - 1)).length), lit ">"]) := by
  have h1 : labelLoop w (lit "  ") events [] [] [] [] 0 = .ok ([], [], [], 0) := rfl
  rw [strSSEQ, printList, h1, bind_ok]
  dsimp only
  have h2 := event_loop w events (reprNat (events.length - 1)).length events 0 h
  have h3 : min 0 48 + 1 = 1 := rfl
  rw [h3, h2, bind_ok]
  dsimp only
  cases hv : events with
  | nil => rfl
  | cons e es => rfl

theorem all_some {α : Type} {g : Str → Option α} : ∀ (ps : List (Str × α)), (∀ p ∈ ps, g p.1 = some p.2) →
    all? g (ps.map Prod.fst) = some (ps.map Prod.snd)
  | [], _ => rfl
  | p :: ps, h => by
    rw [List.map_cons, all?, h p (by simp), all_some ps (fun q hq => h q (by simp [hq]))]
    rfl

theorem read_bare (w : World) (events : List Nat) (n i e : Nat) (c : Bool) (hok : EvOk (w.obj e)) (hc : Clear (w.obj e)) :
    readLine (bare w events n i e ++ (if c then [44] else [])) = some (i, withPlaces (events.idxOf ·) (w.obj e)) :=
  read_number n i _ c _ (last_event _ _) (read_event (events.idxOf ·) (w.obj e) hok hc)

theorem read_shown (w : World) (events : List Nat) (n : Nat) (hne : events ≠ []) (hok : ∀ e ∈ events, EvOk (w.obj e))
    (hc : ∀ e ∈ events, Clear (w.obj e)) : all? readLine (shown w events n) = some (numbered w.obj events) := by
  have he : events.zipIdx 0 = events.dropLast.zipIdx 0 ++ [(events.getLast hne, events.length - 1)] := by
    conv => lhs; rw [← List.dropLast_concat_getLast hne]
    rw [List.zipIdx_append]
    simp
  have := all_some (g := readLine) ((events.dropLast.zipIdx 0).map (fun p => (bare w events n p.2 p.1 ++ [44],
    (p.2, withPlaces (events.idxOf ·) (w.obj p.1)))) ++ [(bare w events n (events.length - 1) (events.getLast hne),
      (events.length - 1, withPlaces (events.idxOf ·) (w.obj (events.getLast hne))))]) (by
    intro p hp
    rw [List.mem_append, List.mem_map, List.mem_singleton] at hp
    rcases hp with ⟨q, hq, rfl⟩ | rfl
    · have hm : q.1 ∈ events := by
        have : (q.1, q.2) ∈ events.dropLast.zipIdx 0 := hq
        have := List.fst_mem_of_mem_zipIdx this
        exact List.dropLast_subset _ this
      exact read_bare w events n q.2 q.1 true (hok _ hm) (hc _ hm)
    · have hm := List.getLast_mem hne
      have := read_bare w events n (events.length - 1) (events.getLast hne) false (hok _ hm) (hc _ hm)
      rw [if_neg (by decide), List.append_nil] at this
      exact this)
  rw [List.map_append, List.map_append, List.map_map, List.map_map] at this
  rw [shown_eq w events n hne, numbered, he, List.map_append]
  exact this

theorem read_sseq (w : World) (f : Fields) (events : List Nat) (h : ∀ e ∈ events, ∀ d, dest (w.obj e) = some d → d ∈ events)
    (hok : ∀ e ∈ events, EvOk (w.obj e)) (hc : ∀ e ∈ events, Clear (w.obj e)) :
    ∃ t, strSSEQ w f (some events) = .ok t ∧ readSSEQ t = some (f, some (numbered w.obj events)) := by
  refine ⟨_, str_sseq w f events h, ?_⟩
  have l1 : lit ">" = [62] := rfl
  have hf : 10 ∉ lit "<sseq " ++ fieldsText f := by
    rw [List.mem_append, not_or]
    exact ⟨by decide, nl_fields f⟩
  have ha : after (chars "<sseq ") (lit "<sseq " ++ fieldsText f) = some (fieldsText f) := after_append _ _
  by_cases hne : events = []
  · subst hne
    have : splitLines (join [10] [lit "<sseq " ++ fieldsText f, join [10] (shown w [] (reprNat (([] : List Nat).length - 1)).length), lit ">"]) =
        [lit "<sseq " ++ fieldsText f, [], [62]] := splitLines_join [lit "<sseq " ++ fieldsText f, [], [62]] (by simp) (by
          simp only [List.forall_mem_cons]
          exact ⟨hf, by simp, by decide, by simp⟩)
    rw [readSSEQ, this]
    simp only [ha, Option.bind_some, read_fields]
    rfl
  · have hs := read_shown w events (reprNat (events.length - 1)).length hne hok hc
    generalize (reprNat (events.length - 1)).length = n at hs
    have hsn : shown w events n ≠ [] := by rw [shown_eq w events n hne]; simp
    have hnl : ∀ l ∈ shown w events n, 10 ∉ l := by
      intro l hl
      rw [shown_eq w events n hne, List.mem_append, List.mem_map, List.mem_singleton] at hl
      rcases hl with ⟨p, _, rfl⟩ | rfl
      · rw [List.mem_append, not_or]
        exact ⟨nl_bare _ _ _ _ _, by decide⟩
      · exact nl_bare _ _ _ _ _
    have hne0 : shown w events n ≠ [[]] := by
      rw [shown_eq w events n hne]
      cases events.dropLast.zipIdx 0 with
      | nil => simp [bare]
      | cons _ _ => simp
    have : splitLines (join [10] [lit "<sseq " ++ fieldsText f, join [10] (shown w events n), lit ">"]) =
        (lit "<sseq " ++ fieldsText f) :: (shown w events n ++ [[62]]) := by
      rw [join_lines _ _ hsn, l1]
      refine splitLines_join _ (by simp) ?_
      intro l hl
      simp only [List.mem_cons, List.mem_append, List.not_mem_nil, or_false] at hl
      rcases hl with rfl | hl | rfl
      · exact hf
      · exact hnl l hl
      · decide
    rw [readSSEQ, this]
    cases hv : shown w events n ++ [[62]] with
    | nil => simp at hv
    | cons x xs =>
      dsimp only
      rw [← hv, ha, Option.bind_some, read_fields, Option.bind_some, if_pos (last_word' _ _), List.dropLast_concat, if_neg hne0, hs]
      rfl

theorem read_unparsed (w : World) (f : Fields) : ∃ t, strSSEQ w f none = .ok t ∧ readSSEQ t = some (f, none) := by
  refine ⟨_, rfl, ?_⟩
  have h10 : 10 ∉ lit "<sseq unparsed " ++ fieldsText f ++ lit ">" := by
    rw [List.mem_append, List.mem_append, not_or, not_or]
    exact ⟨⟨by decide, nl_fields f⟩, by decide⟩
  have ha : after (chars "<sseq unparsed ") (lit "<sseq unparsed " ++ fieldsText f ++ lit ">") = some (fieldsText f ++ [62]) := by
    rw [List.append_assoc]
    exact after_append _ _
  rw [readSSEQ, splitLines_line _ h10]
  dsimp only
  rw [ha, Option.bind_some, if_pos (last_word _ _), List.dropLast_concat, read_fields]
  rfl

/-! ## Saving the numbered events -/

theorem length_places (g : Nat → Nat) (e : Ev) : (withPlaces g e).dataLength = e.dataLength := by cases e <;> rfl

theorem save_places {g : Nat → Nat} {offs offs' : Nat → Option Nat} {e : Ev} (h : ∀ d, dest e = some d → offs' (g d) = offs d) :
    (withPlaces g e).save offs' = e.save offs := by
  cases e <;> first | rfl | (simp only [withPlaces, Ev.save, offsetOf]; rw [h _ rfl])

/-- The identities replaced. -/
def moved (g : Nat → Nat) (d : List (Nat × Nat × Ev)) : List (Nat × Nat × Ev) := d.map fun p => (g p.1, p.2.1, withPlaces g p.2.2)

theorem moved_set {g : Nat → Nat} {S : List Nat} (inj : ∀ a ∈ S, ∀ b ∈ S, g a = g b → a = b) {k : Nat} (hk : k ∈ S) (v : Nat × Ev) :
    ∀ (d : List (Nat × Nat × Ev)), (∀ p ∈ d, p.1 ∈ S) → dictSet (moved g d) (g k) (v.1, withPlaces g v.2) = moved g (dictSet d k v)
  | [], _ => rfl
  | p :: d, h => by
    rw [moved, List.map_cons, dictSet, dictSet]
    by_cases e : p.1 = k
    · rw [if_pos (by rw [e]), if_pos e]
      rfl
    · rw [if_neg (fun h' => e (inj _ (h p (by simp)) _ hk h')), if_neg e]
      have := moved_set inj hk v d (fun q hq => h q (by simp [hq]))
      rw [moved] at this
      rw [this]
      rfl

theorem keys_set {S : List Nat} {k : Nat} (hk : k ∈ S) (v : Nat × Ev) :
    ∀ (d : List (Nat × Nat × Ev)), (∀ p ∈ d, p.1 ∈ S) → ∀ p ∈ dictSet d k v, p.1 ∈ S
  | [], _, p, hp => by
    rw [dictSet, List.mem_singleton] at hp
    rw [hp]
    exact hk
  | q :: d, h, p, hp => by
    rw [dictSet] at hp
    split at hp
    · rcases List.mem_cons.1 hp with rfl | hp
      · exact hk
      · exact h p (by simp [hp])
    · rcases List.mem_cons.1 hp with rfl | hp
      · exact h p (by simp)
      · exact keys_set hk v d (fun q hq => h q (by simp [hq])) p hp

theorem place_moved {g : Nat → Nat} {S : List Nat} (inj : ∀ a ∈ S, ∀ b ∈ S, g a = g b → a = b) :
    ∀ (es : List (Nat × Ev)) (d : List (Nat × Nat × Ev)) (off : Nat), (∀ e ∈ es, e.1 ∈ S) → (∀ p ∈ d, p.1 ∈ S) →
      placeEvents (es.map fun e => (g e.1, withPlaces g e.2)) (moved g d) off =
        (placeEvents es d off).map fun r => (moved g r.1, r.2)
  | [], _, _, _, _ => rfl
  | e :: es, d, off, he, hd => by
    rw [List.map_cons, placeEvents, placeEvents, length_places]
    dsimp only
    cases hn : e.2.dataLength with
    | error x => rfl
    | ok n =>
      rw [bind_ok, bind_ok, moved_set inj (he e (by simp)) (off, e.2) d hd]
      exact place_moved inj es _ _ (fun x hx => he x (by simp [hx])) (keys_set (he e (by simp)) _ d hd)

theorem place_keys {S : List Nat} {P : Ev → Prop} : ∀ (es : List (Nat × Ev)) (d : List (Nat × Nat × Ev)) (off : Nat) {r},
    (∀ e ∈ es, e.1 ∈ S ∧ P e.2) → (∀ p ∈ d, p.1 ∈ S ∧ P p.2.2) → placeEvents es d off = .ok r → ∀ p ∈ r.1, p.1 ∈ S ∧ P p.2.2
  | [], d, off, r, _, hd, h => by
    rw [placeEvents] at h
    cases h
    exact hd
  | e :: es, d, off, r, he, hd, h => by
    rw [placeEvents] at h
    obtain ⟨n, _, h⟩ := bind_eq_ok.1 h
    refine place_keys es _ _ (fun x hx => he x (by simp [hx])) ?_ h
    have : ∀ (d : List (Nat × Nat × Ev)), (∀ p ∈ d, p.1 ∈ S ∧ P p.2.2) → ∀ p ∈ dictSet d e.1 (off, e.2), p.1 ∈ S ∧ P p.2.2 := by
      intro d
      induction d with
      | nil =>
        intro _ p hp
        rw [dictSet, List.mem_singleton] at hp
        rw [hp]
        exact he e (by simp)
      | cons q d ih =>
        intro hd p hp
        rw [dictSet] at hp
        split at hp
        · rcases List.mem_cons.1 hp with rfl | hp
          · exact he e (by simp)
          · exact hd p (by simp [hp])
        · rcases List.mem_cons.1 hp with rfl | hp
          · exact hd p (by simp)
          · exact ih (fun q hq => hd q (by simp [hq])) p hp
    exact this d hd

theorem lookup_moved {g : Nat → Nat} {S : List Nat} (inj : ∀ a ∈ S, ∀ b ∈ S, g a = g b → a = b) {k : Nat} (hk : k ∈ S) :
    ∀ (d : List (Nat × Nat × Ev)), (∀ p ∈ d, p.1 ∈ S) →
      ((moved g d).lookup (g k)).map Prod.fst = (d.lookup k).map Prod.fst
  | [], _ => rfl
  | p :: d, h => by
    have ih := lookup_moved inj hk d (fun q hq => h q (by simp [hq]))
    rw [moved] at ih
    rw [moved, List.map_cons, List.lookup_cons, List.lookup_cons]
    by_cases e : k = p.1
    · rw [← e]
      simp
    · have : g k ≠ g p.1 := fun h' => e (inj _ hk _ (h p (by simp)) h')
      rw [beq_false_of_ne e, beq_false_of_ne this]
      exact ih

theorem write_moved {g : Nat → Nat} {offs offs' : Nat → Option Nat} : ∀ (d : List (Nat × Nat × Ev)) (data : Bytes),
    (∀ p ∈ d, ∀ k, dest p.2.2 = some k → offs' (g k) = offs k) →
      writeEvents offs' (moved g d) data = writeEvents offs d data
  | [], _, _ => rfl
  | p :: d, data, h => by
    have hp := save_places (h p (by simp))
    rw [moved, List.map_cons, writeEvents, writeEvents]
    dsimp only
    rw [hp]
    cases p.2.2.save offs with
    | error x => rfl
    | ok b =>
      rw [bind_ok, bind_ok]
      exact write_moved d _ (fun q hq => h q (by simp [hq]))

theorem save_moved {g : Nat → Nat} {S : List Nat} (inj : ∀ a ∈ S, ∀ b ∈ S, g a = g b → a = b) (es : List (Nat × Ev))
    (he : ∀ e ∈ es, e.1 ∈ S ∧ ∀ d, dest e.2 = some d → d ∈ S) :
    saveSequenceEvents (es.map fun e => (g e.1, withPlaces g e.2)) [] = saveSequenceEvents es [] := by
  have h1 := place_moved inj es [] 0 (fun e h => (he e h).1) (by simp)
  have h0 : moved g [] = [] := rfl
  rw [h0] at h1
  rw [saveSequenceEvents, saveSequenceEvents, h1]
  cases hp : placeEvents es [] 0 with
  | error x => rfl
  | ok r =>
    have hk := place_keys (S := S) (P := fun e => ∀ d, dest e = some d → d ∈ S) es [] 0 he (by simp) hp
    have hw := write_moved (g := g) (offs := fun id => (r.1.lookup id).map Prod.fst)
      (offs' := fun id => ((moved g r.1).lookup id).map Prod.fst) r.1 (zeros r.2)
      (fun p hp k hd => lookup_moved inj ((hk p hp).2 k hd) r.1 (fun q hq => (hk q hq).1))
    rw [bind_ok]
    show (do
      let r ← Except.ok (moved g r.1, r.2)
      let offs := fun id => (r.1.lookup id).map Prod.fst
      let data ← writeEvents offs r.1 (zeros r.2)
      let notableOffsets ← mapE (offsetOf offs) []
      return (data, notableOffsets)) = _
    rw [bind_ok]
    dsimp only
    rw [hw]
    rfl

theorem zip_places (w : World) (events : List Nat) (hn : events.Nodup) :
    numbered w.obj events = (given w.obj events).map fun e => (events.idxOf e.1, withPlaces (events.idxOf ·) e.2) := by
  rw [numbered, given, List.map_map]
  apply List.ext_getElem
  · simp
  · intro i h1 h2
    simp only [List.getElem_map, List.getElem_zipIdx, Function.comp]
    rw [hn.idxOf_getElem]
    simp

theorem save_numbered (w : World) (events : List Nat) (hn : events.Nodup)
    (h : ∀ e ∈ events, ∀ d, dest (w.obj e) = some d → d ∈ events) :
    saveSequenceEvents (numbered w.obj events) [] = saveSequenceEvents (given w.obj events) [] := by
  rw [zip_places w events hn]
  refine save_moved (g := (events.idxOf ·)) (S := events) ?_ _ ?_
  · intro a ha b hb e
    have h1 := List.getElem_idxOf (List.idxOf_lt_length_iff.2 ha)
    have h2 := List.getElem_idxOf (List.idxOf_lt_length_iff.2 hb)
    rw [← h1, ← h2]
    simp only [e]
  · intro e he
    rw [given, List.mem_map] at he
    obtain ⟨i, hi, rfl⟩ := he
    exact ⟨hi, h i hi⟩

end Verif.Proofs.EventText
