import Verif.Proofs.SeqSave

/-!
# Properties of sequence events (C25–C28) and of the SSEQ container (C29)
-/

namespace Verif.Props.Sequence

open Verif Verif.Model.SoundSequence Verif.Spec.Sequence
open Verif.Proofs.SeqVar Verif.Proofs.SeqEvent Verif.Proofs.SeqSave

/-! ## C25 -/

/-- C25: a number below 2^35 is read back from wherever it was written, and its declared length is the number of
bytes written. -/
theorem vlq_roundtrip (x : Nat) (hx : x < 2 ^ 35) : ∃ w, writeVar x = .ok w ∧ lenVar x = .ok w.length ∧
    ∀ before after : Bytes, readVar (before ++ w ++ after) before.length = .ok x := by
  refine ⟨_, writeVar_eq x, lenVar_eq' x, fun before after => ?_⟩
  rw [readVar_at (At.mid before _ after), if_pos hx]

example : (300 : Nat) < 2 ^ 35 ∧ writeVar 300 = .ok [0x82, 0x2C] ∧
    readVar [1, 0x82, 0x2C, 0xFF] 1 = .ok 300 := by decide +kernel

/-- C25: larger numbers are written too, with the declared length, but refused when reading. -/
theorem vlq_too_big (x : Nat) (hx : 2 ^ 35 ≤ x) : ∃ w, writeVar x = .ok w ∧ lenVar x = .ok w.length ∧
    ∀ before after : Bytes, readVar (before ++ w ++ after) before.length = .error .valueError := by
  refine ⟨_, writeVar_eq x, lenVar_eq' x, fun before after => ?_⟩
  rw [readVar_at (At.mid before _ after), if_neg (by omega)]

example : 2 ^ 35 ≤ (2 ^ 35 : Nat) ∧ writeVar (2 ^ 35) = .ok [0x81, 0x80, 0x80, 0x80, 0x80, 0] := by decide +kernel

/-- C25: negative numbers can neither be written nor measured. -/
theorem vlq_negative (x : Int) (hx : x < 0) : writeVar x = .error .valueError ∧ lenVar x = .error .valueError := by
  unfold writeVar lenVar
  rw [if_pos hx, if_pos hx]; exact ⟨rfl, rfl⟩

example : (-1 : Int) < 0 := by decide

/-- C25: the format.  All bytes but the last have their top bit set, the last does not, and the number is the
one whose base-128 digits, most significant first, are the bytes without their top bits. -/
theorem vlq_format (x : Nat) : ∃ w last, writeVar x = .ok (w ++ [last]) ∧ (∀ b ∈ w, 128 ≤ b.toNat) ∧
    last.toNat < 128 ∧ (w ++ [last]).foldl (fun acc b => acc * 128 + b.toNat % 128) 0 = x := by
  have hlt : ∀ v ∈ (varDigits x x).reverse, v < 128 := fun v hv => varDigits_lt _ _ v (List.mem_reverse.1 hv)
  have hval : (varDigits x x).reverse.foldl (fun acc v => acc * 128 + v) 0 = x := by
    rw [List.foldl_reverse]; exact varDigits_val x x (Nat.le_refl _)
  have hne : (varDigits x x).reverse ≠ [] := by simpa using varDigits_ne_nil x x
  rw [writeVar_eq]
  unfold varBytes
  have key : ∀ (l : List Nat) (acc : Nat), l ≠ [] → (∀ v ∈ l, v < 128) → ∃ (w : Bytes) (last : UInt8),
      enc l = w ++ [last] ∧ (∀ b ∈ w, 128 ≤ b.toNat) ∧ last.toNat < 128 ∧
      (w ++ [last]).foldl (fun acc b => acc * 128 + b.toNat % 128) acc = l.foldl (fun acc v => acc * 128 + v) acc := by
    intro l
    induction l with
    | nil => intro _ h; exact absurd rfl h
    | cons p l ih =>
      intro acc _ h
      have hp := h p (by simp)
      cases l with
      | nil =>
        refine ⟨[], UInt8.ofNat p, rfl, by simp, ?_, ?_⟩
        · rw [UInt8.toNat_ofNat']; omega
        · simp only [List.nil_append, List.foldl_cons, List.foldl_nil, UInt8.toNat_ofNat']; omega
      | cons q l =>
        obtain ⟨w, last, h1, h2, h3, h4⟩ := ih (acc * 128 + p) (by simp) (fun v hv => h v (by simp [hv]))
        have e1 : (UInt8.ofNat (p ||| 0x80)).toNat = p + 128 := by
          rw [or80 hp, UInt8.toNat_ofNat']; omega
        refine ⟨UInt8.ofNat (p ||| 0x80) :: w, last, ?_, ?_, h3, ?_⟩
        · rw [enc_cons2, h1]; rfl
        · intro b hb
          rcases List.mem_cons.1 hb with rfl | hb
          · rw [e1]; omega
          · exact h2 b hb
        · rw [List.cons_append, List.foldl_cons, e1, show (p + 128) % 128 = p by omega, h4]; rfl
  obtain ⟨w, last, h1, h2, h3, h4⟩ := key _ 0 hne hlt
  exact ⟨w, last, by rw [h1], h2, h3, by rw [h4, hval]⟩

/-! ## C26 -/

/-- C26, for every event that is not a from-variable event: it saves exactly when the events it refers to have
offsets below 2^24, and then to the number of bytes it declares.  Missing: from-variable events, of which the claim
is false (`from_variable_length`). -/
theorem event_length_partial (e : Ev) (offs : Nat → Option Nat) (he : InRange e) (hf : isFromVariable e = false) :
    ((∃ b, e.save offs = .ok b) ↔ ∀ r ∈ refs e, ∃ o, offs r = some o ∧ o < 2 ^ 24) ∧
    ∀ b, e.save offs = .ok b → e.dataLength = .ok b.length := by
  refine ⟨⟨fun ⟨b, hb⟩ => (save_eq_ok.1 hb).2.1, fun h => ⟨_, save_eq_ok.2 ⟨saves_of_inRange he, h, rfl⟩⟩⟩, ?_⟩
  intro b hb
  obtain ⟨_, _, rfl⟩ := save_eq_ok.1 hb
  exact dataLength_eq _ he hf

example : InRange (.note 60 100 false 300) ∧ isFromVariable (.note 60 100 false 300) = false ∧
    Ev.save (fun _ => none) (.note 60 100 false 300) = .ok [60, 100, 0x82, 0x2C] := by
  refine ⟨?_, rfl, by decide +kernel⟩
  simp [InRange]

/-- C26 is false of from-variable events: each of them saves to more bytes than it declares. -/
theorem from_variable_length (s v : Int) (u : Option Int) (offs : Nat → Option Nat) (b : Bytes)
    (h : Ev.save offs (.fromVariable s v u) = .ok b) :
    (0xB0 ≤ s ∧ s ≤ 0xBD → Ev.dataLength (.fromVariable s v u) = .ok 4 ∧ b.length = 6) ∧
    (¬ (0xB0 ≤ s ∧ s ≤ 0xBD) → Ev.dataLength (.fromVariable s v u) = .ok 3 ∧ b.length = 4) := by
  obtain ⟨_, _, rfl⟩ := save_eq_ok.1 h
  exact fromVariable_length _ s v u

example : Ev.save (fun _ => none) (.fromVariable 0xC1 5 none) = .ok [0xA1, 0xC1, 5, 0] := by decide +kernel

/-! ## C27 -/

/-- C27: every event that refers to no other event can be saved, and decoding its bytes gives the event back,
whatever surrounds them. -/
theorem event_roundtrip (e : Ev) (he : InRange e) (hr : refs e = []) :
    ∃ b, e.save (fun _ => none) = .ok b ∧
      ∀ before after : Bytes, decode (before ++ b ++ after) before.length = .ok e := by
  refine ⟨_, save_eq_ok.2 ⟨saves_of_inRange he, by simp [hr], rfl⟩, fun before after => ?_⟩
  rw [decode_at _ he (by simp [hr]) (At.mid before _ after)]
  cases e <;> first | rfl | (simp [refs] at hr)

example : InRange (.random 0xC0 [] (-5) 300) ∧ refs (.random 0xC0 [] (-5) 300) = [] := by
  refine ⟨⟨by unfold UByte; omega, by simp, by decide, ?_, ?_⟩, rfl⟩ <;> · unfold Signed16; omega

example : InRange (.fromVariable 0xB1 7 (some (-3))) ∧ InRange (.defineTracks [0, 3, 15]) := by
  refine ⟨⟨by unfold UByte; omega, ?_⟩, by simp [InRange]⟩
  rw [if_pos (by omega)]
  refine ⟨⟨_, rfl, ?_⟩, ?_⟩ <;> · unfold Signed8; omega

/-- C27, with references: a begin-track, jump or call event decodes to the same event referring to the offset that
was assigned to its destination. -/
theorem event_roundtrip_refs (e : Ev) (he : InRange e) (offs : Nat → Option Nat) (b : Bytes)
    (hb : e.save offs = .ok b) (before after : Bytes) :
    decode (before ++ b ++ after) before.length = .ok (mapRefs (fun r => (offs r).getD 0) e) ∧
    ∀ r ∈ refs e, ∃ o, offs r = some o := by
  obtain ⟨_, h, rfl⟩ := save_eq_ok.1 hb
  refine ⟨decode_at _ he ?_ (At.mid before _ after), fun r hr => ?_⟩
  · intro r hr
    obtain ⟨o, h1, h2⟩ := h r hr
    rw [h1]; exact h2
  · obtain ⟨o, h1, _⟩ := h r hr
    exact ⟨o, h1⟩

example : InRange (.beginTrack 3 99) ∧
    Ev.save (fun i => if i = 99 then some 0x10203 else none) (.beginTrack 3 99) = .ok [0x93, 3, 3, 2, 1] := by
  refine ⟨by simp [InRange, UByte], by decide +kernel⟩

/-! ## C28 -/

/-- A list of event objects all of which are proper: different objects, fields in range or raw data. -/
def Proper (events : List (Nat × Ev)) : Prop :=
  (events.map Prod.fst).Nodup ∧ ∀ e ∈ events, InRange e.2 ∨ ∃ b, e.2 = .raw b

/-- C28: without from-variable events, the data is the concatenation of the events' own bytes, each of which has
the length its event declares, and the notable offsets are the positions of the notable events. -/
theorem sequence_layout (events : List (Nat × Ev)) (notable : List Nat) (data : Bytes) (noffs : List Nat)
    (hp : Proper events) (hf : ∀ e ∈ events, isFromVariable e.2 = false)
    (h : saveSequenceEvents events notable = .ok (data, noffs)) :
    (∃ bs, mapE (fun e => e.2.save (position events)) events = .ok bs ∧ data = bs.flatten ∧
      bs.map List.length = events.map (fun e => declared e.2)) ∧
    notable.map (position events) = noffs.map some := by
  have hlen : ∀ e ∈ events, (evBytes (resolve events) e.2).length = declared e.2 := fun e he =>
    declared_eq _ (hp.2 e he) (hf e he)
  obtain ⟨_, h2, _, _, h5, h6⟩ := save_ok hp.1 (fun e he => Nat.le_of_eq (hlen e he).symm) h
  constructor
  · refine ⟨events.map fun e => evBytes (resolve events) e.2, ?_, ?_, ?_⟩
    · apply mapE_ok_of_forall
      intro e he
      exact save_eq_ok.2 ⟨(h2 e he).1, (h2 e he).2, rfl⟩
    · rw [h5 hlen, cut]
      congr 1
      apply List.map_congr_left
      intro e he
      rw [List.take_of_length_le (Nat.le_of_eq (hlen e he))]
    · rw [List.map_map]
      exact List.map_congr_left hlen
  · clear h2 h5 h
    induction notable generalizing noffs with
    | nil => cases h6; rfl
    | cons x xs ih =>
      obtain ⟨o, os, ho, hos, rfl⟩ := mapE_cons_ok.1 h6
      rw [List.map_cons, List.map_cons, ih os hos]
      unfold offsetOf at ho
      split at ho
      · rename_i h'; cases ho; rw [h']
      · cases ho

/-- C28, for all proper lists, including from-variable events: the bytes an event declares lie at the sum of the
declared lengths of the events before it, and this is its `position`. -/
theorem sequence_event_at (pre post : List (Nat × Ev)) (e : Nat × Ev) (notable : List Nat) (data : Bytes)
    (noffs : List Nat) (hp : Proper (pre ++ e :: post))
    (h : saveSequenceEvents (pre ++ e :: post) notable = .ok (data, noffs)) :
    position (pre ++ e :: post) e.1 = some (total pre) ∧
    ∃ b, e.2.save (position (pre ++ e :: post)) = .ok b ∧ declared e.2 ≤ b.length ∧
      slice data (total pre) (total pre + declared e.2) = b.take (declared e.2) := by
  obtain ⟨h1, h2, h3, _, _, _⟩ := save_ok hp.1 (fun x hx => declared_le _ (hp.2 x hx)) h
  refine ⟨position_split hp.1, _, save_eq_ok.2 ⟨(h2 e (by simp)).1, (h2 e (by simp)).2, rfl⟩,
    declared_le _ (hp.2 e (by simp)), ?_⟩
  have hat := cut_at (resolve (pre ++ e :: post)) (pre := pre) (post := post) (e := e)
    (fun x hx => declared_le _ (hp.2 x (by simp [hx])))
  rw [← h3] at hat
  apply (At.of_take hat).slice_eq
  rw [List.length_take]
  have := declared_le (resolve (pre ++ e :: post)) (hp.2 e (by simp))
  omega

/-- C28: a jump stores the position of its destination, 3 bytes little endian after the type byte. -/
theorem sequence_jump (pre post : List (Nat × Ev)) (id dest : Nat) (notable : List Nat) (data : Bytes)
    (noffs : List Nat) (hp : Proper (pre ++ (id, .jump dest) :: post))
    (h : saveSequenceEvents (pre ++ (id, .jump dest) :: post) notable = .ok (data, noffs)) :
    data[total pre]? = some 0x94 ∧
    position (pre ++ (id, .jump dest) :: post) dest = some (leVal (slice data (total pre + 1) (total pre + 4))) := by
  obtain ⟨h1, h2, h3, _, _, _⟩ := save_ok hp.1 (fun x hx => declared_le _ (hp.2 x hx)) h
  have hat := cut_at (resolve (pre ++ (id, .jump dest) :: post)) (pre := pre) (post := post) (e := (id, .jump dest))
    (fun x hx => declared_le _ (hp.2 x (by simp [hx])))
  rw [← h3] at hat
  replace hat := At.of_take hat
  rw [show declared (.jump dest) = 4 from rfl, List.take_of_length_le (by simp [evBytes]), evBytes, At.split] at hat
  obtain ⟨o, ho, hlt⟩ := (h2 (id, .jump dest) (by simp)).2 dest (by simp [refs])
  refine ⟨pyIdx_eq_ok.1 hat.1.pyIdx, ?_⟩
  rw [(hat.2.cast (p := total pre + 1) (by simp)).slice_eq (b := total pre + 4) (by simp), resolve, ho, Option.getD_some, leVal_leBytes_of_lt hlt]

/-- C28: so does a call. -/
theorem sequence_call (pre post : List (Nat × Ev)) (id dest : Nat) (notable : List Nat) (data : Bytes)
    (noffs : List Nat) (hp : Proper (pre ++ (id, .call dest) :: post))
    (h : saveSequenceEvents (pre ++ (id, .call dest) :: post) notable = .ok (data, noffs)) :
    data[total pre]? = some 0x95 ∧
    position (pre ++ (id, .call dest) :: post) dest = some (leVal (slice data (total pre + 1) (total pre + 4))) := by
  obtain ⟨h1, h2, h3, _, _, _⟩ := save_ok hp.1 (fun x hx => declared_le _ (hp.2 x hx)) h
  have hat := cut_at (resolve (pre ++ (id, .call dest) :: post)) (pre := pre) (post := post) (e := (id, .call dest))
    (fun x hx => declared_le _ (hp.2 x (by simp [hx])))
  rw [← h3] at hat
  replace hat := At.of_take hat
  rw [show declared (.call dest) = 4 from rfl, List.take_of_length_le (by simp [evBytes]), evBytes, At.split] at hat
  obtain ⟨o, ho, hlt⟩ := (h2 (id, .call dest) (by simp)).2 dest (by simp [refs])
  refine ⟨pyIdx_eq_ok.1 hat.1.pyIdx, ?_⟩
  rw [(hat.2.cast (p := total pre + 1) (by simp)).slice_eq (b := total pre + 4) (by simp), resolve, ho, Option.getD_some, leVal_leBytes_of_lt hlt]

/-- C28: so does a begin-track event, after the track number. -/
theorem sequence_begin_track (pre post : List (Nat × Ev)) (id dest : Nat) (t : Int) (notable : List Nat)
    (data : Bytes) (noffs : List Nat) (hp : Proper (pre ++ (id, .beginTrack t dest) :: post))
    (h : saveSequenceEvents (pre ++ (id, .beginTrack t dest) :: post) notable = .ok (data, noffs)) :
    data[total pre]? = some 0x93 ∧ data[total pre + 1]? = some (UInt8.ofNat t.toNat) ∧
    position (pre ++ (id, .beginTrack t dest) :: post) dest =
      some (leVal (slice data (total pre + 2) (total pre + 5))) := by
  obtain ⟨h1, h2, h3, _, _, _⟩ := save_ok hp.1 (fun x hx => declared_le _ (hp.2 x hx)) h
  have hat := cut_at (resolve (pre ++ (id, .beginTrack t dest) :: post)) (pre := pre) (post := post)
    (e := (id, .beginTrack t dest)) (fun x hx => declared_le _ (hp.2 x (by simp [hx])))
  rw [← h3] at hat
  replace hat := At.of_take hat
  rw [show declared (.beginTrack t dest) = 5 from rfl, List.take_of_length_le (by simp [evBytes]), evBytes,
    At.split, At.split] at hat
  obtain ⟨o, ho, hlt⟩ := (h2 (id, .beginTrack t dest) (by simp)).2 dest (by simp [refs])
  have e1 : leBytes 1 t.toNat = [UInt8.ofNat t.toNat] := by simp [leBytes]
  rw [e1] at hat
  refine ⟨pyIdx_eq_ok.1 hat.1.1.pyIdx, pyIdx_eq_ok.1 hat.1.2.pyIdx, ?_⟩
  rw [(hat.2.cast (p := total pre + 2) (by simp)).slice_eq (b := total pre + 5) (by simp), resolve, ho,
    Option.getD_some, leVal_leBytes_of_lt hlt]

/-- C28: a list of different in-range events and raw data saves exactly when every reference and notable event is
in the list, at a position below 2^24 for references. -/
theorem sequence_save_iff (events : List (Nat × Ev)) (notable : List Nat) (hp : Proper events) :
    (∃ r, saveSequenceEvents events notable = .ok r) ↔
      (∀ e ∈ events, ∀ x ∈ refs e.2, ∃ o, position events x = some o ∧ o < 2 ^ 24) ∧
      ∀ x ∈ notable, ∃ o, position events x = some o := by
  constructor
  · rintro ⟨⟨data, noffs⟩, h⟩
    obtain ⟨_, h2, _, _, _, h6⟩ := save_ok hp.1 (fun x hx => declared_le _ (hp.2 x hx)) h
    refine ⟨fun e he => (h2 e he).2, fun x hx => ?_⟩
    obtain ⟨i, hi, rfl⟩ := List.getElem_of_mem hx
    have hy := mapE_getElem h6 i hi (by rw [mapE_length h6]; exact hi)
    unfold offsetOf at hy
    split at hy
    · rename_i o ho; exact ⟨o, ho⟩
    · cases hy
  · rintro ⟨h1, h2⟩
    have hn := mapE_ok_of_forall (f := offsetOf (position events)) (g := resolve events) (as := notable)
      (fun x hx => by
        obtain ⟨o, ho⟩ := h2 x hx
        rw [offsetOf, resolve, ho]; rfl)
    have hs : ∀ e ∈ events, Saves e.2 := fun e he => by
      rcases hp.2 e he with h | ⟨b, h⟩
      · exact saves_of_inRange h
      · rw [h]; trivial
    obtain ⟨data, hd⟩ := save_mk hp.1 (fun e he => dataLength_inRange (hp.2 e he))
      (fun e he => ⟨hs e he, h1 e he⟩) hn
    exact ⟨_, hd⟩

/-- A sequence with a forward jump, a call, a begin-track event and raw data. -/
def sample : List (Nat × Ev) :=
  [(1, .beginTrack 1 4), (2, .note 60 100 false 300), (3, .jump 5), (7, .raw [1, 2, 3]), (4, .call 2), (5, .endTrack)]

example : Proper sample ∧ (∀ e ∈ sample, isFromVariable e.2 = false) ∧
    saveSequenceEvents sample [4, 1] = .ok
      ([0x93, 1, 16, 0, 0, 60, 100, 0x82, 0x2C, 0x94, 20, 0, 0, 1, 2, 3, 0x95, 5, 0, 0, 0xFF], [16, 0]) := by
  refine ⟨⟨by decide, ?_⟩, by decide, by decide +kernel⟩
  intro e he
  simp only [sample, List.mem_cons, List.not_mem_nil, or_false] at he
  rcases he with rfl | rfl | rfl | rfl | rfl | rfl <;> simp [InRange, UByte]

/-- The identities must be different: the same event object at two places of the list is written at the second
one only, and the bytes of the first stay zero. -/
theorem sequence_duplicate :
    saveSequenceEvents [(1, .simple .pan 64), (2, .endLoop), (1, .simple .pan 64)] [] =
      .ok ([0, 0, 0xFC, 0xC0, 64], []) := by decide +kernel

/-! ## C29 -/

/-- C29: an unparsed SSEQ whose file is shorter than 4 GiB saves, and loads back from the file, whatever follows
it; larger ones raise struct.error. -/
theorem sseq_roundtrip (d : Bytes) :
    (d.length + 0x1C < 2 ^ 32 → ∃ b, SSEQ.save (.unparsed d) = .ok b ∧ b.length = 0x1C + d.length ∧
      ∀ extra : Bytes, SSEQ.load (b ++ extra) = .ok (.unparsed d)) ∧
    (2 ^ 32 ≤ d.length + 0x1C → SSEQ.save (.unparsed d) = .error .structError) := by
  constructor
  · intro hl
    refine ⟨?w, ?_, ?_, ?_⟩
    case w => exact Model.Common.stdHeaderBytes ⟨magicSSEQ, 0xFEFF, 0x100, 0x1C + d.length, 0x10, 1⟩ ++
      (magicDATA ++ leBytes 4 (0x1C + d.length - 0x10) ++ leBytes 4 0x1C) ++ d
    · rw [SSEQ.save, SSEQ.data, bind_ok, Model.Common.packStdHeader_eq_ok.2
        ⟨Model.Common.StdHeader.ok_mk (by omega), rfl⟩, bind_ok, packU_of_lt (by omega), bind_ok,
        packU_of_lt (by decide), bind_ok]
      rfl
    · simp [magicDATA]; omega
    · intro extra
      generalize hf : Model.Common.stdHeaderBytes ⟨magicSSEQ, 0xFEFF, 0x100, 0x1C + d.length, 0x10, 1⟩ ++
        (magicDATA ++ leBytes 4 (0x1C + d.length - 0x10) ++ leBytes 4 0x1C) ++ d ++ extra = file
      have hat : At file 0 (Model.Common.stdHeaderBytes ⟨magicSSEQ, 0xFEFF, 0x100, 0x1C + d.length, 0x10, 1⟩ ++
        (magicDATA ++ leBytes 4 (0x1C + d.length - 0x10) ++ leBytes 4 0x1C) ++ d) := by
        rw [← hf]; exact At.first _ _
      unfold Model.Common.stdHeaderBytes at hat
      simp only [At.split, packStr_length, enBytes_length, leBytes_length, List.length_append] at hat
      obtain ⟨⟨⟨⟨⟨⟨⟨a1, a2⟩, a3⟩, a4⟩, a5⟩, a6⟩, ⟨a7, a8⟩, a9⟩, a10⟩ := hat
      have m : file.take 4 = magicSSEQ := by
        have := a1.slice_eq (b := 4) (by simp)
        rw [slice_zero] at this
        rw [this]; decide
      rw [SSEQ.load, m, raiseIf_false (by simp), bind_ok, a3.unpackU (by decide), bind_ok, a4.unpackU (by omega),
        bind_ok, raiseIf_false (by simp), bind_ok,
        At.unpackU (e := .little) (k := 4) (n := 0x1C) (by exact a9.cast (by simp [magicDATA])) (by decide), bind_ok,
        (a10.cast (p := 0x1C) (by simp [magicDATA])).slice_eq rfl]
      rfl
  · intro hl
    rw [SSEQ.save, SSEQ.data, bind_ok]
    cases h : Model.Common.packStdHeader ⟨magicSSEQ, 0xFEFF, 0x100, 0x1C + d.length, 0x10, 1⟩ with
    | error e => rw [Model.Common.packStdHeader_err h]; rfl
    | ok b =>
      have := (Model.Common.packStdHeader_eq_ok.1 h).1.2.2.1
      simp only at this
      omega

example : ([0xFF] : Bytes).length + 0x1C < 2 ^ 32 := by decide

/-- C29: a parsed SSEQ saves to a file that loads as the unparsed SSEQ with the data `saveSequenceEvents`
produces. -/
theorem sseq_parsed_save (events : List (Nat × Ev)) (b extra : Bytes) (h : SSEQ.save (.parsed events) = .ok b) :
    ∃ data, saveSequenceEvents events [] = .ok (data, []) ∧ SSEQ.load (b ++ extra) = .ok (.unparsed data) := by
  have h' := h
  unfold SSEQ.save SSEQ.data at h'
  simp only [bind_eq_ok, pure_eq_ok] at h'
  obtain ⟨_, ⟨⟨data, no⟩, hs, rfl⟩, hd, hh, _⟩ := h'
  have hno : no = [] := by
    unfold saveSequenceEvents at hs
    simp only [bind_eq_ok, pure_eq_ok, Prod.mk.injEq] at hs
    obtain ⟨_, _, _, _, _, hn, _, rfl⟩ := hs
    cases hn; rfl
  subst hno
  refine ⟨data, hs, ?_⟩
  have hlen := (Model.Common.packStdHeader_eq_ok.1 hh).1.2.2.1
  simp only at hlen
  obtain ⟨b', hb', _, hl⟩ := (sseq_roundtrip data).1 (by omega)
  have : SSEQ.save (.parsed events) = SSEQ.save (.unparsed data) := by
    have e : SSEQ.data (.parsed events) = SSEQ.data (.unparsed data) := by
      simp only [SSEQ.data]; rw [hs]; rfl
    unfold SSEQ.save
    rw [e]
  rw [this, hb'] at h
  cases h
  exact hl extra

example : (SSEQ.save (.parsed sample)).toOption.isSome := by decide +kernel

/-- C29: the data position, length and version fields of the file are consistent: the header's size is the length
of the file, the block's size is what follows the header, and the data starts at 1Ch. -/
theorem sseq_header (s : SSEQ) (b : Bytes) (h : s.save = .ok b) :
    b.take 4 = magicSSEQ ∧ unpackU .little 4 b 8 = .ok b.length ∧ slice b 0x10 0x14 = magicDATA ∧
    unpackU .little 4 b 0x14 = .ok (b.length - 0x10) ∧ unpackU .little 4 b 0x18 = .ok 0x1C ∧
    s.data = .ok (b.drop 0x1C) := by
  unfold SSEQ.save at h
  simp only [bind_eq_ok, pure_eq_ok, Model.Common.packStdHeader_eq_ok, packU_eq_ok] at h
  obtain ⟨d, hd, _, ⟨hok, rfl⟩, _, ⟨h1, rfl⟩, _, ⟨h2, rfl⟩, rfl⟩ := h
  have hsz := hok.2.2.1
  simp only at hsz
  generalize hf : Model.Common.stdHeaderBytes ⟨magicSSEQ, 0xFEFF, 0x100, 0x1C + d.length, 0x10, 1⟩ ++
    (magicDATA ++ enBytes .little 4 (0x1C + d.length - 0x10) ++ enBytes .little 4 0x1C) ++ d = file
  have hlen : file.length = 0x1C + d.length := by rw [← hf]; simp [magicDATA]; omega
  have hat : At file 0 (Model.Common.stdHeaderBytes ⟨magicSSEQ, 0xFEFF, 0x100, 0x1C + d.length, 0x10, 1⟩ ++
    (magicDATA ++ enBytes .little 4 (0x1C + d.length - 0x10) ++ enBytes .little 4 0x1C) ++ d) := by
    rw [← hf]; exact At.refl _
  unfold Model.Common.stdHeaderBytes at hat
  simp only [At.split, packStr_length, enBytes_length, List.length_append] at hat
  obtain ⟨⟨⟨⟨⟨⟨⟨a1, a2⟩, a3⟩, a4⟩, a5⟩, a6⟩, ⟨a7, a8⟩, a9⟩, a10⟩ := hat
  have m : file.take 4 = magicSSEQ := by
    have := a1.slice_eq (b := 4) (by simp)
    rw [slice_zero] at this
    rw [this]; decide
  have ml : magicDATA.length = 4 := rfl
  refine ⟨m, ?_, a7.slice_eq (by rw [ml]), ?_, ?_, ?_⟩
  · rw [a4.unpackU (by omega), hlen]
  · rw [At.unpackU (e := .little) (k := 4) (a8.cast (by rw [ml])) (by omega), hlen]
  · exact At.unpackU (e := .little) (k := 4) (a9.cast (by rw [ml])) (by omega)
  · rw [hd, (a10.cast (p := 0x1C) (by rw [ml])).drop_eq hlen]

end Verif.Props.Sequence
