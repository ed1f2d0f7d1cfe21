import Verif.Proofs.BmgMore

/-!
# Properties of BMG files (C40–C42, C65, C66)

`sjis` is Python's Shift-JIS codec; `TextOk` asks something of it only if the encoding is Shift-JIS.  `fuel` bounds the
rounds of the loop that reads one message; the code has no bound.
-/

namespace Verif.Props.Bmg

open Verif Verif.Model.Text Verif.Spec.Text Verif.Model.Bmg Verif.Spec.Bmg Verif.Proofs.Bmg

theorem lawfulOf {sjis : Codec} {P : Nat → Prop} {b : BMG} (h : TextOk sjis P b) :
    Lawful (codecOf sjis b.encoding b.endianness) (fun x => b.encoding = .shiftJis → P x) :=
  codec_lawful _ fun he => (h he).1

theorem inOf {sjis : Codec} {P : Nat → Prop} {b : BMG} (h : TextOk sjis P b) :
    ∀ m ∈ b.messages, MessageIn (fun x => b.encoding = .shiftJis → P x) m :=
  fun m hm hn x hx he => (h he).2 m hm hn x hx

/-- **C40.** Loading a saved BMG whose byte order can be told from its length gives the BMG back, apart from what a
file does not hold: how text is cut into pieces, the parts of null messages, zero instructions, `(0, 0)` labels, and
half of each script index.  (Not the full C40 because of that half: for big-endian files it is the half in use.) -/
theorem bmg_roundtrip_partial {sjis : Codec} {P : Nat → Prop} {b : BMG} {data : Bytes} (hP : TextOk sjis P b)
    (h : b.save sjis = .ok data) (ht : Tellable b.endianness (statedLength data.length)) (fuel id0 : Nat)
    (hf : data.length ≤ fuel) : BMG.load sjis fuel data id0 = .ok (normal b) :=
  (load_save (lawfulOf hP) h (inOf hP)).2 ht fuel id0 hf

/-- **C40.** It gives back exactly the same BMG if and only if the BMG is canonical. -/
theorem bmg_roundtrip_iff {sjis : Codec} {P : Nat → Prop} {b : BMG} {data : Bytes} (hP : TextOk sjis P b)
    (h : b.save sjis = .ok data) (ht : Tellable b.endianness (statedLength data.length)) (fuel id0 : Nat)
    (hf : data.length ≤ fuel) : BMG.load sjis fuel data id0 = .ok b ↔ Canonical b := by
  rw [bmg_roundtrip_partial hP h ht fuel id0 hf, ← normal_eq_iff]
  constructor
  · intro h; cases h' : normal b; rw [h'] at h; cases h; rfl
  · intro h; rw [h]

/-- **C40.** The characters and escapes of every message come back in order. -/
theorem bmg_message_tokens {sjis : Codec} {P : Nat → Prop} {b r : BMG} {data : Bytes} (hP : TextOk sjis P b)
    (h : b.save sjis = .ok data) (ht : Tellable b.endianness (statedLength data.length)) {fuel id0 : Nat}
    (hf : data.length ≤ fuel) (hr : BMG.load sjis fuel data id0 = .ok r) :
    r.messages.length = b.messages.length ∧ ∀ (i : Nat) (m m' : Message), b.messages[i]? = some m →
      r.messages[i]? = some m' → m'.info = m.info ∧ m'.isNull = m.isNull ∧
        (m.isNull = false → tokens m'.parts = tokens m.parts) := by
  rw [bmg_roundtrip_partial hP h ht fuel id0 hf] at hr
  cases hr
  refine ⟨by simp [normal], ?_⟩
  intro i m m' hm hm'
  simp only [normal, List.getElem?_map, hm, Option.map_some, Option.some.injEq] at hm'
  subst hm'
  unfold normalMessage
  split
  · rename_i hn
    exact ⟨rfl, rfl, fun h => by rw [hn] at h; cases h⟩
  · exact ⟨rfl, rfl, fun _ => tokens_merge _⟩

/-- **C40 fails for big-endian files with scripts**: every script comes back with index 0 (for an index below 65536;
larger indices come back divided by 65536). -/
theorem bmg_scripts_big {sjis : Codec} {P : Nat → Prop} {b r : BMG} {data : Bytes} (hP : TextOk sjis P b)
    (h : b.save sjis = .ok data) (he : b.endianness = .big) (ht : Tellable .big (statedLength data.length))
    {fuel id0 : Nat} (hf : data.length ≤ fuel) (hr : BMG.load sjis fuel data id0 = .ok r) :
    r.scripts = b.scripts.map fun s => (s.1, s.2 / 0x10000) := by
  rw [bmg_roundtrip_partial hP h (by rw [he]; exact ht) fuel id0 hf] at hr
  cases hr
  simp [normal, he, firstHalf]

/-- **C41, exactly**: a saved BMG is loaded with its own byte order if and only if that can be told from the stated
length. -/
theorem bmg_byte_order_iff {sjis : Codec} {P : Nat → Prop} {b r : BMG} {data : Bytes} (hP : TextOk sjis P b)
    (h : b.save sjis = .ok data) {fuel id0 : Nat} (hr : BMG.load sjis fuel data id0 = .ok r) :
    r.endianness = b.endianness ↔ Tellable b.endianness (statedLength data.length) := by
  obtain ⟨le, be, h1, h2, h3⟩ := (load_save (lawfulOf hP) h (inOf hP)).1
  rw [← h3]
  unfold BMG.load at hr
  obtain ⟨_, _, hr⟩ := bind_eq_ok.1 hr
  rw [h1, bind_ok, h2, bind_ok] at hr
  unfold BMG.loadAs at hr
  obtain ⟨f, _, hr⟩ := bind_eq_ok.1 hr
  split at hr
  · obtain ⟨enc, _, hr⟩ := bind_eq_ok.1 hr
    obtain ⟨raw, _, hr⟩ := bind_eq_ok.1 hr
    obtain ⟨ms, _, hr⟩ := bind_eq_ok.1 hr
    cases hr
    rfl
  · cases hr

/-- **C41 holds below 64 KiB.** -/
theorem bmg_byte_order_short_partial {sjis : Codec} {P : Nat → Prop} {b : BMG} {data : Bytes} (hP : TextOk sjis P b)
    (h : b.save sjis = .ok data) (hl : data.length ≤ 65504) : Tellable b.endianness (statedLength data.length) := by
  have hb := (saved_layout (lawfulOf hP) h (inOf hP)).2.2.2.2.2.2.2.1.bound
  rw [enBytes_length] at hb
  refine tellable_small _ ?_ ?_ <;> unfold statedLength <;> omega

/-- A BMG with one null message whose info value is `n` bytes long. -/
def longInfo (n : Nat) : BMG := ⟨[⟨zeros n, [], true⟩], [], [], [], 0, .utf8, .little, 0, 0, 0⟩

theorem longInfo_saves (sjis : Codec) {n : Nat} (h : 4 + n < 256 ^ 2) :
    ∃ data, (longInfo n).save sjis = .ok data ∧ data.length = 64 + statedLength (20 + n) := by
  have hm : saveMessages utf8 .little n [⟨zeros n, [], true⟩] utf8.null
      = .ok (enBytes .little 4 0 ++ zeros n ++ [], utf8.null ++ []) := by
    rw [saveMessages, raiseIf_false (by simp), bind_ok, packU_of_lt (by simp), bind_ok]
    rfl
  have hw : flwBody (longInfo n) = .ok [] := by
    rw [flwBody_ok]
    exact ⟨⟨by simp [longInfo], by simp [longInfo, LabelsFit]⟩, by
      simp [longInfo, flwBytes, paddedInsts, paddedLabels, padLen]⟩
  have hl : fliBody (longInfo n) = .ok [] := by
    rw [fliBody_ok]
    exact ⟨by simp [longInfo], by simp [longInfo]⟩
  have hil : (enBytes .little 4 0 ++ zeros n ++ []).length = 4 + n := by simp
  have hdl : (utf8.null ++ []).length = 1 := rfl
  have hu : up32 (16 + (4 + n)) < 256 ^ 4 := by unfold up32 padLen; omega
  unfold BMG.save
  have h0 : infoLength (longInfo n).messages = n := by simp [longInfo, infoLength]
  have h1 : codecOf sjis (longInfo n).encoding (longInfo n).endianness = utf8 := rfl
  have h2 : (longInfo n).endianness = .little := rfl
  have h3 : (longInfo n).messages = [⟨zeros n, [], true⟩] := rfl
  simp only [h0, h1]
  simp only [h2, h3, hm, bind_ok, hw, hl]
  have s1 := (sectionOf_ok (e := .little) (magic := magicINF1) (c1 := 1) (c2 := 4 + n) (word := (longInfo n).id)
    (body := enBytes .little 4 0 ++ zeros n ++ []) (pad := padLen (16 + (4 + n)) 32)).2
    ⟨⟨by rw [hil]; exact hu, by decide, h, by simp [longInfo]⟩, rfl⟩
  have s2 := (datSection_ok (e := .little) (dat := utf8.null ++ [])).2 ⟨by decide, rfl⟩
  have s3 := (sectionOf_ok (e := .little) (magic := magicFLW1) (c1 := evenCount (longInfo n).instructions.length)
    (c2 := labelsCount (longInfo n).labels.length) (word := 0) (body := []) (pad := padLen (16 + 0) 32)).2
    ⟨by simp [longInfo, evenCount, labelsCount, padLen, up32], rfl⟩
  have s4 := (sectionOf_ok (e := .little) (magic := magicFLI1) (c1 := (longInfo n).scripts.length) (c2 := 8) (word := 0)
    (body := []) (pad := 0)).2 ⟨by simp [longInfo, padLen, up32], rfl⟩
  simp only [List.length_nil, List.length_cons, Nat.zero_add, hil] at s1 s2 s3 s4 ⊢
  rw [s1, bind_ok, s2, bind_ok, s3, bind_ok, s4, bind_ok, insertSections_eq]
  have hsec : ∀ x, (sectionBytes .little magicINF1 x 1 (4 + n) (longInfo n).id (enBytes .little 4 0 ++ zeros n ++ [])
      (padLen (16 + (4 + n)) 32) ++ datBytes .little (utf8.null ++ [])).length = statedLength (20 + n) + 32 := by
    intro x
    rw [List.length_append, sectionBytes_length _ _ _ _ _ _ _ _ rfl, hil]
    have : (datBytes .little (utf8.null ++ [])).length = 32 := by decide
    rw [this]
    unfold statedLength padLen
    omega
  have e1 : ¬ ((longInfo n).instructions ≠ [] ∨ (longInfo n).labels ≠ []) := by simp [longInfo]
  have e2 : ¬ ((longInfo n).scripts ≠ []) := by simp [longInfo]
  rw [if_neg e1, if_neg e2, if_neg e1, if_neg e2]
  dsimp only
  rw [List.append_nil, List.append_nil]
  rw [hsec]
  have hh := (fileHeader_ok (b := longInfo n) (total := up32 (0x20 + (statedLength (20 + n) + 32))) (sections := 2 + 0 + 0)).2
    ⟨by
      refine ⟨?_, by decide, (by decide : (4 : Nat) < 256 ^ 1), (by decide : (0 : Nat) < 256 ^ 4),
        (by decide : (0 : Nat) < 256 ^ 4), (by decide : (0 : Nat) < 256 ^ 4), trivial⟩
      show up32 (0x20 + (statedLength (20 + n) + 32)) < 256 ^ 4
      unfold up32 statedLength padLen
      omega, rfl⟩
  rw [hh, bind_ok]
  refine ⟨_, rfl, ?_⟩
  rw [List.length_append, head_length, hsec]
  omega

/-- **C41 fails**: there is a little-endian BMG that saves and is never loaded as little-endian. -/
theorem bmg_byte_order_wrong (sjis : Codec) : ∃ (b : BMG) (data : Bytes), b.save sjis = .ok data ∧
    b.endianness = .little ∧ ∀ fuel id0 r, BMG.load sjis fuel data id0 = .ok r → r.endianness = .big := by
  obtain ⟨data, hd, hl⟩ := longInfo_saves sjis (n := 65452) (by decide)
  refine ⟨longInfo 65452, data, hd, rfl, ?_⟩
  intro fuel id0 r hr
  have hP : TextOk sjis (fun _ => True) (longInfo 65452) := by
    intro he; cases he
  have := bmg_byte_order_iff hP hd hr
  have h64 : data.length = 65536 := by rw [hl]; decide
  have hn : ¬ Tellable (longInfo 65452).endianness (statedLength data.length) := by
    rw [h64]
    show ¬ statedLength 65536 < swap32 (statedLength 65536)
    decide
  cases hre : r.endianness with
  | big => rfl
  | little => exact absurd (this.1 (by rw [hre]; rfl)) hn

/-! ### C42 -/

/-- Reading a message that has no stuck place ahead ends: it never runs out of rounds if there are more of them than
bytes. -/
theorem bmg_message_ends_partial {sjis : Codec} (hs : Shape sjis) (hd : DecErr sjis) (enc : Encoding) (e : Endian)
    (dat : Bytes) (entry : Nat × Bytes)
    (h : ∀ o, Visits (codecOf sjis enc e) dat entry.1 o → ¬ Stuck (codecOf sjis enc e) dat o) (fuel : Nat)
    (hf : dat.length < fuel) : readMessage (codecOf sjis enc e) dat fuel entry ≠ .error .outOfFuel := by
  intro hr
  unfold readMessage at hr
  rcases bind_eq_error.1 hr with hr | ⟨r, _, hr⟩
  · exact readParts_ends (codec_shape e fun _ => hs) (codec_decErr e fun _ => hd) dat.length fuel _ _ _ (by omega) hf h hr
  · cases hr

/-- Conversely a message with a stuck place ahead is never read, however long the loop runs. -/
theorem bmg_message_endless {sjis : Codec} (hs : Shape sjis) (enc : Encoding) (e : Endian)
    (dat : Bytes) (entry : Nat × Bytes) {o : Nat} (h : Visits (codecOf sjis enc e) dat entry.1 o)
    (ho : Stuck (codecOf sjis enc e) dat o) (fuel : Nat) (m : Message) :
    readMessage (codecOf sjis enc e) dat fuel entry ≠ .ok m := by
  intro hr
  unfold readMessage at hr
  obtain ⟨r, hr, _⟩ := bind_eq_ok.1 hr
  exact readParts_stuck (codec_shape e fun _ => hs) h ho _ _ _ _ hr

/-- Loading is settled after as many rounds per message as the file has bytes: a load that has not ended by then never
ends. -/
theorem bmg_load_settled {sjis : Codec} (hs : Shape sjis) (data : Bytes) (id0 : Nat) {f g : Nat}
    (hf : data.length < f) (hg : data.length < g) : BMG.load sjis f data id0 = BMG.load sjis g data id0 :=
  load_more hs data id0 f g hf hg

/-- A UTF-8 file that has one message and no `DAT1` section. -/
def noDat : Bytes :=
  magicMESG ++ [64, 0, 0, 0, 1, 0, 0, 0, 4] ++ zeros 15 ++ magicINF1 ++ [32, 0, 0, 0, 1, 0, 8, 0, 0, 0, 0, 0] ++ zeros 16

/-- A UTF-8 file with one message that consists of an escape of stated length 0. -/
def zeroEscape : Bytes :=
  magicMESG ++ [96, 0, 0, 0, 2, 0, 0, 0, 4] ++ zeros 15 ++
  magicINF1 ++ [32, 0, 0, 0, 1, 0, 8, 0, 0, 0, 0, 0, 1, 0, 0, 0] ++ zeros 12 ++
  magicDAT1 ++ [32, 0, 0, 0, 0, 0x1A, 0, 5] ++ zeros 20

/-- **C42 fails**: two short files on which loading goes on for ever. -/
theorem bmg_load_endless (sjis : Codec) (fuel id0 : Nat) :
    BMG.load sjis fuel noDat id0 = .error .outOfFuel ∧ BMG.load sjis fuel zeroEscape id0 = .error .outOfFuel := by
  constructor
  · have h1 : parseSections .little noDat 1 0x20 ⟨[], [], [], [], [], id0⟩ = .ok ⟨[(0, zeros 4)], [], [], [], [], 0⟩ := rfl
    have h2 : readMessage utf8 [] fuel (0, zeros 4) = .error .outOfFuel := by
      unfold readMessage
      rw [readParts_past ⟨by decide, rfl⟩ fuel 0 0 [] (by simp)]
      rfl
    show (do
      let r ← parseSections .little noDat 1 0x20 ⟨[], [], [], [], [], id0⟩
      let messages ← mapE (readMessage utf8 r.dat1 fuel) r.inf1
      return (⟨messages, r.instructions, r.labels, r.scripts, r.id, .utf8, .little, 0, 0, 0⟩ : BMG)) = _
    rw [h1, bind_ok]
    dsimp only
    rw [mapE, h2]
    rfl
  · have h1 : parseSections .little zeroEscape 2 0x20 ⟨[], [], [], [], [], id0⟩
        = .ok ⟨[(1, zeros 4)], [0, 0x1A, 0, 5] ++ zeros 20, [], [], [], 0⟩ := rfl
    have h2 : readMessage utf8 ([0, 0x1A, 0, 5] ++ zeros 20) fuel (1, zeros 4) = .error .outOfFuel := by
      unfold readMessage
      rw [readParts_zero (t := 5) (by decide) (by decide) (by decide)]
      rfl
    show (do
      let r ← parseSections .little zeroEscape 2 0x20 ⟨[], [], [], [], [], id0⟩
      let messages ← mapE (readMessage utf8 r.dat1 fuel) r.inf1
      return (⟨messages, r.instructions, r.labels, r.scripts, r.id, .utf8, .little, 0, 0, 0⟩ : BMG)) = _
    rw [h1, bind_ok]
    dsimp only
    rw [mapE, h2]
    rfl

/-! ### C65 -/

/-- **C65.** A BMG that was loaded from a file, is saved and loaded again is unchanged, provided the byte order can be
told from the new length, and big-endian scripts (see `bmg_scripts_big`) all have index 0. -/
theorem bmg_resave_partial {sjis : Codec} {P : Nat → Prop} {data data' : Bytes} {fuel id0 : Nat} {b : BMG}
    (hl : BMG.load sjis fuel data id0 = .ok b) (hP : TextOk sjis P b) (hS : b.encoding = .shiftJis → Strict sjis)
    (hb : b.endianness = .big → ∀ s ∈ b.scripts, s.2 = 0) (h : b.save sjis = .ok data')
    (ht : Tellable b.endianness (statedLength data'.length)) (fuel' id1 : Nat) (hf : data'.length ≤ fuel') :
    BMG.load sjis fuel' data' id1 = .ok b :=
  (bmg_roundtrip_iff hP h ht fuel' id1 hf).2
    (load_canonical (Shape.of_lawful (lawfulOf hP)) (DecNil.of_strict (lawfulOf hP) (codec_strict _ hS)) hl hb)

/-! ### C66 -/

/-- **C66.** The file starts with `MESGbmg1`, the sections `INF1` and `DAT1` with their names; the header states the length of the
file rounded up to a multiple of 32; `INF1` states its length, the number of messages, the length of the entries and the ID; the `INF1` entry of every message
holds its info value and the place of its text; a null message has place 0, the others have later places, and their
encoded text is at that place, the messages following each other in order without overlapping. -/
theorem bmg_layout {sjis : Codec} {P : Nat → Prop} {b : BMG} {data : Bytes} (hP : TextOk sjis P b)
    (h : b.save sjis = .ok data) :
    At data 0 [0x4D, 0x45, 0x53, 0x47, 0x62, 0x6D, 0x67, 0x31] ∧ At data 0x20 [0x49, 0x4E, 0x46, 0x31] ∧
    At data 0x24 (enBytes b.endianness 4 (statedLength (16 + b.messages.length * entryLength b)) ++
      enBytes b.endianness 2 b.messages.length ++ enBytes b.endianness 2 (entryLength b) ++ enBytes b.endianness 4 b.id) ∧
    b.messages.length < 256 ^ 2 ∧ entryLength b < 256 ^ 2 ∧ b.id < 256 ^ 4 ∧
    At data (0x20 + statedLength (16 + b.messages.length * entryLength b)) [0x44, 0x41, 0x54, 0x31] ∧
    At data 8 (enBytes b.endianness 4 (statedLength data.length)) ∧ statedLength data.length < 256 ^ 4 ∧
    ∃ offs : List Nat, offs.length = b.messages.length ∧
      ∀ (i : Nat) (m : Message) (o : Nat), b.messages[i]? = some m → offs[i]? = some o →
        At data (0x30 + i * entryLength b) (enBytes b.endianness 4 o ++ m.info) ∧ o < 256 ^ 4 ∧
        (m.isNull = true → o = 0) ∧
        (m.isNull = false → 0 < o ∧ ∃ d, m.save (codecOf sjis b.encoding b.endianness) = .ok d ∧
          At data (0x28 + statedLength (16 + b.messages.length * entryLength b) + o) d ∧
          ∀ (j : Nat) (m' : Message) (o' : Nat), i < j → b.messages[j]? = some m' → offs[j]? = some o' →
            m'.isNull = false → o + d.length ≤ o') :=
  saved_layout (lawfulOf hP) h (inOf hP)

/-! ### The hypotheses can be met -/

/-- A BMG with text, an escape, a null message, instructions, labels and scripts. -/
def exBMG (e : Endian) : BMG :=
  ⟨[⟨[1, 2], [.text [72, 105, 0x20AC], .escape 3 [9, 8, 7], .text [33]], false⟩, ⟨[3, 4], [], true⟩,
    ⟨[5, 6], [.text [0x1F600]], false⟩], [[1, 2, 3, 4, 5, 6, 7, 8]], [(5, -1), (7, 2)], [(1, 0), (2, 0)], 7, .utf16, e,
    1, 2, 3⟩

example (sjis : Codec) : TextOk sjis (fun _ => True) (exBMG .big) := by intro h; cases h

/-- The example saves to a file whose byte order can be told, and comes back. -/
example : ((exBMG .big).save cp1252).map List.length = .ok 256 ∧ statedLength 256 ≤ swap32 (statedLength 256) ∧
    ((exBMG .big).save cp1252 >>= fun data => BMG.load cp1252 300 data 0) = .ok (exBMG .big) := by
  refine ⟨?_, ?_, ?_⟩ <;> decide +kernel

/-- Splitting text differently is what `normal` undoes. -/
example : normal ⟨[⟨[], [.text [1], .text [2], .text [], .escape 1 []], false⟩], [], [], [(1, 0x20003)], 0, .utf8,
      .little, 0, 0, 0⟩ =
    ⟨[⟨[], [.text [1, 2], .escape 1 []], false⟩], [], [], [(1, 3)], 0, .utf8, .little, 0, 0, 0⟩ := by decide

/-- A message of which the whole text is read, with no stuck place ahead. -/
example (o : Nat) (h : Visits utf8 [65, 0] 0 o) : ¬ Stuck utf8 [65, 0] o := by
  cases h with
  | here => intro h; revert h; unfold Stuck; simp [utf8, slice]
  | text h0 h1 h =>
    cases h with
    | here => intro h; revert h; unfold Stuck; simp [utf8, slice]
    | text h0 h1 h => exact absurd (by decide) h0
    | escape h0 h1 h2 h => exact absurd (by decide) h0
  | escape h0 h1 h2 h => exact absurd h1 (by decide)

/-- The codecs that the model implements meet what is asked of Shift-JIS. -/
example : Lawful cp1252 (fun _ => True) ∧ Strict cp1252 ∧ Shape cp1252 ∧ DecErr cp1252 :=
  ⟨Proofs.Text.cp1252_lawful, Proofs.Text.cp1252_strict, Shape.of_lawful Proofs.Text.cp1252_lawful, cp1252_decErr⟩

end Verif.Props.Bmg
