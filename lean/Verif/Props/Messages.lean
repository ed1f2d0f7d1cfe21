import Verif.Props.Bmg
import Verif.Props.Programs
import Verif.Spec.Messages

/-!
# C158: changing messages
-/

namespace Verif.Props.Messages

open Verif Verif.Model Verif.Model.Files Verif.Model.Bmg Verif.Spec.Messages
open Verif.Spec.Bmg (TextOk tokens normal normalMessage Canonical)
open Verif.Spec.Text (Strict)
open Verif.Spec.Nested (Denotes)
open Verif.Proofs.Bmg Verif.Proofs.Files

theorem setParts_ok {b b' : BMG} {i : Int} {parts : List Part} (h : setParts b i parts = .ok b') :
    ∃ (k : Nat) (m : Message), pyPos b.messages.length i = some k ∧ b.messages[k]? = some m ∧
      b' = { b with messages := b.messages.set k { m with parts := parts } } := by
  unfold setParts at h
  obtain ⟨m, hm, h⟩ := bind_eq_ok.1 h
  obtain ⟨ms, hs, h⟩ := bind_eq_ok.1 h
  rw [pure_eq_ok] at h
  subst h
  rw [pyIdxI_eq] at hm
  unfold pySetI at hs
  split at hm
  · rename_i k hk
    rw [hk] at hs
    cases hs
    exact ⟨k, m, hk, pyIdx_eq_ok.1 hm, rfl⟩
  · cases hm

/-- What the assignments do. -/
theorem setAll_ok {b' : BMG} : ∀ {edits : List (Int × List Part)} {b : BMG}, setAll b edits = .ok b' →
    b' = { b with messages := b'.messages } ∧ b'.messages.length = b.messages.length ∧
    (∀ k, Untouched b.messages.length edits k → b'.messages[k]? = b.messages[k]?) ∧
    (∀ (k : Nat) (parts : List Part) (m : Message), Last b.messages.length edits k parts → b.messages[k]? = some m →
      b'.messages[k]? = some { m with parts := parts })
  | [], b, h => by
    cases h
    refine ⟨rfl, rfl, fun _ _ => rfl, ?_⟩
    rintro k parts m ⟨before, i, after, h, -⟩
    cases before <;> cases h
  | (i, ps) :: rest, b, h => by
    unfold setAll at h
    obtain ⟨c, hc, h⟩ := bind_eq_ok.1 h
    obtain ⟨l, m0, hl, hm0, rfl⟩ := setParts_ok hc
    obtain ⟨h1, h2, h3, h4⟩ := setAll_ok h
    simp only [List.length_set] at h2 h3 h4
    have hlt := (List.getElem?_eq_some_iff.1 hm0).1
    refine ⟨h1, h2, ?_, ?_⟩
    · intro k hk
      rw [h3 k fun e he => hk e (List.mem_cons_of_mem _ he), List.getElem?_set_ne]
      rintro rfl
      exact hk (i, ps) (by simp) hl
    · rintro k parts m ⟨before, j, after, he, hj, ha⟩ hm
      cases before with
      | nil =>
        cases he
        rw [hl] at hj
        cases hj
        rw [hm0] at hm
        cases hm
        rw [h3 _ ha, List.getElem?_set_self hlt]
      | cons x before =>
        cases he
        have hlast : Last b.messages.length (before ++ (j, parts) :: after) k parts := ⟨before, j, after, rfl, hj, ha⟩
        by_cases e : l = k
        · subst e
          rw [hm0] at hm
          cases hm
          rw [h4 _ _ _ hlast (List.getElem?_set_self hlt)]
        · exact h4 k parts m hlast (by rw [List.getElem?_set_ne e]; exact hm)

/-- **C158.** Changing the text of messages of a loaded BMG, saving and loading: the messages have the new text, and nothing
else has changed. -/
theorem bmg_changed_partial {sjis : Text.Codec} {P : Nat → Prop} {fuel fuel' id0 id1 : Nat} {data data' : Bytes} {b b' : BMG}
    {edits : List (Int × List Part)} (hl : BMG.load sjis fuel data id0 = .ok b) (he : setAll b edits = .ok b')
    (hP : TextOk sjis P b') (hS : b.encoding = .shiftJis → Strict sjis) (h : b'.save sjis = .ok data')
    (hr : Readable b data') (hf : data'.length ≤ fuel') :
    ∃ q, BMG.load sjis fuel' data' id1 = .ok q ∧ Changed b q edits := by
  obtain ⟨h1, h2, h3, h4⟩ := setAll_ok he
  have henc : b'.encoding = b.encoding := by rw [h1]
  have hend : b'.endianness = b.endianness := by rw [h1]
  have hcod : codecOf sjis b'.encoding b'.endianness = codecOf sjis b.encoding b.endianness := by rw [henc, hend]
  have hlaw := Bmg.lawfulOf hP
  rw [hcod] at hlaw
  have hS' : b'.encoding = .shiftJis → Strict sjis := fun e => hS (henc ▸ e)
  have hc : Canonical b := load_canonical (Shape.of_lawful hlaw) (DecNil.of_strict hlaw (codec_strict _ hS)) hl hr.scripts
  have hn := (normal_eq_iff b).2 hc
  refine ⟨normal b', Bmg.bmg_roundtrip_partial hP h (by rw [hend]; exact hr.order) fuel' id1 hf, ?_, ?_, ?_, ?_⟩
  · rw [h1]
    conv => rhs; rw [← hn]
    rfl
  · simp only [normal, List.length_map, h2]
  · intro k hk
    conv => rhs; rw [← hn]
    simp only [normal, List.getElem?_map, h3 k hk]
  · intro k parts m hk hm
    refine ⟨normalMessage { m with parts := parts }, ?_, ?_⟩
    · simp only [normal, List.getElem?_map, h4 k parts m hk hm, Option.map_some]
    · unfold normalMessage
      cases hn : m.isNull with
      | true =>
        rw [if_pos rfl]
        exact ⟨rfl, rfl, by simp, fun _ => rfl⟩
      | false =>
        rw [if_neg (by simp)]
        exact ⟨rfl, rfl, fun _ => tokens_merge _, by simp⟩

/-- The full statement is false: changing a message of a big-endian BMG changes the script indices. -/
theorem bmg_scripts_lost : ∃ data b b' data' q, BMG.load Text.cp1252 300 data 0 = .ok b ∧
    setAll b [(0, [.text [33]])] = .ok b' ∧ b'.save Text.cp1252 = .ok data' ∧ BMG.load Text.cp1252 300 data' 0 = .ok q ∧
    b.scripts = [(1, 5)] ∧ q.scripts = [(1, 0)] := by
  have key : ∀ {α : Type} {x : Py α} {p : α → Bool}, (match x with | .ok a => p a | .error _ => false) = true →
      ∃ a, x = .ok a ∧ p a = true := by
    intro α x p h
    cases x with
    | ok a => exact ⟨a, rfl, h⟩
    | error e => cases h
  let o : BMG := ⟨[⟨[], [.text [72, 105]], false⟩], [], [], [(1, 0x50000)], 0, .utf16, .big, 0, 0, 0⟩
  let data := (o.save Text.cp1252).toOption.getD []
  obtain ⟨x, hx, hp⟩ := key (x := do
    let b ← BMG.load Text.cp1252 300 data 0
    let b' ← setAll b [(0, [.text [33]])]
    let data' ← b'.save Text.cp1252
    let q ← BMG.load Text.cp1252 300 data' 0
    return (b, q)) (p := fun x => decide (x.1.scripts = [(1, 5)] ∧ x.2.scripts = [(1, 0)])) (by decide +kernel)
  obtain ⟨b, h1, hx⟩ := bind_eq_ok.1 hx
  obtain ⟨b', h2, hx⟩ := bind_eq_ok.1 hx
  obtain ⟨data', h3, hx⟩ := bind_eq_ok.1 hx
  obtain ⟨q, h4, hx⟩ := bind_eq_ok.1 hx
  cases hx
  exact ⟨data, b, b', data', q, h1, h2, h3, h4, of_decide_eq_true hp⟩

/-- **C158.** Text with a null character or a substitute character (0x1A) for a message that is not null is refused when
saving. -/
theorem bmg_refused {sjis : Text.Codec} {b b' : BMG} {edits : List (Int × List Part)} (he : setAll b edits = .ok b') (k : Nat)
    (parts : List Part) (m : Message) (hk : Last b.messages.length edits k parts) (hm : b.messages[k]? = some m)
    (hn : m.isNull = false) (t : Str) (ht : .text t ∈ parts) (hc : 0 ∈ t ∨ 0x1A ∈ t) (data : Bytes) :
    b'.save sjis ≠ .ok data := by
  intro h
  have hm' := (setAll_ok he).2.2.2 k parts m hk hm
  unfold BMG.save at h
  obtain ⟨r, hr, -⟩ := bind_eq_ok.1 h
  have key : ∀ (c : Text.Codec) (e : Endian) (n : Nat) (ms : List Message) (dat : Bytes) (r : Bytes × Bytes),
      saveMessages c e n ms dat = .ok r → ∀ m ∈ ms, ∃ d, m.save c = .ok d := by
    intro c e n ms
    induction ms with
    | nil => intro _ _ _ m hm; cases hm
    | cons a ms ih =>
      intro dat r h m hm
      unfold saveMessages at h
      obtain ⟨_, -, h⟩ := bind_eq_ok.1 h
      obtain ⟨_, -, h⟩ := bind_eq_ok.1 h
      obtain ⟨d, hd, h⟩ := bind_eq_ok.1 h
      obtain ⟨r', hr', -⟩ := bind_eq_ok.1 h
      rcases List.mem_cons.1 hm with rfl | hm
      · exact ⟨d, hd⟩
      · exact ih _ _ hr' m hm
  obtain ⟨d, hd⟩ := key _ _ _ _ _ _ hr _ (List.mem_of_getElem? hm')
  unfold Message.save at hd
  dsimp only at hd
  rw [hn, if_neg (by simp)] at hd
  obtain ⟨ps, hps, -⟩ := bind_eq_ok.1 hd
  have : savePart (codecOf sjis b'.encoding b'.endianness) (.text t) = .error .valueError := by
    unfold savePart raiseIf
    rcases hc with hc | hc
    · simp [hc, bind_error]
    · by_cases h0 : 0 ∈ t <;> simp [h0, hc, bind_error, bind_ok]
  have mem : ∀ (ps : List Part) (bs : List Bytes), mapE (savePart (codecOf sjis b'.encoding b'.endianness)) ps = .ok bs →
      ∀ p ∈ ps, ∃ d, savePart (codecOf sjis b'.encoding b'.endianness) p = .ok d := by
    intro ps
    induction ps with
    | nil => intro _ _ p hp; cases hp
    | cons a ps ih =>
      intro bs h p hp
      obtain ⟨x, xs, h1, h2, -⟩ := mapE_cons_ok.1 h
      rcases List.mem_cons.1 hp with rfl | hp
      · exact ⟨x, h1⟩
      · exact ih _ h2 p hp
  obtain ⟨d', hd'⟩ := mem _ _ hps _ ht
  rw [this] at hd'
  cases hd'

/-- **C158.** After the program for a BMG file: the target is a ROM in which the file of that name is a BMG with the changed
messages, and everything else is as in the source. -/
theorem putIntoRom_partial {sjis : Text.Codec} {P : Nat → Prop} {fuel limit : Nat} (h0 : 0 < limit) {file source target : Path}
    {edits : List (Int × List Part)} {name : Str} {fs fs' : FS}
    (h : putIntoRom sjis fuel limit file edits source name target fs = (.ok (), fs')) :
    ∃ b b' r q data, bmgFromFile sjis fuel file 0 fs = .ok b ∧ setAll b edits = .ok b' ∧ b'.save sjis = .ok data ∧
      romFromFile limit source fs = .ok r ∧ romFromFile limit target fs' = .ok q ∧ Rom.getFileByName q name = .ok data ∧
      (∀ k name', Denotes r.filenames r.files.length name k → ¬ Denotes r.filenames r.files.length name' k →
        Rom.getFileByName q name' = Rom.getFileByName r name') ∧
      (∀ p, p ≠ target → fs'.content p = fs.content p) ∧
      (TextOk sjis P b' → (b.encoding = .shiftJis → Strict sjis) → Readable b data → ∀ fuel', data.length ≤ fuel' →
        ∃ c, BMG.load sjis fuel' data 0 = .ok c ∧ Changed b c edits) := by
  unfold putIntoRom at h
  obtain ⟨r', h, hs⟩ := Programs.program_ok.1 h
  obtain ⟨b, hb, h⟩ := bind_eq_ok.1 h
  obtain ⟨b', hb', h⟩ := bind_eq_ok.1 h
  obtain ⟨r, hr, h⟩ := bind_eq_ok.1 h
  obtain ⟨data, hdata, h⟩ := bind_eq_ok.1 h
  obtain ⟨w, r2, h1, -, h3⟩ := Programs.rom_saved.1 hs
  obtain ⟨d, hd, hr'⟩ := readWith_ok.1 hr
  obtain ⟨f, hf, hl⟩ := readWith_ok.1 hb
  obtain ⟨q, hq, h4, h5, -⟩ := Programs.rom_changed h0 hr' h h1
  exact ⟨b, b', r, q, data, hb, hb', hdata, hr, readWith_ok.2 ⟨w, h3.here, hq⟩, h4, h5, fun p hp => h3.elsewhere p hp,
    fun hP hS hR fuel' hf' => bmg_changed_partial hl hb' hP hS hdata hR hf'⟩

/-- **C158.** The same for the BMG in the ROM. -/
theorem changeInRom_partial {sjis : Text.Codec} {P : Nat → Prop} {fuel limit : Nat} (h0 : 0 < limit) {source target : Path}
    {edits : List (Int × List Part)} {name : Str} {fs fs' : FS}
    (h : changeInRom sjis fuel limit edits source name target fs = (.ok (), fs')) :
    ∃ f b b' r q data, romFromFile limit source fs = .ok r ∧ Rom.getFileByName r name = .ok f ∧ BMG.load sjis fuel f 0 = .ok b ∧
      setAll b edits = .ok b' ∧ b'.save sjis = .ok data ∧ romFromFile limit target fs' = .ok q ∧
      Rom.getFileByName q name = .ok data ∧
      (∀ k name', Denotes r.filenames r.files.length name k → ¬ Denotes r.filenames r.files.length name' k →
        Rom.getFileByName q name' = Rom.getFileByName r name') ∧
      (∀ p, p ≠ target → fs'.content p = fs.content p) ∧
      (TextOk sjis P b' → (b.encoding = .shiftJis → Strict sjis) → Readable b data → ∀ fuel', data.length ≤ fuel' →
        ∃ c, BMG.load sjis fuel' data 0 = .ok c ∧ Changed b c edits) := by
  unfold changeInRom at h
  obtain ⟨r', h, hs⟩ := Programs.program_ok.1 h
  obtain ⟨r, hr, h⟩ := bind_eq_ok.1 h
  obtain ⟨f, hf, h⟩ := bind_eq_ok.1 h
  obtain ⟨b, hl, h⟩ := bind_eq_ok.1 h
  obtain ⟨b', hb', h⟩ := bind_eq_ok.1 h
  obtain ⟨data, hdata, h⟩ := bind_eq_ok.1 h
  obtain ⟨w, r2, h1, -, h3⟩ := Programs.rom_saved.1 hs
  obtain ⟨d, hd, hr'⟩ := readWith_ok.1 hr
  obtain ⟨q, hq, h4, h5, -⟩ := Programs.rom_changed h0 hr' h h1
  exact ⟨f, b, b', r, q, data, hr, hf, hl, hb', hdata, readWith_ok.2 ⟨w, h3.here, hq⟩, h4, h5, fun p hp => h3.elsewhere p hp,
    fun hP hS hR fuel' hf' => bmg_changed_partial hl hb' hP hS hdata hR hf'⟩

/-- **C158.** If one of the programs fails, no file has changed. -/
theorem failed {sjis : Text.Codec} {fuel limit : Nat} {file source target : Path} {edits : List (Int × List Part)} {name : Str}
    {fs fs' : FS} {e : PyErr}
    (h : putIntoRom sjis fuel limit file edits source name target fs = (.error e, fs') ∨
      changeInRom sjis fuel limit edits source name target fs = (.error e, fs')) : fs' = fs := by
  rcases h with h | h
  all_goals
    first | unfold putIntoRom Spec.Programs.andThen at h | unfold changeInRom Spec.Programs.andThen at h
    split at h
    · cases h; rfl
    · exact (writeWith_error h).1

/-! ## The hypotheses can be met -/

/-- A BMG file with three messages, the second of them null. -/
def bmgData : Bytes := ((Bmg.exBMG .little).save Text.cp1252).toOption.getD []

/-- Changes of the first message (twice), of the null message (counted from the end) and none of the last. -/
def edits : List (Int × List Part) :=
  [(0, [.text [33]]), (-2, [.text [34]]), (0, [.text [72], .text [105], .escape 1 [2], .text []])]

theorem edits_done : ((BMG.load Text.cp1252 300 bmgData 0 >>= fun b => setAll b edits) >>= fun b => b.save Text.cp1252 >>= fun d =>
    (BMG.load Text.cp1252 300 d 5).map fun q => (d.length, q.messages)) =
    .ok (224, [⟨[1, 2], [.text [72, 105], .escape 1 [2]], false⟩, ⟨[3, 4], [], true⟩, ⟨[5, 6], [.text [0x1F600]], false⟩]) := by
  decide +kernel

example : Last 3 edits 0 [.text [72], .text [105], .escape 1 [2], .text []] ∧ Last 3 edits 1 [.text [34]] ∧
    Untouched 3 edits 2 := by
  refine ⟨⟨[(0, [.text [33]]), (-2, [.text [34]])], 0, [], rfl, rfl, by simp⟩, ⟨[(0, [.text [33]])], -2,
    [(0, [.text [72], .text [105], .escape 1 [2], .text []])], rfl, rfl, ?_⟩, ?_⟩
  · intro e he
    rw [List.mem_singleton.1 he]
    decide
  · intro e he
    unfold edits at he
    simp only [List.mem_cons, List.not_mem_nil, or_false] at he
    rcases he with rfl | rfl | rfl <;> decide

example (data : Bytes) (h : data.length = 224) : Readable (Bmg.exBMG .little) data :=
  ⟨by rw [h]; show _ < _; decide +kernel, by intro h; cases h⟩

example : (setAll (Bmg.exBMG .little) [(3, [])]).isOk = false ∧
    (setAll (Bmg.exBMG .little) [(0, [.text [65, 0]])] >>= fun b => b.save Text.cp1252) = .error .valueError := by decide +kernel

/-- A ROM with the BMG file as its only file, `c`. -/
def withBmg : Bytes :=
  zeros 0x40 ++ [0, 2, 0, 0, 12, 0, 0, 0, 12, 2, 0, 0, 8, 0, 0, 0] ++ zeros 0x1B0 ++
    [8, 0, 0, 0, 0, 0, 1, 0, 1, 99, 0, 0] ++ [20, 2, 0, 0] ++ leBytes 4 (0x214 + bmgData.length) ++ bmgData

/-- What is to be saved when the messages have been changed. -/
def withBmgEdited : Py Rom.Rom := do
  let r ← Rom.load 1 withBmg
  let f ← Rom.getFileByName r [99]
  let b ← BMG.load Text.cp1252 300 f 0
  let b ← setAll b edits
  let d ← b.save Text.cp1252
  Rom.setFileByName r [99] d

example : ∃ fs', changeInRom Text.cp1252 300 1 edits Programs.romFile [99] Programs.outFile
    ⟨fun p => if p = Programs.romFile then some withBmg else none, fun _ => true⟩ = (.ok (), fs') := by
  have h : ∃ b r', Rom.save (withBmgEdited.toOption.getD Rom.new) false = .ok (b, r') := by
    refine (Props.Rom.saves_of (ids := []) (fnt := [8, 0, 0, 0, 0, 0, 1, 0, 1, 99, 0]) ?_ (by decide +kernel)
      (by decide +kernel) (by decide +kernel) ?_ ?_).2.2
    · rw [show (withBmgEdited.toOption.getD Rom.new).arm9OverlayTable = [] by decide +kernel]
      exact Props.Rom.overlayIds_nil
    · exact .inl (by decide +kernel)
    · refine ⟨by decide +kernel, by decide +kernel, by decide +kernel, by decide +kernel, by decide +kernel,
        by decide +kernel, by decide +kernel, ?_, ?_, ?_⟩ <;> decide +kernel
  obtain ⟨b, r', h⟩ := h
  have h1 : withBmgEdited.isOk := by decide +kernel
  cases he : withBmgEdited with
  | error e => rw [he] at h1; cases h1
  | ok r2 =>
    rw [he] at h
    refine ⟨_, Programs.program_ok.2 ⟨r2, ?_, Programs.rom_saved.2 ⟨b, r', h, rfl, Programs.wrote_here _ _ _⟩⟩⟩
    rw [← he]
    unfold withBmgEdited romFromFile
    rw [readWith_of (d := withBmg) (by simp)]

end Verif.Props.Messages
