import Verif.Model.ReprSound
import Verif.Spec.ReprSound
import Verif.Proofs.ReprClasses
import Verif.Proofs.Texture

/-!
# The texts of waves, streams, banks, sequences and textures
-/

namespace Verif.Proofs.ReprSound

open Verif Verif.Model.Repr Verif.Model.ReprClasses Verif.Model.ReprSound Verif.Model.Util
open Verif.Spec.PyExpr Verif.Proofs.PyExpr Verif.Proofs.ReprClasses Verif.Spec.Repr Verif.Spec.ReprSound
open Verif.Model.SoundArchiveObject
open Verif.Model.SoundSequence (Ev)

/-! ## Items of which one is no expression -/

/-- A keyword whose value is no expression. -/
theorem badItems_kw {k : String} (hk : IsId (lit k)) {t : Str} (h : Bad t) : BadItems (kw k t) := by
  have e1 : kw k t = lit k ++ 61 :: t := by
    have : lit "=" = [61] := by decide
    unfold kw
    rw [this, List.append_assoc]
    rfl
  rw [e1]
  refine badItems_of_large fun close rest hc => ⟨3, fun m hm => ?_⟩
  obtain ⟨m, rfl⟩ : ∃ j, m = j + 3 := ⟨m - 3, by omega⟩
  have e4 : expr (m + 2) (lit k ++ 61 :: t ++ rest) = some (.name [lit k], 61 :: (t ++ rest)) := by
    rw [List.append_assoc, List.cons_append]
    exact expr_name hk (by intro c hc; cases hc; rfl) (by simp) (by simp) (by simp)
  have e3 : keyword (.name [lit k], 61 :: (t ++ rest)) = some (lit k, t ++ rest) := rfl
  obtain ⟨c, u, et, h1⟩ : ∃ c u, lit k = c :: u ∧ isIdStart c = true := by
    obtain ⟨⟨c, u, e, hc⟩, _⟩ := hk
    exact ⟨c, u, e, hc⟩
  have h32 : c ≠ 32 := by rintro rfl; cases h1
  have es : skip (lit k ++ 61 :: t ++ rest) = lit k ++ 61 :: t ++ rest := by
    rw [et, List.cons_append, List.cons_append, skip_id h32]
  rw [items, es, if_neg, e4]
  · simp only [Option.bind_some, e3]
    rw [h (m + 2) rest]
    rfl
  · rw [et, List.cons_append, List.cons_append, List.head?_cons]
    intro e
    cases e
    unfold Close at hc
    rcases hc with rfl | rfl | rfl <;> cases h1

/-- Items of which one is no expression. -/
theorem badItems_of_mem : ∀ (l : List Str), (∀ t ∈ l, (∃ x, ReadsItem t x) ∨ BadItems t) → (∃ t ∈ l, BadItems t) →
    BadItems (join (lit ", ") l)
  | [], _, h => by obtain ⟨_, h, _⟩ := h; cases h
  | [t], _, h => by
    obtain ⟨u, hu, hb⟩ := h
    cases List.mem_singleton.1 hu
    exact hb
  | t :: u :: l, ha, h => by
    rcases ha t (by simp) with ⟨x, hx⟩ | hb
    · by_cases hb : BadItems t
      · exact badItems_join hb _
      · refine badItems_join_cons hx (badItems_of_mem (u :: l) (fun v hv => ha v (List.mem_cons_of_mem _ hv)) ?_)
        obtain ⟨v, hv, hv'⟩ := h
        rcases List.mem_cons.1 hv with rfl | hv
        · exact absurd hv' hb
        · exact ⟨v, hv, hv'⟩
    · exact badItems_join hb _

/-- Such a list as an item. -/
theorem badItems_list {α : Type} {f : α → Str} {l : List α} (ha : ∀ x ∈ l, (∃ e, Reads (f x) e) ∨ BadItems (f x))
    (h : ∃ x ∈ l, BadItems (f x)) : Bad (reprList f l) ∧ BadItems (reprList f l) := by
  have hb : BadItems (join (lit ", ") (l.map f)) := by
    refine badItems_of_mem _ ?_ ?_
    · intro t ht
      obtain ⟨x, hx, rfl⟩ := List.mem_map.1 ht
      rcases ha x hx with ⟨e, he⟩ | h
      · exact .inl ⟨(none, e), he⟩
      · exact .inr h
    · obtain ⟨x, hx, hb⟩ := h
      exact ⟨_, List.mem_map_of_mem hx, hb⟩
  have e : reprList f l = 91 :: (join (lit ", ") (l.map f) ++ lit "]") := by
    unfold reprList
    rw [show lit "[" = [91] by decide]
    simp
  have h1 : Bad (reprList f l) := by
    rw [e]
    exact bad_list (badItems_more hb _)
  refine ⟨h1, ?_⟩
  have := badItems_of_bad h1 e (by decide) (by unfold Close; decide) []
  simpa using this

/-- The name of a class is neither a space nor a bracket at its beginning. -/
theorem badItems_callText {name : String} {l : List Str} (h : Bad (callText name l))
    (hn : ∃ c u, lit name = c :: u ∧ c ≠ 32 ∧ ¬ Close c) : BadItems (callText name l) := by
  obtain ⟨c, u, e, h32, hc⟩ := hn
  have e' : callText name l = c :: (u ++ lit "(" ++ join (lit ", ") l ++ lit ")") := by
    unfold callText
    rw [e]
    simp
  have := badItems_of_bad h e' h32 hc []
  simpa using this

theorem startsOk (name : String) (c : Nat) (u : Str) (e : lit name = c :: u) (h : (c ≠ 32 ∧ c ≠ 93 ∧ c ≠ 41 ∧ c ≠ 125)) :
    ∃ c u, lit name = c :: u ∧ c ≠ 32 ∧ ¬ Close c := ⟨c, u, e, h.1, by unfold Close; omega⟩

/-! ## Waves -/

theorem asBool_bool (b : Bool) : (Expr.name [if b then str "True" else str "False"]).asBool = some b := by
  cases b <;> decide +kernel

def swavE (w : Model.SoundWave.SWAV) : Expr :=
  .call [str "SWAV", str "fromData"] [(none, .bytes (w.data.map UInt8.toNat)), (some (str "waveType"), .int w.waveType),
    (some (str "isLooped"), .name [if w.isLooped then str "True" else str "False"]),
    (some (str "sampleRate"), .int w.sampleRate), (some (str "time"), .int w.time),
    (some (str "loopOffset"), .int w.loopOffset), (some (str "totalLength"), .int w.totalLength)]

theorem reads_swav (w : Model.SoundWave.SWAV) (hl : w.data.length ≤ 32) (hq : 0x27 ∉ w.data) :
    Reads (reprSWAV false w) (swavE w) :=
  reads_call2 (name := "SWAV.fromData") (a := "SWAV") (b := "fromData") (by decide +kernel) (by decide +kernel)
    (by decide +kernel) [(_, none, _), (_, some (str "waveType"), _), (_, some (str "isLooped"), _),
      (_, some (str "sampleRate"), _), (_, some (str "time"), _), (_, some (str "loopOffset"), _),
      (_, some (str "totalLength"), _)] (by
    simp only [List.mem_cons, List.not_mem_nil, or_false, forall_eq_or_imp, forall_eq]
    exact ⟨reads_short _ _ hl hq, readsItem_kw (by decide +kernel) (reads_nat _), readsItem_kw (by decide +kernel) (reads_bool _),
      readsItem_kw (by decide +kernel) (reads_nat _), readsItem_kw (by decide +kernel) (reads_nat _),
      readsItem_kw (by decide +kernel) (reads_nat _), readsItem_kw (by decide +kernel) (reads_nat _)⟩)

theorem swav_eval (w : Model.SoundWave.SWAV) : swav (swavE w) = some w := by
  have c : (swavE w).asCall ["SWAV", "fromData"] [("data", some (.bytes []))] [("waveType", some (.int 0)),
      ("isLooped", some (.name [str "False"])), ("sampleRate", some (.int 8000)), ("time", some (.int 0)),
      ("loopOffset", some (.int 0)), ("totalLength", some (.int 0))] =
      some [.bytes (w.data.map UInt8.toNat), .int w.waveType, .name [if w.isLooped then str "True" else str "False"],
        .int w.sampleRate, .int w.time, .int w.loopOffset, .int w.totalLength] := rfl
  unfold swav
  rw [c]
  simp [asBool_bool, Model.Build.swav]

theorem bad_swav (member : Bool) (w : Model.SoundWave.SWAV) (hq : 0x27 ∉ w.data) (h : ¬ (member = false ∧ w.data.length ≤ 32)) :
    Bad (reprSWAV member w) ∧ BadItems (reprSWAV member w) := by
  have hb : Bad (reprSWAV member w) := by
    refine bad_callText2 (name := "SWAV.fromData") (a := "SWAV") (b := "fromData") (by decide +kernel) (by decide +kernel)
      (by decide +kernel) ?_
    by_cases hl : w.data.length ≤ 32
    · cases member with
      | false => exact absurd ⟨rfl, hl⟩ h
      | true =>
        refine badItems_join_cons (x := (none, _)) (reads_short _ _ hl hq) (badItems_join (badItems_kw (by decide +kernel) ?_) _)
        unfold reprWaveType
        rw [if_pos rfl]
        obtain ⟨t, e⟩ : ∃ t, reprEnum "WaveType" (waveTypeName w.waveType) w.waveType = 60 :: t := ⟨_, by
          unfold reprEnum
          rw [show lit "<" = [60] by decide]
          simp only [List.append_assoc, List.cons_append, List.nil_append]
          rfl⟩
        rw [e]
        exact bad_lt t
    · exact badItems_join (badItems_long _ (by omega) (fun hm => hq (List.mem_of_mem_take hm))) _
  exact ⟨hb, badItems_callText hb (startsOk _ 83 _ rfl (by decide))⟩

/-! ## Wave archives -/

theorem waves_text (l : List (Bool × Model.SoundWave.SWAV)) (hq : ∀ w ∈ l, 0x27 ∉ w.2.data) :
    (∀ w ∈ l, w.1 = false ∧ w.2.data.length ≤ 32) ∧
      Reads (reprSWAR l) (.call [str "SWAR", str "fromWaves"] [(none, .list (l.map fun w => swavE w.2))]) ∨
    (¬ (∀ w ∈ l, w.1 = false ∧ w.2.data.length ≤ 32)) ∧ Bad (reprSWAR l) := by
  by_cases h : ∀ w ∈ l, w.1 = false ∧ w.2.data.length ≤ 32
  · refine .inl ⟨h, ?_⟩
    exact reads_call2 (name := "SWAR.fromWaves") (a := "SWAR") (b := "fromWaves") (by decide +kernel) (by decide +kernel)
      (by decide +kernel) [(_, none, _)] (by
      simp only [List.mem_cons, List.not_mem_nil, or_false, forall_eq]
      refine reads_list l (fun w hw => ?_)
      obtain ⟨m, w⟩ := w
      cases (h _ hw).1
      exact reads_swav w (h _ hw).2 (hq _ hw))
  · refine .inr ⟨h, ?_⟩
    refine bad_callText2 (name := "SWAR.fromWaves") (a := "SWAR") (b := "fromWaves") (by decide +kernel) (by decide +kernel)
      (by decide +kernel) (badItems_join (badItems_list ?_ ?_).2 _)
    · rintro ⟨m, w⟩ hw
      by_cases hx : m = false ∧ w.data.length ≤ 32
      · cases hx.1
        exact .inl ⟨_, reads_swav w hx.2 (hq _ hw)⟩
      · exact .inr (bad_swav m w (hq _ hw) hx).2
    · simp only [Classical.not_forall] at h
      obtain ⟨w, hw, hx⟩ := h
      exact ⟨w, hw, (bad_swav w.1 w.2 (hq w hw) hx).2⟩

theorem swar_eval (l : List Model.SoundWave.SWAV) :
    swar (.call [str "SWAR", str "fromWaves"] [(none, .list (l.map swavE))]) = some (Model.Build.swar l) := by
  have c : (Expr.call [str "SWAR", str "fromWaves"] [(none, .list (l.map swavE))]).asCall ["SWAR", "fromWaves"]
      [("waves", none), ("unk02", some (.int 0))] = some [.list (l.map swavE), .int 0] := rfl
  unfold swar
  rw [c]
  dsimp only
  rw [asList_map l (fun w _ => swav_eval w)]
  rfl

/-! ## Streams -/

def channelsE : List (List Bytes) → Expr
  | [] => .list []
  | c :: cs => .list ((match c with
      | [] => .list []
      | b :: bs => .list (.bytes (b.map UInt8.toNat) :: if bs.isEmpty then [] else [.ellipsis])) ::
        if cs.isEmpty then [] else [.ellipsis])

/-- The first block, if there is one. -/
def firstBlock (channels : List (List Bytes)) : Bytes := (channels.headD []).headD []

theorem ellipsis_text : lit ", ..." = lit ", " ++ lit "..." := by decide +kernel

theorem list_of {t : Str} {e : Expr} (h : Reads t e) (more : Bool) :
    Reads (lit "[" ++ (t ++ if more then [] else lit ", ...") ++ lit "]") (.list (e :: if more then [] else [.ellipsis])) := by
  cases more with
  | true =>
    have := reads_items_list (sep := lit ", ") (.inr (by decide)) [(t, e)] (by simpa using h)
    simpa [join] using this
  | false =>
    have := reads_items_list (sep := lit ", ") (.inr (by decide)) [(t, e), (_, _)] (by
      simp only [List.mem_cons, List.not_mem_nil, or_false, forall_eq_or_imp, forall_eq]
      exact ⟨h, reads_ellipsis⟩)
    rw [ellipsis_text]
    simpa [join] using this

theorem list_nil : Reads (lit "[" ++ [] ++ lit "]") (.list []) := by
  have := reads_items_list (sep := lit ", ") (.inr (by decide)) [] (by simp)
  simpa [join] using this

theorem reads_channels (l : List (List Bytes)) (hl : (firstBlock l).length ≤ 32) (hq : 0x27 ∉ firstBlock l) :
    Reads (reprChannels l) (channelsE l) := by
  cases l with
  | nil => exact list_nil
  | cons c cs =>
    unfold reprChannels channelsE
    dsimp only
    cases c with
    | nil => exact list_of list_nil cs.isEmpty
    | cons b bs => exact list_of (list_of (reads_short b 32 hl hq) bs.isEmpty) cs.isEmpty

theorem bad_channels (l : List (List Bytes)) (hl : 32 < (firstBlock l).length) (hq : 0x27 ∉ (firstBlock l).take 32) :
    BadItems (reprChannels l) := by
  match l, hl, hq with
  | [], hl, _ => simp [firstBlock] at hl
  | [] :: _, hl, _ => simp [firstBlock] at hl
  | (b :: bs) :: cs, hl, hq =>
    have h1 := bad_list (badItems_more (badItems_long b hl hq) ((if bs.isEmpty then [] else lit ", ...") ++ lit "]"))
    have h2 := badItems_of_bad h1 rfl (by decide) (by unfold Close; decide) ((if cs.isEmpty then [] else lit ", ...") ++ lit "]")
    have h3 := badItems_of_bad (bad_list h2) rfl (by decide) (by unfold Close; decide) []
    unfold reprChannels
    simpa [show lit "[" = [91] by decide] using h3

def strmE (s : Strm) : Expr :=
  .call [str "STRM", str "fromChannels"] [(none, channelsE s.obj.channels), (none, .int s.unk02), (none, .int s.volume),
    (none, .int s.priority), (none, .int s.playerID), (none, .int s.unk07)]

theorem reads_strm (s : Strm) (hl : (firstBlock s.obj.channels).length ≤ 32) (hq : 0x27 ∉ firstBlock s.obj.channels) :
    Reads (reprSTRM s) (strmE s) :=
  reads_call2 (name := "STRM.fromChannels") (a := "STRM") (b := "fromChannels") (by decide +kernel) (by decide +kernel)
    (by decide +kernel) [(_, none, _), (_, none, _), (_, none, _), (_, none, _), (_, none, _), (_, none, _)] (by
    simp only [List.mem_cons, List.not_mem_nil, or_false, forall_eq_or_imp, forall_eq]
    exact ⟨reads_channels _ hl hq, reads_nat _, reads_nat _, reads_nat _, reads_nat _, reads_nat _⟩)

theorem bad_strm (s : Strm) (hl : 32 < (firstBlock s.obj.channels).length) (hq : 0x27 ∉ firstBlock s.obj.channels) :
    Bad (reprSTRM s) :=
  bad_callText2 (name := "STRM.fromChannels") (a := "STRM") (b := "fromChannels") (by decide +kernel) (by decide +kernel)
    (by decide +kernel) (badItems_join (bad_channels _ hl (fun hm => hq (List.mem_of_mem_take hm))) _)

theorem channels_eval (l : List (List Bytes)) : (channelsE l).asList (Expr.asList Expr.asBytes) =
    if l.length ≤ 1 ∧ ∀ c ∈ l, c.length ≤ 1 then some l else none := by
  match l with
  | [] => rfl
  | [[]] => rfl
  | [[b]] =>
    rw [if_pos (by simp)]
    simp [channelsE, Expr.asList, allOf]
  | [b :: b' :: bs] =>
    rw [if_neg (by simp)]
    simp [channelsE, Expr.asList, allOf, Expr.asBytes]
  | c :: c' :: cs =>
    rw [if_neg (by simp)]
    cases c <;> simp [channelsE, Expr.asList, allOf]

theorem strm_eval (s : Strm) : strm (strmE s) =
    if s.obj.channels.length ≤ 1 ∧ ∀ c ∈ s.obj.channels, c.length ≤ 1 then
      some (Model.Build.strm s.obj.channels s.unk02 s.volume s.priority s.playerID s.unk07) else none := by
  have c : (strmE s).asCall ["STRM", "fromChannels"] [("channels", none), ("unk02", some (.int 0)), ("volume", some (.int 127)),
      ("priority", some (.int 64)), ("playerID", some (.int 0)), ("unk07", some (.int 0))] =
      some [channelsE s.obj.channels, .int s.unk02, .int s.volume, .int s.priority, .int s.playerID, .int s.unk07] := rfl
  unfold strm
  rw [c]
  dsimp only
  rw [channels_eval]
  split <;> simp

/-! ## Instruments -/

theorem note_item (n : Model.SoundBank.Note) : (∃ e, Reads (reprNote n) e) ∨ BadItems (reprNote n) := by
  by_cases h : n.type = 1 ∨ n.type = 2 ∨ n.type = 3
  · exact .inr (badItems_callText (bad_note n h) (startsOk _ 78 _ rfl (by decide)))
  · exact .inl ⟨_, reads_note n h⟩

theorem note_bad {n : Model.SoundBank.Note} (h : ¬ Plain n) : BadItems (reprNote n) :=
  badItems_callText (bad_note n (Classical.not_not.1 h)) (startsOk _ 78 _ rfl (by decide))

def regionE (r : Nat × Model.SoundBank.Note) : Expr := .call [str "Region"] [(none, .int r.1), (none, noteE r.2)]

theorem reads_region (r : Nat × Model.SoundBank.Note) (h : Plain r.2) : Reads (reprRegion r) (regionE r) :=
  reads_call1 (name := "Region") (by decide +kernel) [(_, none, _), (_, none, _)] (by
    simp only [List.mem_cons, List.not_mem_nil, or_false, forall_eq_or_imp, forall_eq]
    exact ⟨reads_nat _, reads_note _ h⟩)

theorem bad_region (r : Nat × Model.SoundBank.Note) (h : ¬ Plain r.2) : BadItems (reprRegion r) := by
  have hb : Bad (reprRegion r) := bad_callText (name := "Region") (by decide +kernel)
    (badItems_join_cons (x := (none, _)) (reads_nat _) (badItems_join (note_bad h) _))
  exact badItems_callText hb (startsOk _ 82 _ rfl (by decide))

def kindE : Model.SoundBank.Kind → Expr
  | .single n => .call [str "SingleNoteInstrument"] [(none, noteE n)]
  | .range p l => .call [str "RangeInstrument"] [(none, .int p), (none, .list (l.map noteE))]
  | .regional l => .call [str "RegionalInstrument"] [(none, .list (l.map regionE))]

theorem reads_kind (k : Model.SoundBank.Kind) (h : ∀ n ∈ notesOf k, Plain n) : Reads (reprKind k) (kindE k) := by
  cases k with
  | single n =>
    exact reads_call1 (name := "SingleNoteInstrument") (by decide +kernel) [(_, none, _)] (by
      simp only [List.mem_cons, List.not_mem_nil, or_false, forall_eq]
      exact reads_note n (h n (by simp [notesOf])))
  | range p l =>
    exact reads_call1 (name := "RangeInstrument") (by decide +kernel) [(_, none, _), (_, none, _)] (by
      simp only [List.mem_cons, List.not_mem_nil, or_false, forall_eq_or_imp, forall_eq]
      exact ⟨reads_nat _, reads_list l (fun n hn => reads_note n (h n hn))⟩)
  | regional l =>
    exact reads_call1 (name := "RegionalInstrument") (by decide +kernel) [(_, none, _)] (by
      simp only [List.mem_cons, List.not_mem_nil, or_false, forall_eq]
      exact reads_list l (fun r hr => reads_region r (h r.2 (List.mem_map_of_mem hr))))

theorem bad_kind (k : Model.SoundBank.Kind) (h : ¬ ∀ n ∈ notesOf k, Plain n) : Bad (reprKind k) ∧ BadItems (reprKind k) := by
  simp only [Classical.not_forall] at h
  obtain ⟨n, hn, hb⟩ := h
  cases k with
  | single m =>
    cases List.mem_singleton.1 hn
    have : Bad (reprKind (.single n)) := bad_callText (name := "SingleNoteInstrument") (by decide +kernel)
      (badItems_join (note_bad hb) _)
    exact ⟨this, badItems_callText this (startsOk _ 83 _ rfl (by decide))⟩
  | range p l =>
    have : Bad (reprKind (.range p l)) := bad_callText (name := "RangeInstrument") (by decide +kernel)
      (badItems_join_cons (x := (none, _)) (reads_nat _)
        (badItems_join (badItems_list (fun m _ => note_item m) ⟨n, hn, note_bad hb⟩).2 _))
    exact ⟨this, badItems_callText this (startsOk _ 82 _ rfl (by decide))⟩
  | regional l =>
    obtain ⟨r, hr, rfl⟩ := List.mem_map.1 hn
    have : Bad (reprKind (.regional l)) := bad_callText (name := "RegionalInstrument") (by decide +kernel)
      (badItems_join (badItems_list (fun r _ => by
        by_cases hp : Plain r.2
        · exact .inl ⟨_, reads_region r hp⟩
        · exact .inr (bad_region r hp)) ⟨r, hr, bad_region r hb⟩).2 _)
    exact ⟨this, badItems_callText this (startsOk _ 82 _ rfl (by decide))⟩

theorem region_eval (r : Nat × Model.SoundBank.Note) : region (regionE r) = none := by
  unfold region regionE Expr.asCall
  dsimp only
  rw [if_neg (by simp)]

open Classical in
theorem kind_eval (k : Model.SoundBank.Kind) : instrument (kindE k) =
    if ∃ r l, k = .regional (r :: l) then none else some ⟨k, 0, 0⟩ := by
  match k with
  | .single n =>
    rw [if_neg (by simp)]
    show (Model.Constructors.noteDefinition (noteE n)).map (fun n => (⟨.single n, 0, 0⟩ : Model.SoundBank.Inst)) = _
    rw [note_eval]
    rfl
  | .range p l =>
    rw [if_neg (by simp)]
    show ((Expr.int p).asNat.bind fun p => ((Expr.list (l.map noteE)).asList Model.Constructors.noteDefinition).map
      fun l => (⟨.range p l, 0, 0⟩ : Model.SoundBank.Inst)) = _
    rw [asList_map l (fun n _ => note_eval n)]
    simp
  | .regional [] =>
    rw [if_neg (by simp)]
    rfl
  | .regional (r :: l) =>
    rw [if_pos ⟨r, l, rfl⟩]
    show ((Expr.list ((r :: l).map regionE)).asList region).map (fun l => (⟨.regional l, 0, 0⟩ : Model.SoundBank.Inst)) = _
    have : (Expr.list ((r :: l).map regionE)).asList region = none := by
      show allOf _ _ = _
      rw [List.map_cons, allOf, region_eval]
      rfl
    rw [this]
    rfl

/-! ## Banks -/

def optE {α : Type} (g : α → Expr) : Option α → Expr
  | none => .name [str "None"]
  | some x => g x

theorem reads_opt {α : Type} {f : α → Str} {g : α → Expr} (o : Option α) (h : ∀ x, o = some x → Reads (f x) (g x)) :
    Reads (reprOption f o) (optE g o) := by
  cases o with
  | none => exact reads_name (s := lit "None") (by decide +kernel)
  | some x => exact h x rfl

def instE (i : Model.SoundBank.Inst) : Expr := kindE i.kind

def sbnkE (b : Bank) : Expr :=
  .call [str "SBNK", str "fromInstruments"] [(none, .list (b.obj.instruments.map (optE instE))),
    (some (str "waveArchiveIDs"), .list (b.obj.waveArchiveIDs.map (optE .int)))]

/-- All instruments are printed as expressions. -/
def PlainBank (b : Bank) : Prop := ∀ i, some i ∈ b.obj.instruments → ∀ n ∈ notesOf i.kind, Plain n

theorem reads_ids (b : Bank) : Reads (reprList (reprOption reprInt) b.obj.waveArchiveIDs)
    (.list (b.obj.waveArchiveIDs.map (optE .int))) :=
  reads_list _ (fun o _ => reads_opt o (fun x _ => reads_int x))

theorem reads_sbnk (b : Bank) (h : PlainBank b) : Reads (reprSBNK b) (sbnkE b) :=
  reads_call2 (name := "SBNK.fromInstruments") (a := "SBNK") (b := "fromInstruments") (by decide +kernel) (by decide +kernel)
    (by decide +kernel) [(_, none, _), (_, some (str "waveArchiveIDs"), _)] (by
    simp only [List.mem_cons, List.not_mem_nil, or_false, forall_eq_or_imp, forall_eq]
    refine ⟨reads_list _ (fun o ho => reads_opt (g := instE) o (fun i hi => ?_)), readsItem_kw (by decide +kernel) (reads_ids b)⟩
    subst hi
    exact reads_kind _ (h i ho))

theorem bad_sbnk (b : Bank) (h : ¬ PlainBank b) : Bad (reprSBNK b) := by
  refine bad_callText2 (name := "SBNK.fromInstruments") (a := "SBNK") (b := "fromInstruments") (by decide +kernel)
    (by decide +kernel) (by decide +kernel) (badItems_join (badItems_list ?_ ?_).2 _)
  · intro o _
    cases o with
    | none => exact .inl ⟨_, reads_name (by decide +kernel)⟩
    | some i =>
      by_cases hi : ∀ n ∈ notesOf i.kind, Plain n
      · exact .inl ⟨_, reads_kind _ hi⟩
      · exact .inr (bad_kind _ hi).2
  · unfold PlainBank at h
    rw [Classical.not_forall] at h
    obtain ⟨i, h⟩ := h
    rw [Classical.not_imp] at h
    exact ⟨some i, h.1, (bad_kind _ h.2).2⟩

theorem sbnk_call (b : Bank) : (sbnkE b).asCall ["SBNK", "fromInstruments"] [("instruments", none), ("unk02", some (.int 0)),
    ("waveArchiveIDs", some Model.Constructors.pyNone)] =
    some [.list (b.obj.instruments.map (optE instE)), .int 0, .list (b.obj.waveArchiveIDs.map (optE .int))] := rfl

theorem ids_eval (l : List (Option Int)) : (Expr.list (l.map (optE .int))).asList (Expr.asOption Expr.asInt) = some l :=
  asList_map l (fun o _ => by
    cases o with
    | none => decide +kernel
    | some x => rfl)

theorem kind_isName (k : Model.SoundBank.Kind) : (kindE k).isName "None" = false := by cases k <;> rfl

open Classical in
theorem instruments_eval (l : List (Option Model.SoundBank.Inst)) :
    (Expr.list (l.map (optE instE))).asList (Expr.asOption instrument) =
      if ∃ i r m, some i ∈ l ∧ i.kind = .regional (r :: m) then none
      else some (l.map (Option.map fun i => ⟨i.kind, 0, 0⟩)) := by
  have none_eval : Expr.asOption instrument (optE instE none) = some none := by decide +kernel
  have some_eval : ∀ i : Model.SoundBank.Inst, Expr.asOption instrument (optE instE (some i)) = (instrument (kindE i.kind)).map some := by
    intro i
    unfold Expr.asOption
    show (if (kindE i.kind).isName "None" = true then _ else _) = _
    rw [if_neg (by rw [kind_isName]; decide)]
    rfl
  split
  · rename_i h
    obtain ⟨i, r, m, hi, hk⟩ := h
    refine allOf_none (e := optE instE (some i)) ?_ _ (List.mem_map_of_mem hi)
    rw [some_eval, kind_eval, if_pos ⟨r, m, hk⟩]
    rfl
  · rename_i h
    show allOf _ _ = _
    induction l with
    | nil => rfl
    | cons o l ih =>
      have ih := ih (by
        rintro ⟨i, r, m, hi, hk⟩
        exact h ⟨i, r, m, List.mem_cons_of_mem _ hi, hk⟩)
      rw [List.map_cons, allOf, ih]
      cases o with
      | none => rw [none_eval]; rfl
      | some i =>
        rw [some_eval, kind_eval, if_neg]
        · rfl
        · rintro ⟨r, m, hk⟩
          exact h ⟨i, r, m, List.mem_cons_self, hk⟩

open Classical in
theorem sbnk_eval (b : Bank) : sbnk (sbnkE b) =
    if ∃ i r m, some i ∈ b.obj.instruments ∧ i.kind = .regional (r :: m) then none
    else some ⟨⟨0, Model.SoundBank.dropNones b.obj.waveArchiveIDs,
      b.obj.instruments.map (Option.map fun i => ⟨i.kind, 0, 0⟩), []⟩, 0⟩ := by
  unfold sbnk
  rw [sbnk_call]
  dsimp only
  rw [instruments_eval]
  have : (Expr.list (b.obj.waveArchiveIDs.map (optE .int))).asOption (Expr.asList (Expr.asOption Expr.asInt)) =
      some (some b.obj.waveArchiveIDs) := by
    unfold Expr.asOption
    rw [if_neg (by simp [Expr.isName])]
    show ((Expr.list (b.obj.waveArchiveIDs.map (optE .int))).asList (Expr.asOption Expr.asInt)).map some = _
    rw [ids_eval]
    rfl
  rw [this]
  split <;> rfl

/-! ## Sequences -/

theorem event_start {order : List Nat → List Nat} {obj : Nat → Ev} {addr : Nat → Nat} {f : Nat} {e : Ev} {s : Str}
    (h : reprEv order obj addr f e = .ok s) : ∃ c u, s = c :: u ∧ c ≠ 32 ∧ ¬ Close c := by
  have go : ∀ (name : String) (l : List Str), (∃ c u, lit name = c :: u ∧ c ≠ 32 ∧ ¬ Close c) → s = callText name l →
      ∃ c u, s = c :: u ∧ c ≠ 32 ∧ ¬ Close c := by
    rintro name l ⟨c, u, e, h1, h2⟩ rfl
    refine ⟨c, u ++ lit "(" ++ join (lit ", ") l ++ lit ")", ?_, h1, h2⟩
    unfold callText
    rw [e]
    simp
  cases f with
  | zero => cases h
  | succ f =>
    cases e <;> simp only [reprEv] at h
    case beginTrack n i =>
      obtain ⟨t, _, h⟩ := bind_eq_ok.1 h
      exact go _ _ (startsOk _ 66 _ rfl (by decide)) (by cases h; rfl)
    case jump i =>
      obtain ⟨t, _, h⟩ := bind_eq_ok.1 h
      exact go _ _ (startsOk _ 74 _ rfl (by decide)) (by cases h; rfl)
    case call i =>
      obtain ⟨t, _, h⟩ := bind_eq_ok.1 h
      exact go _ _ (startsOk _ 67 _ rfl (by decide)) (by cases h; rfl)
    case arith op v x =>
      cases h
      refine go _ _ ?_ rfl
      cases op <;> exact startsOk _ 86 _ rfl (by decide)
    case simple k v =>
      cases h
      refine go _ _ ?_ rfl
      cases k
      all_goals first
        | exact startsOk _ 80 _ rfl (by decide)
        | exact startsOk _ 84 _ rfl (by decide)
        | exact startsOk _ 71 _ rfl (by decide)
        | exact startsOk _ 86 _ rfl (by decide)
        | exact startsOk _ 65 _ rfl (by decide)
        | exact startsOk _ 68 _ rfl (by decide)
        | exact startsOk _ 83 _ rfl (by decide)
        | exact startsOk _ 82 _ rfl (by decide)
        | exact startsOk _ 66 _ rfl (by decide)
        | exact startsOk _ 69 _ rfl (by decide)
    all_goals
      cases h
      first
        | exact go _ _ (startsOk _ 78 _ rfl (by decide)) rfl
        | exact go _ _ (startsOk _ 82 _ rfl (by decide)) rfl
        | exact go _ _ (startsOk _ 73 _ rfl (by decide)) rfl
        | exact go _ _ (startsOk _ 70 _ rfl (by decide)) rfl
        | exact go _ _ (startsOk _ 77 _ rfl (by decide)) rfl
        | exact go _ _ (startsOk _ 86 _ rfl (by decide)) rfl
        | exact go _ _ (startsOk _ 84 _ rfl (by decide)) rfl
        | exact go _ _ (startsOk _ 83 _ rfl (by decide)) rfl
        | exact go _ _ (startsOk _ 69 _ rfl (by decide)) rfl
        | exact go _ _ (startsOk _ 68 _ rfl (by decide)) rfl

theorem events_text {order : List Nat → List Nat} {obj : Nat → Ev} {addr : Nat → Nat} {f : Nat} : ∀ {l : List Ev} {ts : List Str},
    mapE (reprEv order obj addr f) l = .ok ts →
    (∀ t ∈ ts, (∃ x, ReadsItem t x) ∨ BadItems t) ∧ ((∃ e ∈ l, plainEvent e = false) → ∃ t ∈ ts, BadItems t) ∧
      ((∀ e ∈ l, plainEvent e = true) → ∃ ps : List (Str × Expr), ps.map Prod.fst = ts ∧ ps.map Prod.snd = l.map (eventE order) ∧
        ∀ x ∈ ps, Reads x.1 x.2)
  | [], ts, h => by
    cases h
    exact ⟨by simp, by simp, fun _ => ⟨[], by simp⟩⟩
  | e :: l, ts, h => by
    obtain ⟨t, h1, h⟩ := bind_eq_ok.1 h
    obtain ⟨us, h2, h⟩ := bind_eq_ok.1 h
    cases h
    obtain ⟨ha, hb, hc⟩ := events_text h2
    have ht := event_text order obj addr f e t h1
    have hbad : plainEvent e = false → BadItems t := by
      intro hp
      rw [hp] at ht
      obtain ⟨c, u, e1, e2, e3⟩ := event_start h1
      have := badItems_of_bad (show Bad t from ht) e1 e2 e3 []
      simpa using this
    refine ⟨?_, ?_, ?_⟩
    · intro x hx
      rcases List.mem_cons.1 hx with rfl | hx
      · cases hp : plainEvent e with
        | true => rw [hp] at ht; exact .inl ⟨(none, _), show Reads _ _ from ht⟩
        | false => exact .inr (hbad hp)
      · exact ha x hx
    · rintro ⟨x, hx, hp⟩
      rcases List.mem_cons.1 hx with rfl | hx
      · exact ⟨t, by simp, hbad hp⟩
      · obtain ⟨y, hy, hy'⟩ := hb ⟨x, hx, hp⟩
        exact ⟨y, by simp [hy], hy'⟩
    · intro hp
      obtain ⟨ps, p1, p2, p3⟩ := hc (fun x hx => hp x (by simp [hx]))
      rw [hp e (by simp)] at ht
      refine ⟨(t, eventE order e) :: ps, by simp [p1], by simp [p2], ?_⟩
      intro x hx
      rcases List.mem_cons.1 hx with rfl | hx
      · exact ht
      · exact p3 x hx

/-- The events that are printed. -/
def shown (s : Seq) : List Ev := (s.obj.events.take 8).map Prod.snd

def sseqE (order : List Nat → List Nat) (s : Seq) : Expr :=
  .call [str "SSEQ", str "fromEvents"] [(none, .list ((shown s).map (eventE order) ++
    if 8 < s.obj.events.length then [.ellipsis] else [])), (none, .int s.unk02), (none, .int s.bankID), (none, .int s.volume),
    (none, .int s.channelPressure), (none, .int s.polyphonicPressure), (none, .int s.playerID)]

theorem reprSSEQ_parsed {order : List Nat → List Nat} {obj : Nat → Ev} {addr : Nat → Nat} {f : Nat} {s : Seq} {t : Str}
    (h : reprSSEQ order obj addr f s = .ok t) (hp : s.obj.parsed = true) : ∃ ts,
    mapE (reprEv order obj addr f) (shown s) = .ok ts ∧ t = callText "SSEQ.fromEvents"
      [lit "[" ++ join (lit ", ") ts ++ if 8 < s.obj.events.length then lit ", ...]" else lit "]", reprNat s.unk02,
        reprNat s.bankID, reprNat s.volume, reprNat s.channelPressure, reprNat s.polyphonicPressure, reprNat s.playerID] := by
  unfold reprSSEQ at h
  rw [if_pos hp] at h
  obtain ⟨ts, h1, h⟩ := bind_eq_ok.1 h
  refine ⟨ts, ?_, ?_⟩
  · rw [← h1]
    unfold shown
    split
    · rfl
    · rw [List.take_of_length_le (by omega)]
  · cases h
    rfl

theorem sseq_text {order : List Nat → List Nat} {obj : Nat → Ev} {addr : Nat → Nat} {f : Nat} {s : Seq} {t : Str}
    (h : reprSSEQ order obj addr f s = .ok t) (hp : s.obj.parsed = true) :
    (∀ e ∈ shown s, plainEvent e = true) ∧ Reads t (sseqE order s) ∨ (∃ e ∈ shown s, plainEvent e = false) ∧ Bad t := by
  obtain ⟨ts, hts, rfl⟩ := reprSSEQ_parsed h hp
  obtain ⟨ha, hb, hc⟩ := events_text hts
  by_cases hx : ∃ e ∈ shown s, plainEvent e = false
  · refine .inr ⟨hx, ?_⟩
    have h1 := badItems_of_mem ts ha (hb hx)
    have h2 := bad_list (badItems_more h1 (if 8 < s.obj.events.length then lit ", ...]" else lit "]"))
    have h3 := badItems_of_bad h2 rfl (by decide) (by unfold Close; decide) []
    refine bad_callText2 (name := "SSEQ.fromEvents") (a := "SSEQ") (b := "fromEvents") (by decide +kernel) (by decide +kernel)
      (by decide +kernel) (badItems_join ?_ _)
    simpa [show lit "[" = [91] by decide] using h3
  · have hx : ∀ e ∈ shown s, plainEvent e = true := by
      intro e he
      cases hp : plainEvent e with
      | true => rfl
      | false => exact absurd ⟨e, he, hp⟩ hx
    refine .inl ⟨hx, ?_⟩
    obtain ⟨ps, p1, p2, p3⟩ := hc hx
    have hl : Reads (lit "[" ++ join (lit ", ") ts ++ if 8 < s.obj.events.length then lit ", ...]" else lit "]")
        (.list ((shown s).map (eventE order) ++ if 8 < s.obj.events.length then [.ellipsis] else [])) := by
      split
      · rename_i h8
        have hne : ts ≠ [] := by
          rintro rfl
          have e1 : ps = [] := by simpa using p1
          subst e1
          have e2 : shown s = [] := by simpa using p2.symm
          unfold shown at e2
          rw [List.map_eq_nil_iff, List.take_eq_nil_iff] at e2
          rcases e2 with e2 | e2
          · omega
          · rw [e2] at h8; simp at h8
        have := reads_items_list (sep := lit ", ") (.inr (by decide)) (ps ++ [(lit "...", .ellipsis)]) (by
          intro x hx
          rcases List.mem_append.1 hx with hx | hx
          · exact p3 x hx
          · cases List.mem_singleton.1 hx; exact reads_ellipsis)
        rw [List.map_append, List.map_append, p1, p2, List.map_singleton, List.map_singleton, join_append _ _ _ hne] at this
        have e : lit ", ...]" = lit ", " ++ lit "..." ++ lit "]" := by decide +kernel
        rw [e]
        simpa using this
      · have := reads_items_list (sep := lit ", ") (.inr (by decide)) ps p3
        rw [p1, p2] at this
        simpa using this
    exact reads_call2 (name := "SSEQ.fromEvents") (a := "SSEQ") (b := "fromEvents") (by decide +kernel) (by decide +kernel)
      (by decide +kernel) [(_, none, _), (_, none, _), (_, none, _), (_, none, _), (_, none, _), (_, none, _), (_, none, _)] (by
      simp only [List.mem_cons, List.not_mem_nil, or_false, forall_eq_or_imp, forall_eq]
      exact ⟨hl, reads_nat _, reads_nat _, reads_nat _, reads_nat _, reads_nat _, reads_nat _⟩)

theorem events_eval (order : List Nat → List Nat) : ∀ (l : List Ev), (∀ e ∈ l, plainEvent e = true) →
    allOf Model.Constructors.event (l.map (eventE order)) = some (l.map (eventV order))
  | [], _ => rfl
  | e :: l, h => by
    rw [List.map_cons, allOf, event_eval order e (h e (by simp)), events_eval order l (fun x hx => h x (by simp [hx]))]
    rfl

theorem sseq_eval (order : List Nat → List Nat) (s : Seq) (h : ∀ e ∈ shown s, plainEvent e = true) :
    sseqEvents (sseqE order s) = if 8 < s.obj.events.length then none else
      some ⟨(s.obj.events.map Prod.snd).map (eventV order), s.unk02, s.bankID, s.volume, s.channelPressure,
        s.polyphonicPressure, s.playerID⟩ := by
  have c : (sseqE order s).asCall ["SSEQ", "fromEvents"] [("events", none), ("unk02", some (.int 0)), ("bankID", some (.int 0)),
      ("volume", some (.int 127)), ("channelPressure", some (.int 64)), ("polyphonicPressure", some (.int 50)),
      ("playerID", some (.int 0))] = some [.list ((shown s).map (eventE order) ++
        if 8 < s.obj.events.length then [.ellipsis] else []), .int s.unk02, .int s.bankID, .int s.volume,
        .int s.channelPressure, .int s.polyphonicPressure, .int s.playerID] := rfl
  unfold sseqEvents
  rw [c]
  dsimp only
  split
  · rename_i h8
    have : (Expr.list ((shown s).map (eventE order) ++ [.ellipsis])).asList Model.Constructors.event = none :=
      allOf_append_none rfl _
    rw [this]
    rfl
  · rename_i h8
    have : (Expr.list ((shown s).map (eventE order) ++ [])).asList Model.Constructors.event =
        some ((s.obj.events.map Prod.snd).map (eventV order)) := by
      rw [List.append_nil]
      show allOf _ _ = _
      rw [events_eval order _ h]
      unfold shown
      rw [List.take_of_length_le (by omega)]
    rw [this]
    simp

def sseqFileE (d : Bytes) : Expr := .call [str "SSEQ"] [(none, .bytes (d.map UInt8.toNat))]

theorem reads_sseqFile (d : Bytes) (hl : d.length ≤ 32) (hq : 0x27 ∉ d) :
    Reads (callText "SSEQ" [shortBytesRepr d]) (sseqFileE d) :=
  reads_call1 (name := "SSEQ") (by decide +kernel) [(_, none, _)] (by
    simp only [List.mem_cons, List.not_mem_nil, or_false, forall_eq]
    exact reads_short d 32 hl hq)

theorem bad_sseqFile (d : Bytes) (hl : 32 < d.length) (hq : 0x27 ∉ d) : Bad (callText "SSEQ" [shortBytesRepr d]) :=
  bad_callText (name := "SSEQ") (by decide +kernel) (badItems_join (badItems_long _ hl (fun hm => hq (List.mem_of_mem_take hm))) _)

theorem sseqFile_eval (d : Bytes) : sseqFile (sseqFileE d) =
    (Model.SequenceObject.SSEQObj.init (some d)).toOption.map fun o => ⟨o, 0, 0, 0, 127, 64, 50, 0⟩ := by
  have c : (sseqFileE d).asCall ["SSEQ"] [("file", some Model.Constructors.pyNone), ("unk02", some (.int 0)), ("bankID", some (.int 0)),
      ("volume", some (.int 127)), ("channelPressure", some (.int 64)), ("polyphonicPressure", some (.int 50)),
      ("playerID", some (.int 0))] = some [.bytes (d.map UInt8.toNat), .int 0, .int 0, .int 127, .int 64, .int 50, .int 0] := rfl
  unfold sseqFile
  rw [c]
  dsimp only
  have : (Expr.bytes (d.map UInt8.toNat)).asOption Expr.asBytes = some (some d) := by
    unfold Expr.asOption
    rw [if_neg (by simp [Expr.isName]), asBytes_bytes]
    rfl
  rw [this]
  rfl

/-! ## Textures -/

def textureE (t : Model.Texture.Texture) (p : Nat) : Expr :=
  .call [str "Texture"] [(none, .int t.unk00), (none, .int t.unk02), (none, .int p), (none, .int t.unk04),
    (none, .bytes (t.data1.map UInt8.toNat)), (none, .bytes (t.data2.map UInt8.toNat))]

theorem reprTexture_ok {t : Model.Texture.Texture} {p : Nat} (h : t.params = .ok p) : reprTexture t =
    callText "Texture" [reprNat t.unk00, reprNat t.unk02, reprHex p, reprNat t.unk04, shortBytesRepr t.data1,
      shortBytesRepr t.data2] := by
  unfold reprTexture Model.Build.textureSave
  rw [h]
  rfl

theorem reads_texture {t : Model.Texture.Texture} {p : Nat} (h : t.params = .ok p) (h1 : t.data1.length ≤ 32)
    (h2 : t.data2.length ≤ 32) (q1 : 0x27 ∉ t.data1) (q2 : 0x27 ∉ t.data2) : Reads (reprTexture t) (textureE t p) := by
  rw [reprTexture_ok h]
  exact reads_call1 (name := "Texture") (by decide +kernel) [(_, none, _), (_, none, _), (_, none, _), (_, none, _),
    (_, none, _), (_, none, _)] (by
    simp only [List.mem_cons, List.not_mem_nil, or_false, forall_eq_or_imp, forall_eq]
    exact ⟨reads_nat _, reads_nat _, reads_hex _, reads_nat _, reads_short _ _ h1 q1, reads_short _ _ h2 q2⟩)

theorem bad_texture {t : Model.Texture.Texture} {p : Nat} (h : t.params = .ok p)
    (hl : ¬ (t.data1.length ≤ 32 ∧ t.data2.length ≤ 32)) (q1 : 0x27 ∉ t.data1) (q2 : 0x27 ∉ t.data2) : Bad (reprTexture t) := by
  rw [reprTexture_ok h]
  have r : ∀ k : Nat, ReadsItem (reprNat k) (none, .int k) := fun k => reads_nat k
  refine bad_callText (name := "Texture") (by decide +kernel) (badItems_join_cons (r _) (badItems_join_cons (r _)
    (badItems_join_cons (x := (none, _)) (reads_hex _) (badItems_join_cons (r _) ?_))))
  by_cases h1 : t.data1.length ≤ 32
  · refine badItems_join_cons (x := (none, _)) (reads_short _ _ h1 q1) (badItems_join (badItems_long _ ?_ ?_) _)
    · omega
    · exact fun hm => q2 (List.mem_of_mem_take hm)
  · exact badItems_join (badItems_long _ (by omega) (fun hm => q1 (List.mem_of_mem_take hm))) _

theorem texture_eval (t : Model.Texture.Texture) (p : Nat) : texture (textureE t p) =
    some (Model.Texture.Texture.new t.unk00 t.unk02 p t.unk04 t.data1 t.data2) := by
  have c : (textureE t p).asCall ["Texture"] [("unk00", none), ("unk02", none), ("params", none), ("unk04", none),
      ("data1", none), ("data2", none)] = some [.int t.unk00, .int t.unk02, .int p, .int t.unk04,
        .bytes (t.data1.map UInt8.toNat), .bytes (t.data2.map UInt8.toNat)] := rfl
  unfold texture
  rw [c]
  simp

end Verif.Proofs.ReprSound
