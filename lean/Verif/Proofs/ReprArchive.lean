import Verif.Spec.ReprArchive
import Verif.Proofs.ReprSound

/-!
# The texts of sequence archives, sound archives, ROMs, tracks and songs
-/

namespace Verif.Proofs.ReprArchive

open Verif Verif.Model.Repr Verif.Model.ReprClasses Verif.Model.ReprSound Verif.Model.ReprArchive Verif.Model.Util
open Verif.Spec.PyExpr Verif.Proofs.PyExpr Verif.Proofs.ReprClasses Verif.Proofs.ReprSound Verif.Spec.Repr
open Verif.Spec.ReprArchive Verif.Model.SoundArchiveObject
open Verif.Model.SoundSequence (Ev)
open Verif.Model.SoundSequenceArchive (First Sequence)

/-! ## Lists of texts that may raise -/

theorem texts {α : Type} {g : α → Py Str} {E : α → Expr} {good : α → Prop} : ∀ {l : List α} {ts : List Str}, mapE g l = .ok ts →
    (∀ x ∈ l, ∀ t, g x = .ok t → good x ∧ Reads t (E x) ∨ ¬ good x ∧ BadItems t) →
    (∀ t ∈ ts, (∃ x, ReadsItem t x) ∨ BadItems t) ∧ ((∃ x ∈ l, ¬ good x) → ∃ t ∈ ts, BadItems t) ∧
      ((∀ x ∈ l, good x) → ∃ ps : List (Str × Expr), ps.map Prod.fst = ts ∧ ps.map Prod.snd = l.map E ∧ ∀ x ∈ ps, Reads x.1 x.2)
  | [], ts, h, _ => by
    cases h
    exact ⟨by simp, by simp, fun _ => ⟨[], by simp⟩⟩
  | e :: l, ts, h, hg => by
    obtain ⟨t, h1, h⟩ := bind_eq_ok.1 h
    obtain ⟨us, h2, h⟩ := bind_eq_ok.1 h
    cases h
    obtain ⟨ha, hb, hc⟩ := texts h2 (fun x hx => hg x (by simp [hx]))
    have ht := hg e (by simp) t h1
    refine ⟨?_, ?_, ?_⟩
    · intro x hx
      rcases List.mem_cons.1 hx with rfl | hx
      · rcases ht with ⟨_, ht⟩ | ⟨_, ht⟩
        · exact .inl ⟨(none, _), ht⟩
        · exact .inr ht
      · exact ha x hx
    · rintro ⟨x, hx, hp⟩
      rcases List.mem_cons.1 hx with rfl | hx
      · rcases ht with ⟨h', _⟩ | ⟨_, ht⟩
        · exact absurd h' hp
        · exact ⟨t, by simp, ht⟩
      · obtain ⟨y, hy, hy'⟩ := hb ⟨x, hx, hp⟩
        exact ⟨y, by simp [hy], hy'⟩
    · intro hp
      obtain ⟨ps, p1, p2, p3⟩ := hc (fun x hx => hp x (by simp [hx]))
      rcases ht with ⟨_, ht⟩ | ⟨h', _⟩
      · refine ⟨(t, E e) :: ps, by simp [p1], by simp [p2], ?_⟩
        intro x hx
        rcases List.mem_cons.1 hx with rfl | hx
        · exact ht
        · exact p3 x hx
      · exact absurd (hp e (by simp)) h'

theorem list_text {α : Type} {g : α → Py Str} {E : α → Expr} {good : α → Prop} {l : List α} {ts : List Str} (h : mapE g l = .ok ts)
    (hg : ∀ x ∈ l, ∀ t, g x = .ok t → good x ∧ Reads t (E x) ∨ ¬ good x ∧ BadItems t) :
    (∀ x ∈ l, good x) ∧ Reads (lit "[" ++ join (lit ", ") ts ++ lit "]") (.list (l.map E)) ∨
      (∃ x ∈ l, ¬ good x) ∧ BadItems (lit "[" ++ join (lit ", ") ts ++ lit "]") := by
  obtain ⟨ha, hb, hc⟩ := texts h hg
  by_cases hx : ∃ x ∈ l, ¬ good x
  · refine .inr ⟨hx, ?_⟩
    have h1 := badItems_of_mem ts ha (hb hx)
    have h2 := bad_list (badItems_more h1 (lit "]"))
    have h3 := badItems_of_bad h2 rfl (by decide) (by unfold Close; decide) []
    simpa [show lit "[" = [91] by decide] using h3
  · have hx : ∀ x ∈ l, good x := fun x hm => Classical.byContradiction fun hn => hx ⟨x, hm, hn⟩
    refine .inl ⟨hx, ?_⟩
    obtain ⟨ps, p1, p2, p3⟩ := hc hx
    have := reads_items_list (sep := lit ", ") (.inr (by decide)) ps p3
    rw [p1, p2] at this
    simpa using this

theorem event_item {order : List Nat → List Nat} {obj : Nat → Ev} {addr : Nat → Nat} {f : Nat} {e : Ev} {t : Str}
    (h : reprEv order obj addr f e = .ok t) :
    plainEvent e = true ∧ Reads t (eventE order e) ∨ ¬ plainEvent e = true ∧ BadItems t := by
  have ht := event_text order obj addr f e t h
  cases hp : plainEvent e with
  | true => rw [hp] at ht; exact .inl ⟨rfl, ht⟩
  | false =>
    rw [hp] at ht
    obtain ⟨c, u, e1, e2, e3⟩ := event_start h
    have := badItems_of_bad (show Bad t from ht) e1 e2 e3 []
    exact .inr ⟨by simp, by simpa using this⟩

/-! ## Sequences of an archive -/

def plainFirst (obj : Nat → Ev) : First → Prop
  | .parsed (some i) => plainEvent (obj i) = true
  | _ => True

def firstE (order : List Nat → List Nat) (obj : Nat → Ev) : First → Expr
  | .unparsed o => optE .int o
  | .parsed e => optE (fun i => eventE order (obj i)) e

theorem first_text {order : List Nat → List Nat} {obj : Nat → Ev} {addr : Nat → Nat} {f : Nat} {x : First} {t : Str}
    (h : reprFirst order obj addr f x = .ok t) :
    plainFirst obj x ∧ Reads t (firstE order obj x) ∨ ¬ plainFirst obj x ∧ BadItems t := by
  match x, h with
  | .unparsed o, h =>
    cases h
    exact .inl ⟨trivial, reads_opt o fun n _ => reads_int n⟩
  | .parsed none, h =>
    cases h
    exact .inl ⟨trivial, reads_name (s := lit "None") (by decide +kernel)⟩
  | .parsed (some i), h => exact event_item h

/-- The arguments behind the first. -/
def restE (s : Sequence) : List (Option Str × Expr) :=
  [(none, .int s.bankID), (none, .int s.volume), (none, .int s.channelPressure), (none, .int s.polyphonicPressure),
    (none, .int s.playerID)] ++
    match s.first with
    | .unparsed _ => [(some (str "parsed"), .name [str "False"])]
    | .parsed _ => []

def sequenceE (order : List Nat → List Nat) (obj : Nat → Ev) (s : Sequence) : Expr :=
  .call [str "SSARSequence"] ((none, firstE order obj s.first) :: restE s)

theorem sequence_text {order : List Nat → List Nat} {obj : Nat → Ev} {addr : Nat → Nat} {f : Nat} {s : Sequence} {t : Str}
    (h : reprSequence order obj addr f s = .ok t) :
    plainFirst obj s.first ∧ Reads t (sequenceE order obj s) ∨ ¬ plainFirst obj s.first ∧ Bad t ∧ BadItems t := by
  obtain ⟨x, hx, h⟩ := bind_eq_ok.1 h
  cases h
  rcases first_text hx with ⟨hp, hr⟩ | ⟨hp, hb⟩
  · refine .inl ⟨hp, ?_⟩
    unfold sequenceE restE
    cases hs : s.first with
    | unparsed o =>
      rw [hs] at hr
      exact reads_call1 (name := "SSARSequence") (by decide +kernel) [(_, none, _), (_, none, _), (_, none, _), (_, none, _),
        (_, none, _), (_, none, _), (_, some _, _)] (by
        simp only [List.mem_cons, List.not_mem_nil, or_false, forall_eq_or_imp, forall_eq]
        exact ⟨hr, reads_nat _, reads_nat _, reads_nat _, reads_nat _, reads_nat _,
          readsItem_kw (by decide +kernel) (reads_name (by decide +kernel))⟩)
    | parsed e =>
      rw [hs] at hr
      exact reads_call1 (name := "SSARSequence") (by decide +kernel) [(_, none, _), (_, none, _), (_, none, _), (_, none, _),
        (_, none, _), (_, none, _)] (by
        simp only [List.mem_cons, List.not_mem_nil, or_false, forall_eq_or_imp, forall_eq]
        exact ⟨hr, reads_nat _, reads_nat _, reads_nat _, reads_nat _, reads_nat _⟩)
  · refine .inr ⟨hp, ?_⟩
    have hb' := bad_callText (name := "SSARSequence") (by decide +kernel) (badItems_join hb ([reprNat s.bankID, reprNat s.volume,
      reprNat s.channelPressure, reprNat s.polyphonicPressure, reprNat s.playerID] ++ match s.first with
        | .unparsed _ => [kw "parsed" (lit "False")]
        | .parsed _ => []))
    exact ⟨hb', badItems_callText hb' (startsOk _ 83 _ rfl (by decide))⟩

/-- What the printed first event evaluates to. -/
def firstV (order : List Nat → List Nat) (obj : Nat → Ev) : First → FirstValue
  | .unparsed o => .offset (if o = some (-1) then none else o)
  | .parsed e => .event (e.map fun i => eventV order (obj i))

def sequenceV (order : List Nat → List Nat) (obj : Nat → Ev) (s : Sequence) : SequenceValue :=
  ⟨firstV order obj s.first, s.bankID, s.volume, s.channelPressure, s.polyphonicPressure, s.playerID⟩

theorem eventE_isName (order : List Nat → List Nat) (e : Ev) (h : plainEvent e = true) : (eventE order e).isName "None" = false := by
  cases e <;> first | rfl | cases h

theorem sequence_eval (order : List Nat → List Nat) (obj : Nat → Ev) (s : Sequence) (h : plainFirst obj s.first) :
    sequence (sequenceE order obj s) = some (sequenceV order obj s) := by
  unfold sequence sequenceE restE sequenceV
  cases hs : s.first with
  | unparsed o =>
    have c : (Expr.call [str "SSARSequence"] ((none, firstE order obj (.unparsed o)) :: ([(none, .int s.bankID), (none, .int s.volume),
        (none, .int s.channelPressure), (none, .int s.polyphonicPressure), (none, .int s.playerID)] ++
        [(some (str "parsed"), .name [str "False"])]))).asCall ["SSARSequence"] [("firstEvent_firstEventOffset", none),
        ("bankID", some (.int 0)), ("volume", some (.int 127)), ("channelPressure", some (.int 64)),
        ("polyphonicPressure", some (.int 50)), ("playerID", some (.int 0))] [("parsed", some (.name [str "True"]))] =
        some [firstE order obj (.unparsed o), .int s.bankID, .int s.volume, .int s.channelPressure, .int s.polyphonicPressure,
          .int s.playerID, .name [str "False"]] := rfl
    dsimp only
    rw [c]
    dsimp only
    rw [asNat_int, asNat_int, asNat_int, asNat_int, asNat_int, asBool_false]
    cases o with
    | none => rfl
    | some n => rfl
  | parsed e =>
    have c : (Expr.call [str "SSARSequence"] ((none, firstE order obj (.parsed e)) :: ([(none, .int s.bankID), (none, .int s.volume),
        (none, .int s.channelPressure), (none, .int s.polyphonicPressure), (none, .int s.playerID)] ++
        []))).asCall ["SSARSequence"] [("firstEvent_firstEventOffset", none),
        ("bankID", some (.int 0)), ("volume", some (.int 127)), ("channelPressure", some (.int 64)),
        ("polyphonicPressure", some (.int 50)), ("playerID", some (.int 0))] [("parsed", some (.name [str "True"]))] =
        some [firstE order obj (.parsed e), .int s.bankID, .int s.volume, .int s.channelPressure, .int s.polyphonicPressure,
          .int s.playerID, .name [str "True"]] := rfl
    dsimp only
    rw [c]
    dsimp only
    rw [asNat_int, asNat_int, asNat_int, asNat_int, asNat_int]
    have k : (Expr.name [str "True"]).asBool = some true := rfl
    rw [k]
    cases e with
    | none => rfl
    | some i =>
      rw [hs] at h
      have hp : plainEvent (obj i) = true := h
      have : (firstE order obj (.parsed (some i))).asOption Model.Constructors.event = some (some (eventV order (obj i))) := by
        show (if (eventE order (obj i)).isName "None" then some none else
          (Model.Constructors.event (eventE order (obj i))).map some) = _
        rw [eventE_isName order _ hp, event_eval order _ hp]
        rfl
      simp only [Option.bind_some]
      rw [this]
      rfl

theorem sequenceV_eq {order : List Nat → List Nat} (ho : ∀ l, (order l).Perm l) (obj : Nat → Ev) (s : Sequence)
    (hs : ∀ i l, s.first = .parsed (some i) → obj i = .defineTracks l → l.Pairwise (· < ·)) (h : plainFirst obj s.first) :
    sequenceV order obj s = sequenceHeld obj s ↔ FirstPrintable obj s.first := by
  unfold sequenceV sequenceHeld
  simp only [SequenceValue.mk.injEq, and_true]
  cases hf : s.first with
  | unparsed o =>
    show FirstValue.offset _ = FirstValue.offset _ ↔ o ≠ some (-1)
    by_cases e : o = some (-1)
    · subst e; simp
    · simp [e]
  | parsed e =>
    cases e with
    | none => simp [firstV, firstHeld, FirstPrintable]
    | some i =>
      rw [hf] at h
      have hp : plainEvent (obj i) = true := h
      show FirstValue.event (some _) = FirstValue.event (some _) ↔ ∀ j, some i = some j → Printable (obj j)
      rw [FirstValue.event.injEq, Option.some.injEq, eventV_eq ho _ (fun l e => hs i l hf e)]
      constructor
      · rintro h' j ⟨⟩
        exact ⟨hp, h'⟩
      · exact fun h' => (h' i rfl).2

/-! ## Archives -/

/-- A pair with a second element that is no expression. -/
theorem bad_pair {a b : Str} {x : Expr} (ha : Reads a x) (hb : BadItems b) : BadItems (reprPair a b) := by
  have h1 : BadItems (a ++ 44 :: 32 :: (b ++ lit ")")) := badItems_cons (x := (none, x)) ha (badItems_more hb _)
  have h2 : Bad (40 :: (a ++ 44 :: 32 :: (b ++ lit ")"))) := by
    intro m rest
    cases m with
    | zero => rfl
    | succ m =>
      rw [List.cons_append, expr, if_neg (by decide), if_neg (by decide), if_pos rfl, h1 m 41 rest (.inr (.inl rfl))]
      rfl
  have h3 := badItems_of_bad h2 rfl (by decide) (by unfold Close; decide) []
  have e : reprPair a b = 40 :: (a ++ 44 :: 32 :: (b ++ lit ")")) := by
    unfold reprPair
    rw [show lit "(" = [40] by decide, show lit ", " = [44, 32] by decide]
    simp
  rw [e]
  simpa using h3

def namedE (order : List Nat → List Nat) (obj : Nat → Ev) (s : Option Str × Sequence) : Expr :=
  .tuple [optE .text s.1, sequenceE order obj s.2]

theorem named_text {printable : Nat → Bool} {order : List Nat → List Nat} {obj : Nat → Ev} {addr : Nat → Nat} {f : Nat}
    {s : Option Str × Sequence} (hn : ∀ n, s.1 = some n → ∀ c ∈ n, c < 0x110000) {t : Str}
    (h : reprNamed printable order obj addr f s = .ok t) :
    plainFirst obj s.2.first ∧ Reads t (namedE order obj s) ∨ ¬ plainFirst obj s.2.first ∧ BadItems t := by
  obtain ⟨x, hx, h⟩ := bind_eq_ok.1 h
  cases h
  have hr : Reads (reprOption (reprStr printable) s.1) (optE .text s.1) := reads_opt s.1 fun n e => reads_text printable n (hn n e)
  rcases sequence_text hx with ⟨hp, hs⟩ | ⟨hp, _, hs⟩
  · exact .inl ⟨hp, reads_pair hr hs⟩
  · exact .inr ⟨hp, bad_pair hr hs⟩

def ssarE (order : List Nat → List Nat) (obj : Nat → Ev) (events : List Ev) (sequences : List (Option Str × Sequence)) : Expr :=
  .call [str "SSAR", str "fromEventsAndSequences"] [(none, .list (events.map (eventE order))),
    (none, .list (sequences.map (namedE order obj)))]

theorem ssar_text {printable : Nat → Bool} {order : List Nat → List Nat} {obj : Nat → Ev} {addr : Nat → Nat} {f : Nat}
    {a : Model.SequenceObject.SSARObj} (hp : a.parsed = true) {events : List (Nat × Ev)} (he : a.events = some events)
    (hn : ∀ s ∈ a.sequences, ∀ n, s.1 = some n → ∀ c ∈ n, c < 0x110000) {t : Str}
    (h : reprSSAR printable order obj addr f a = .ok t) :
    ((∀ e ∈ events.map Prod.snd, plainEvent e = true) ∧ ∀ s ∈ a.sequences, plainFirst obj s.2.first) ∧
        Reads t (ssarE order obj (events.map Prod.snd) a.sequences) ∨
      ¬ ((∀ e ∈ events.map Prod.snd, plainEvent e = true) ∧ ∀ s ∈ a.sequences, plainFirst obj s.2.first) ∧ Bad t := by
  unfold reprSSAR at h
  rw [if_pos hp, he] at h
  obtain ⟨es, h1, h⟩ := bind_eq_ok.1 h
  obtain ⟨ss, h2, h⟩ := bind_eq_ok.1 h
  cases h
  have t1 := list_text (E := eventE order) (good := fun e => plainEvent e = true) h1 (fun e _ t h => event_item h)
  have t2 := list_text (E := namedE order obj) (good := fun s => plainFirst obj s.2.first) h2 (fun s hs t h => named_text (hn s hs) h)
  have id1 : IsId (lit "SSAR") := by decide +kernel
  have id2 : IsId (lit "fromEventsAndSequences") := by decide +kernel
  have id3 : lit "SSAR.fromEventsAndSequences" = lit "SSAR" ++ 46 :: lit "fromEventsAndSequences" := by decide +kernel
  rcases t1 with ⟨g1, r1⟩ | ⟨g1, b1⟩
  · rcases t2 with ⟨g2, r2⟩ | ⟨g2, b2⟩
    · refine .inl ⟨⟨g1, g2⟩, ?_⟩
      exact reads_call2 (name := "SSAR.fromEventsAndSequences") id1 id2 id3 [(_, none, _), (_, none, _)] (by
        simp only [List.mem_cons, List.not_mem_nil, or_false, forall_eq_or_imp, forall_eq]
        exact ⟨r1, r2⟩)
    · refine .inr ⟨fun hg => ?_, ?_⟩
      · obtain ⟨x, hx, hx'⟩ := g2
        exact hx' (hg.2 x hx)
      · exact bad_callText2 (name := "SSAR.fromEventsAndSequences") id1 id2 id3
          (badItems_join_cons (x := (none, _)) r1 (badItems_join b2 []))
  · refine .inr ⟨fun hg => ?_, ?_⟩
    · obtain ⟨x, hx, hx'⟩ := g1
      exact hx' (hg.1 x hx)
    · exact bad_callText2 (name := "SSAR.fromEventsAndSequences") id1 id2 id3 (badItems_join b1 _)

theorem named_eval (order : List Nat → List Nat) (obj : Nat → Ev) : ∀ (l : List (Option Str × Sequence)),
    (∀ s ∈ l, plainFirst obj s.2.first) →
    allOf (Expr.asPair (Expr.asOption Expr.asText) sequence) (l.map (namedE order obj)) =
      some (l.map fun s => (s.1, sequenceV order obj s.2))
  | [], _ => rfl
  | s :: l, h => by
    have e : Expr.asPair (Expr.asOption Expr.asText) sequence (namedE order obj s) = some (s.1, sequenceV order obj s.2) := by
      unfold namedE Expr.asPair
      dsimp only
      rw [sequence_eval order obj s.2 (h s (by simp))]
      obtain ⟨n, s⟩ := s
      cases n <;> rfl
    rw [List.map_cons, allOf, e, named_eval order obj l (fun x hx => h x (by simp [hx]))]
    rfl

theorem ssar_eval (order : List Nat → List Nat) (obj : Nat → Ev) (events : List Ev) (sequences : List (Option Str × Sequence))
    (he : ∀ e ∈ events, plainEvent e = true) (hs : ∀ s ∈ sequences, plainFirst obj s.2.first) :
    ssarEvents (ssarE order obj events sequences) =
      some ⟨events.map (eventV order), sequences.map fun s => (s.1, sequenceV order obj s.2), 0⟩ := by
  have c : (ssarE order obj events sequences).asCall ["SSAR", "fromEventsAndSequences"] [("events", none), ("sequences", none),
      ("unk02", some (.int 0))] = some [.list (events.map (eventE order)), .list (sequences.map (namedE order obj)), .int 0] := rfl
  unfold ssarEvents
  rw [c]
  dsimp only
  have e1 : (Expr.list (events.map (eventE order))).asList Model.Constructors.event = some (events.map (eventV order)) :=
    events_eval order events he
  have e2 : (Expr.list (sequences.map (namedE order obj))).asList (Expr.asPair (Expr.asOption Expr.asText) sequence) =
      some (sequences.map fun s => (s.1, sequenceV order obj s.2)) := named_eval order obj sequences hs
  rw [e1, e2]
  rfl

/-! ## Archives that are not parsed -/

def ssarFileE (d : Bytes) (names : List Str) : Expr :=
  .call [str "SSAR"] [(none, .bytes (d.map UInt8.toNat)), (some (str "names"), .list (names.map .text))]

theorem reads_ssarFile (printable : Nat → Bool) (d : Bytes) (names : List Str) (hl : d.length ≤ 32) (hq : 0x27 ∉ d)
    (hn : ∀ n ∈ names, ∀ c ∈ n, c < 0x110000) :
    Reads (callText "SSAR" [shortBytesRepr d, kw "names" (reprList (reprStr printable) names)]) (ssarFileE d names) :=
  reads_call1 (name := "SSAR") (by decide +kernel) [(_, none, _), (_, some _, _)] (by
    simp only [List.mem_cons, List.not_mem_nil, or_false, forall_eq_or_imp, forall_eq]
    exact ⟨reads_short d 32 hl hq, readsItem_kw (by decide +kernel) (reads_list names fun n h => reads_text printable n (hn n h))⟩)

theorem bad_ssarFile (d : Bytes) (x : Str) (hl : 32 < d.length) (hq : 0x27 ∉ d) : Bad (callText "SSAR" [shortBytesRepr d, x]) :=
  bad_callText (name := "SSAR") (by decide +kernel) (badItems_join (badItems_long _ hl (fun hm => hq (List.mem_of_mem_take hm))) _)

theorem ssarFile_eval (d : Bytes) (names : List Str) : ssarFile (ssarFileE d names) =
    (Model.SequenceObject.SSARObj.init (some d) 0 (names.map some)).toOption := by
  have c : (ssarFileE d names).asCall ["SSAR"] [("file", some Model.Constructors.pyNone), ("unk02", some (.int 0)),
      ("names", some Model.Constructors.pyNone)] = some [.bytes (d.map UInt8.toNat), .int 0, .list (names.map .text)] := rfl
  unfold ssarFile
  rw [c]
  dsimp only
  have e1 : (Expr.bytes (d.map UInt8.toNat)).asOption Expr.asBytes = some (some d) := by
    show some (some ((d.map UInt8.toNat).map UInt8.ofNat)) = _
    rw [List.map_map]
    congr 2
    exact (List.map_congr_left (g := id) fun b _ => by simp).trans (List.map_id _)
  have e2 : (Expr.list (names.map .text)).asOption (Expr.asList (Expr.asOption Expr.asText)) = some (some (names.map some)) := by
    have : ∀ l : List Str, allOf (Expr.asOption Expr.asText) (l.map .text) = some (l.map some) := by
      intro l
      induction l with
      | nil => rfl
      | cons a l ih =>
        rw [List.map_cons, allOf, ih]
        rfl
    show (allOf (Expr.asOption Expr.asText) (names.map .text)).map some = _
    rw [this]
    rfl
  rw [e1, e2]
  rfl

end Verif.Proofs.ReprArchive
