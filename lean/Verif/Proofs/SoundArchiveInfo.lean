import Verif.Proofs.SoundArchiveFiles
import Verif.Proofs.SoundStream

/-!
# The information about the items of a sound archive
-/

namespace Verif.Proofs.SoundArchive

open Verif Verif.Model.SoundArchive Verif.Model.SoundStream Verif.Spec.SoundArchive

abbrev Uses := List (Bytes × Int)

/-- The number of the file that is used, among all files. -/
def idIn (L : Uses) : Uses → Nat
  | [] => 0
  | u :: _ => (firstUses L).idxOf u

/-- What the encoder of a kind of items does: the files that an item uses, its bytes given the number of the file, and
when the fields fit. -/
structure Codec (α : Type) where
  use : α → Uses
  enc : Nat → α → Bytes
  fits : Nat → α → Prop

/-- The encoder does what the description says. -/
def Codec.Describes {α : Type} (c : Codec α) (pack : Files → α → Py (Bytes × Files)) : Prop :=
  ∀ l x r, pack (firstUses l) x = .ok r ↔
    c.fits (idIn (l ++ c.use x) (c.use x)) x ∧ r = (c.enc (idIn (l ++ c.use x) (c.use x)) x, firstUses (l ++ c.use x))

theorem idIn_mono {l L us : Uses} (h : l <+: L) (hu : ∀ u ∈ us, u ∈ l) : idIn L us = idIn l us := by
  cases us with
  | nil => rfl
  | cons u us => unfold idIn; exact idxOf_firstUses h (hu u (by simp))

/-- The files that the items use. -/
def usesOf {α : Type} (c : Codec α) (items : List (Option α)) : Uses := items.flatMap fun x => (x.map c.use).getD []

theorem usesOf_none {α : Type} (c : Codec α) (items : List (Option α)) : usesOf c (none :: items) = usesOf c items := by
  simp [usesOf]

theorem usesOf_some {α : Type} (c : Codec α) (x : α) (items : List (Option α)) :
    usesOf c (some x :: items) = c.use x ++ usesOf c items := by simp [usesOf]

/-- Where the entries are. -/
def entryPlaces : (pos : Nat) → List (Option Bytes) → List Nat
  | _, [] => []
  | pos, none :: es => 0 :: entryPlaces pos es
  | pos, some b :: es => pos :: entryPlaces (pos + b.length) es

/-- The entries one behind the other. -/
def entryBytes (es : List (Option Bytes)) : Bytes := (es.map fun e => e.getD []).flatten

/-- The entries of the items. -/
def encAll {α : Type} (c : Codec α) (L : Uses) (items : List (Option α)) : List (Option Bytes) :=
  items.map fun x => x.map fun y => c.enc (idIn L (c.use y)) y

/-- A table of words. -/
def table (l : List Nat) : Bytes := structBytes .little (l.map fun n => (4, n))

theorem table_cons (n : Nat) (l : List Nat) : table (n :: l) = enBytes .little 4 n ++ table l := rfl

theorem table_length (l : List Nat) : (table l).length = 4 * l.length := by
  induction l with
  | nil => rfl
  | cons n l ih => rw [table_cons, List.length_append, ih, enBytes_length, List.length_cons]; omega

theorem entryPlaces_length : ∀ {es : List (Option Bytes)} {pos : Nat}, (entryPlaces pos es).length = es.length
  | [], _ => rfl
  | none :: es, pos => by rw [entryPlaces, List.length_cons, entryPlaces_length, List.length_cons]
  | some b :: es, pos => by rw [entryPlaces, List.length_cons, entryPlaces_length, List.length_cons]

theorem packEntries_eq_ok {α : Type} {c : Codec α} {pack : Files → α → Py (Bytes × Files)} (hc : c.Describes pack)
    {L : Uses} : ∀ {items : List (Option α)} {pos : Nat} {l : Uses} {r : Bytes × Bytes × Files}, l ++ usesOf c items <+: L →
    (packEntries pack items pos (firstUses l) = .ok r ↔
      (∀ x, some x ∈ items → c.fits (idIn L (c.use x)) x) ∧ (∀ o ∈ entryPlaces pos (encAll c L items), o < 2 ^ 32) ∧
        r = (table (entryPlaces pos (encAll c L items)), entryBytes (encAll c L items), firstUses (l ++ usesOf c items)))
  | [], pos, l, r, _ => by
    simp only [packEntries, Except.ok.injEq, encAll, List.map_nil, entryPlaces, usesOf, List.flatMap_nil, List.append_nil]
    constructor
    · rintro rfl; exact ⟨by simp, by simp, rfl⟩
    · rintro ⟨_, _, rfl⟩; rfl
  | none :: items, pos, l, r, hL => by
    rw [usesOf_none] at hL ⊢
    rw [packEntries]
    simp only [bind_eq_ok, pure_eq_ok, packEntries_eq_ok hc hL]
    constructor
    · rintro ⟨_, ⟨h1, h2, rfl⟩, rfl⟩
      refine ⟨fun x hx => h1 x (by simpa using hx), ?_, rfl⟩
      intro o ho
      rcases List.mem_cons.1 ho with rfl | ho
      · decide
      · exact h2 o ho
    · rintro ⟨h1, h2, rfl⟩
      exact ⟨_, ⟨fun x hx => h1 x (by simp [hx]), fun o ho => h2 o (List.mem_cons_of_mem _ ho), rfl⟩, rfl⟩
  | some x :: items, pos, l, r, hL => by
    rw [usesOf_some, ← List.append_assoc] at hL
    rw [usesOf_some, ← List.append_assoc]
    rw [packEntries]
    have hid : idIn L (c.use x) = idIn (l ++ c.use x) (c.use x) :=
      idIn_mono ((List.prefix_append _ _).trans hL) fun u hu => List.mem_append_right _ hu
    simp only [bind_eq_ok, pure_eq_ok, hc l x, packU_eq_ok, ← hid]
    constructor
    · rintro ⟨_, ⟨h1, rfl⟩, _, ⟨h2, rfl⟩, r', hr, rfl⟩
      obtain ⟨h3, h4, rfl⟩ := (packEntries_eq_ok hc hL).1 hr
      refine ⟨?_, ?_, ?_⟩
      · intro y hy
        rcases List.mem_cons.1 hy with hy | hy
        · cases hy; exact h1
        · exact h3 y hy
      · intro o ho
        rcases List.mem_cons.1 ho with rfl | ho
        · exact h2
        · exact h4 o ho
      · rfl
    · rintro ⟨h1, h2, rfl⟩
      refine ⟨_, ⟨h1 x (by simp), rfl⟩, _, ⟨h2 pos (List.mem_cons_self ..), rfl⟩, _,
        (packEntries_eq_ok hc hL).2 ⟨fun y hy => h1 y (by simp [hy]), fun o ho => h2 o (List.mem_cons_of_mem _ ho), rfl⟩, rfl⟩

/-- A part: number of entries, table, entries. -/
def partBytes (start : Nat) (es : List (Option Bytes)) : Bytes :=
  enBytes .little 4 es.length ++ table (entryPlaces (start + 4 + 4 * es.length) es) ++ entryBytes es

def PartFits (start : Nat) (es : List (Option Bytes)) : Prop :=
  start < 2 ^ 32 ∧ es.length < 2 ^ 32 ∧ ∀ o ∈ entryPlaces (start + 4 + 4 * es.length) es, o < 2 ^ 32

theorem packPart_eq_ok {α : Type} {c : Codec α} {pack : Files → α → Py (Bytes × Files)} (hc : c.Describes pack)
    {L l : Uses} {items : List (Symbol × Option α)} {body parts : Bytes} {s' : Info}
    (hL : l ++ usesOf c (items.map Prod.snd) <+: L) :
    packPart pack items ⟨body, firstUses l, parts⟩ = .ok s' ↔
      (∀ x, some x ∈ items.map Prod.snd → c.fits (idIn L (c.use x)) x) ∧
      PartFits (0x40 + body.length) (encAll c L (items.map Prod.snd)) ∧
      s' = ⟨body ++ partBytes (0x40 + body.length) (encAll c L (items.map Prod.snd)),
        firstUses (l ++ usesOf c (items.map Prod.snd)), parts ++ enBytes .little 4 (0x40 + body.length)⟩ := by
  unfold packPart PartFits partBytes
  have hlen : (encAll c L (items.map Prod.snd)).length = items.length := by simp [encAll]
  simp only [bind_eq_ok, pure_eq_ok, packU_eq_ok, packEntries_eq_ok hc hL, hlen]
  constructor
  · rintro ⟨_, ⟨h1, rfl⟩, _, ⟨h2, rfl⟩, _, ⟨h3, h4, rfl⟩, rfl⟩
    exact ⟨h3, ⟨h1, h2, h4⟩, rfl⟩
  · rintro ⟨h3, ⟨h1, h2, h4⟩, rfl⟩
    exact ⟨_, ⟨h1, rfl⟩, _, ⟨h2, rfl⟩, _, ⟨h3, h4, rfl⟩, rfl⟩

/-! ## Reading a part -/

/-- The entries in the data. -/
theorem entry_at {data : Bytes} {base : Nat} : ∀ {es : List (Option Bytes)} {pos : Nat}, At data (base + pos) (entryBytes es) →
    ∀ i : Nat, (es[i]? = some none → (entryPlaces pos es)[i]? = some 0) ∧
      ∀ b, es[i]? = some (some b) → ∃ o, (entryPlaces pos es)[i]? = some o ∧ pos ≤ o ∧ At data (base + o) b
  | [], pos, _, i => by simp
  | none :: es, pos, h, i => by
    cases i with
    | zero => exact ⟨fun _ => rfl, fun b hb => by simp at hb⟩
    | succ i =>
      simp only [List.getElem?_cons_succ, entryPlaces]
      exact entry_at (es := es) (by simpa [entryBytes] using h) i
  | some b :: es, pos, h, i => by
    have h' : At data (base + pos) (b ++ entryBytes es) := h
    rw [At.split] at h'
    cases i with
    | zero =>
      refine ⟨fun hb => by simp at hb, fun b' hb => ?_⟩
      simp only [List.getElem?_cons_zero, Option.some.injEq] at hb
      subst hb
      exact ⟨pos, rfl, Nat.le_refl _, h'.1⟩
    | succ i =>
      simp only [List.getElem?_cons_succ, entryPlaces]
      obtain ⟨h1, h2⟩ := entry_at (es := es) (pos := pos + b.length) (h'.2.cast (Nat.add_assoc ..)) i
      refine ⟨h1, fun b' hb => ?_⟩
      obtain ⟨o, h3, h4, h5⟩ := h2 b' hb
      exact ⟨o, h3, by omega, h5⟩

theorem table_read {data : Bytes} : ∀ {l : List Nat} {o : Nat}, At data o (table l) → (∀ n ∈ l, n < 2 ^ 32) →
    unpackUs .little (List.replicate l.length 4) data o = .ok l
  | [], _, _, _ => rfl
  | n :: l, o, h, hl => by
    rw [table_cons, At.split, enBytes_length] at h
    rw [List.length_cons, List.replicate_succ, unpackUs, h.1.unpackU (by have := hl n (by simp); omega), bind_ok,
      table_read h.2 (fun m hm => hl m (by simp [hm])), bind_ok]
    rfl

theorem entryOffsets_at {data : Bytes} {base start : Nat} {es : List (Option Bytes)}
    (h : At data (base + start) (partBytes start es)) (hf : PartFits start es) :
    entryOffsets data base start = .ok (entryPlaces (start + 4 + 4 * es.length) es) := by
  obtain ⟨_, h2, h3⟩ := hf
  unfold partBytes at h
  rw [At.split, At.split, enBytes_length] at h
  unfold entryOffsets
  rw [h.1.1.unpackU (by omega), bind_ok]
  have := table_read h.1.2 h3
  rw [entryPlaces_length] at this
  exact this

theorem zipLongest_getElem? {α β : Type} : ∀ (as : List α) (bs : List β) (i : Nat),
    (zipLongest as bs)[i]? = if i < max as.length bs.length then some (as[i]?, bs[i]?) else none
  | [], bs, i => by
    rw [zipLongest, List.getElem?_map, List.length_nil, Nat.zero_max]
    by_cases h : i < bs.length
    · rw [if_pos h, List.getElem?_eq_getElem h]; rfl
    · rw [if_neg h, List.getElem?_eq_none (by omega)]; rfl
  | a :: as, [], 0 => by simp [zipLongest]
  | a :: as, [], i + 1 => by
    rw [zipLongest, List.getElem?_cons_succ, zipLongest_getElem? as [] i]
    simp only [List.length_cons, List.length_nil, List.getElem?_cons_succ, List.getElem?_nil]
    by_cases h : i < max as.length 0
    · rw [if_pos h, if_pos (by omega)]
    · rw [if_neg h, if_neg (by omega)]
  | a :: as, b :: bs, 0 => by simp [zipLongest]
  | a :: as, b :: bs, i + 1 => by
    rw [zipLongest, List.getElem?_cons_succ, zipLongest_getElem? as bs i]
    simp only [List.length_cons, List.getElem?_cons_succ]
    by_cases h : i < max as.length bs.length
    · rw [if_pos h, if_pos (by omega)]
    · rw [if_neg h, if_neg (by omega)]

theorem zipLongest_length {α β : Type} : ∀ (as : List α) (bs : List β), (zipLongest as bs).length = max as.length bs.length
  | [], bs => by simp [zipLongest]
  | a :: as, [] => by rw [zipLongest, List.length_cons, zipLongest_length as []]; simp
  | a :: as, b :: bs => by
    rw [zipLongest, List.length_cons, zipLongest_length as bs, List.length_cons, List.length_cons]; omega

/-- A loop, element by element. -/
theorem mapE_of_getElem {α β : Type _} {f : α → Py β} : ∀ {l : List α} {r : List β}, l.length = r.length →
    (∀ (i : Nat) a b, l[i]? = some a → r[i]? = some b → f a = .ok b) → mapE f l = .ok r
  | [], [], _, _ => rfl
  | [], _ :: _, h, _ => by simp at h
  | _ :: _, [], h, _ => by simp at h
  | a :: l, b :: r, h, hf => by
    rw [mapE_cons, hf 0 a b rfl rfl, bind_ok, mapE_of_getElem (by simpa using h)
      (fun i a b h1 h2 => hf (i + 1) a b (by simpa using h1) (by simpa using h2))]
    rfl

/-- The loop of a part: symbols and offsets are read, then the entries. -/
theorem part_loop {α β γ : Type} {items : List (Option α)} {syms : List γ} {es : List (Option Bytes)} {pos base : Nat}
    {data : Bytes} {f : Option Nat × Option γ → Py β} {r : List β} (hp : 0 < pos)
    (hat : At data (base + pos) (entryBytes es)) (hes : es.length = items.length) (hr : r.length = items.length)
    (hs : syms.length = items.length ∨ syms = [])
    (hnone : ∀ (i : Nat) y, items[i]? = some none → es[i]? = some none ∧ (r[i]? = some y → f (some 0, syms[i]?) = .ok y))
    (hsome : ∀ (i : Nat) x y, items[i]? = some (some x) → ∃ b, es[i]? = some (some b) ∧
      ∀ o, 0 < o → At data (base + o) b → r[i]? = some y → f (some o, syms[i]?) = .ok y) :
    mapE f (zipLongest (entryPlaces pos es) syms) = .ok r := by
  have hmax : max (entryPlaces pos es).length syms.length = items.length := by
    rw [entryPlaces_length]
    rcases hs with hs | rfl
    · omega
    · simp [hes]
  refine mapE_of_getElem (by rw [zipLongest_length, hmax, hr]) ?_
  intro i a b ha hb
  have hi : i < items.length := by
    rw [← hr]
    exact (List.getElem?_eq_some_iff.1 hb).1
  rw [zipLongest_getElem?, if_pos (by omega)] at ha
  cases ha
  obtain ⟨h1, h2⟩ := entry_at hat i
  cases hx : items[i] with
  | none =>
    have hx' : items[i]? = some none := by rw [List.getElem?_eq_getElem hi, hx]
    obtain ⟨h3, h4⟩ := hnone i b hx'
    rw [h1 h3]
    exact h4 hb
  | some x =>
    have hx' : items[i]? = some (some x) := by rw [List.getElem?_eq_getElem hi, hx]
    obtain ⟨b', h3, h4⟩ := hsome i x b hx'
    obtain ⟨o, h5, h6, h7⟩ := h2 b' h3
    rw [h5]
    exact h4 o (by omega) h7 hb

/-- Reading a part without lists inside. -/
theorem readPart_at {α : Type} {c : Codec α} {L : Uses} {items : List (Symbol × Option α)} {norm : α → α} {read : Nat → Py α}
    {data : Bytes} {B base start last last' : Nat} {symbOff : Option Nat} {syms : List Symbol}
    (hsym : readSymbolsOpt data B symbOff last = .ok (syms, last'))
    (hs : syms = symbolsOf items ∨ (syms = [] ∧ ∀ p ∈ items, p.1 = none))
    (hat : At data (base + start) (partBytes start (encAll c L (items.map Prod.snd))))
    (hf : PartFits start (encAll c L (items.map Prod.snd)))
    (hread : ∀ x, some x ∈ items.map Prod.snd → ∀ o, At data o (c.enc (idIn L (c.use x)) x) → read o = .ok (norm x)) :
    readPart read data B symbOff base start last = .ok (items.map fun p => (p.1, p.2.map norm), last') := by
  unfold readPart
  rw [hsym, bind_ok, entryOffsets_at hat hf, bind_ok]
  have hat' := hat
  unfold partBytes at hat'
  rw [At.split, List.length_append, enBytes_length, table_length, entryPlaces_length] at hat'
  have hat2 : At data (base + (start + 4 + 4 * (encAll c L (items.map Prod.snd)).length))
      (entryBytes (encAll c L (items.map Prod.snd))) := hat'.2.cast (by omega)
  dsimp only
  rw [part_loop (items := items.map Prod.snd) (r := items.map fun p => (p.1, p.2.map norm)) (by omega)
    hat2 (by simp [encAll]) (by simp) (by
      rcases hs with rfl | ⟨rfl, _⟩
      · left; simp [symbolsOf]
      · right; rfl), bind_ok]
  · rfl
  · intro i y hi
    have hi' := hi
    rw [List.getElem?_map, Option.map_eq_some_iff] at hi'
    obtain ⟨p, hp, hp2⟩ := hi'
    refine ⟨by simp [encAll, hp, hp2], ?_⟩
    intro hy
    rw [List.getElem?_map, hp] at hy
    cases hy
    dsimp only
    rw [hp2]
    have hname : (syms[i]?).getD none = p.1 := by
      rcases hs with rfl | ⟨rfl, hn⟩
      · simp [symbolsOf, hp]
      · rw [hn p (List.mem_of_getElem? hp)]; rfl
    simp only [readEntry, bind_ok, pure_def, hname]
    rfl
  · intro i x y hi
    have hi' := hi
    rw [List.getElem?_map, Option.map_eq_some_iff] at hi'
    obtain ⟨p, hp, hp2⟩ := hi'
    refine ⟨c.enc (idIn L (c.use x)) x, by simp [encAll, hp, hp2], ?_⟩
    intro o ho hato hy
    rw [List.getElem?_map, hp] at hy
    cases hy
    dsimp only
    rw [hp2]
    have hname : (syms[i]?).getD none = p.1 := by
      rcases hs with rfl | ⟨rfl, hn⟩
      · simp [symbolsOf, hp]
      · rw [hn p (List.mem_of_getElem? hp)]; rfl
    have hmem : some x ∈ items.map Prod.snd := List.mem_of_getElem? hi
    obtain ⟨k, rfl⟩ := Nat.exists_eq_succ_of_ne_zero (by omega : o ≠ 0)
    simp only [readEntry, hread x hmem _ hato, bind_ok, pure_def, hname]
    rfl

end Verif.Proofs.SoundArchive
