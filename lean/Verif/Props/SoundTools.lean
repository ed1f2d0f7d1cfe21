import Verif.Proofs.SoundTools
import Verif.Props.SoundArchiveObjectSave
import Verif.Props.SequenceRead
import Verif.Props.Sequence

/-!
# The sound programs in `tools/` (C154)
-/

namespace Verif.Props.SoundTools

open Verif Verif.Model.SoundArchiveObject Verif.Model.SoundSequence Verif.Model.SoundTools Verif.Spec.SoundTools
open Verif.Spec.Sequence Verif.Proofs.SoundTools
open Verif.Model.Repr (lit)
open Verif.Model.Files (FS Path)

/-! ## testSDAT.py -/

theorem same_iff {choose : List Nat → Nat} {d d2 : Bytes} (h : Resaved choose d d2) : d = d2 ↔ Reproduced choose d := by
  constructor
  · intro e
    unfold Reproduced
    rw [← e] at h
    exact h
  · rintro ⟨a, h1, h2⟩
    obtain ⟨b, h3, h4⟩ := h
    rw [h1] at h3
    cases h3
    rw [h2] at h4
    exact Except.ok.inj h4

theorem fine_iff {choose : List Nat → Nat} {i : Item} (h : Resaved choose i.d i.d2) :
    i.fine = true ↔ Reproduced choose i.d ∨ i.n = expected := by
  unfold Item.fine outcome
  rw [← same_iff h]
  by_cases h1 : i.d = i.d2
  · simp [h1]
  · by_cases h2 : i.n = expected <;> simp [h1, h2]

/-- **C154.** The round-trip test runs to its end if and only if there is no file named `out`, no folder that is named like
an archive, and every archive in the folder can be loaded and saved. -/
theorem test_completes (choose : List Nat → Nat) {k : Disk} (hn : Names k) (ho : ∀ d, (lit "out", d) ∉ k.files) :
    (∃ b, (testSDAT choose k).1 = .ok b) ↔
      (∀ n, n ++ lit ".sdat" ∉ k.folders) ∧ ∀ n d, Contains k n d → ∃ d2, Resaved choose d d2 := by
  obtain ⟨items, rest, h1, h2, _, h4⟩ := test_spec choose hn ho
  constructor
  · rintro ⟨b, hb⟩
    rcases h4 with ⟨rfl, _⟩ | ⟨n, tl, e, _, _, h⟩
    · rw [List.append_nil] at h1
      have hin : ∀ n, n ++ lit ".sdat" ∈ archives k → ∃ d d2, Contains k n d ∧ Resaved choose d d2 := by
        intro n h
        rw [h1] at h
        obtain ⟨i, hi, he⟩ := List.mem_map.1 h
        have he := List.append_cancel_right he
        rw [← he]
        exact ⟨i.d, i.d2, h2 i hi⟩
      refine ⟨fun n h => ?_, fun n d h => ?_⟩
      · obtain ⟨d, d2, hc, _⟩ := hin n (mem_archives.2 (.inr h))
        exact (List.nodup_append.1 hn.distinct).2.2 _ (List.mem_map.2 ⟨_, hc, rfl⟩) _ h rfl
      · obtain ⟨d', d2, hc, hr⟩ := hin n (mem_archives.2 (.inl ⟨d, h⟩))
        rw [contains_unique hn h hc]
        exact ⟨d2, hr⟩
    · rw [h] at hb
      cases hb
  · rintro ⟨ha, hb⟩
    rcases h4 with ⟨_, h⟩ | ⟨n, tl, e, rfl, he, h⟩
    · exact ⟨_, h⟩
    · have hm : n ++ lit ".sdat" ∈ archives k := by rw [h1]; simp
      rcases mem_archives.1 hm with ⟨d, hd⟩ | hd
      · obtain ⟨d2, hr⟩ := hb n d hd
        rw [(resave_ok hn).2 ⟨hd, hr⟩] at he
        cases he
      · exact absurd hd (ha n)

/-- **C154.** If there is a file named `out`, it raises OSError and does nothing. -/
theorem test_blocked (choose : List Nat → Nat) {k : Disk} {d : Bytes} (hn : Names k) (h : (lit "out", d) ∈ k.files) :
    testSDAT choose k = (.error .osError, k, []) := by
  unfold testSDAT
  rw [(lookup_nodup (files_nodup hn)).2 h]
  rfl

theorem no_out {choose : List Nat → Nat} {k : Disk} {b : Bool} (hn : Names k) (h : (testSDAT choose k).1 = .ok b) :
    ∀ d, (lit "out", d) ∉ k.files := by
  intro d hd
  rw [test_blocked choose hn hd] at h
  cases h

/-- What has been dealt with, if nothing has been raised. -/
theorem all_done {choose : List Nat → Nat} {k : Disk} {b : Bool} (hn : Names k) (h : (testSDAT choose k).1 = .ok b) :
    ∃ items : List Item, archives k = items.map (fun i : Item => i.n ++ lit ".sdat") ∧
      (∀ i ∈ items, Contains k i.n i.d ∧ Resaved choose i.d i.d2) ∧
      (∀ n d, Contains k n d → ∃ i ∈ items, i.n = n ∧ i.d = d) ∧
      (testSDAT choose k).2 = ({ k with out := some (items.map Item.out) }, items.map Item.line) ∧
      b = items.all Item.fine := by
  obtain ⟨items, rest, h1, h2, h3, h4⟩ := test_spec choose hn (no_out hn h)
  rcases h4 with ⟨rfl, h4⟩ | ⟨n, tl, e, _, _, h4⟩
  · rw [h] at h4
    rw [List.append_nil] at h1
    refine ⟨items, h1, h2, fun n d hd => ?_, h3, Except.ok.inj h4⟩
    have hm := mem_archives.2 (.inl ⟨d, hd⟩)
    rw [h1] at hm
    obtain ⟨i, hi, he⟩ := List.mem_map.1 hm
    have he := List.append_cancel_right he
    have hc := (h2 i hi).1
    rw [he] at hc
    exact ⟨i, hi, he, contains_unique hn hc hd⟩
  · rw [h] at h4
    cases h4

/-- **C154.** It reports success if and only if every archive in the folder is the same after loading and saving, apart from
the one that is expected to fail. -/
theorem test_result {choose : List Nat → Nat} {k : Disk} {b : Bool} (hn : Names k) (h : (testSDAT choose k).1 = .ok b) :
    b = true ↔ ∀ n d, Contains k n d → Reproduced choose d ∨ n = expected := by
  obtain ⟨items, _, h2, h3, _, rfl⟩ := all_done hn h
  rw [List.all_eq_true]
  constructor
  · intro ha n d hd
    obtain ⟨i, hi, rfl, rfl⟩ := h3 n d hd
    exact (fine_iff (h2 i hi).2).1 (ha i hi)
  · intro ha i hi
    exact (fine_iff (h2 i hi).2).2 (ha _ _ (h2 i hi).1)

/-- **C154.** Afterwards the folder `out` contains one file for every archive, which is the archive loaded and saved, and
nothing else, whatever was there before. -/
theorem test_out {choose : List Nat → Nat} {k : Disk} {b : Bool} (hn : Names k) (h : (testSDAT choose k).1 = .ok b) :
    ∃ o, (testSDAT choose k).2.1.out = some o ∧ (o.map (·.1)).Nodup ∧
      ∀ m d2, (m, d2) ∈ o ↔ ∃ n d, m = n ++ lit "_out.sdat" ∧ Contains k n d ∧ Resaved choose d d2 := by
  have hs := archives_sorted hn (no_out hn h)
  obtain ⟨items, h1, h2, h3, h4, _⟩ := all_done hn h
  rw [h4]
  refine ⟨_, rfl, ?_, fun m d2 => ?_⟩
  · rw [h1, List.pairwise_map] at hs
    rw [List.map_map]
    refine List.pairwise_map.2 (hs.imp fun {a b} hab e => ?_)
    have e : a.n ++ lit "_out.sdat" = b.n ++ lit "_out.sdat" := e
    rw [List.append_cancel_right e] at hab
    exact List.lt_irrefl _ hab
  · rw [List.mem_map]
    constructor
    · rintro ⟨i, hi, he⟩
      cases he
      exact ⟨i.n, i.d, rfl, h2 i hi⟩
    · rintro ⟨n, d, rfl, hc, a, hl, hs⟩
      obtain ⟨i, hi, rfl, rfl⟩ := h3 n d hc
      obtain ⟨a', hl', hs'⟩ := (h2 i hi).2
      rw [hl] at hl'
      cases hl'
      rw [hs] at hs'
      refine ⟨i, hi, ?_⟩
      unfold Item.out
      rw [Except.ok.inj hs']

/-- **C154.** The archives are never changed, nor anything else outside the folder `out`, also if it raises. -/
theorem test_keeps (choose : List Nat → Nat) (k : Disk) :
    (testSDAT choose k).2.1.files = k.files ∧ (testSDAT choose k).2.1.folders = k.folders := by
  unfold testSDAT
  split <;> exact ⟨rfl, rfl⟩

theorem loop_out (choose : List Nat → Nat) (k : Disk) (o : Option (List (Str × Bytes))) : ∀ l r,
    testLoop choose { k with out := o } l r = testLoop choose k l r
  | [], _ => rfl
  | fn :: l, r => by
    unfold testLoop
    rw [show resave choose { k with out := o } fn = resave choose k fn from rfl]
    split
    · exact loop_out choose k o l r
    · split
      · rfl
      · exact loop_out choose k o l _

/-- **C154.** Running it again gives the same result, the same lines and the same files. -/
theorem test_again (choose : List Nat → Nat) (k : Disk) :
    testSDAT choose (testSDAT choose k).2.1 = testSDAT choose k := by
  by_cases h : (k.files.lookup (lit "out")).isSome = true
  · have : testSDAT choose k = (.error .osError, k, []) := by
      unfold testSDAT
      rw [if_pos h]
    rw [this]
    exact this
  · unfold testSDAT
    rw [if_neg h]
    dsimp only
    rw [if_neg h, loop_out]

/-- What is printed for an archive. -/
theorem line_is {choose : List Nat → Nat} {i : Item} (h : Resaved choose i.d i.d2) :
    IsLine i.line i.n (outcome i.n i.d i.d2).1 ∧ ((outcome i.n i.d i.d2).1 = lit "good" ↔ Reproduced choose i.d) ∧
      ((outcome i.n i.d i.d2).1 = lit "BAD" ↔ ¬ Reproduced choose i.d ∧ i.n ≠ expected) := by
  have hd : i.d = i.d2 ↔ Reproduced choose i.d := same_iff h
  refine ⟨⟨70 - (i.n.length + 6), ?_, ?_⟩, ?_, ?_⟩
  · unfold Item.line Model.SoundTools.line
    dsimp only
    rw [List.length_append, List.length_append, show (lit ".sdat").length = 5 from by decide,
      show (lit " ").length = 1 from by decide, Nat.add_assoc]
  · omega
  · rw [← hd]
    unfold outcome
    by_cases h1 : i.d = i.d2
    · simp [h1]
    · by_cases h2 : i.n = expected
      · simp only [h1, h2, if_true, if_false, iff_false]
        decide
      · simp only [h1, h2, if_false, iff_false]
        decide
  · rw [← hd]
    unfold outcome
    by_cases h1 : i.d = i.d2
    · simp only [h1, if_true, not_true, false_and, iff_false]
      decide
    · by_cases h2 : i.n = expected
      · simp only [h1, h2, if_true, if_false, ne_eq, not_true, and_false, iff_false]
        decide
      · simp [h1, h2]

/-- **C154.** It prints one line for each archive, in the order of their names: the name, dots up to column 70, and `good`
if and only if the archive is the same after loading and saving, and `BAD` if it is not and is not expected to fail. -/
theorem test_printed {choose : List Nat → Nat} {k : Disk} {b : Bool} (hn : Names k) (h : (testSDAT choose k).1 = .ok b) :
    ∃ l : List (Str × Str × Str), (testSDAT choose k).2.2 = l.map (·.2.2) ∧
      l.Pairwise (fun x y => x.1 ++ lit ".sdat" < y.1 ++ lit ".sdat") ∧
      (∀ n, (∃ d, Contains k n d) ↔ n ∈ l.map (·.1)) ∧
      ∀ x ∈ l, ∃ d, Contains k x.1 d ∧ IsLine x.2.2 x.1 x.2.1 ∧ (x.2.1 = lit "good" ↔ Reproduced choose d) ∧
        (x.2.1 = lit "BAD" ↔ ¬ Reproduced choose d ∧ x.1 ≠ expected) := by
  have hs := archives_sorted hn (no_out hn h)
  obtain ⟨items, h1, h2, h3, h4, _⟩ := all_done hn h
  rw [h1, List.pairwise_map] at hs
  refine ⟨items.map fun i => (i.n, (outcome i.n i.d i.d2).1, i.line), ?_, ?_, ?_, ?_⟩
  · rw [h4, List.map_map]
    rfl
  · exact List.pairwise_map.2 hs
  · intro n
    rw [List.map_map, List.mem_map]
    constructor
    · rintro ⟨d, hd⟩
      obtain ⟨i, hi, rfl, rfl⟩ := h3 n d hd
      exact ⟨i, hi, rfl⟩
    · rintro ⟨i, hi, rfl⟩
      exact ⟨i.d, (h2 i hi).1⟩
  · intro x hx
    obtain ⟨i, hi, rfl⟩ := List.mem_map.1 hx
    exact ⟨i.d, (h2 i hi).1, line_is (h2 i hi).2⟩

/-- **C154.** If it raises, and not because of a file named `out`, then at the first archive, in the order of the names, that
cannot be loaded and saved: the archives before it have been dealt with, and no others. -/
theorem test_raises {choose : List Nat → Nat} {k : Disk} {e : PyErr} (hn : Names k) (ho : ∀ d, (lit "out", d) ∉ k.files)
    (h : (testSDAT choose k).1 = .error e) :
    ∃ n, (n ++ lit ".sdat" ∈ k.folders ∨ ∃ d, Contains k n d ∧ ∀ d2, ¬ Resaved choose d d2) ∧
      (∀ m, m ++ lit ".sdat" < n ++ lit ".sdat" → m ++ lit ".sdat" ∉ k.folders ∧ ∀ d, Contains k m d → ∃ d2, Resaved choose d d2) ∧
      ∃ o, (testSDAT choose k).2.1.out = some o ∧ o.length = (testSDAT choose k).2.2.length ∧
        ∀ f d2, (f, d2) ∈ o ↔ ∃ m d, f = m ++ lit "_out.sdat" ∧ m ++ lit ".sdat" < n ++ lit ".sdat" ∧ Contains k m d ∧
          Resaved choose d d2 := by
  have hs := archives_sorted hn ho
  obtain ⟨items, rest, h1, h2, h3, h4⟩ := test_spec choose hn ho
  rcases h4 with ⟨rfl, h4⟩ | ⟨n, tl, e', rfl, h4, _⟩
  · rw [h] at h4
    cases h4
  · rw [h1] at hs
    obtain ⟨_, hs2, hs3⟩ := List.pairwise_append.1 hs
    have hin : ∀ m, m ++ lit ".sdat" < n ++ lit ".sdat" → m ++ lit ".sdat" ∈ archives k → ∃ i ∈ items, i.n = m := by
      intro m hlt hm
      rw [h1] at hm
      rcases List.mem_append.1 hm with hm | hm
      · obtain ⟨i, hi, he⟩ := List.mem_map.1 hm
        exact ⟨i, hi, List.append_cancel_right he⟩
      · rcases List.mem_cons.1 hm with hm | hm
        · rw [hm] at hlt
          exact absurd hlt (List.lt_irrefl _)
        · exact absurd ((List.pairwise_cons.1 hs2).1 _ hm) (List.lt_asymm hlt)
    have hlt : ∀ i ∈ items, i.n ++ lit ".sdat" < n ++ lit ".sdat" := fun i hi =>
      hs3 _ (List.mem_map.2 ⟨i, hi, rfl⟩) _ (.head _)
    refine ⟨n, ?_, ?_, ?_⟩
    · have hm : n ++ lit ".sdat" ∈ archives k := by rw [h1]; simp
      rcases mem_archives.1 hm with ⟨d, hd⟩ | hd
      · refine .inr ⟨d, hd, fun d2 hr => ?_⟩
        rw [(resave_ok hn).2 ⟨hd, hr⟩] at h4
        cases h4
      · exact .inl hd
    · intro m hm
      constructor
      · intro hf
        obtain ⟨i, hi, rfl⟩ := hin m hm (mem_archives.2 (.inr hf))
        exact (List.nodup_append.1 hn.distinct).2.2 _ (List.mem_map.2 ⟨_, (h2 i hi).1, rfl⟩) _ hf rfl
      · intro d hd
        obtain ⟨i, hi, rfl⟩ := hin m hm (mem_archives.2 (.inl ⟨d, hd⟩))
        rw [contains_unique hn hd (h2 i hi).1]
        exact ⟨_, (h2 i hi).2⟩
    · rw [h3]
      refine ⟨_, rfl, by simp, fun f d2 => ?_⟩
      rw [List.mem_map]
      constructor
      · rintro ⟨i, hi, he⟩
        cases he
        exact ⟨i.n, i.d, rfl, hlt i hi, h2 i hi⟩
      · rintro ⟨m, d, rfl, hm, hc, a, hl, hs⟩
        obtain ⟨i, hi, rfl⟩ := hin m hm (mem_archives.2 (.inl ⟨d, hc⟩))
        obtain ⟨hc', a', hl', hs'⟩ := h2 i hi
        rw [contains_unique hn hc hc', hl'] at hl
        cases hl
        rw [hs] at hs'
        refine ⟨i, hi, ?_⟩
        unfold Item.out
        rw [Except.ok.inj hs']

/-- **C154.** Archives that have been saved, loaded, saved, loaded and saved by this library pass the test. -/
theorem test_settled {choose : List Nat → Nat} {k : Disk} {b : Bool} (hn : Names k) (h : (testSDAT choose k).1 = .ok b)
    (hk : ∀ n d, Contains k n d → ∃ (o t1 t2 : Archive) (d0 d1 : Bytes), o.save = .ok d0 ∧ SoundArchiveObject.Readable o ∧
      SoundArchiveObject.AllAccessible o ∧ o.fileAlignment ∣ 0x200 ∧ (∀ a, o.firstFileAlignment = some a → a ∣ 0x200) ∧
      Archive.load choose d0 = .ok t1 ∧ t1.save = .ok d1 ∧ Archive.load choose d1 = .ok t2 ∧ t2.save = .ok d) : b = true := by
  refine (test_result hn h).2 fun n d hd => .inl ?_
  obtain ⟨o, t1, t2, d0, d1, h0, hr, ha, a1, a2, l0, h1, l1, h2⟩ := hk n d hd
  exact SoundArchiveObject.archive_objects_settle h0 hr ha a1 a2 l0 h1 l1 h2

/-- **C154.** The program prints `TEST FAILURE` at the end if and only if an archive is not reproduced and is not expected to
fail; it does not say that the test has passed. -/
theorem main_failure {choose : List Nat → Nat} {k : Disk} {b : Bool} (hn : Names k) (h : (testSDAT choose k).1 = .ok b) :
    (testMain choose k).1 = .ok () ∧
      (((testMain choose k).2.2 = (testSDAT choose k).2.2 ++ [lit "TEST FAILURE"]) ↔
        ∃ n d, Contains k n d ∧ ¬ Reproduced choose d ∧ n ≠ expected) ∧
      ((testMain choose k).2.2 = (testSDAT choose k).2.2 ↔ ∀ n d, Contains k n d → Reproduced choose d ∨ n = expected) := by
  have hr := test_result hn h
  unfold testMain
  dsimp only
  rw [h, ← hr]
  refine ⟨rfl, ?_, ?_⟩
  · cases b with
    | false =>
      simp only [if_true, true_iff]
      apply Classical.byContradiction
      intro hc
      have : false = true := hr.2 fun n d hd => by
        apply Classical.byContradiction
        intro hx
        exact hc ⟨n, d, hd, fun hy => hx (.inl hy), fun hy => hx (.inr hy)⟩
      cases this
    | true =>
      constructor
      · intro hx
        simp at hx
      · rintro ⟨n, d, hd, h1, h2⟩
        rcases hr.1 rfl n d hd with h | h
        · exact absurd h h1
        · exact absurd h h2
  · cases b <;> simp

/-! ### Examples -/

/-- The short archive of C119, as saved first. -/
def shortData : Bytes := match SoundArchiveObject.exShort.save with | .ok d => d | .error _ => []

/-- A folder with two archives, one of which is not reproduced, a text file, a folder, and results of an earlier run. -/
def folder : Disk := ⟨[(lit "b.sdat", shortData), (lit "readme", [1, 2]), (lit "a.sdat", SoundArchiveObject.exData)], [lit "old"],
  some [(lit "gone_out.sdat", [3])]⟩

theorem folder_names : Names folder := ⟨by decide, by decide⟩

theorem folder_run : (testSDAT (fun _ => 0) folder).1 = .ok false := by decide +kernel

example : (testSDAT (fun _ => 0) folder).2.2 =
    [lit "a.sdat ............................................................... good",
      lit "b.sdat ............................................................... BAD"] := by decide +kernel

example : ((testSDAT (fun _ => 0) folder).2.1.out.map (·.map (·.1))) = some [lit "a_out.sdat", lit "b_out.sdat"] := by
  decide +kernel

/-- Under the expected name the same archive does not make the test fail. -/
example : (testSDAT (fun _ => 0) ⟨[(expected ++ lit ".sdat", shortData)], [], none⟩).1 = .ok true := by decide +kernel

/-- An archive that cannot be loaded stops the test after `a.sdat`. -/
example : (testSDAT (fun _ => 0) ⟨[(lit "c.sdat", shortData), (lit "b.sdat", [1]), (lit "a.sdat", SoundArchiveObject.exData)], [], none⟩).1 ≠
      .ok true ∧
    (testSDAT (fun _ => 0) ⟨[(lit "c.sdat", shortData), (lit "b.sdat", [1]), (lit "a.sdat", SoundArchiveObject.exData)], [], none⟩).2.1.out =
      some [(lit "a_out.sdat", SoundArchiveObject.exData)] := by decide +kernel

/-- A file named `out`. -/
example : Names ⟨[(lit "out", [])], [], none⟩ ∧ (lit "out", ([] : Bytes)) ∈ (⟨[(lit "out", [])], [], none⟩ : Disk).files :=
  ⟨⟨by decide, by decide⟩, .head _⟩

/-! ## instrumentExamples.py -/

theorem reached_all {events : List (Nat × Ev)} {S : List Nat} (h0 : ∀ e, events[0]? = some e → e.1 ∈ S)
    (hfl : ∀ pre a b post, events = pre ++ a :: b :: post → flows a.2 = true) :
    ∀ (n : Nat) (h : n < events.length), Reached events S events[n].1
  | 0, h => .start _ (h0 _ (List.getElem?_eq_getElem h))
  | n + 1, h => by
    have he : events = events.take n ++ events[n] :: events[n + 1] :: events.drop (n + 2) := by
      rw [← List.drop_eq_getElem_cons, ← List.drop_eq_getElem_cons, List.take_append_drop]
    exact .next _ _ _ _ (reached_all h0 hfl n (by omega)) he (hfl _ _ _ _ he)

theorem scale_ids (b i : Nat) : (scaleEvents b i).map Prod.fst = List.range 130 := by
  unfold scaleEvents
  rw [List.map_cons, List.map_append, List.map_map]
  show 0 :: (List.map (fun i => i + 1) (List.range 128) ++ [129]) = List.range 130
  decide

/-- The events of a scale. -/
def scale (b i : Nat) : List Ev :=
  .instrumentSwitch b i :: ((List.range 128).map (fun p => .note p 127 false 50) ++ [.endTrack])

theorem scale_events (b i : Nat) : (scaleEvents b i).map (·.2) = scale b i := by
  unfold scaleEvents scale
  rw [List.map_cons, List.map_append, List.map_map]
  rfl

theorem scale_mem {b i : Nat} {e : Nat × Ev} (he : e ∈ scaleEvents b i) :
    e.2 = .instrumentSwitch b i ∨ (∃ p : Nat, p < 128 ∧ e.2 = .note p 127 false 50) ∨ e.2 = .endTrack ∧ e.1 = 129 := by
  unfold scaleEvents at he
  simp only [List.mem_cons, List.mem_append, List.mem_map, List.mem_range, List.not_mem_nil, or_false] at he
  rcases he with rfl | ⟨p, hp, rfl⟩ | rfl
  · exact .inl rfl
  · exact .inr (.inl ⟨p, hp, rfl⟩)
  · exact .inr (.inr ⟨rfl, rfl⟩)

theorem scale_length (b i : Nat) : (scaleEvents b i).length = 130 := by
  have := congrArg List.length (scale_ids b i)
  rw [List.length_map, List.length_range] at this
  exact this

theorem scale_last (b i : Nat) : (scaleEvents b i)[129]? = some (129, .endTrack) := by
  unfold scaleEvents
  rw [List.getElem?_cons_succ, List.getElem?_append_right (by simp)]
  simp

theorem scale_first (b i : Nat) : (scaleEvents b i)[0]? = some (0, .instrumentSwitch b i) := rfl

attribute [local irreducible] scaleEvents

theorem scale_inRange {b i : Nat} (hi : i < 128) (hb : b < 2 ^ 28) {e : Nat × Ev} (he : e ∈ scaleEvents b i) : InRange e.2 := by
  rcases scale_mem he with h | ⟨p, hp, h⟩ | ⟨h, _⟩ <;> rw [h]
  · exact ⟨hi, hb⟩
  · simp only [InRange]
    omega
  · trivial

theorem scale_refs {b i : Nat} {e : Nat × Ev} (he : e ∈ scaleEvents b i) : refs e.2 = [] := by
  rcases scale_mem he with h | ⟨p, hp, h⟩ | ⟨h, _⟩ <;> rw [h] <;> rfl

theorem scale_fixed {b i : Nat} {e : Nat × Ev} (he : e ∈ scaleEvents b i) : isFromVariable e.2 = false := by
  rcases scale_mem he with h | ⟨p, hp, h⟩ | ⟨h, _⟩ <;> rw [h] <;> rfl

theorem lenVar_small {x : Nat} (hx : x < 2 ^ 35) : ∃ n, lenVar x = .ok n ∧ n ≤ 5 :=
  ⟨_, Proofs.SeqVar.lenVar_eq x, (Proofs.SeqVar.varDigits_length_le x x 4 (Nat.le_refl _)).2 hx⟩

theorem scale_small {b i : Nat} (hi : i < 128) (hb : b < 2 ^ 28) {e : Nat × Ev} (he : e ∈ scaleEvents b i) :
    declared e.2 ≤ 10 := by
  rcases scale_mem he with h | ⟨p, hp, h⟩ | ⟨h, _⟩ <;> rw [h]
  · have hx : b <<< 7 ||| i < 2 ^ 35 := by
      refine Nat.or_lt_two_pow ?_ (by omega)
      rw [Nat.shiftLeft_eq]
      omega
    obtain ⟨n, hn, hle⟩ := lenVar_small hx
    unfold declared Ev.dataLength
    dsimp only
    rw [hn]
    show 1 + n ≤ 10
    omega
  · obtain ⟨n, hn, hle⟩ := lenVar_small (x := 50) (by decide)
    unfold declared Ev.dataLength
    dsimp only
    rw [show (50 : Int) = ((50 : Nat) : Int) from rfl, hn]
    show 2 + n ≤ 10
    omega
  · decide

theorem total_small : ∀ l : List (Nat × Ev), (∀ e ∈ l, declared e.2 ≤ 10) → total l ≤ 10 * l.length
  | [], _ => Nat.le_refl _
  | a :: l, h => by
    have h1 := h a (.head _)
    have h2 := total_small l fun e he => h e (.tail _ he)
    rw [Proofs.SeqSave.total_cons, List.length_cons]
    omega

theorem scale_reached (b i : Nat) {e : Nat × Ev} (he : e ∈ scaleEvents b i) :
    Reached (scaleEvents b i) (startIds (scaleEvents b i) []) e.1 := by
  obtain ⟨n, hn', rfl⟩ := List.getElem_of_mem he
  refine reached_all (fun e he' => ?_) (fun pre a c post he' => ?_) n hn'
  · unfold startIds
    rw [if_pos rfl, scale_ids]
    rw [scale_first] at he'
    cases he'
    show 0 ∈ List.take 1 (List.range 130)
    decide
  · have ha : a ∈ scaleEvents b i := by rw [he']; simp
    rcases scale_mem ha with h | ⟨p, _, h⟩ | ⟨h, h1⟩
    · rw [h]; rfl
    · rw [h]; rfl
    · have h2 : ((scaleEvents b i).map Prod.fst)[pre.length]? = some a.1 := by
        rw [he', List.map_append, List.getElem?_append_right (by simp)]
        simp
      have h3 := congrArg List.length he'
      rw [scale_length] at h3
      simp only [List.length_append, List.length_cons] at h3
      rw [scale_ids, List.getElem?_range (by omega)] at h2
      have h2 := Option.some.inj h2
      omega

theorem scale_straight (b i : Nat) : Straight (scaleEvents b i) := by
  refine ⟨fun e he => ?_, fun pre e he => ?_⟩
  · rcases scale_mem he with h | ⟨p, _, h⟩ | ⟨h, _⟩ <;> rw [h] <;> simp
  · have hl : pre.length = 129 := by
      have := congrArg List.length he
      rw [scale_length, List.length_append, List.length_singleton] at this
      omega
    have hlast := scale_last b i
    rw [he, List.getElem?_append_right (by omega), hl] at hlast
    cases hlast
    rfl

/-- **C154.** The scale for an instrument is a sequence that switches to the instrument and plays the notes 0 to 127 one after
the other, each for 50 ticks: it can be saved as a file, and the file can be loaded and parsed to the same events. -/
theorem scale_file {b i : Nat} (hi : i < 128) (hb : b < 2 ^ 28) (depth : Nat) (extra : Bytes) :
    ∃ file loaded again, SSEQ.save (.parsed (scaleEvents b i)) = .ok file ∧ SSEQ.load (file ++ extra) = .ok loaded ∧
      SSEQ.parse depth loaded = .ok (.parsed again) ∧ again.map (·.2) = scale b i := by
  have hn : ((scaleEvents b i).map Prod.fst).Nodup := by
    rw [scale_ids]
    exact List.nodup_range
  have hP : Sequence.Proper (scaleEvents b i) := ⟨hn, fun e he => .inl (scale_inRange hi hb he)⟩
  obtain ⟨⟨data, noffs⟩, hsave⟩ := (Sequence.sequence_save_iff (scaleEvents b i) [] hP).2
    ⟨fun e he x hx => (by rw [scale_refs he] at hx; cases hx), fun x hx => (by cases hx)⟩
  have hdl : data.length = total (scaleEvents b i) := by
    obtain ⟨bs, _, hfl, hbs⟩ := (Sequence.sequence_layout (scaleEvents b i) [] data noffs hP (fun e he => scale_fixed he) hsave).1
    rw [hfl, List.length_flatten, hbs]
    rfl
  have hle := total_small _ fun e he => scale_small hi hb he
  rw [scale_length, ← hdl] at hle
  obtain ⟨file, hfile, _, hload⟩ := (Sequence.sseq_roundtrip data).1 (by omega)
  have hD : (SSEQ.parsed (scaleEvents b i)).data = .ok data := by
    show (saveSequenceEvents (scaleEvents b i) []).bind _ = _
    rw [hsave]
    rfl
  have hsv : SSEQ.save (.parsed (scaleEvents b i)) = .ok file := by
    rw [← hfile]
    unfold SSEQ.save
    rw [hD]
    rfl
  have hread := SequenceRead.save_read_complete (scaleEvents b i) [] data noffs hn (fun e he => scale_inRange hi hb he)
    (fun e he => scale_fixed he) (scale_straight b i) (fun h => by have := scale_length b i; rw [h] at this; cases this) hsave
    (fun e he => scale_reached b i he) depth (by
      rw [List.filter_eq_nil_iff.2 (fun e he => by rw [scale_refs he]; simp)]
      exact Nat.zero_le _)
  have hno : noffs = [] := by
    obtain ⟨data', h1, _⟩ := Sequence.sseq_parsed_save (scaleEvents b i) file extra hsv
    rw [hsave] at h1
    cases h1
    rfl
  refine ⟨file, _, renamed (scaleEvents b i), hsv, hload extra, ?_, ?_⟩
  · subst hno
    show (readSequenceEvents depth data []).bind _ = _
    rw [hread]
    rfl
  · unfold renamed
    rw [List.map_map, ← scale_events]
    refine List.map_congr_left fun e he => ?_
    rcases scale_mem he with h | ⟨p, _, h⟩ | ⟨h, _⟩ <;> simp [h, mapRefs]

theorem notes_duration : ∀ l : List Nat,
    Model.Music.durationOf (l.map (fun p => .note p 127 false 50) ++ [.endTrack]) Model.Music.MONO = 50 * l.length
  | [] => rfl
  | p :: l => by
    show 50 + Model.Music.durationOf (l.map (fun p => .note p 127 false 50) ++ [.endTrack]) Model.Music.MONO = _
    rw [notes_duration l, List.length_cons]
    omega

/-- **C154.** It takes 6400 ticks. -/
theorem scale_duration (b i : Nat) : Model.Music.durationOf (scale b i) Model.Music.MONO = 6400 := by
  unfold scale
  simp only [Model.Music.durationOf, Model.Music.durationOfEvent, notes_duration, List.length_range]
  rfl

/-- **C154.** For an archive with a wave archive and without empty bank slots, the number that is printed is the number of
instrument slots, empty ones included, of all banks that use the first wave archive. -/
theorem examples_count {choose : List Nat → Nat} {inFN outFN : Path} {fs : FS} {d : Bytes} {a : Archive}
    (hr : fs.content inFN = some d) (hl : Archive.load choose d = .ok a) :
    prepareSDAT choose inFN outFN fs =
      if a.waveArchives = [] then .error .indexError
      else if none ∈ a.banks.map (·.2) then .error .attributeError
      else .ok ((a.banks.map fun p => match p.2 with
        | some b => if some 0 ∈ b.obj.waveArchiveIDs then b.obj.instruments.length else 0
        | none => 0).sum) := by
  have hb : ∀ l : List (Model.SoundArchive.Symbol × Option Bank), (banksOfFirst l).map (fun bs => (bs.flatMap fun b => b.obj.instruments).length) =
      if none ∈ l.map (·.2) then (.error .attributeError : Py Nat)
      else .ok ((l.map fun p => match p.2 with
        | some b => if some 0 ∈ b.obj.waveArchiveIDs then b.obj.instruments.length else 0
        | none => 0).sum) := by
    intro l
    induction l with
    | nil => simp [banksOfFirst]; rfl
    | cons p l ih =>
      obtain ⟨s, _ | b⟩ := p
      · rw [if_pos (.head _)]
        rfl
      · have hex : none ∈ ((s, some b) :: l).map (·.2) ↔ none ∈ l.map (·.2) := by simp
        simp only [hex]
        unfold banksOfFirst
        cases hl : banksOfFirst l with
        | error e =>
          rw [hl] at ih
          by_cases hx : none ∈ l.map (·.2)
          · rw [if_pos hx] at ih ⊢
            exact ih
          · rw [if_neg hx] at ih
            cases ih
        | ok bs =>
          rw [hl] at ih
          by_cases hx : none ∈ l.map (·.2)
          · rw [if_pos hx] at ih
            cases ih
          · rw [if_neg hx] at ih ⊢
            have ih := Except.ok.inj ih
            rw [List.map_cons, List.sum_cons, ← ih]
            show Except.ok _ = Except.ok _
            dsimp only
            by_cases hc : some 0 ∈ b.obj.waveArchiveIDs
            · simp [hc]
            · simp [hc]
  have hrw : prepareSDAT choose inFN outFN fs = (pyIdx a.waveArchives 0).bind fun _ =>
      (banksOfFirst a.banks).map (fun bs => (bs.flatMap fun b => b.obj.instruments).length) := by
    unfold prepareSDAT Model.Files.readWith FS.read
    rw [hr]
    simp only [bind_ok, hl]
    cases pyIdx a.waveArchives 0 with
    | error e => rfl
    | ok v =>
      cases banksOfFirst a.banks <;> rfl
  rw [hrw, hb]
  cases a.waveArchives with
  | nil => rfl
  | cons w ws =>
    simp only [reduceCtorEq, if_false]
    simp only [pyIdx, List.getElem?_cons_zero]
    rfl

/-- A bank with two slots that uses the first wave archive, and a bank that does not. -/
def exBanks : Archive :=
  let one := (⟨.single ⟨7, 0, 60, 127, 127, 127, 127, 64, 1⟩, 2, 1⟩ : Model.SoundBank.Inst)
  { SoundArchiveObject.exObjects with
    banks := [(none, some ⟨⟨0, [some 3, none, some 0], [none, some one], []⟩, 0⟩), (none, some ⟨⟨0, [some 3], [some one], []⟩, 0⟩)] }

example : (exBanks.save.bind fun d =>
    prepareSDAT (fun _ => 0) ⟨[], [1]⟩ ⟨[], [2]⟩ ⟨fun _ => some d, fun _ => true⟩) = .ok 2 := by decide +kernel

/-! ## soundfontExport.py -/

theorem pure_eq_ok' {α : Type} (a : α) : (pure a : Py α) = .ok a := rfl

/-- **C154.** The soundfont that is written is empty, whatever the instruments and waves are; nothing else changes, and
nothing at all if the two files cannot be read or loaded, or the soundfont not be written. -/
theorem soundfont_empty (choose : List Nat → Nat) (sbnkFile swarFile sf2File : Path) (fs : FS) :
    let r := soundfontExport choose sbnkFile swarFile sf2File fs
    (r.1 = .ok () ∧ fs.writable sf2File = true ∧ r.2.content sf2File = some [] ∧
      (∀ q, q ≠ sf2File → r.2.content q = fs.content q) ∧
      ∃ d e sbnk swar, fs.content sbnkFile = some d ∧ fs.content swarFile = some e ∧
        Model.SoundBank.SBNK.load choose d 0 [] = .ok sbnk ∧ Model.SoundWave.loadSWAR e = .ok swar) ∨
    (r.1 ≠ .ok () ∧ r.2 = fs ∧ (fs.writable sf2File = false ∨ ∀ d e sbnk swar, fs.content sbnkFile = some d →
      fs.content swarFile = some e → Model.SoundBank.SBNK.load choose d 0 [] = .ok sbnk →
      Model.SoundWave.loadSWAR e ≠ .ok swar)) := by
  unfold soundfontExport FS.read FS.write
  cases hd : fs.content sbnkFile with
  | none => exact .inr ⟨nofun, rfl, .inr fun _ _ _ _ h => nomatch h⟩
  | some d =>
    cases he : fs.content swarFile with
    | none => exact .inr ⟨nofun, rfl, .inr fun _ _ _ _ _ h => nomatch h⟩
    | some e =>
      simp only [bind_ok]
      cases hb : Model.SoundBank.SBNK.load choose d 0 [] with
      | error x => exact .inr ⟨nofun, rfl, .inr fun _ _ _ _ h _ h' => by cases h; rw [hb] at h'; cases h'⟩
      | ok sbnk =>
        cases hw : Model.SoundWave.loadSWAR e with
        | error x => exact .inr ⟨nofun, rfl, .inr fun _ _ _ _ _ h _ h' => by cases h; rw [hw] at h'; cases h'⟩
        | ok swar =>
          simp only [bind_ok]
          by_cases hx : fs.writable sf2File = true
          · left
            simp only [pure_eq_ok', hx, if_true]
            exact ⟨trivial, trivial, by simp [convertToSF2], fun q hq => by simp [hq], d, e, sbnk, swar, rfl, rfl, hb, hw⟩
          · right
            have hx : fs.writable sf2File = false := by simpa using hx
            simp only [pure_eq_ok', hx, Bool.false_eq_true, if_false]
            exact ⟨nofun, trivial, .inl trivial⟩

end Verif.Props.SoundTools
