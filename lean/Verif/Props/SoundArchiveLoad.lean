import Verif.Props.SoundArchive

/-!
# Loading any sound archive (C87)
-/

namespace Verif.Props.SoundArchive

open Verif Verif.Model.Common Verif.Model.SoundArchive Verif.Model.SoundStream Verif.Spec.SoundArchive Verif.Proofs.SoundArchive

/-- The entry of the table for a file: offset and length. -/
def tableEntry (d : Bytes) (k : Nat) : Nat × Nat :=
  (u32 d (u32 d 0x20 + 0xC + 0x10 * k), u32 d (u32 d 0x20 + 0xC + 0x10 * k + 4))

/-- The number of files. -/
def tableCount (d : Bytes) : Nat := u32 d (u32 d 0x20 + 8)

/-- The file with a number: what the table says, as far as the data goes. -/
def tableFile (d : Bytes) (k : Nat) : Bytes := (d.drop (tableEntry d k).1).take (tableEntry d k).2

theorem readFile_two {data : Bytes} {o : Nat} {x : List Nat} (h : unpackUs .little [4, 4] data o = .ok x) :
    x = [u32 data o, u32 data (o + 4)] := by
  simp only [unpackUs, bind_eq_ok, pure_eq_ok] at h
  obtain ⟨v, hv, vs, ⟨w, hw, ws, e1, rfl⟩, e2⟩ := h
  cases e1
  rw [← e2, u32_of_unpack hv, u32_of_unpack hw]

theorem readFiles_inv {data : Bytes} {fat count : Nat} : ∀ {l : List Nat} {s t : FatState},
    readFiles data fat count l s = .ok t → ∀ i ∈ l, unpackUs .little [4, 4] data (fat + 0xC + 0x10 * i) =
      .ok [u32 data (fat + 0xC + 0x10 * i), u32 data (fat + 0xC + 0x10 * i + 4)]
  | [], _, _, _, i, hi => by cases hi
  | j :: l, s, t, h, i, hi => by
    rw [readFiles, bind_eq_ok] at h
    obtain ⟨s', h1, h2⟩ := h
    rcases List.mem_cons.1 hi with rfl | hi
    · unfold readFile at h1
      rw [bind_eq_ok] at h1
      obtain ⟨x, hx, _⟩ := h1
      rw [hx, readFile_two hx]
    · exact readFiles_inv h2 i hi

theorem readFiles_all {data : Bytes} {fat count : Nat} {s t : FatState}
    (h : readFiles data fat count (List.range count) s = .ok t) :
    t = fatResult data 0 ((List.range count).map fun i => (u32 data (fat + 0xC + 0x10 * i), u32 data (fat + 0xC + 0x10 * i + 4))) s := by
  have h1 := readFiles_inv h
  have := readFiles_eq (data := data) (fat := fat) (count := count)
    (es := (List.range count).map fun i => (u32 data (fat + 0xC + 0x10 * i), u32 data (fat + 0xC + 0x10 * i + 4))) (k := 0) (s := s)
    (by
      intro i e he
      rw [List.getElem?_map] at he
      cases hi : (List.range count)[i]? with
      | none => rw [hi] at he; cases he
      | some j =>
        rw [hi] at he
        obtain ⟨hlt, hj⟩ := List.getElem?_eq_some_iff.1 hi
        rw [List.getElem_range] at hj
        subst hj
        cases he
        rw [Nat.zero_add]
        exact h1 _ (List.mem_of_getElem? hi))
    (by simp)
  rw [List.length_map, List.length_range, ← List.range_eq_range', h] at this
  exact Except.ok.inj this

/-- What holds of every file that an item was loaded with. -/
def FromTable (d : Bytes) (file : Bytes) (mergeID : Int) : Prop :=
  ∃ k : Nat, k < tableCount d ∧ mergeID = k ∧ file = tableFile d k

theorem fromTable_of {d : Bytes} {files : List Bytes} (hf : files = (List.range (tableCount d)).map (tableFile d)) {k : Nat} {f : Bytes}
    (h : pyIdx files k = .ok f) : FromTable d f (k : Int) := by
  unfold pyIdx at h
  split at h
  · rename_i x hx
    cases h
    rw [hf, List.getElem?_map] at hx
    cases hi : (List.range (tableCount d))[k]? with
    | none => rw [hi] at hx; cases hx
    | some j =>
      rw [hi] at hx
      obtain ⟨hlt, hj⟩ := List.getElem?_eq_some_iff.1 hi
      rw [List.getElem_range] at hj
      subst hj
      cases hx
      exact ⟨_, by simpa using hlt, rfl, rfl⟩
  · cases h

theorem readEntry_some {α : Type} {read : Nat → Py α} {info : Nat} {o : Option Nat} {x : α} (h : readEntry read info o = .ok (some x)) :
    ∃ k, read k = .ok x := by
  unfold readEntry at h
  split at h
  · cases h
  · cases h
  · simp only [bind_eq_ok, pure_eq_ok] at h
    obtain ⟨y, hy, e⟩ := h
    cases e
    exact ⟨_, hy⟩

theorem readPart_all {α : Type} {read : Nat → Py α} {data : Bytes} {block : Nat} {so : Option Nat} {info off last : Nat}
    {r : List (Symbol × Option α) × Nat} {P : α → Prop} (hP : ∀ k x, read k = .ok x → P x)
    (h : readPart read data block so info off last = .ok r) (n : Symbol) (x : α) (hx : (n, some x) ∈ r.1) : P x := by
  unfold readPart at h
  simp only [bind_eq_ok, pure_eq_ok] at h
  obtain ⟨s, _, offs, _, l, hl, e⟩ := h
  subst e
  have := mapE_forall (P := fun q : Symbol × Option α => ∀ y, q.2 = some y → P y) (by
    rintro p ⟨m, b⟩ hp y rfl
    simp only [bind_eq_ok, pure_eq_ok] at hp
    obtain ⟨z, hz, e⟩ := hp
    cases e
    obtain ⟨k, hk⟩ := readEntry_some hz
    exact hP k y hk) hl
  exact this _ hx x rfl

theorem readSsars_all {data : Bytes} {files : List Bytes} {block : Nat} {so : Option Nat} {info off last : Nat}
    {r : List (Symbol × Option SsarItem) × Nat} {P : SsarItem → Prop} (hP : ∀ names k x, readSsar data files names k = .ok x → P x)
    (h : readSsars data files block so info off last = .ok r) (n : Symbol) (x : SsarItem) (hx : (n, some x) ∈ r.1) : P x := by
  unfold readSsars at h
  simp only [bind_eq_ok, pure_eq_ok] at h
  obtain ⟨s, _, offs, _, l, hl, e⟩ := h
  subst e
  have := mapE_forall (P := fun q : Symbol × Option SsarItem => ∀ y, q.2 = some y → P y) (by
    rintro p ⟨m, b⟩ hp y rfl
    simp only [bind_eq_ok, pure_eq_ok] at hp
    obtain ⟨z, hz, e⟩ := hp
    cases e
    obtain ⟨k, hk⟩ := readEntry_some hz
    exact hP _ k y hk) hl
  exact this _ hx x rfl

section Items
variable {d : Bytes} {files : List Bytes} (hf : files = (List.range (tableCount d)).map (tableFile d))
include hf

theorem readSeq_file (k : Nat) (x : SeqItem) (h : readSeq d files k = .ok x) : FromTable d x.file x.mergeID := by
  unfold readSeq at h
  rw [bind_eq_ok] at h
  obtain ⟨l, _, h⟩ := h
  split at h
  · simp only [bind_eq_ok, pure_eq_ok] at h
    obtain ⟨f, h1, rfl⟩ := h
    exact fromTable_of hf h1
  · cases h

theorem readSsar_file (names : List Symbol) (k : Nat) (x : SsarItem) (h : readSsar d files names k = .ok x) :
    FromTable d x.file x.mergeID := by
  unfold readSsar at h
  rw [bind_eq_ok] at h
  obtain ⟨l, _, h⟩ := h
  split at h
  · simp only [bind_eq_ok, pure_eq_ok] at h
    obtain ⟨f, h1, rfl⟩ := h
    exact fromTable_of hf h1
  · cases h

theorem readBank_file (k : Nat) (x : BankItem) (h : readBank d files k = .ok x) : FromTable d x.file x.mergeID := by
  unfold readBank at h
  rw [bind_eq_ok] at h
  obtain ⟨l, _, h⟩ := h
  split at h
  · simp only [bind_eq_ok, pure_eq_ok] at h
    obtain ⟨f, h1, g, h2, rfl⟩ := h
    first | exact fromTable_of hf h1 | exact fromTable_of hf h2
  · cases h

theorem readSwar_file (k : Nat) (x : SwarItem) (h : readSwar d files k = .ok x) : FromTable d x.file x.mergeID := by
  unfold readSwar at h
  rw [bind_eq_ok] at h
  obtain ⟨l, _, h⟩ := h
  split at h
  · simp only [bind_eq_ok, pure_eq_ok] at h
    obtain ⟨f, h1, rfl⟩ := h
    exact fromTable_of hf h1
  · cases h

theorem readStrm_file (k : Nat) (x : StrmItem) (h : readStrm d files k = .ok x) : FromTable d x.file x.mergeID := by
  unfold readStrm at h
  rw [bind_eq_ok] at h
  obtain ⟨l, _, h⟩ := h
  split at h
  · simp only [bind_eq_ok, pure_eq_ok] at h
    obtain ⟨f, h1, rfl⟩ := h
    exact fromTable_of hf h1
  · cases h

end Items

theorem unpack8 {data : Bytes} {o : Nat} {x : List Nat} (h : unpackUs .little [4, 4, 4, 4, 4, 4, 4, 4] data o = .ok x) :
    x = [u32 data o, u32 data (o + 4), u32 data (o + 4 + 4), u32 data (o + 4 + 4 + 4), u32 data (o + 4 + 4 + 4 + 4),
      u32 data (o + 4 + 4 + 4 + 4 + 4), u32 data (o + 4 + 4 + 4 + 4 + 4 + 4), u32 data (o + 4 + 4 + 4 + 4 + 4 + 4 + 4)] := by
  simp only [unpackUs, bind_eq_ok, pure_eq_ok] at h
  obtain ⟨a1, h1, _, ⟨a2, h2, _, ⟨a3, h3, _, ⟨a4, h4, _, ⟨a5, h5, _, ⟨a6, h6, _, ⟨a7, h7, _, ⟨a8, h8, _, e, rfl⟩, rfl⟩, rfl⟩, rfl⟩,
    rfl⟩, rfl⟩, rfl⟩, rfl⟩ := h
  cases e
  rw [u32_of_unpack h1, u32_of_unpack h2, u32_of_unpack h3, u32_of_unpack h4, u32_of_unpack h5, u32_of_unpack h6,
    u32_of_unpack h7, u32_of_unpack h8]

theorem mem_usedFiles {t : SDAT} {P : Bytes → Int → Prop} (h0 : ∀ n x, (n, some x) ∈ t.sequences → P x.file x.mergeID)
    (h1 : ∀ n x, (n, some x) ∈ t.sequenceArchives → P x.file x.mergeID) (h2 : ∀ n x, (n, some x) ∈ t.banks → P x.file x.mergeID)
    (h3 : ∀ n x, (n, some x) ∈ t.waveArchives → P x.file x.mergeID) (h4 : ∀ n x, (n, some x) ∈ t.streams → P x.file x.mergeID) :
    ∀ u ∈ usedFiles t, P u.1 u.2 := by
  intro u hu
  unfold usedFiles at hu
  simp only [List.mem_append, List.mem_filterMap, Option.map_eq_some_iff] at hu
  rcases hu with (((⟨⟨n, y⟩, hm, x, hx, rfl⟩ | ⟨⟨n, y⟩, hm, x, hx, rfl⟩) | ⟨⟨n, y⟩, hm, x, hx, rfl⟩) | ⟨⟨n, y⟩, hm, x, hx, rfl⟩) |
    ⟨⟨n, y⟩, hm, x, hx, rfl⟩
  · cases hx; exact h0 n x hm
  · cases hx; exact h1 n x hm
  · cases hx; exact h2 n x hm
  · cases hx; exact h3 n x hm
  · cases hx; exact h4 n x hm

theorem contiguous_iff {f : Nat → Nat × Nat} : ∀ {n k : Nat},
    contiguous ((List.range' k n).map f) = true ↔ ∀ i, k ≤ i → i + 1 < k + n → (f (i + 1)).1 = (f i).1 + (f i).2
  | 0, k => by
    simp only [List.range'_zero, List.map_nil, contiguous, true_iff]
    intro i h1 h2; omega
  | 1, k => by
    simp only [List.range'_succ, List.range'_zero, List.map_cons, List.map_nil, contiguous, nextOk, Bool.and_self, true_iff]
    intro i h1 h2; omega
  | n + 2, k => by
    have ih := contiguous_iff (f := f) (n := n + 1) (k := k + 1)
    have e : (List.range' k (n + 2)).map f = f k :: (List.range' (k + 1) (n + 1)).map f := rfl
    have e2 : (List.range' (k + 1) (n + 1)).map f = f (k + 1) :: (List.range' (k + 1 + 1) n).map f := rfl
    rw [e, contiguous, Bool.and_eq_true, ih]
    have e3 : nextOk (f k) ((List.range' (k + 1) (n + 1)).map f) = decide ((f (k + 1)).1 = (f k).1 + (f k).2) := by rw [e2]; rfl
    rw [e3, decide_eq_true_eq]
    constructor
    · rintro ⟨h1, h2⟩ i h3 h4
      by_cases hi : i = k
      · subst hi; exact h1
      · exact h2 i (by omega) (by omega)
    · intro h
      exact ⟨h k (by omega) (by omega), fun i h1 h2 => h i (by omega) (by omega)⟩

/-- Where the last file ends. -/
def tableEnd (d : Bytes) : Nat :=
  if tableCount d = 0 then u32 d 0x28 + 8 else (tableEntry d (tableCount d - 1)).1 + (tableEntry d (tableCount d - 1)).2

/-- **C87.** Whatever data an archive is loaded from: the merge ID of every item is the number of its file in the table, its
file is what the table says, and the settings are found out from the table alone. -/
theorem archive_load_files {d : Bytes} {t : SDAT} (h : SDAT.load d = .ok t) :
    (∀ u ∈ usedFiles t, FromTable d u.1 u.2) ∧
    GreatestAlignment t.fileAlignment ((List.range (tableCount d)).map fun k => (tableEntry d k).1) ∧
    (t.fatLengthsIncludePadding = true ↔
      ∀ k, k + 1 < tableCount d → (tableEntry d (k + 1)).1 = (tableEntry d k).1 + (tableEntry d k).2) ∧
    (∀ a, t.firstFileAlignment = some a ↔
      0 < tableCount d ∧ GreatestAlignment a [(tableEntry d 0).1] ∧ a ≠ t.fileAlignment) ∧
    (t.padAtEnd = false ↔ tableEnd d = d.length ∧ ¬ t.fileAlignment ∣ tableEnd d) := by
  unfold SDAT.load at h
  rw [bind_eq_ok] at h
  obtain ⟨hd, _, h⟩ := h
  rw [bind_eq_ok] at h
  obtain ⟨_, _, h⟩ := h
  rw [bind_eq_ok] at h
  obtain ⟨_, _, h⟩ := h
  rw [bind_eq_ok] at h
  obtain ⟨bl, hbl, h⟩ := h
  have hbl := unpack8 hbl
  subst hbl
  dsimp only at h
  simp only [bind_eq_ok] at h
  obtain ⟨sm, _, _, _, so, _, fm, _, _, _, fc, hfc, _, _, fs, hfs, im, _, _, _, io, hio, _, _, h⟩ := h
  have hio := unpack8 hio
  subst hio
  dsimp only at h
  simp only [bind_eq_ok, pure_eq_ok] at h
  obtain ⟨p0, h0, p1, h1, p2, h2, p3, h3, p4, h4, p5, h5, p6, h6, p7, h7, e⟩ := h
  have hc : fc = tableCount d := (u32_of_unpack hfc).symm
  subst hc
  have hr := readFiles_all hfs
  have hfiles : fs.files = (List.range (tableCount d)).map (tableFile d) := by
    rw [hr]
    unfold fatResult
    rw [List.nil_append, List.map_map]
    refine List.map_congr_left fun k _ => ?_
    show slice d _ _ = _
    unfold slice tableFile tableEntry
    rw [Nat.add_sub_cancel_left]
  have hal : fs.fileAlignment = alignAll ((List.range (tableCount d)).map (tableEntry d)) 0x200 := by rw [hr]; rfl
  have hin : fs.lengthsIncludePadding = contiguous ((List.range (tableCount d)).map (tableEntry d)) := by
    rw [hr]; exact Bool.true_and _
  subst e
  refine ⟨?_, ?_, ?_, ?_, ?_⟩
  · exact mem_usedFiles (readPart_all (readSeq_file hfiles) h0) (readSsars_all (readSsar_file hfiles) h1)
      (readPart_all (readBank_file hfiles) h2) (readPart_all (readSwar_file hfiles) h3) (readPart_all (readStrm_file hfiles) h7)
  · show GreatestAlignment fs.fileAlignment _
    rw [hal]
    have := alignAll_greatest ((List.range (tableCount d)).map (tableEntry d))
    rwa [List.map_map] at this
  · show fs.lengthsIncludePadding = true ↔ _
    rw [hin, List.range_eq_range', contiguous_iff]
    constructor
    · intro h k hk; exact h k (by omega) (by omega)
    · intro h k _ hk; exact h k (by omega)
  · intro a
    show (if fs.firstFileAlignment = some fs.fileAlignment then none else fs.firstFileAlignment) = some a ↔ _
    have hfirst : fs.firstFileAlignment = if tableCount d = 0 then none else some (alignmentOf (tableEntry d 0).1 0x200) := by
      rw [hr]
      cases hn : tableCount d with
      | zero => rfl
      | succ n =>
        rw [List.range_eq_range']
        rfl
    rw [hfirst]
    show _ ↔ 0 < tableCount d ∧ GreatestAlignment a [(tableEntry d 0).1] ∧ a ≠ fs.fileAlignment
    have hg : GreatestAlignment (alignmentOf (tableEntry d 0).1 0x200) [(tableEntry d 0).1] :=
      alignAll_greatest [tableEntry d 0]
    by_cases hn : tableCount d = 0
    · rw [if_pos hn]
      constructor
      · intro h; split at h <;> cases h
      · intro h; omega
    · rw [if_neg hn]
      constructor
      · intro h
        split at h
        · cases h
        · rename_i hne
          cases h
          exact ⟨by omega, hg, fun e => hne (by rw [e])⟩
      · rintro ⟨_, h1, h2⟩
        have : a = alignmentOf (tableEntry d 0).1 0x200 :=
          Nat.dvd_antisymm (hg.2.2 a h1.1 h1.2.1) (h1.2.2 _ hg.1 hg.2.1)
        subst this
        rw [if_neg (fun e => h2 (Option.some.inj e))]
  · show (! decide (fs.finalFileEnd = d.length ∧ fs.finalFileEnd % fs.fileAlignment ≠ 0)) = false ↔ _
    have hend : fs.finalFileEnd = tableEnd d := by
      rw [hr]
      unfold fatResult tableEnd
      cases hn : tableCount d with
      | zero => rfl
      | succ n =>
        rw [List.range_succ, List.map_append, List.map_singleton, List.getLast?_concat, if_neg (by omega)]
        rfl
    rw [hend]
    simp only [Bool.not_eq_false', decide_eq_true_eq, Nat.dvd_iff_mod_eq_zero, ne_eq]

/-- The saved example archive. -/
def demoData : Bytes := match demo.save with | .ok d => d | .error _ => []

/-- What is loaded from it. -/
def demoBack : SDAT := match SDAT.load demoData with | .ok t => t | .error _ => SDAT.new

example : demo.save = .ok demoData ∧ SDAT.load demoData = .ok demoBack := by decide +kernel

example : tableCount demoData = 5 ∧ demoBack.fileAlignment = 0x20 ∧ demoBack.fatLengthsIncludePadding = false ∧
    demoBack.padAtEnd = false ∧ (usedFiles demoBack).map Prod.snd = [0, 0, 1, 2, 3, 4] := by decide +kernel

end Verif.Props.SoundArchive
