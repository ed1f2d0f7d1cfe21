import Verif.Spec.Fnt

/-!
# Lemmas about filename tables
-/

namespace Verif.Proofs.Fnt

open Verif Verif.Model.Fnt Verif.Spec.Fnt

/-! ## The tables in pre-order -/

/-- Bytes for the files of a folder. -/
def fileBytes : List Str → Bytes
  | [] => []
  | n :: rest => UInt8.ofNat n.length :: n.map UInt8.ofNat ++ fileBytes rest

/-- Bytes for the subfolders of a folder, numbered from `next`. -/
def folderBytes : Folders → Nat → Bytes
  | .nil, _ => []
  | .cons n f rest, next =>
    UInt8.ofNat (n.length + 128) :: n.map UInt8.ofNat ++ enBytes .little 2 next ++
      folderBytes rest (next + folderCount f)

/-- The entries table of a folder with number `id`. -/
def tableOf (folders : Folders) (files : List Str) (id : Nat) : Bytes :=
  fileBytes files ++ folderBytes folders (id + 1) ++ [0]

mutual
/-- Entries in the order of their IDs. -/
def flat : Folder → Nat → Nat → List Entry
  | .mk folders files firstID, id, parent =>
    ⟨id, firstID, parent, tableOf folders files id⟩ :: flatIn folders (id + 1) id
def flatIn : Folders → Nat → Nat → List Entry
  | .nil, _, _ => []
  | .cons _ f rest, next, parent => flat f next parent ++ flatIn rest (next + folderCount f) parent
end

mutual
/-- Entries in the order in which `parseFolder` finishes them. -/
def post : Folder → Nat → Nat → List Entry
  | .mk folders files firstID, id, parent =>
    postIn folders (id + 1) id ++ [⟨id, firstID, parent, tableOf folders files id⟩]
def postIn : Folders → Nat → Nat → List Entry
  | .nil, _, _ => []
  | .cons _ f rest, next, parent => post f next parent ++ postIn rest (next + folderCount f) parent
end

mutual
theorem post_perm : ∀ (f : Folder) (id parent : Nat), (post f id parent).Perm (flat f id parent)
  | .mk folders files firstID, id, parent => by
    unfold post flat
    exact (List.perm_append_comm).trans ((postIn_perm folders (id + 1) id).cons _)
theorem postIn_perm : ∀ (fs : Folders) (next parent : Nat), (postIn fs next parent).Perm (flatIn fs next parent)
  | .nil, _, _ => by unfold postIn flatIn; exact List.Perm.nil
  | .cons _ f rest, next, parent => by
    unfold postIn flatIn
    exact (post_perm f next parent).append (postIn_perm rest _ parent)
end

mutual
theorem flat_ids : ∀ (f : Folder) (id parent : Nat),
    (flat f id parent).map Entry.id = List.range' id (folderCount f)
  | .mk folders files firstID, id, parent => by
    unfold flat folderCount
    rw [List.map_cons, flatIn_ids folders (id + 1) id, Nat.add_comm 1, List.range'_succ]
theorem flatIn_ids : ∀ (fs : Folders) (next parent : Nat),
    (flatIn fs next parent).map Entry.id = List.range' next (folderCountIn fs)
  | .nil, _, _ => by unfold flatIn folderCountIn; rfl
  | .cons _ f rest, next, parent => by
    unfold flatIn folderCountIn
    rw [List.map_append, flat_ids f next parent, flatIn_ids rest _ parent, ← List.range'_append_1]
end

theorem flat_length (f : Folder) (id parent : Nat) : (flat f id parent).length = folderCount f := by
  have := congrArg List.length (flat_ids f id parent)
  simpa using this

mutual
theorem countFolders_eq : ∀ (f : Folder), countFolders f = folderCount f
  | .mk folders _ _ => by unfold countFolders folderCount; rw [countFoldersIn_eq folders]; omega
theorem countFoldersIn_eq : ∀ (fs : Folders), countFoldersIn fs = folderCountIn fs
  | .nil => by unfold countFoldersIn folderCountIn; rfl
  | .cons _ f rest => by
    unfold countFoldersIn folderCountIn; rw [countFolders_eq f, countFoldersIn_eq rest]
end

theorem folderCount_pos (f : Folder) : 0 < folderCount f := by
  cases f; unfold folderCount; omega

/-! ## Parsing -/

theorem latin1Encode_error {s : Str} (h : ¬ ∀ c ∈ s, c < 256) : latin1Encode s = .error .unicodeError := by
  unfold latin1Encode
  rw [if_neg]
  simpa using h

theorem latin1Encode_ok {s : Str} (h : ∀ c ∈ s, c < 256) : latin1Encode s = .ok (s.map UInt8.ofNat) :=
  latin1Encode_eq_ok.2 ⟨h, rfl⟩

theorem fileEntries_ok : ∀ {files : List Str}, (∀ n ∈ files, NameOk n) → fileEntries files = .ok (fileBytes files)
  | [], _ => rfl
  | n :: rest, h => by
    have hn := h n (by simp)
    unfold fileEntries
    rw [raiseIf_false (by have := hn.1; omega), bind_ok, latin1Encode_ok hn.2, bind_ok,
      fileEntries_ok (fun m hm => h m (by simp [hm])), bind_ok]
    rfl

/-- The exceptions that saving can raise. -/
def SaveErr (e : PyErr) : Prop := e = .valueError ∨ e = .unicodeError ∨ e = .structError

theorem fileEntries_error : ∀ {files : List Str}, ¬ (∀ n ∈ files, NameOk n) →
    ∃ e, fileEntries files = .error e ∧ SaveErr e
  | [], h => absurd (by simp) h
  | n :: rest, h => by
    unfold fileEntries
    by_cases h1 : 127 < n.length
    · exact ⟨_, by rw [raiseIf_true h1, bind_error], Or.inl rfl⟩
    · rw [raiseIf_false h1, bind_ok]
      by_cases h2 : ∀ c ∈ n, c < 256
      · rw [latin1Encode_ok h2, bind_ok]
        obtain ⟨e, he, hs⟩ := fileEntries_error (files := rest) (fun h' => h (by
          intro m hm
          rcases List.mem_cons.1 hm with rfl | hm
          · exact ⟨by omega, h2⟩
          · exact h' m hm))
        exact ⟨e, by rw [he, bind_error], hs⟩
      · exact ⟨_, by rw [latin1Encode_error h2, bind_error], Or.inr (Or.inl rfl)⟩

/-- The names below a list of folders. -/
def NamesOkIn (fs : Folders) : Prop :=
  (∀ n ∈ names fs, NameOk n) ∧
  AllIn (fun f => (∀ n ∈ f.files, NameOk n) ∧ ∀ n ∈ names f.folders, NameOk n) fs

theorem namesOk_mk {fs : Folders} {files : List Str} {i : Int} :
    NamesOk (.mk fs files i) ↔ (∀ n ∈ files, NameOk n) ∧ NamesOkIn fs := by
  unfold NamesOk NamesOkIn All
  simp only [Folder.files, Folder.folders]
  exact and_assoc

theorem namesOkIn_cons {n : Str} {f : Folder} {rest : Folders} :
    NamesOkIn (.cons n f rest) ↔ NameOk n ∧ NamesOk f ∧ NamesOkIn rest := by
  unfold NamesOkIn NamesOk
  rw [AllIn]
  simp only [names, List.mem_cons, forall_eq_or_imp]
  constructor
  · rintro ⟨⟨a, b⟩, c, d⟩; exact ⟨a, c, b, d⟩
  · rintro ⟨a, c, b, d⟩; exact ⟨⟨a, b⟩, c, d⟩

theorem namesOkIn_nil : NamesOkIn .nil := by unfold NamesOkIn AllIn; simp [names]

mutual
theorem parseFolder_ok : ∀ {f : Folder} {parent : Nat} {st : SaveSt}, NamesOk f →
    (folderCount f = 1 ∨ st.next + folderCount f ≤ 65536) →
    parseFolder f parent st =
      .ok (st.next, ⟨st.next + folderCount f, st.entries ++ post f st.next parent⟩)
  | .mk folders files firstID, parent, st, hn, hc => by
    obtain ⟨h1, h2⟩ := namesOk_mk.1 hn
    unfold folderCount at hc
    unfold parseFolder folderCount
    rw [fileEntries_ok h1, bind_ok, parseFolders_ok h2 (by dsimp only; omega), bind_ok]
    dsimp only
    rw [pure_def]
    unfold post
    simp only [tableOf, Nat.add_assoc, List.append_assoc]
theorem parseFolders_ok : ∀ {fs : Folders} {id : Nat} {st : SaveSt}, NamesOkIn fs →
    (folderCountIn fs = 0 ∨ st.next + folderCountIn fs ≤ 65536) →
    parseFolders fs id st =
      .ok (folderBytes fs st.next, ⟨st.next + folderCountIn fs, st.entries ++ postIn fs st.next id⟩)
  | .nil, id, st, _, _ => by unfold parseFolders postIn folderBytes folderCountIn; simp
  | .cons n f rest, id, st, hn, hc => by
    obtain ⟨h1, h2, h3⟩ := namesOkIn_cons.1 hn
    unfold folderCountIn at hc
    have hp := folderCount_pos f
    unfold parseFolders
    rw [parseFolder_ok h2 (by omega), bind_ok]
    dsimp only
    rw [raiseIf_false (by have := h1.1; omega), bind_ok, latin1Encode_ok h1.2, bind_ok,
      packU_of_lt (by omega), bind_ok, parseFolders_ok h3 (by dsimp only; omega), bind_ok]
    rw [pure_def]
    simp only [folderBytes, folderCountIn, postIn, Nat.add_assoc, List.append_assoc]
end

mutual
theorem parseFolder_error : ∀ {f : Folder} {parent : Nat} {st : SaveSt},
    ¬ (NamesOk f ∧ (folderCount f = 1 ∨ st.next + folderCount f ≤ 65536)) →
    ∃ e, parseFolder f parent st = .error e ∧ SaveErr e
  | .mk folders files firstID, parent, st, hn => by
    unfold parseFolder
    by_cases h1 : ∀ n ∈ files, NameOk n
    · rw [fileEntries_ok h1, bind_ok]
      obtain ⟨e, he, hs⟩ := parseFolders_error (fs := folders) (id := st.next)
        (st := { st with next := st.next + 1 }) (by
          rintro ⟨h2, h3⟩
          refine hn ⟨namesOk_mk.2 ⟨h1, h2⟩, ?_⟩
          unfold folderCount
          dsimp only at h3
          omega)
      exact ⟨e, by dsimp only; rw [he, bind_error], hs⟩
    · obtain ⟨e, he, hs⟩ := fileEntries_error h1
      exact ⟨e, by rw [he, bind_error], hs⟩
theorem parseFolders_error : ∀ {fs : Folders} {id : Nat} {st : SaveSt},
    ¬ (NamesOkIn fs ∧ (folderCountIn fs = 0 ∨ st.next + folderCountIn fs ≤ 65536)) →
    ∃ e, parseFolders fs id st = .error e ∧ SaveErr e
  | .nil, id, st, hn => absurd ⟨namesOkIn_nil, Or.inl (by unfold folderCountIn; rfl)⟩ hn
  | .cons n f rest, id, st, hn => by
    unfold parseFolders
    by_cases h1 : NamesOk f ∧ (folderCount f = 1 ∨ st.next + folderCount f ≤ 65536)
    · rw [parseFolder_ok h1.1 h1.2, bind_ok]
      dsimp only
      by_cases h2 : 127 < n.length
      · exact ⟨_, by rw [raiseIf_true h2, bind_error], Or.inl rfl⟩
      · rw [raiseIf_false h2, bind_ok]
        by_cases h3 : ∀ c ∈ n, c < 256
        · rw [latin1Encode_ok h3, bind_ok]
          by_cases h4 : st.next < 65536
          · rw [packU_of_lt (by omega), bind_ok]
            obtain ⟨e, he, hs⟩ := parseFolders_error (fs := rest) (id := id)
              (st := ⟨st.next + folderCount f, st.entries ++ post f st.next id⟩) (by
                rintro ⟨h5, h6⟩
                refine hn ⟨namesOkIn_cons.2 ⟨⟨by omega, h3⟩, h1.1, h5⟩, ?_⟩
                unfold folderCountIn
                dsimp only at h6
                omega)
            exact ⟨e, by rw [he, bind_error], hs⟩
          · exact ⟨_, by rw [packU_error (by omega), bind_error], Or.inr (Or.inr rfl)⟩
        · exact ⟨_, by rw [latin1Encode_error h3, bind_error], Or.inr (Or.inl rfl)⟩
    · obtain ⟨e, he, hs⟩ := parseFolder_error (f := f) (parent := id) (st := st) h1
      exact ⟨e, by rw [he, bind_error], hs⟩
end

/-! ## Writing -/

/-- The records of a list of entries whose first table is at `off`. -/
def records : List Entry → Nat → Bytes
  | [], _ => []
  | e :: es, off =>
    (enBytes .little 4 off ++ enBytes .little 2 e.firstID.toNat ++ enBytes .little 2 e.parent) ++
      records es (off + e.table.length)

/-- The tables of a list of entries. -/
def tables (es : List Entry) : Bytes := (es.map Entry.table).flatten

theorem records_length : ∀ (es : List Entry) (off : Nat), (records es off).length = 8 * es.length
  | [], _ => rfl
  | e :: es, off => by simp [records, records_length es]; omega

/-- What the records of entries must satisfy. -/
def RecOk (e : Entry) : Prop := 0 ≤ e.firstID ∧ e.firstID < 2 ^ 16 ∧ e.parent < 2 ^ 16

theorem writeEntries_ok : ∀ {es : List Entry} {k : Nat} {H T : Bytes}, H.length = 8 * k →
    es.map Entry.id = List.range' (0xF000 + k) es.length → k + es.length ≤ 4096 →
    (∀ e ∈ es, RecOk e) →
    (∀ i < es.length, 8 * k + 8 * es.length + T.length + (tables (es.take i)).length < 2 ^ 32) →
    writeEntries es (H ++ zeros (8 * es.length) ++ T) =
      .ok (H ++ records es (8 * k + 8 * es.length + T.length) ++ T ++ tables es)
  | [], k, H, T, _, _, _, _, _ => by simp [writeEntries, records, tables, zeros]
  | e :: es, k, H, T, hH, hid, hk, hr, hs => by
    simp only [List.map_cons, List.length_cons, List.range'_succ, List.cons.injEq] at hid hk
    obtain ⟨h1, h2, h3⟩ := hr e (by simp)
    have h0 := hs 0 (by simp)
    simp [tables] at h0
    have hid4 : e.id % 4096 = k := by omega
    have hlen : (H ++ zeros (8 * (e :: es).length) ++ T).length = 8 * k + 8 * (es.length + 1) + T.length := by
      simp [hH]; omega
    unfold writeEntries
    rw [hlen, packU_of_lt (by omega), bind_ok, packUInt_of h1 (by omega), bind_ok,
      packU_of_lt (by omega), bind_ok, hid4]
    generalize hR : enBytes .little 4 (8 * k + 8 * (es.length + 1) + T.length) ++
      enBytes .little 2 e.firstID.toNat ++ enBytes .little 2 e.parent = R
    have hRl : R.length = 8 := by rw [← hR]; simp
    rw [packInto_of_le (by simp [hH, hRl]; omega), bind_ok]
    have hpatch : patch (H ++ zeros (8 * (e :: es).length) ++ T) (8 * k) R ++ e.table =
        (H ++ R) ++ zeros (8 * es.length) ++ (T ++ e.table) := by
      have : 8 * k = H.length + 0 := by omega
      rw [List.append_assoc, this, patch_append_left]
      simp only [patch, hRl, zeros, List.length_cons, List.take_zero, List.nil_append, Nat.zero_add,
        List.drop_append, List.drop_replicate, List.length_replicate]
      rw [show 8 * (es.length + 1) - 8 = 8 * es.length by omega, show 8 - 8 * (es.length + 1) = 0 by omega]
      simp
    rw [hpatch, writeEntries_ok (k := k + 1) (by simp [hH, hRl]; omega) ?_ (by omega)
      (fun e' he' => hr e' (by simp [he'])) ?_]
    · simp only [List.length_append, List.length_cons, records, tables, List.map_cons, List.flatten_cons,
        List.append_assoc, Except.ok.injEq]
      rw [show 8 * (k + 1) + 8 * es.length + (T.length + e.table.length) =
        8 * k + 8 * (es.length + 1) + T.length + e.table.length by omega, ← hR]
      simp
    · rw [hid.2]; congr 1
    · intro i hi
      have := hs (i + 1) (by simp; omega)
      simp [tables] at this ⊢
      omega

/-- If writing succeeds, all records are in range and all table offsets fit 32 bits. -/
theorem writeEntries_inv : ∀ {es : List Entry} {fnt r : Bytes}, writeEntries es fnt = .ok r →
    (∀ e ∈ es, RecOk e) ∧ (∀ i < es.length, fnt.length + (tables (es.take i)).length < 2 ^ 32)
  | [], _, _, _ => by simp
  | e :: es, fnt, r, h => by
    unfold writeEntries at h
    simp only [bind_eq_ok] at h
    obtain ⟨a, ha, b, hb, c, hc, f, hf, h⟩ := h
    have ih := writeEntries_inv h
    obtain ⟨hf1, rfl⟩ := packInto_eq_ok.1 hf
    have ha' := packU_eq_ok.1 ha
    have hb' := packUInt_eq_ok.1 hb
    have hc' := packU_eq_ok.1 hc
    refine ⟨?_, ?_⟩
    · intro x hx
      rcases List.mem_cons.1 hx with rfl | hx
      · exact ⟨hb'.1, by have := hb'.2.1; omega, by have := hc'.1; omega⟩
      · exact ih.1 x hx
    · intro i hi
      cases i with
      | zero => simp [tables]; have := ha'.1; omega
      | succ i =>
        have := ih.2 i (by simp at hi; omega)
        rw [List.length_append, patch_length hf1] at this
        simp [tables] at this ⊢
        omega

/-- Writing fails only with `struct.error`, given valid positions. -/
theorem writeEntries_err : ∀ {es : List Entry} {fnt : Bytes} {e : PyErr}, writeEntries es fnt = .error e →
    e = .structError
  | [], _, _, h => by unfold writeEntries at h; cases h
  | x :: es, fnt, e, h => by
    unfold writeEntries at h
    simp only [bind_eq_error] at h
    rcases h with h | ⟨a, _, h | ⟨b, _, h | ⟨c, _, h | ⟨f, _, h⟩⟩⟩⟩
    · exact packU_err h
    · exact packUInt_err h
    · exact packU_err h
    · exact packInto_err h
    · exact writeEntries_err h

/-! ## Loading -/

/-- An entry is stored in the file. -/
def Stored (fnt : Bytes) (e : Entry) : Prop :=
  ∃ off, off < 2 ^ 32 ∧ RecOk e ∧
    At fnt (8 * (e.id % 4096)) (enBytes .little 4 off ++ enBytes .little 2 e.firstID.toNat ++ enBytes .little 2 e.parent) ∧
    At fnt off e.table

theorem stored_of_layout : ∀ {es : List Entry} {k off : Nat} {H T U : Bytes}, H.length = 8 * k →
    es.map Entry.id = List.range' (0xF000 + k) es.length → k + es.length ≤ 4096 →
    (∀ e ∈ es, RecOk e) → (H ++ records es off ++ T).length = off →
    (∀ i < es.length, off + (tables (es.take i)).length < 2 ^ 32) →
    ∀ e ∈ es, Stored (H ++ records es off ++ T ++ tables es ++ U) e
  | [], _, _, _, _, _, _, _, _, _, _, _, e, he => by simp at he
  | e :: es, k, off, H, T, U, hH, hid, hk, hr, hoff, hs, x, hx => by
    simp only [List.map_cons, List.length_cons, List.range'_succ, List.cons.injEq] at hid hk
    rcases List.mem_cons.1 hx with rfl | hx
    · have h0 := hs 0 (by simp)
      simp [tables] at h0
      refine ⟨off, by omega, hr x (by simp), ?_, ?_⟩
      · have hid4 : x.id % 4096 = k := by omega
        rw [hid4]
        simp only [records]
        generalize enBytes .little 4 off ++ enBytes .little 2 x.firstID.toNat ++ enBytes .little 2 x.parent = R
        simp only [List.append_assoc]
        refine ⟨H, _, by rw [List.append_assoc], hH⟩
      · simp only [tables, List.map_cons, List.flatten_cons]
        rw [show H ++ records (x :: es) off ++ T ++ (x.table ++ (es.map Entry.table).flatten) ++ U =
          (H ++ records (x :: es) off ++ T) ++ x.table ++ ((es.map Entry.table).flatten ++ U) by
            simp only [List.append_assoc]]
        exact At.mk' hoff
    · have := stored_of_layout (es := es) (k := k + 1) (off := off + e.table.length)
        (H := H ++ (enBytes .little 4 off ++ enBytes .little 2 e.firstID.toNat ++ enBytes .little 2 e.parent))
        (T := T ++ e.table) (U := U) (by simp [hH]; omega) (by rw [hid.2]; congr 1) (by omega)
        (fun y hy => hr y (by simp [hy])) (by
          simp only [records, List.length_append] at hoff ⊢; omega) (by
          intro i hi
          have := hs (i + 1) (by simp; omega)
          simp [tables] at this ⊢
          omega) x hx
      simp only [records, tables, List.map_cons, List.flatten_cons, List.append_assoc] at this ⊢
      exact this

/-- Loading skips over the files. -/
theorem loadEntries_files {fnt : Bytes} {rec : Nat → Py Folder} : ∀ {files : List Str} {off fuel : Nat}
    {rest : Bytes} {fs : Folders} {fl : List Str},
    (∀ n ∈ files, NameOk n) → [] ∉ files → At fnt off (fileBytes files ++ rest) →
    (fileBytes files).length ≤ fuel →
    (∀ fuel', fuel - (fileBytes files).length ≤ fuel' →
      loadEntries fnt rec fuel' (off + (fileBytes files).length) = .ok (fs, fl)) →
    loadEntries fnt rec fuel off = .ok (fs, files ++ fl)
  | [], off, fuel, rest, fs, fl, _, _, _, _, h => by
    have := h fuel (by simp [fileBytes])
    simpa [fileBytes] using this
  | n :: files, off, 0, rest, fs, fl, _, _, _, hf, _ => by simp [fileBytes] at hf
  | n :: files, off, fuel + 1, rest, fs, fl, hn, he, hat, hf, h => by
    have h1 := hn n (by simp)
    have hne : n ≠ [] := by intro h; exact he (by simp [h])
    have hpos : 0 < n.length := List.length_pos_iff.2 hne
    have hl := h1.1
    have e1 : fileBytes (n :: files) ++ rest =
        enBytes .little 1 n.length ++ (n.map UInt8.ofNat ++ (fileBytes files ++ rest)) := by
      simp [fileBytes, enBytes, leBytes]
    rw [e1] at hat
    obtain ⟨ha, hb⟩ := At.split.1 hat
    obtain ⟨hb, hc⟩ := At.split.1 hb
    simp only [enBytes_length, List.length_map] at hb hc
    have hcount : (fileBytes (n :: files)).length = 1 + n.length + (fileBytes files).length := by
      simp [fileBytes]; omega
    unfold loadEntries
    rw [ha.unpackU (by omega), bind_ok, if_neg (by omega)]
    dsimp only
    rw [if_neg (by omega), Nat.mod_eq_of_lt (by omega), hb.slice_eq (by simp),
      latin1Decode_map_ofNat h1.2,
      loadEntries_files (fun m hm => hn m (by simp [hm])) (fun hm => he (by simp [hm])) hc
        (by rw [hcount] at hf; omega) ?_, bind_ok]
    · rfl
    · intro fuel' hfuel
      have := h fuel' (by omega)
      rw [hcount] at this
      rw [← this]
      congr 1
      omega

theorem noEmpty_mk {fs : Folders} {files : List Str} {i : Int} :
    NoEmptyFileName (.mk fs files i) ↔ [] ∉ files ∧ AllIn (fun f => [] ∉ f.files) fs := by
  unfold NoEmptyFileName
  rw [All]; rfl

mutual
theorem loadFolder_stored {fnt : Bytes} : ∀ {f : Folder} {d id parent : Nat}, NamesOk f → NoEmptyFileName f →
    depth f ≤ d → id + folderCount f ≤ 65536 → (∀ e ∈ flat f id parent, Stored fnt e) →
    loadFolder fnt d id = .ok f
  | .mk fs files i, 0, id, parent, _, _, hd, _, _ => by unfold depth at hd; omega
  | .mk fs files i, d + 1, id, parent, hn, he, hd, hc, hst => by
    obtain ⟨h1, h2⟩ := namesOk_mk.1 hn
    obtain ⟨h3, h4⟩ := noEmpty_mk.1 he
    unfold depth at hd
    unfold folderCount at hc
    unfold flat at hst
    obtain ⟨off, ho, ⟨hr1, hr2, hr3⟩, ha, hb⟩ := hst _ (List.mem_cons_self ..)
    dsimp only at ha hb hr1 hr2 hr3
    obtain ⟨ha1, ha2⟩ := At.split.1 (At.split.1 ha).1
    simp only [enBytes_length] at ha2
    unfold loadFolder
    dsimp only
    rw [ha1.unpackU (by omega), bind_ok, ha2.unpackU (by omega), bind_ok]
    unfold tableOf at hb
    have hbb := hb.bound
    simp only [List.length_append, List.length_singleton] at hbb
    have hb' := hb
    rw [List.append_assoc] at hb'
    have hb2 := (At.split.1 hb').2
    rw [loadEntries_files (fs := fs) (fl := []) h1 h3 hb' (by omega)]
    · rw [bind_ok]
      simp only [List.append_nil, pure_def]
      rw [Int.toNat_of_nonneg hr1]
    · intro fuel' hfuel
      exact loadEntries_folders h2 h4 (by omega) (by omega) hb2 (by omega)
        (fun e he => hst e (List.mem_cons_of_mem _ he))
theorem loadEntries_folders {fnt : Bytes} : ∀ {fs : Folders} {d next parent off fuel : Nat}, NamesOkIn fs →
    AllIn (fun f => [] ∉ f.files) fs → depthIn fs ≤ d → next + folderCountIn fs ≤ 65536 →
    At fnt off (folderBytes fs next ++ [0]) → (folderBytes fs next).length + 1 ≤ fuel →
    (∀ e ∈ flatIn fs next parent, Stored fnt e) →
    loadEntries fnt (loadFolder fnt d) fuel off = .ok (fs, [])
  | .nil, d, next, parent, off, 0, _, _, _, _, _, hf, _ => by omega
  | .nil, d, next, parent, off, fuel + 1, _, _, _, _, hat, _, _ => by
    have : At fnt off (enBytes .little 1 0) := by
      simpa [folderBytes, enBytes, leBytes] using hat
    unfold loadEntries
    rw [this.unpackU (by omega), bind_ok, if_pos rfl]; rfl
  | .cons n f rest, d, next, parent, off, 0, _, _, _, _, _, hf, _ => by omega
  | .cons n f rest, d, next, parent, off, fuel + 1, hn, he, hd, hc, hat, hf, hst => by
    obtain ⟨h1, h2, h3⟩ := namesOkIn_cons.1 hn
    rw [AllIn] at he
    unfold depthIn at hd
    unfold folderCountIn at hc
    unfold flatIn at hst
    have hl := h1.1
    have hp := folderCount_pos f
    have e1 : folderBytes (.cons n f rest) next ++ [0] =
        enBytes .little 1 (n.length + 128) ++ (n.map UInt8.ofNat ++ (enBytes .little 2 next ++
          (folderBytes rest (next + folderCount f) ++ [0]))) := by
      simp [folderBytes, enBytes, leBytes]
    rw [e1] at hat
    have hcount : (folderBytes (.cons n f rest) next).length =
        3 + n.length + (folderBytes rest (next + folderCount f)).length := by
      simp [folderBytes]; omega
    obtain ⟨ha, hb⟩ := At.split.1 hat
    obtain ⟨hb, hcc⟩ := At.split.1 hb
    obtain ⟨hcc, hdd⟩ := At.split.1 hcc
    simp only [enBytes_length, List.length_map] at hb hcc hdd
    unfold loadEntries
    rw [ha.unpackU (by omega), bind_ok, if_neg (by omega)]
    dsimp only
    have hm : (n.length + 128) % 128 = n.length := by omega
    rw [if_pos (by omega), hm, hb.slice_eq (by simp), latin1Decode_map_ofNat h1.2,
      hcc.unpackU (by omega), bind_ok,
      loadFolder_stored h2 he.1 (by omega) (by omega)
        (fun e he => hst e (List.mem_append_left _ he)), bind_ok,
      loadEntries_folders h3 he.2 (by omega) (by omega) hdd (by omega)
        (fun e he => hst e (List.mem_append_right _ he)), bind_ok]
    rfl
end

/-! ## Saving and loading together -/

theorem sorted_flat (f : Folder) (id parent : Nat) :
    (flat f id parent).Pairwise (fun a b => a.id < b.id) := by
  have h : ((flat f id parent).map Entry.id).Pairwise (· < ·) := by
    rw [flat_ids]; exact List.pairwise_lt_range'
  exact List.pairwise_map.1 h

/-- What `save` does once the names and the number of folders are acceptable. -/
theorem save_eq {root : Folder} (h1 : NamesOk root) (h2 : folderCount root ≤ 4096) :
    save root = writeEntries (flat root 0xF000 (folderCount root)) (zeros (8 * folderCount root)) := by
  unfold save
  dsimp only
  rw [parseFolder_ok h1 (Or.inr (by dsimp only; omega)), bind_ok]
  dsimp only
  rw [pyAssert_true rfl, bind_ok, List.nil_append, countFolders_eq]
  have hp := post_perm root 0xF000 (folderCount root)
  rw [sortBy_eq_of_perm hp (sorted_flat _ _ _), hp.length_eq, flat_length, Nat.mul_comm]

theorem save_error {root : Folder} (h : ¬ (NamesOk root ∧ folderCount root ≤ 4096)) :
    ∃ e, save root = .error e ∧ SaveErr e := by
  obtain ⟨e, he, hs⟩ := parseFolder_error (f := root) (parent := countFolders root)
    (st := ⟨0xF000, []⟩) (by
      rintro ⟨h1, h2⟩
      refine h ⟨h1, ?_⟩
      dsimp only at h2
      omega)
  refine ⟨e, ?_, hs⟩
  unfold save
  dsimp only
  rw [he, bind_error]

theorem flat_stored {root : Folder} {b : Bytes} (h : save root = .ok b) :
    NamesOk root ∧ folderCount root ≤ 4096 ∧
    (∀ U, ∀ e ∈ flat root 0xF000 (folderCount root), Stored (b ++ U) e) := by
  by_cases hv : NamesOk root ∧ folderCount root ≤ 4096
  · obtain ⟨h1, h2⟩ := hv
    refine ⟨h1, h2, ?_⟩
    rw [save_eq h1 h2] at h
    obtain ⟨hr, hs⟩ := writeEntries_inv h
    have hlen := flat_length root 0xF000 (folderCount root)
    have hids := flat_ids root 0xF000 (folderCount root)
    generalize flat root 0xF000 (folderCount root) = es at *
    rw [← hlen] at hids
    have hw := writeEntries_ok (es := es) (k := 0) (H := []) (T := []) rfl hids (by omega) hr
      (by intro i hi; have := hs i hi; simp at this ⊢; omega)
    simp only [List.nil_append, List.append_nil, hlen] at hw
    rw [h] at hw
    cases hw
    intro U
    have := stored_of_layout (es := es) (k := 0) (off := 8 * 0 + 8 * folderCount root + 0) (H := [])
      (T := []) (U := U) rfl hids (by omega) hr (by simp [records_length, hlen])
      (by intro i hi; have := hs i hi; simp at this ⊢; omega)
    simpa using this
  · obtain ⟨e, he, _⟩ := save_error hv
    rw [he] at h; cases h

/-- Loading a saved table, possibly followed by padding, gives the tree back. -/
theorem load_save {root : Folder} {b : Bytes} (h : save root = .ok b) (hne : NoEmptyFileName root) (U : Bytes)
    {d : Nat} (hd : depth root ≤ d) : load d (b ++ U) = .ok root := by
  obtain ⟨h1, h2, h3⟩ := flat_stored h
  unfold load
  exact loadFolder_stored h1 hne hd (by omega) (h3 U)

/-! ## Exactly when saving succeeds -/

/-- Offset of the last entries table. -/
theorem tables_length (es : List Entry) : (tables es).length = (es.map (·.table.length)).sum := by
  simp [tables, List.length_flatten, Function.comp_def]

theorem fileBytes_length : ∀ (files : List Str),
    (fileBytes files).length = (files.map (fun n => 1 + n.length)).sum
  | [] => rfl
  | n :: rest => by simp [fileBytes, fileBytes_length rest]; omega

/-- Bytes for the direct subfolders. -/
def nameSize : Folders → Nat
  | .nil => 0
  | .cons n _ rest => 3 + n.length + nameSize rest

theorem folderBytes_length : ∀ (fs : Folders) (next : Nat), (folderBytes fs next).length = nameSize fs
  | .nil, _ => rfl
  | .cons n f rest, next => by simp [folderBytes, nameSize, folderBytes_length rest]; omega

mutual
theorem flat_size : ∀ (f : Folder) (id parent : Nat),
    8 * folderCount f + (tables (flat f id parent)).length = byteSize f
  | .mk fs files i, id, parent => by
    have := flatIn_size fs (id + 1) id
    unfold byteSize folderCount
    rw [flat]
    simp only [tables, List.map_cons, List.flatten_cons, List.length_append, tableOf, fileBytes_length,
      folderBytes_length, List.length_singleton] at this ⊢
    omega
theorem flatIn_size : ∀ (fs : Folders) (next parent : Nat),
    8 * folderCountIn fs + nameSize fs + (tables (flatIn fs next parent)).length = byteSizeIn fs
  | .nil, _, _ => by unfold byteSizeIn folderCountIn flatIn nameSize; rfl
  | .cons n f rest, next, parent => by
    have h1 := flat_size f next parent
    have h2 := flatIn_size rest (next + folderCount f) parent
    unfold byteSizeIn folderCountIn
    rw [flatIn, nameSize]
    simp only [tables, List.map_append, List.flatten_append, List.length_append] at h1 h2 ⊢
    omega
end

mutual
theorem flat_recOk : ∀ {f : Folder} {id parent : Nat}, id + folderCount f ≤ 65536 → parent < 2 ^ 16 →
    ((∀ e ∈ flat f id parent, RecOk e) ↔ FirstIDsOk f)
  | .mk fs files i, id, parent, hc, hp => by
    unfold folderCount at hc
    have := flatIn_recOk (fs := fs) (next := id + 1) (parent := id) (by omega) (by omega)
    unfold FirstIDsOk at *
    rw [flat, All]
    simp only [List.mem_cons, forall_eq_or_imp, this]
    simp only [RecOk, Folder.firstID, hp, and_true]
theorem flatIn_recOk : ∀ {fs : Folders} {next parent : Nat}, next + folderCountIn fs ≤ 65536 → parent < 2 ^ 16 →
    ((∀ e ∈ flatIn fs next parent, RecOk e) ↔ AllIn (fun f => 0 ≤ f.firstID ∧ f.firstID < 2 ^ 16) fs)
  | .nil, _, _, _, _ => by rw [flatIn, AllIn]; simp
  | .cons n f rest, next, parent, hc, hp => by
    unfold folderCountIn at hc
    have hp' := folderCount_pos f
    have h1 := flat_recOk (f := f) (id := next) (parent := parent) (by omega) hp
    have h2 := flatIn_recOk (fs := rest) (next := next + folderCount f) (parent := parent) (by omega) hp
    unfold FirstIDsOk at h1
    rw [flatIn, AllIn, ← h1, ← h2]
    simp only [List.mem_append]
    constructor
    · intro h; exact ⟨fun e he => h e (Or.inl he), fun e he => h e (Or.inr he)⟩
    · rintro ⟨ha, hb⟩ e (he | he)
      · exact ha e he
      · exact hb e he
end

theorem tables_append (a b : List Entry) : tables (a ++ b) = tables a ++ tables b := by
  simp [tables]

theorem tables_take_le (es : List Entry) (i : Nat) : (tables (es.take i)).length ≤ (tables es).length := by
  have := congrArg List.length (tables_append (es.take i) (es.drop i))
  rw [List.take_append_drop, List.length_append] at this
  omega

mutual
theorem flat_pos : ∀ (f : Folder) (id parent : Nat), ∀ e ∈ flat f id parent, 0 < e.table.length
  | .mk fs files i, id, parent, e, he => by
    rw [flat] at he
    rcases List.mem_cons.1 he with rfl | he
    · simp [tableOf]; omega
    · exact flatIn_pos fs _ _ e he
theorem flatIn_pos : ∀ (fs : Folders) (next parent : Nat), ∀ e ∈ flatIn fs next parent, 0 < e.table.length
  | .nil, _, _, e, he => by rw [flatIn] at he; simp at he
  | .cons n f rest, next, parent, e, he => by
    rw [flatIn] at he
    rcases List.mem_append.1 he with he | he
    · exact flat_pos f _ _ e he
    · exact flatIn_pos rest _ _ e he
end

theorem save_ok {root : Folder} (h1 : NamesOk root) (h2 : folderCount root ≤ 4096) (h3 : FirstIDsOk root)
    (h4 : byteSize root ≤ 2 ^ 32) :
    ∃ b, save root = .ok b ∧ b.length = byteSize root := by
  have hr := (flat_recOk (f := root) (id := 0xF000) (parent := folderCount root) (by omega) (by omega)).2 h3
  have hsz := flat_size root 0xF000 (folderCount root)
  have hlen := flat_length root 0xF000 (folderCount root)
  have hids := flat_ids root 0xF000 (folderCount root)
  rw [save_eq h1 h2]
  have hpos := flat_pos root 0xF000 (folderCount root)
  generalize flat root 0xF000 (folderCount root) = es at *
  rw [← hlen] at hids
  have hs : ∀ i < es.length, 8 * folderCount root + (tables (es.take i)).length < 2 ^ 32 := by
    intro i hi
    have h5 : (tables (es.take (i + 1))).length = (tables (es.take i)).length + es[i].table.length := by
      rw [List.take_succ_eq_append_getElem hi, tables_append, List.length_append]
      congr 1
      simp [tables]
    have h6 := hpos es[i] (List.getElem_mem hi)
    have h7 := tables_take_le es (i + 1)
    omega
  have hw := writeEntries_ok (es := es) (k := 0) (H := []) (T := []) rfl hids (by omega) hr
    (by intro i hi; have := hs i hi; simp only [List.length_nil, hlen]; omega)
  simp only [List.nil_append, List.append_nil, hlen] at hw
  refine ⟨_, hw, ?_⟩
  rw [List.length_append, records_length, hlen, hsz]

/-- If saving succeeds, everything is in range. -/
theorem save_inv {root : Folder} {b : Bytes} (h : save root = .ok b) :
    NamesOk root ∧ folderCount root ≤ 4096 ∧ FirstIDsOk root ∧ b.length = byteSize root := by
  obtain ⟨h1, h2, _⟩ := flat_stored h
  refine ⟨h1, h2, ?_⟩
  rw [save_eq h1 h2] at h
  obtain ⟨hr, hs⟩ := writeEntries_inv h
  refine ⟨(flat_recOk (by omega) (by omega)).1 hr, ?_⟩
  have hlen := flat_length root 0xF000 (folderCount root)
  have hids := flat_ids root 0xF000 (folderCount root)
  have hsz := flat_size root 0xF000 (folderCount root)
  generalize flat root 0xF000 (folderCount root) = es at *
  rw [← hlen] at hids
  have hw := writeEntries_ok (es := es) (k := 0) (H := []) (T := []) rfl hids (by omega) hr
    (by intro i hi; have := hs i hi; simp only [zeros_length, List.length_nil, hlen] at this ⊢; omega)
  simp only [List.nil_append, List.append_nil, hlen] at hw
  rw [h] at hw
  cases hw
  rw [List.length_append, records_length, hlen, hsz]

/-- Saving raises only the three expected exceptions. -/
theorem save_err {root : Folder} {e : PyErr} (h : save root = .error e) : SaveErr e := by
  by_cases hv : NamesOk root ∧ folderCount root ≤ 4096
  · rw [save_eq hv.1 hv.2] at h
    exact Or.inr (Or.inr (writeEntries_err h))
  · obtain ⟨e', he, hs⟩ := save_error hv
    rw [he] at h; cases h; exact hs

end Verif.Proofs.Fnt
