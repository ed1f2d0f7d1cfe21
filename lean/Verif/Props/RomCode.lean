import Verif.Model.RomCode
import Verif.Props.MainCode
import Verif.Props.Overlay
import Verif.Props.RomLoad

/-!
# Changing code and files of a ROM, and loading the saved image (C115, C116)
-/

namespace Verif.Props.RomCode

open Verif Verif.Model Verif.Model.Rom Verif.Model.Code Verif.Model.RomCode Verif.Proofs.Rom
open Verif.Props.Overlay (Holds)

/-- What the accessors of code and files go by survives saving and loading. -/
theorem reload (r r' : Rom) (u : Bool) (b : Bytes) (h : save r u = .ok (b, r')) (limit : Nat)
    (hne : Spec.Fnt.NoEmptyFileName r.filenames) (hd : Spec.Fnt.depth r.filenames ≤ limit) :
    ∃ q, load limit b = .ok q ∧ q.files = r.files ∧ q.filenames = r.filenames ∧
      q.arm9OverlayTable = r.arm9OverlayTable ∧ q.arm7OverlayTable = r.arm7OverlayTable ∧
      q.arm9 = r.arm9 ∧ q.arm9RamAddress = r.arm9RamAddress ∧
      q.arm9CodeSettingsPointerAddress = r.arm9CodeSettingsPointerAddress ∧
      q.arm7 = r.arm7 ∧ q.arm7RamAddress = r.arm7RamAddress ∧
      q.arm7CodeSettingsPointerAddress = r.arm7CodeSettingsPointerAddress := by
  obtain ⟨fnt, ids9, ids7, es9, es7, es, starts, hdr, hs, hr⟩ := save_inv h
  exact ⟨_, load_save hs hne hd, rfl, rfl, rfl, rfl, rfl, rfl, rfl, rfl, rfl, rfl⟩

/-! ## Overlays -/

theorem dictSet_mem {κ ν : Type _} [DecidableEq κ] {k : κ} {v : ν} {p : κ × ν} : ∀ {d : List (κ × ν)},
    p ∈ dictSet d k v → p = (k, v) ∨ p ∈ d
  | [], h => by simpa [dictSet] using h
  | x :: d, h => by
    rw [dictSet] at h
    split at h
    · simp only [List.mem_cons] at h ⊢
      exact h.imp_right Or.inr
    · simp only [List.mem_cons] at h ⊢
      rcases h with h | h
      · exact Or.inr (Or.inl h)
      · exact (dictSet_mem h).imp_right Or.inr

theorem dictSet_keys {κ ν : Type _} [DecidableEq κ] {k : κ} {v : ν} {x : κ} : ∀ {d : List (κ × ν)},
    x ∈ (dictSet d k v).map Prod.fst ↔ x = k ∨ x ∈ d.map Prod.fst
  | [] => by simp [dictSet]
  | y :: d => by
    rw [dictSet]
    split
    · next h => simp [h]
    · rw [List.map_cons, List.mem_cons, dictSet_keys, List.map_cons, List.mem_cons]
      constructor
      · rintro (h | h | h)
        · exact Or.inr (Or.inl h)
        · exact Or.inl h
        · exact Or.inr (Or.inr h)
      · rintro (h | h | h)
        · exact Or.inr (Or.inl h)
        · exact Or.inl h
        · exact Or.inr (Or.inr h)

theorem dictSet_nodup {κ ν : Type _} [DecidableEq κ] {k : κ} {v : ν} : ∀ {d : List (κ × ν)},
    (d.map Prod.fst).Nodup → ((dictSet d k v).map Prod.fst).Nodup
  | [], _ => by simp [dictSet]
  | y :: d, h => by
    rw [List.map_cons, List.nodup_cons] at h
    rw [dictSet]
    split
    · next e => rw [List.map_cons, List.nodup_cons]; exact ⟨by rw [← e]; exact h.1, h.2⟩
    · next e =>
      rw [List.map_cons, List.nodup_cons]
      exact ⟨fun hm => (dictSet_keys.1 hm).elim e h.1, dictSet_nodup h.2⟩

/-- In a dictionary, assigning leaves the other keys alone. -/
theorem dictSet_iff {κ ν : Type _} [DecidableEq κ] {k : κ} {v : ν} {x : κ} {w : ν} : ∀ {d : List (κ × ν)},
    (d.map Prod.fst).Nodup → ((x, w) ∈ dictSet d k v ↔ if x = k then w = v else (x, w) ∈ d)
  | [], _ => by
    simp only [dictSet, List.mem_singleton, Prod.mk.injEq, List.not_mem_nil]
    split <;> simp_all
  | y :: d, h => by
    rw [List.map_cons, List.nodup_cons] at h
    rw [dictSet]
    split
    · next e =>
      simp only [List.mem_cons, Prod.mk.injEq]
      have hk : ∀ z, (k, z) ∉ d := fun z hz => h.1 (by rw [e]; exact List.mem_map_of_mem (f := Prod.fst) hz)
      split
      · next ex =>
        subst ex
        exact ⟨fun h => h.elim (fun h => h.2) fun h => absurd h (hk w), fun h => Or.inl ⟨rfl, h⟩⟩
      · next ex =>
        constructor
        · rintro (h | h)
          · exact absurd h.1 ex
          · exact Or.inr h
        · rintro (h | h)
          · exact absurd (by rw [← h] at e; exact e) ex
          · exact Or.inr h
    · next e =>
      rw [List.mem_cons, dictSet_iff h.2]
      split
      · next ex =>
        subst ex
        exact ⟨fun h => h.elim (fun h => absurd (by rw [← h]) e) id, Or.inr⟩
      · rw [List.mem_cons]

theorem foldl_dictSet_mem {l : List (Nat × Overlay)} : ∀ {acc : List (Nat × Overlay)} {p : Nat × Overlay},
    p ∈ l.foldl (fun a p => dictSet a p.1 p.2) acc → p ∈ acc ∨ p ∈ l := by
  induction l with
  | nil => intro acc p h; exact Or.inl h
  | cons x l ih =>
    intro acc p h
    rw [List.foldl_cons] at h
    rcases ih h with h | h
    · rcases dictSet_mem h with h | h
      · exact Or.inr (by rw [h]; exact List.mem_cons_self ..)
      · exact Or.inl h
    · exact Or.inr (List.mem_cons_of_mem _ h)

theorem foldl_dictSet_nodup {l : List (Nat × Overlay)} : ∀ {acc : List (Nat × Overlay)},
    (acc.map Prod.fst).Nodup → ((l.foldl (fun a p => dictSet a p.1 p.2) acc).map Prod.fst).Nodup := by
  induction l with
  | nil => intro acc h; exact h
  | cons x l ih => intro acc h; exact ih (dictSet_nodup h)

/-- What a successful load says about the overlays. -/
theorem loaded_overlays {d : Bytes} {cb : Nat → Nat → Py Bytes} {t : List (Nat × Overlay)}
    (h : loadOverlayTable d cb none = .ok t) :
    (t.map Prod.fst).Nodup ∧ ∀ id ov, (id, ov) ∈ t → ov.compressedSize < 2 ^ 24 ∧
      ∃ raw, cb id ov.fileID = .ok raw ∧ Holds raw ov.flags ov.data := by
  obtain ⟨l, hl⟩ := Proofs.Overlay.loadEntries_inv h
  rcases hl with ⟨-, -, -, hc, hfile, rfl⟩ | ⟨-, rfl⟩
  · refine ⟨foldl_dictSet_nodup (by simp), ?_⟩
    intro id ov hm
    rcases foldl_dictSet_mem hm with hm | hm
    · simp at hm
    · exact ⟨(hc _ hm).1, hfile _ hm⟩
  · exact ⟨by simp, by simp⟩

theorem fileOf_eq {r : Rom} {id k : Nat} {raw : Bytes} : fileOf r id k = .ok raw ↔ r.files[k]? = some raw := by
  unfold fileOf
  exact pyIdx_eq_ok

/-- What a saved overlay's file holds. -/
theorem save_holds {ov ov' : Overlay} {c : Bool} {file : Bytes} (h : ov.save c = .ok (file, ov'))
    (hc : c = true → file.length < ov.data.length) (h24 : file.length < 2 ^ 24) : Holds file ov'.flags ov'.data := by
  have hf := Overlay.overlay_save_fields ov ov' c file h
  have hfl := hf.2.2.1
  rw [Proofs.Overlay.compressedFlag_eq] at hfl
  unfold Holds
  rw [hf.2.2.2.2.1]
  cases c with
  | false =>
    rw [if_neg (by simpa using hfl)]
    exact hf.2.2.2.2.2.2.2.2.2.2 rfl
  | true =>
    rw [if_pos (by simpa using hfl)]
    have h' := h
    unfold Overlay.save at h'
    simp only [if_true, bind_eq_ok, pure_eq_ok, Prod.mk.injEq] at h'
    obtain ⟨_, hcmp, rfl, -⟩ := h'
    exact Props.Lz.code_roundtrip_of_shorter ov.data _ false hcmp (hc rfl) h24

/-- The step common to both processors: a table of which one overlay was changed and saved. -/
theorem edited_table (r r2 : Rom) (d d2 : Bytes) (t : List (Nat × Overlay)) (id : Nat) (ov ov1 ov' : Overlay)
    (c : Bool) (file : Bytes)
    (hl : loadOverlayTable d (fileOf r) none = .ok t) (hm : (id, ov) ∈ t) (hid : ov1.fileID = ov.fileID)
    (hs : ov1.save c = .ok (file, ov')) (hc : c = true → file.length < ov1.data.length) (h24 : file.length < 2 ^ 24)
    (hu : ∀ id' o, (id', o) ∈ t → o.fileID = ov.fileID → id' = id)
    (ht : saveOverlayTable (dictSet t id ov') = .ok d2) (h2 : r2.files = r.files.set ov.fileID file) :
    ∃ t', loadOverlayTable d2 (fileOf r2) none = .ok t' ∧ t'.Pairwise (fun a b => a.1 < b.1) ∧
      ∀ id' o, (id', o) ∈ t' ↔ if id' = id then o = ov' else (id', o) ∈ t := by
  obtain ⟨hn, ho⟩ := loaded_overlays hl
  have hf := Overlay.overlay_save_fields ov1 ov' c file hs
  have hfid : ov'.fileID = ov.fileID := hf.2.2.2.2.2.2.2.2.2.1.trans hid
  have hlt : ov.fileID < r.files.length := by
    obtain ⟨-, raw, h, -⟩ := ho id ov hm
    exact (List.getElem?_eq_some_iff.1 (fileOf_eq.1 h)).1
  obtain ⟨t', h1, h3, h4⟩ := Overlay.overlay_table_roundtrip (dictSet t id ov') d2 (fileOf r2) none
    (dictSet_nodup hn) ht
    (by
      rintro ⟨k, o⟩ hp
      rcases dictSet_mem hp with e | hp
      · cases e
        dsimp only
        rw [hf.2.1]; exact h24
      · exact (ho k o hp).1)
    (by
      intro k o hp _
      rw [dictSet_iff hn] at hp
      split at hp
      · subst hp
        refine ⟨file, fileOf_eq.2 ?_, save_holds hs hc h24⟩
        rw [h2, hfid, List.getElem?_set_self hlt]
      · next hk =>
        obtain ⟨-, raw, h, hh⟩ := ho k o hp
        refine ⟨raw, fileOf_eq.2 ?_, hh⟩
        rw [h2, List.getElem?_set_ne (fun e => hk (hu k o hp e.symm))]
        exact fileOf_eq.1 h)
  refine ⟨t', h1, h4, fun id' o => ?_⟩
  rw [h3, dictSet_iff hn]
  simp

/-- A table none of whose overlays uses the changed file loads as before. -/
theorem untouched_table (r r2 : Rom) (d : Bytes) (k : Nat) (file : Bytes) (t : List (Nat × Overlay))
    (hl : loadOverlayTable d (fileOf r) none = .ok t) (h2 : r2.files = r.files.set k file)
    (hu : ∀ i, 32 * i < d.length → leVal (slice d (32 * i + 24) (32 * i + 28)) ≠ k) :
    loadOverlayTable d (fileOf r2) none = .ok t := by
  have key : ∀ n i acc t, (∀ j, i ≤ 32 * j → 32 * j < i + 32 * n →
        leVal (slice d (32 * j + 24) (32 * j + 28)) ≠ k) → i % 32 = 0 →
      loadOverlays d (fileOf r) none n i acc = .ok t → loadOverlays d (fileOf r2) none n i acc = .ok t := by
    intro n
    induction n with
    | zero => intro i acc t _ _ h; exact h
    | succ n ih =>
      intro i acc t hj hi h
      rw [loadOverlays, bind_eq_ok] at h ⊢
      obtain ⟨acc', h1, h3⟩ := h
      refine ⟨acc', ?_, ih (i + 32) acc' t (fun j a b => hj j (by omega) (by omega)) (by omega) h3⟩
      unfold loadOverlayEntry at h1 ⊢
      simp only [bind_eq_ok, pure_eq_ok, Option.all_none, if_true] at h1 ⊢
      obtain ⟨a0, e0, a1, e1, a2, e2, a3, e3, a4, e4, a5, e5, a6, e6, a7, e7, f, ef, ov, eo, rfl⟩ := h1
      refine ⟨a0, e0, a1, e1, a2, e2, a3, e3, a4, e4, a5, e5, a6, e6, a7, e7, f, ?_, ov, eo, rfl⟩
      have hk := hj (i / 32) (by omega) (by omega)
      rw [show 32 * (i / 32) = i by omega] at hk
      rw [fileOf_eq] at ef ⊢
      rw [h2, List.getElem?_set_ne ?_]
      · exact ef
      · obtain ⟨-, e6⟩ := unpackU_eq_ok.1 e6
        intro e
        exact hk (by rw [e]; exact e6.symm)
  refine key _ 0 [] t (fun j _ hj => hu j (by omega)) rfl hl

/-- C115.  Load the ARM9 overlays of a ROM, change one of them in any way but its file number, save it, compressed or not,
put the file back into the ROM and the table too, save the ROM.  Then the image loads, and its ARM9 overlays are those
from before, with the changed one in the place of the old one.  Nothing else is lost: the other files are as they were,
and so are the ARM7 overlays, if none of them uses the file.  A compressed file must be shorter than the data, files are
limited to 16 MiB, and no other overlay may use the same file. -/
theorem rom_overlay_edit (r r' : Rom) (t : List (Nat × Overlay)) (id : Nat) (ov ov1 ov' : Overlay) (c u : Bool)
    (file table b : Bytes) (limit : Nat)
    (hl : loadArm9Overlays r none = .ok t) (hm : (id, ov) ∈ t) (hid : ov1.fileID = ov.fileID)
    (hs : ov1.save c = .ok (file, ov')) (hc : c = true → file.length < ov1.data.length) (h24 : file.length < 2 ^ 24)
    (hu : ∀ id' o, (id', o) ∈ t → o.fileID = ov.fileID → id' = id)
    (ht : saveOverlayTable (dictSet t id ov') = .ok table)
    (h : save { r with files := r.files.set ov.fileID file, arm9OverlayTable := table } u = .ok (b, r'))
    (hne : Spec.Fnt.NoEmptyFileName r.filenames) (hd : Spec.Fnt.depth r.filenames ≤ limit) :
    ∃ q t', load limit b = .ok q ∧ loadArm9Overlays q none = .ok t' ∧ t'.Pairwise (fun a b => a.1 < b.1) ∧
      (∀ id' o, (id', o) ∈ t' ↔ if id' = id then o = ov' else (id', o) ∈ t) ∧ ov'.data = ov1.data ∧
      (∀ k, k ≠ ov.fileID → q.files[k]? = r.files[k]?) ∧
      ∀ t7, loadArm7Overlays r none = .ok t7 →
        (∀ i, 32 * i < r.arm7OverlayTable.length →
          leVal (slice r.arm7OverlayTable (32 * i + 24) (32 * i + 28)) ≠ ov.fileID) →
        loadArm7Overlays q none = .ok t7 := by
  obtain ⟨q, hq, hf, -, h9, h7, -⟩ := reload _ r' u b h limit hne hd
  dsimp only at hf h9 h7
  obtain ⟨t', h1, h2, h3⟩ := edited_table r q r.arm9OverlayTable table t id ov ov1 ov' c file hl hm hid hs hc h24 hu ht hf
  refine ⟨q, t', hq, ?_, h2, h3, (Overlay.overlay_save_fields ov1 ov' c file hs).2.2.2.2.1, ?_, ?_⟩
  · unfold loadArm9Overlays; rw [h9]; exact h1
  · intro k hk
    rw [hf, List.getElem?_set_ne (Ne.symm hk)]
  · intro t7 ht7 hu7
    unfold loadArm7Overlays; rw [h7]
    exact untouched_table r q _ _ file t7 ht7 hf hu7

/-- C115 for the ARM7 overlays. -/
theorem rom_overlay_edit7 (r r' : Rom) (t : List (Nat × Overlay)) (id : Nat) (ov ov1 ov' : Overlay) (c u : Bool)
    (file table b : Bytes) (limit : Nat)
    (hl : loadArm7Overlays r none = .ok t) (hm : (id, ov) ∈ t) (hid : ov1.fileID = ov.fileID)
    (hs : ov1.save c = .ok (file, ov')) (hc : c = true → file.length < ov1.data.length) (h24 : file.length < 2 ^ 24)
    (hu : ∀ id' o, (id', o) ∈ t → o.fileID = ov.fileID → id' = id)
    (ht : saveOverlayTable (dictSet t id ov') = .ok table)
    (h : save { r with files := r.files.set ov.fileID file, arm7OverlayTable := table } u = .ok (b, r'))
    (hne : Spec.Fnt.NoEmptyFileName r.filenames) (hd : Spec.Fnt.depth r.filenames ≤ limit) :
    ∃ q t', load limit b = .ok q ∧ loadArm7Overlays q none = .ok t' ∧ t'.Pairwise (fun a b => a.1 < b.1) ∧
      (∀ id' o, (id', o) ∈ t' ↔ if id' = id then o = ov' else (id', o) ∈ t) ∧ ov'.data = ov1.data ∧
      (∀ k, k ≠ ov.fileID → q.files[k]? = r.files[k]?) ∧
      ∀ t9, loadArm9Overlays r none = .ok t9 →
        (∀ i, 32 * i < r.arm9OverlayTable.length →
          leVal (slice r.arm9OverlayTable (32 * i + 24) (32 * i + 28)) ≠ ov.fileID) →
        loadArm9Overlays q none = .ok t9 := by
  obtain ⟨q, hq, hf, -, h9, h7, -⟩ := reload _ r' u b h limit hne hd
  dsimp only at hf h9 h7
  obtain ⟨t', h1, h2, h3⟩ := edited_table r q r.arm7OverlayTable table t id ov ov1 ov' c file hl hm hid hs hc h24 hu ht hf
  refine ⟨q, t', hq, ?_, h2, h3, (Overlay.overlay_save_fields ov1 ov' c file hs).2.2.2.2.1, ?_, ?_⟩
  · unfold loadArm7Overlays; rw [h7]; exact h1
  · intro k hk
    rw [hf, List.getElem?_set_ne (Ne.symm hk)]
  · intro t9 ht9 hu9
    unfold loadArm9Overlays; rw [h9]
    exact untouched_table r q _ _ file t9 ht9 hf hu9

/-- The overlay of the sample ROM, given 40 bytes of new data, saved compressed. -/
def newOverlay : Overlay := ⟨List.replicate 40 65, 0, 0, 0, 0, 0, 1, 0, 0⟩
def newFile : Bytes := [13, 208, 9, 144, 3, 48, 0, 0, 65, 65, 65, 30, 20, 0, 0, 8, 20, 0, 0, 0]
def newTable : Bytes := zeros 8 ++ [40] ++ zeros 15 ++ [1, 0, 0, 0, 20, 0, 0, 1]
def changed : Rom := { Rom.sample with
  files := Rom.sample.files.set 1 newFile
  arm9OverlayTable := newTable }

example : loadArm9Overlays Rom.sample none = .ok [(0, ⟨[12], 0, 0, 0, 0, 0, 1, 0, 0⟩)] ∧
    newOverlay.save true = .ok (newFile, { newOverlay with ramSize := 40, compressedSize := 20, flags := 1 }) ∧
    newFile.length < newOverlay.data.length ∧ newFile.length < 2 ^ 24 ∧
    saveOverlayTable (dictSet [(0, ⟨[12], 0, 0, 0, 0, 0, 1, 0, 0⟩)] 0
      { newOverlay with ramSize := 40, compressedSize := 20, flags := 1 }) = .ok newTable := by decide +kernel
example : (∃ b r', save changed false = .ok (b, r')) ∧ Spec.Fnt.NoEmptyFileName Rom.sample.filenames ∧
    Spec.Fnt.depth Rom.sample.filenames ≤ 1 :=
  ⟨(Rom.saves_of (r := changed) (ids := [1]) (fnt := [8, 0, 0, 0, 0, 0, 1, 0, 1, 97, 1, 98, 0])
      (Rom.overlayIds_one (by decide +kernel) (by decide) (by decide +kernel)) rfl (by decide +kernel) (by decide +kernel)
      (.inl rfl) Rom.sample_header).2.2, Rom.sample_names.1, by rw [Rom.sample_names.2]; decide⟩

/-! ## Reloading -/

/-- C116: saving a ROM and loading the image changes nothing about its code and files: every accessor gives the same, or
raises the same, as before. -/
theorem rom_reload_code (r r' : Rom) (u : Bool) (b : Bytes) (h : save r u = .ok (b, r')) (limit : Nat)
    (hne : Spec.Fnt.NoEmptyFileName r.filenames) (hd : Spec.Fnt.depth r.filenames ≤ limit) :
    ∃ q, load limit b = .ok q ∧ loadArm9 q = loadArm9 r ∧ loadArm7 q = loadArm7 r ∧
      (∀ ids, loadArm9Overlays q ids = loadArm9Overlays r ids) ∧
      (∀ ids, loadArm7Overlays q ids = loadArm7Overlays r ids) ∧
      ∀ name, getFileByName q name = getFileByName r name := by
  obtain ⟨q, hq, hf, hn, h9, h7, a9, a9r, a9p, a7, a7r, a7p⟩ := reload r r' u b h limit hne hd
  refine ⟨q, hq, ?_, ?_, fun ids => ?_, fun ids => ?_, fun name => ?_⟩
  · unfold loadArm9; rw [a9, a9r, a9p]
  · unfold loadArm7; rw [a7, a7r, a7p]
  · unfold loadArm9Overlays; rw [h9]; unfold fileOf; rw [hf]
  · unfold loadArm7Overlays; rw [h7]; unfold fileOf; rw [hf]
  · unfold getFileByName; rw [hf, hn]

example : (∃ b r', save Rom.sample false = .ok (b, r')) ∧ Spec.Fnt.NoEmptyFileName Rom.sample.filenames ∧
    Spec.Fnt.depth Rom.sample.filenames ≤ 1 :=
  ⟨Rom.sample_ok.2.2, Rom.sample_names.1, by rw [Rom.sample_names.2]; decide⟩

/-- C116: a file replaced by name is in the saved image under that name, and a name that denotes another file still
gives what it gave. -/
theorem rom_set_reload (r r2 r' : Rom) (name : Str) (data : Bytes) (u : Bool) (b : Bytes) (limit : Nat)
    (hset : setFileByName r name data = .ok r2) (h : save r2 u = .ok (b, r'))
    (hne : Spec.Fnt.NoEmptyFileName r.filenames) (hd : Spec.Fnt.depth r.filenames ≤ limit) :
    ∃ q, load limit b = .ok q ∧ getFileByName q name = .ok data ∧
      ∀ name' k k', Fnt.idOf r.filenames name = .ok (some k) → Fnt.idOf r.filenames name' = .ok (some k') →
        pyPos r.files.length k ≠ pyPos r.files.length k' → getFileByName q name' = getFileByName r name' := by
  obtain ⟨h1, h2, -, id, k, h3, h4, -, h5⟩ := Rom.rom_set_get r r2 name data hset
  have hn : r2.filenames = r.filenames := by rw [h2]
  obtain ⟨q, hq, -, -, -, -, hg⟩ := rom_reload_code r2 r' u b h limit (by rw [hn]; exact hne) (by rw [hn]; exact hd)
  refine ⟨q, hq, by rw [hg]; exact h1, ?_⟩
  intro name' i i' e e' hp
  rw [h3] at e
  cases e
  rw [hg]
  exact h5 name' i' e' (by rw [← h4]; exact Ne.symm hp)

example : ∃ r2, setFileByName Rom.sample [98] [1, 2, 3] = .ok r2 ∧ ∃ b r', save r2 false = .ok (b, r') := by
  refine ⟨{ Rom.sample with
    files := [[10, 11], [1, 2, 3]] }, by decide +kernel, ?_⟩
  exact (Rom.saves_of (r := { Rom.sample with
    files := [[10, 11], [1, 2, 3]] }) (ids := [1]) (fnt := [8, 0, 0, 0, 0, 0, 1, 0, 1, 97, 1, 98, 0])
      Rom.sample_ids rfl (by decide +kernel) (by decide +kernel) (.inl rfl) Rom.sample_header).2.2

/-! ## Main code -/

open Verif.Props.MainCode
open Verif.Proofs.MainCode (Shape)

/-- C116.  Take a main code file, loaded from the ROM and edited or otherwise obtained, for the address of the ROM's ARM9
code; save it uncompressed and put it into the ROM; save the ROM.  Then the image loads, and so does its ARM9 code, with
the same sections. -/
theorem rom_main_code (r r' : Rom) (f : MainCodeFile) (s0 : Section) (rest : List Section) (cso : Nat) (u : Bool)
    (code b : Bytes) (limit : Nat) (hf : Shape f s0 rest cso) (hram : f.ramAddress = r.arm9RamAddress)
    (hsave : f.save false = .ok code) (hplain : CodeCompression.decompress code = .ok code)
    (hfind : findSettings code f.ramAddress (some r.arm9CodeSettingsPointerAddress) = .ok (some (cso : Int)))
    (h : save { r with arm9 := code } u = .ok (b, r'))
    (hne : Spec.Fnt.NoEmptyFileName r.filenames) (hd : Spec.Fnt.depth r.filenames ≤ limit) :
    ∃ q d0 f', load limit b = .ok q ∧ loadArm9 q = .ok f' ∧
      f' = ⟨⟨d0, f.ramAddress, 0, true⟩ ::
        ((rest.filter fun s => s.data.length != 0) ++ (rest.filter fun s => s.data.length == 0)),
        f.ramAddress, some (cso : Int)⟩ ∧
      Rewritten s0.data d0 cso (f.ramAddress + totalLength f.sections)
        (f.ramAddress + totalLength f.sections + 12 * rest.length) (f.ramAddress + s0.data.length) 0 := by
  obtain ⟨q, hq, h9, -⟩ := rom_reload_code _ r' u b h limit hne hd
  obtain ⟨d0, f', h1, h2, h3, -⟩ := main_code_roundtrip f s0 rest cso code _ hf hsave hplain hfind
  refine ⟨q, d0, f', hq, ?_, h2, h3⟩
  rw [h9]
  unfold loadArm9
  dsimp only
  rw [← hram]
  exact h1

/-- C116, the same for ARM7. -/
theorem rom_main_code7 (r r' : Rom) (f : MainCodeFile) (s0 : Section) (rest : List Section) (cso : Nat) (u : Bool)
    (code b : Bytes) (limit : Nat) (hf : Shape f s0 rest cso) (hram : f.ramAddress = r.arm7RamAddress)
    (hsave : f.save false = .ok code) (hplain : CodeCompression.decompress code = .ok code)
    (hfind : findSettings code f.ramAddress (some r.arm7CodeSettingsPointerAddress) = .ok (some (cso : Int)))
    (h : save { r with arm7 := code } u = .ok (b, r'))
    (hne : Spec.Fnt.NoEmptyFileName r.filenames) (hd : Spec.Fnt.depth r.filenames ≤ limit) :
    ∃ q d0 f', load limit b = .ok q ∧ loadArm7 q = .ok f' ∧
      f' = ⟨⟨d0, f.ramAddress, 0, true⟩ ::
        ((rest.filter fun s => s.data.length != 0) ++ (rest.filter fun s => s.data.length == 0)),
        f.ramAddress, some (cso : Int)⟩ ∧
      Rewritten s0.data d0 cso (f.ramAddress + totalLength f.sections)
        (f.ramAddress + totalLength f.sections + 12 * rest.length) (f.ramAddress + s0.data.length) 0 := by
  obtain ⟨q, hq, -, h9, -⟩ := rom_reload_code _ r' u b h limit hne hd
  obtain ⟨d0, f', h1, h2, h3, -⟩ := main_code_roundtrip f s0 rest cso code _ hf hsave hplain hfind
  refine ⟨q, d0, f', hq, ?_, h2, h3⟩
  rw [h9]
  unfold loadArm7
  dsimp only
  rw [← hram]
  exact h1

/-- The sample ROM for the file of `Props/MainCode.lean`. -/
def withCode : Rom := { Rom.sample with
  arm9RamAddress := 0x2000000
  arm9CodeSettingsPointerAddress := 0x2000004 }

example : exFile.ramAddress = withCode.arm9RamAddress ∧ exFile.save false = .ok exBytes ∧
    findSettings exBytes exFile.ramAddress (some withCode.arm9CodeSettingsPointerAddress) = .ok (some 4) := by
  decide +kernel
example : ∃ b r', save { withCode with
    arm9 := exBytes } false = .ok (b, r') := by
  refine (Rom.saves_of (r := { withCode with
    arm9 := exBytes }) (ids := [1]) (fnt := [8, 0, 0, 0, 0, 0, 1, 0, 1, 97, 1, 98, 0])
      Rom.sample_ids rfl (by decide +kernel) (by decide +kernel) (.inl rfl) ?_).2.2
  refine ⟨by decide +kernel, by decide +kernel, by decide +kernel, by decide +kernel, by decide +kernel,
    by decide +kernel, by decide +kernel, ?_, ?_, ?_⟩ <;> decide +kernel

/-- C116, the same compressed. -/
theorem rom_main_code_compressed (r r' : Rom) (f : MainCodeFile) (s0 : Section) (rest : List Section) (cso : Nat)
    (u : Bool) (code b : Bytes) (limit : Nat) (hf : Shape f s0 rest cso) (hram : f.ramAddress = r.arm9RamAddress)
    (hsave : f.save true = .ok code) (hcso : cso + 0x18 ≤ 0x4000)
    (hshort : code.length < totalLength f.sections + 12 * rest.length) (h24 : code.length < 2 ^ 24)
    (hfind : ∀ v, CodeCompression.decompress code = .ok v →
      findSettings v f.ramAddress (some r.arm9CodeSettingsPointerAddress) = .ok (some (cso : Int)))
    (h : save { r with arm9 := code } u = .ok (b, r'))
    (hne : Spec.Fnt.NoEmptyFileName r.filenames) (hd : Spec.Fnt.depth r.filenames ≤ limit) :
    ∃ q d0 f', load limit b = .ok q ∧ loadArm9 q = .ok f' ∧
      f' = ⟨⟨d0, f.ramAddress, 0, true⟩ ::
        ((rest.filter fun s => s.data.length != 0) ++ (rest.filter fun s => s.data.length == 0)),
        f.ramAddress, some (cso : Int)⟩ := by
  obtain ⟨q, hq, h9, -⟩ := rom_reload_code _ r' u b h limit hne hd
  obtain ⟨d0, f', h1, h2, -⟩ := main_code_compressed_roundtrip f s0 rest cso code _ hf hsave hcso hshort h24 hfind
  refine ⟨q, d0, f', hq, ?_, h2⟩
  rw [h9]
  unfold loadArm9
  dsimp only
  rw [← hram]
  exact h1

end Verif.Props.RomCode
