import Verif.Proofs.Reader
import Verif.Spec.FormatFnt
import Verif.Props.Fnt

/-!
# Filename tables, byte by byte (C99)
-/

namespace Verif.Props.FormatFnt

open Verif Verif.Model.Fnt Verif.Spec.Fnt Verif.Spec.Reader Verif.Spec.FormatFnt Verif.Proofs.Reader

/-! ## Loading -/

theorem decode_text (d : Bytes) (o n : Nat) : latin1Decode (slice d o (o + n)) = text d o n := by
  rw [slice_bytesAt]; rfl

theorem entries_of_load {d : Bytes} {rec : Nat → Py Folder} {k : Nat}
    (hrec : ∀ id f, rec id = .ok f → FolderAt d id f ∧ depth f ≤ k) : ∀ {fuel o : Nat} {r : Folders × List Str},
    loadEntries d rec fuel o = .ok r → EntriesAt d o r.1 r.2 ∧ depthIn r.1 ≤ k
  | 0, _, _, h => by unfold loadEntries at h; cases h
  | fuel + 1, o, r, h => by
    unfold loadEntries at h
    simp only [bind_eq_ok, unpack1, decode_text] at h
    obtain ⟨_, ⟨h0, rfl⟩, h⟩ := h
    split at h
    · rename_i hz
      cases h
      exact ⟨.stop o h0 hz, by rw [depthIn]; omega⟩
    · rename_i hz
      have hlt := u8_lt d o
      split at h
      · rename_i hf
        simp only [bind_eq_ok, unpack2] at h
        obtain ⟨_, ⟨h1, rfl⟩, sub, h2, r', h3, h4⟩ := h
        cases h4
        obtain ⟨h5, h6⟩ := hrec _ _ h2
        obtain ⟨h7, h8⟩ := entries_of_load hrec h3
        refine ⟨.folder o _ _ _ _ (by omega) h5 h7, ?_⟩
        dsimp only [depthIn]; omega
      · rename_i hf
        simp only [bind_eq_ok] at h
        obtain ⟨r', h3, h4⟩ := h
        cases h4
        obtain ⟨h7, h8⟩ := entries_of_load hrec h3
        dsimp only
        rw [Nat.mod_eq_of_lt (by omega)] at h7 ⊢
        exact ⟨.file o _ _ (by omega) (by omega) h7, h8⟩

theorem folder_of_load {d : Bytes} : ∀ {k id : Nat} {f : Folder}, loadFolder d k id = .ok f → FolderAt d id f ∧ depth f ≤ k
  | 0, _, _, h => by unfold loadFolder at h; cases h
  | k + 1, id, f, h => by
    unfold loadFolder at h
    simp only [bind_eq_ok, unpack2, unpack4, pure_eq_ok] at h
    obtain ⟨_, ⟨_, rfl⟩, _, ⟨h2, rfl⟩, r, h3, rfl⟩ := h
    obtain ⟨h4, h5⟩ := entries_of_load (k := k) (fun id f h => folder_of_load h) h3
    exact ⟨.mk id _ _ h2 h4, by rw [depth]; omega⟩

theorem entries_bound {d : Bytes} {o : Nat} {fs : Folders} {files : List Str} (h : EntriesAt d o fs files) : o < d.length := by
  cases h with
  | stop _ h => exact h
  | file _ _ _ h =>
    unfold u8 at h
    refine Nat.lt_of_not_le fun hle => ?_
    rw [List.getElem?_eq_none hle] at h
    simp at h
  | folder _ n _ _ _ h =>
    unfold u8 at h
    refine Nat.lt_of_not_le fun hle => ?_
    rw [List.getElem?_eq_none hle] at h
    simp at h
    omega

mutual
theorem load_of_folder {d : Bytes} : ∀ {k id : Nat} {f : Folder}, FolderAt d id f → depth f ≤ k → loadFolder d k id = .ok f
  | 0, _, _, .mk id fs files h1 h2, hk => by rw [depth] at hk; omega
  | k + 1, _, _, .mk id fs files h1 h2, hk => by
    rw [depth] at hk
    unfold loadFolder
    simp only [bind_eq_ok, unpack2, unpack4, pure_eq_ok]
    exact ⟨_, ⟨by omega, rfl⟩, _, ⟨h1, rfl⟩, (fs, files), load_of_entries h2 (by omega) (by omega), rfl⟩
theorem load_of_entries {d : Bytes} : ∀ {k fuel o : Nat} {fs : Folders} {files : List Str}, EntriesAt d o fs files →
    depthIn fs ≤ k → d.length < o + fuel → loadEntries d (loadFolder d k) fuel o = .ok (fs, files)
  | k, 0, o, fs, files, h, _, hf => by have := entries_bound h; omega
  | k, fuel + 1, _, _, _, .stop o h1 h2, _, _ => by
    unfold loadEntries
    simp only [bind_eq_ok, unpack1]
    exact ⟨_, ⟨h1, rfl⟩, by rw [if_pos h2]; rfl⟩
  | k, fuel + 1, _, _, _, .file o fs files h1 h2 h3, hk, hf => by
    have hb := entries_bound (.file o fs files h1 h2 h3)
    unfold loadEntries
    simp only [bind_eq_ok, unpack1]
    refine ⟨_, ⟨hb, rfl⟩, ?_⟩
    rw [if_neg (by omega)]
    rw [if_neg (by omega), Nat.mod_eq_of_lt h2, decode_text, load_of_entries h3 hk (by omega)]
    rfl
  | k, fuel + 1, _, _, _, .folder o n sub fs files h1 h2 h3, hk, hf => by
    have hb := entries_bound (.folder o n sub fs files h1 h2 h3)
    have hb' := entries_bound h3
    rw [depthIn] at hk
    have hlt := u8_lt d o
    unfold loadEntries
    simp only [bind_eq_ok, unpack1]
    refine ⟨_, ⟨hb, rfl⟩, ?_⟩
    rw [if_neg (by omega)]
    rw [if_pos (by omega), show u8 d o % 128 = n by omega, decode_text]
    simp only [bind_eq_ok, unpack2]
    exact ⟨_, ⟨by omega, rfl⟩, sub, load_of_folder h2 (by omega), (fs, files), load_of_entries h3 (by omega) (by omega), rfl⟩
end

/-- C99: the tree that is loaded from any bytes is the one that the records and entries describe, starting from the root folder
0xF000, as long as the recursion limit allows its depth; nothing is loaded otherwise. -/
theorem fnt_load_iff (limit : Nat) (d : Bytes) (f : Folder) :
    load limit d = .ok f ↔ FolderAt d 0xF000 f ∧ depth f ≤ limit :=
  ⟨folder_of_load, fun h => load_of_folder h.1 h.2⟩

/-- C99: so bytes describe at most one tree. -/
theorem fnt_unique (d : Bytes) (f g : Folder) (hf : FolderAt d 0xF000 f) (hg : FolderAt d 0xF000 g) : f = g := by
  have h1 := (fnt_load_iff (max (depth f) (depth g)) d f).2 ⟨hf, by omega⟩
  have h2 := (fnt_load_iff (max (depth f) (depth g)) d g).2 ⟨hg, by omega⟩
  rw [h1] at h2
  cases h2
  rfl

/-! ## Saving -/

theorem u16_at {d : Bytes} {o n : Nat} (h : At d o (enBytes .little 2 n)) (hn : n < 2 ^ 16) : u16 d o = n :=
  (unpack2.1 (h.unpackU (by omega))).2.symm

theorem u32_at {d : Bytes} {o n : Nat} (h : At d o (enBytes .little 4 n)) (hn : n < 2 ^ 32) : u32 d o = n :=
  (unpack4.1 (h.unpackU (by omega))).2.symm

theorem u8_at {d : Bytes} {o n : Nat} (h : At d o (enBytes .little 1 n)) (hn : n < 2 ^ 8) : u8 d o = n :=
  (unpack1.1 (h.unpackU (by omega))).2.symm

theorem text_at {d : Bytes} {o : Nat} {n : Str} (h : At d o (n.map UInt8.ofNat)) (hn : ∀ c ∈ n, c < 256) :
    text d o n.length = n := by
  have := h.slice_eq (b := o + n.length) (by simp)
  rw [← decode_text, this, latin1Decode_map_ofNat hn]

theorem filesIn_of_at {d : Bytes} : ∀ {files : List Str} {o : Nat}, (∀ n ∈ files, NameOk n) →
    At d o (Proofs.Fnt.fileBytes files) → FilesIn d files o (o + (Proofs.Fnt.fileBytes files).length)
  | [], o, _, _ => by simp [FilesIn, Proofs.Fnt.fileBytes]
  | n :: rest, o, hn, hat => by
    have h1 := hn n (by simp)
    have e1 : Proofs.Fnt.fileBytes (n :: rest) =
        enBytes .little 1 n.length ++ (n.map UInt8.ofNat ++ Proofs.Fnt.fileBytes rest) := by
      simp [Proofs.Fnt.fileBytes, enBytes, leBytes]
    rw [e1] at hat ⊢
    obtain ⟨ha, hb⟩ := At.split.1 hat
    obtain ⟨hb, hc⟩ := At.split.1 hb
    simp only [enBytes_length, List.length_map] at hb hc
    rw [FilesIn]
    refine ⟨u8_at ha (by have := h1.1; omega), text_at hb h1.2, ?_⟩
    have := filesIn_of_at (fun m hm => hn m (by simp [hm])) hc
    simp only [List.length_append, enBytes_length, List.length_map]
    rw [show o + (1 + (n.length + (Proofs.Fnt.fileBytes rest).length)) =
      o + 1 + n.length + (Proofs.Fnt.fileBytes rest).length by omega]
    exact this

mutual
theorem holds_of_stored {d : Bytes} : ∀ {f : Folder} {id parent : Nat}, NamesOk f → 0xF000 ≤ id → id + folderCount f ≤ 0x10000 →
    (∀ e ∈ Proofs.Fnt.flat f id parent, Proofs.Fnt.Stored d e) → Holds d f id parent
  | .mk fs files i, id, parent, hn, hid, hc, hst => by
    obtain ⟨h1, h2⟩ := Proofs.Fnt.namesOk_mk.1 hn
    unfold folderCount at hc
    unfold Proofs.Fnt.flat at hst
    obtain ⟨off, ho, ⟨hr1, hr2, hr3⟩, ha, hb⟩ := hst _ (List.mem_cons_self ..)
    dsimp only at ha hb hr1 hr2 hr3
    rw [show id % 4096 = id - 0xF000 by omega] at ha
    have hbound := ha.bound
    obtain ⟨ha, ha3⟩ := At.split.1 ha
    obtain ⟨ha1, ha2⟩ := At.split.1 ha
    simp only [List.length_append, enBytes_length] at ha2 ha3 hbound
    unfold Proofs.Fnt.tableOf at hb
    rw [List.append_assoc] at hb
    obtain ⟨hb1, hb2⟩ := At.split.1 hb
    rw [Holds, u32_at ha1 (by omega), u16_at ha2 (by omega), u16_at (ha3.cast (by omega)) (by omega)]
    refine ⟨hid, by omega, by omega, rfl, _, filesIn_of_at h1 hb1, ?_⟩
    exact holdsIn_of_stored h2 (by omega) (by omega) hb2 (fun e he => hst e (List.mem_cons_of_mem _ he))
theorem holdsIn_of_stored {d : Bytes} : ∀ {fs : Folders} {next parent o : Nat}, Proofs.Fnt.NamesOkIn fs → 0xF000 ≤ next →
    next + folderCountIn fs ≤ 0x10000 → At d o (Proofs.Fnt.folderBytes fs next ++ [0]) →
    (∀ e ∈ Proofs.Fnt.flatIn fs next parent, Proofs.Fnt.Stored d e) → HoldsIn d fs next parent o
  | .nil, next, parent, o, _, _, _, hat, _ => by
    have h1 : At d o (enBytes .little 1 0) := by simpa [Proofs.Fnt.folderBytes, enBytes, leBytes] using hat
    have hb := h1.bound
    rw [enBytes_length] at hb
    rw [HoldsIn]
    exact ⟨by omega, u8_at h1 (by omega)⟩
  | .cons n f rest, next, parent, o, hn, hid, hc, hat, hst => by
    obtain ⟨h1, h2, h3⟩ := Proofs.Fnt.namesOkIn_cons.1 hn
    unfold folderCountIn at hc
    unfold Proofs.Fnt.flatIn at hst
    have hl := h1.1
    have hp := Proofs.Fnt.folderCount_pos f
    have e1 : Proofs.Fnt.folderBytes (.cons n f rest) next ++ [0] =
        enBytes .little 1 (n.length + 128) ++ (n.map UInt8.ofNat ++ (enBytes .little 2 next ++
          (Proofs.Fnt.folderBytes rest (next + folderCount f) ++ [0]))) := by
      simp [Proofs.Fnt.folderBytes, enBytes, leBytes]
    rw [e1] at hat
    obtain ⟨ha, hb⟩ := At.split.1 hat
    obtain ⟨hb, hcc⟩ := At.split.1 hb
    obtain ⟨hcc, hdd⟩ := At.split.1 hcc
    simp only [enBytes_length, List.length_map] at hb hcc hdd
    rw [HoldsIn]
    refine ⟨by rw [u8_at ha (by omega)]; omega, text_at hb h1.2, u16_at hcc (by omega),
      holds_of_stored h2 hid (by omega) (fun e he => hst e (List.mem_append_left _ he)),
      holdsIn_of_stored h3 (by omega) (by omega) hdd (fun e he => hst e (List.mem_append_right _ he))⟩
end

/-- C99: a saved table holds the root folder under the ID 0xF000, with the number of folders in place of a parent, and every
other folder under the next ID in the order of a walk through the tree, with the ID of its parent; each record says where the
names of its files and its subfolders are. -/
theorem fnt_save_layout (root : Folder) (b padding : Bytes) (h : save root = .ok b) :
    Holds (b ++ padding) root 0xF000 (folderCount root) := by
  obtain ⟨h1, h2, h3⟩ := Proofs.Fnt.flat_stored h
  exact holds_of_stored h1 (by omega) (by omega) (h3 padding)

/-- Three nested folders. -/
example : ∃ b, save Props.Fnt.sample = .ok b ∧ load 3 b = .ok Props.Fnt.sample ∧ FolderAt b 0xF000 Props.Fnt.sample ∧
    u16 b 6 = 3 ∧ u16 b 14 = 0xF000 ∧ u16 b 22 = 0xF001 ∧ u8 b 28 = 129 ∧ text b 29 1 = [100] := by
  have h : ∃ b, save Props.Fnt.sample = .ok b ∧ load 3 b = .ok Props.Fnt.sample ∧ u16 b 6 = 3 ∧ u16 b 14 = 0xF000 ∧
      u16 b 22 = 0xF001 ∧ u8 b 28 = 129 ∧ text b 29 1 = [100] := by
    refine ⟨(save Props.Fnt.sample).toOption.getD [], ?_⟩
    decide +kernel
  obtain ⟨b, h1, h2, h3⟩ := h
  exact ⟨b, h1, h2, ((fnt_load_iff 3 b _).1 h2).1, h3⟩

end Verif.Props.FormatFnt
