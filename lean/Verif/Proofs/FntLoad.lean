import Verif.Proofs.Fnt

/-!
# What any loaded filename table looks like
-/

namespace Verif.Proofs.FntLoad

open Verif Verif.Model.Fnt Verif.Spec.Fnt Verif.Proofs.Fnt

/-- Properties of every loaded folder. -/
def Loaded (d : Nat) (f : Folder) : Prop :=
  NamesOk f ∧ NoEmptyFileName f ∧ FirstIDsOk f ∧ depth f ≤ d

/-- Properties of every loaded list of folders. -/
def LoadedIn (d : Nat) (fs : Folders) : Prop :=
  NamesOkIn fs ∧ AllIn (fun f => [] ∉ f.files) fs ∧
  AllIn (fun f => 0 ≤ f.firstID ∧ f.firstID < 2 ^ 16) fs ∧ depthIn fs ≤ d

theorem nameOk_decode (b : Bytes) (n : Nat) (hn : n ≤ 127) (off : Nat) :
    NameOk (latin1Decode (slice b off (off + n))) := by
  refine ⟨?_, ?_⟩
  · simp [latin1Decode, slice_length]; omega
  · intro c hc
    simp only [latin1Decode, List.mem_map] at hc
    obtain ⟨x, _, rfl⟩ := hc
    exact x.toNat_lt

theorem loadEntries_loaded {fnt : Bytes} {rec : Nat → Py Folder} {d : Nat}
    (hrec : ∀ id f, rec id = .ok f → Loaded d f) : ∀ {fuel off : Nat} {r : Folders × List Str},
    loadEntries fnt rec fuel off = .ok r →
    LoadedIn d r.1 ∧ (∀ n ∈ r.2, NameOk n) ∧ [] ∉ r.2
  | 0, _, _, h => by unfold loadEntries at h; cases h
  | fuel + 1, off, r, h => by
    unfold loadEntries at h
    simp only [bind_eq_ok] at h
    obtain ⟨control, hc, h⟩ := h
    have hlt := unpackU_lt hc
    split at h
    · cases h
      refine ⟨⟨namesOkIn_nil, ?_, ?_, ?_⟩, by simp, by simp⟩
      · rw [AllIn]; trivial
      · rw [AllIn]; trivial
      · rw [depthIn]; omega
    · rename_i hc0
      split at h
      · simp only [bind_eq_ok] at h
        obtain ⟨id, hid, sub, hsub, r', hr', h⟩ := h
        cases h
        obtain ⟨⟨a1, a2, a3, a4⟩, a5, a6⟩ := loadEntries_loaded hrec hr'
        obtain ⟨b1, b2, b3, b4⟩ := hrec _ _ hsub
        refine ⟨⟨namesOkIn_cons.2 ⟨nameOk_decode _ _ (by omega) _, b1, a1⟩, ?_, ?_, ?_⟩, a5, a6⟩
        · rw [AllIn]; exact ⟨b2, a2⟩
        · rw [AllIn]; exact ⟨b3, a3⟩
        · rw [depthIn]; omega
      · simp only [bind_eq_ok] at h
        obtain ⟨r', hr', h⟩ := h
        cases h
        rename_i hc128
        obtain ⟨a1, a5, a6⟩ := loadEntries_loaded hrec hr'
        refine ⟨a1, ?_, ?_⟩
        · intro n hn
          rcases List.mem_cons.1 hn with rfl | hn
          · exact nameOk_decode _ _ (by omega) _
          · exact a5 n hn
        · intro hm
          rcases List.mem_cons.1 hm with hm | hm
          · -- an empty name would mean that the file ends after a non-zero length byte
            rename_i hc128'
            obtain ⟨fuel', hfuel⟩ : ∃ f', fuel = f' + 1 := by
              cases fuel with
              | zero => unfold loadEntries at hr'; cases hr'
              | succ n => exact ⟨n, rfl⟩
            subst hfuel
            unfold loadEntries at hr'
            simp only [bind_eq_ok] at hr'
            obtain ⟨c', hc', _⟩ := hr'
            have hb := (unpackU_eq_ok.1 hc').1
            have hlen := congrArg List.length hm
            simp only [latin1Decode, List.length_map, List.length_nil] at hlen
            rw [slice_length_of_le (by omega)] at hlen
            omega
          · exact a6 hm

theorem loadFolder_loaded {fnt : Bytes} : ∀ {d id : Nat} {f : Folder}, loadFolder fnt d id = .ok f → Loaded d f
  | 0, _, _, h => by unfold loadFolder at h; cases h
  | d + 1, id, f, h => by
    unfold loadFolder at h
    simp only [bind_eq_ok] at h
    obtain ⟨eo, _, fid, hf, r, hr, h⟩ := h
    cases h
    have hlt := unpackU_lt hf
    obtain ⟨⟨a1, a2, a3, a4⟩, a5, a6⟩ := loadEntries_loaded (d := d) (fun id f h => loadFolder_loaded h) hr
    refine ⟨namesOk_mk.2 ⟨a5, a1⟩, noEmpty_mk.2 ⟨a6, a2⟩, ?_, ?_⟩
    · unfold FirstIDsOk
      rw [All]
      refine ⟨⟨by simp [Folder.firstID], ?_⟩, a3⟩
      simp only [Folder.firstID]
      omega
    · rw [depth]; omega

/-- The entry loop never runs out of fuel. -/
theorem loadEntries_fuel {fnt : Bytes} {rec : Nat → Py Folder} (hrec : ∀ id, rec id ≠ .error .outOfFuel) :
    ∀ {fuel off : Nat}, fnt.length < off + fuel → 0 < fuel → loadEntries fnt rec fuel off ≠ .error .outOfFuel
  | 0, off, _, hf => by omega
  | fuel + 1, off, hl, _ => by
    intro h
    unfold loadEntries at h
    simp only [bind_eq_error] at h
    rcases h with h | ⟨control, hc, h⟩
    · cases unpackU_err h
    · have hb := (unpackU_eq_ok.1 hc).1
      split at h
      · cases h
      · split at h
        · simp only [bind_eq_error] at h
          rcases h with h | ⟨id, hid, h | ⟨sub, hsub, h | ⟨r, hr, h⟩⟩⟩
          · cases unpackU_err h
          · exact hrec _ h
          · exact loadEntries_fuel hrec (by omega) (by omega) h
          · cases h
        · simp only [bind_eq_error] at h
          rcases h with h | ⟨r, hr, h⟩
          · exact loadEntries_fuel hrec (by omega) (by omega) h
          · cases h

theorem loadFolder_fuel {fnt : Bytes} : ∀ {d id : Nat}, loadFolder fnt d id ≠ .error .outOfFuel
  | 0, _ => by unfold loadFolder; intro h; cases h
  | d + 1, id => by
    intro h
    unfold loadFolder at h
    simp only [bind_eq_error] at h
    rcases h with h | ⟨eo, _, h | ⟨fid, _, h | ⟨r, _, h⟩⟩⟩
    · cases unpackU_err h
    · cases unpackU_err h
    · exact loadEntries_fuel (fun id => loadFolder_fuel) (by omega) (by omega) h
    · cases h

/-- Loading returns or raises `struct.error` or `RecursionError`. -/
theorem loadEntries_err {fnt : Bytes} {rec : Nat → Py Folder}
    (hrec : ∀ id e, rec id = .error e → e = .structError ∨ e = .recursionError ∨ e = .outOfFuel) :
    ∀ {fuel off : Nat} {e : PyErr}, loadEntries fnt rec fuel off = .error e →
      e = .structError ∨ e = .recursionError ∨ e = .outOfFuel
  | 0, off, e, h => by unfold loadEntries at h; cases h; simp
  | fuel + 1, off, e, h => by
    unfold loadEntries at h
    simp only [bind_eq_error] at h
    rcases h with h | ⟨control, hc, h⟩
    · exact Or.inl (unpackU_err h)
    · split at h
      · cases h
      · split at h
        · simp only [bind_eq_error] at h
          rcases h with h | ⟨id, hid, h | ⟨sub, hsub, h | ⟨r, hr, h⟩⟩⟩
          · exact Or.inl (unpackU_err h)
          · exact hrec _ _ h
          · exact loadEntries_err hrec h
          · cases h
        · simp only [bind_eq_error] at h
          rcases h with h | ⟨r, hr, h⟩
          · exact loadEntries_err hrec h
          · cases h

theorem loadFolder_err {fnt : Bytes} : ∀ {d id : Nat} {e : PyErr}, loadFolder fnt d id = .error e →
    e = .structError ∨ e = .recursionError ∨ e = .outOfFuel
  | 0, _, e, h => by unfold loadFolder at h; cases h; simp
  | d + 1, id, e, h => by
    unfold loadFolder at h
    simp only [bind_eq_error] at h
    rcases h with h | ⟨eo, _, h | ⟨fid, _, h | ⟨r, _, h⟩⟩⟩
    · exact Or.inl (unpackU_err h)
    · exact Or.inl (unpackU_err h)
    · exact loadEntries_err (fun id e h => loadFolder_err h) h
    · cases h

end Verif.Proofs.FntLoad
