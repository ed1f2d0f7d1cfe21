import Verif.Base.Bits
import Verif.Model.Code

/-!
# Overlay tables: helper lemmas
-/

namespace Verif.Proofs.Overlay

open Verif Verif.Model Verif.Model.Code

/-- Every table field fits its 32-bit word. -/
def Fits (p : Nat × Overlay) : Prop :=
  p.1 < 2 ^ 32 ∧ p.2.ramAddress < 2 ^ 32 ∧ p.2.ramSize < 2 ^ 32 ∧ p.2.bssSize < 2 ^ 32 ∧
  p.2.staticInitStart < 2 ^ 32 ∧ p.2.staticInitEnd < 2 ^ 32 ∧ p.2.fileID < 2 ^ 32 ∧
  (p.2.compressedSize ||| p.2.flags <<< 24) < 2 ^ 32

def entryBytes (p : Nat × Overlay) : Bytes :=
  enBytes .little 4 p.1 ++ enBytes .little 4 p.2.ramAddress ++ enBytes .little 4 p.2.ramSize ++
  enBytes .little 4 p.2.bssSize ++ enBytes .little 4 p.2.staticInitStart ++
  enBytes .little 4 p.2.staticInitEnd ++ enBytes .little 4 p.2.fileID ++
  enBytes .little 4 (p.2.compressedSize ||| p.2.flags <<< 24)

theorem entryBytes_length (p : Nat × Overlay) : (entryBytes p).length = 32 := by
  simp [entryBytes, enBytes_length]

theorem saveEntry_ok {p : Nat × Overlay} {d : Bytes} :
    saveOverlayEntry p = .ok d ↔ Fits p ∧ d = entryBytes p := by
  unfold saveOverlayEntry Fits
  simp only [bind_eq_ok, packU_eq_ok, pure_eq_ok]
  constructor
  · rintro ⟨_, ⟨h1, rfl⟩, _, ⟨h2, rfl⟩, _, ⟨h3, rfl⟩, _, ⟨h4, rfl⟩, _, ⟨h5, rfl⟩, _, ⟨h6, rfl⟩, _, ⟨h7, rfl⟩, _,
      ⟨h8, rfl⟩, rfl⟩
    exact ⟨⟨h1, h2, h3, h4, h5, h6, h7, h8⟩, rfl⟩
  · rintro ⟨⟨h1, h2, h3, h4, h5, h6, h7, h8⟩, rfl⟩
    exact ⟨_, ⟨h1, rfl⟩, _, ⟨h2, rfl⟩, _, ⟨h3, rfl⟩, _, ⟨h4, rfl⟩, _, ⟨h5, rfl⟩, _, ⟨h6, rfl⟩, _, ⟨h7, rfl⟩, _,
      ⟨h8, rfl⟩, rfl⟩

theorem saveTable_ok {t : List (Nat × Overlay)} {d : Bytes} :
    saveOverlayTable t = .ok d ↔ (∀ p ∈ t, Fits p) ∧ d = ((sortBy Prod.fst t).map entryBytes).flatten := by
  unfold saveOverlayTable
  by_cases ht : t = []
  · subst ht
    rw [if_pos rfl, pure_eq_ok]
    simp [sortBy, eq_comm]
  · rw [if_neg ht]
    have hm := mapE_eq_map (f := saveOverlayEntry) (g := entryBytes) (P := Fits) (fun a b => saveEntry_ok)
    simp only [bind_eq_ok, pure_eq_ok, hm]
    constructor
    · rintro ⟨_, ⟨h1, rfl⟩, rfl⟩
      exact ⟨fun p hp => h1 p ((sortBy_perm _ t).mem_iff.2 hp), rfl⟩
    · rintro ⟨h1, rfl⟩
      exact ⟨_, ⟨fun p hp => h1 p ((sortBy_perm _ t).mem_iff.1 hp), rfl⟩, rfl⟩

theorem flat_length (l : List (Nat × Overlay)) : ((l.map entryBytes).flatten).length = 32 * l.length := by
  induction l with
  | nil => rfl
  | cons a l ih =>
    simp only [List.map_cons, List.flatten_cons, List.length_append, ih, entryBytes_length, List.length_cons]
    omega

/-- The file the callback hands out for an overlay is its data, compressed if the flag says so. -/
def FileOk (cb : Nat → Nat → Py Bytes) (p : Nat × Overlay) : Prop :=
  ∃ raw, cb p.1 p.2.fileID = .ok raw ∧
    (if p.2.flags % 2 = 1 then CodeCompression.decompress raw = .ok p.2.data else raw = p.2.data)

theorem compressedFlag_eq (n : Nat) : compressedFlag n = decide (n % 2 = 1) := by
  unfold compressedFlag
  rw [Nat.and_one_is_mod]
  have : n % 2 = 0 ∨ n % 2 = 1 := by omega
  rcases this with h | h <;> simp [h]

theorem loadEntry_ok {d : Bytes} {i : Nat} {p : Nat × Overlay} {cb : Nat → Nat → Py Bytes}
    {ids : Option (Nat → Bool)} {acc : List (Nat × Overlay)} (hat : At d i (entryBytes p)) (hf : Fits p)
    (hc : p.2.compressedSize < 2 ^ 24) (hfile : ids.all (fun f => f p.1) = true → FileOk cb p) :
    loadOverlayEntry d cb ids i acc =
      .ok (if ids.all (fun f => f p.1) = true then dictSet acc p.1 p.2 else acc) := by
  obtain ⟨h1, h2, h3, h4, h5, h6, h7, h8⟩ := hf
  unfold entryBytes at hat
  obtain ⟨hat, a8⟩ := At.split.1 hat
  obtain ⟨hat, a7⟩ := At.split.1 hat
  obtain ⟨hat, a6⟩ := At.split.1 hat
  obtain ⟨hat, a5⟩ := At.split.1 hat
  obtain ⟨hat, a4⟩ := At.split.1 hat
  obtain ⟨hat, a3⟩ := At.split.1 hat
  obtain ⟨a1, a2⟩ := At.split.1 hat
  simp only [List.length_append, enBytes_length] at a2 a3 a4 a5 a6 a7 a8
  unfold loadOverlayEntry
  rw [a1.unpackU h1, bind_ok, a2.unpackU h2, bind_ok, a3.unpackU h3, bind_ok, a4.unpackU h4, bind_ok,
    a5.unpackU h5, bind_ok, a6.unpackU h6, bind_ok, a7.unpackU h7, bind_ok, a8.unpackU h8, bind_ok]
  split
  · rename_i hsel
    obtain ⟨raw, hr, hraw⟩ := hfile hsel
    have e1 : (p.2.compressedSize ||| p.2.flags <<< 24) &&& 0xFFFFFF = p.2.compressedSize := by
      rw [Bits.or_add hc, Bits.and_mask _ 24 (by decide)]; omega
    have e2 : (p.2.compressedSize ||| p.2.flags <<< 24) >>> 24 = p.2.flags := by
      rw [Bits.or_add hc, Bits.shr]; omega
    rw [hr, bind_ok, e1, e2]
    unfold Overlay.init
    rw [compressedFlag_eq]
    by_cases hfl : p.2.flags % 2 = 1
    · rw [if_pos hfl] at hraw
      simp only [hfl, decide_true, if_true]
      rw [hraw]; rfl
    · rw [if_neg hfl] at hraw
      simp only [hfl, decide_false]
      rw [hraw]; rfl
  · rfl

theorem load_entries {d : Bytes} {cb : Nat → Nat → Py Bytes} {ids : Option (Nat → Bool)} :
    ∀ (l : List (Nat × Overlay)) (i : Nat) (acc : List (Nat × Overlay)),
    At d i ((l.map entryBytes).flatten) → (∀ p ∈ l, Fits p) → (∀ p ∈ l, p.2.compressedSize < 2 ^ 24) →
    (∀ p ∈ l, ids.all (fun f => f p.1) = true → FileOk cb p) →
    ((acc ++ l).map Prod.fst).Nodup →
    loadOverlays d cb ids l.length i acc = .ok (acc ++ l.filter fun p => ids.all (fun f => f p.1))
  | [], _, acc, _, _, _, _, _ => by simp [loadOverlays]
  | p :: l, i, acc, hat, hf, hc, hfile, hnd => by
    simp only [List.map_cons, List.flatten_cons] at hat
    obtain ⟨a1, a2⟩ := At.split.1 hat
    rw [entryBytes_length] at a2
    rw [List.length_cons, loadOverlays, loadEntry_ok a1 (hf p (by simp)) (hc p (by simp)) (hfile p (by simp)),
      bind_ok]
    have hnew : p.1 ∉ acc.map Prod.fst := by
      rw [List.map_append, List.map_cons] at hnd
      have h3 := (List.nodup_append.1 hnd).2.2
      intro hm
      exact h3 _ hm _ (by simp) rfl
    by_cases hsel : ids.all (fun f => f p.1) = true
    · rw [if_pos hsel, dictSet_new hnew, load_entries l (i + 32) _ a2 (fun q hq => hf q (by simp [hq]))
        (fun q hq => hc q (by simp [hq])) (fun q hq => hfile q (by simp [hq])) (by simpa using hnd)]
      simp [hsel]
    · rw [if_neg hsel, load_entries l (i + 32) _ a2 (fun q hq => hf q (by simp [hq]))
        (fun q hq => hc q (by simp [hq])) (fun q hq => hfile q (by simp [hq]))
        (hnd.sublist (((List.sublist_cons_self p l).append_left acc).map _))]
      simp [hsel]

theorem sorted_lt {t : List (Nat × Overlay)} (hnd : (t.map Prod.fst).Nodup) :
    (sortBy Prod.fst t).Pairwise (fun a b => a.1 < b.1) := by
  have h1 := sortBy_sorted Prod.fst t
  have h2 : ((sortBy Prod.fst t).map Prod.fst).Nodup := ((sortBy_perm Prod.fst t).map _).nodup_iff.2 hnd
  rw [List.Nodup, List.pairwise_map] at h2
  exact (h1.and h2).imp fun ⟨h, h'⟩ => Nat.lt_of_le_of_ne h h'

theorem loadTable_ok {t : List (Nat × Overlay)} {d : Bytes} {cb : Nat → Nat → Py Bytes}
    {ids : Option (Nat → Bool)} (h : saveOverlayTable t = .ok d) (hnd : (t.map Prod.fst).Nodup)
    (hc : ∀ p ∈ t, p.2.compressedSize < 2 ^ 24)
    (hfile : ∀ p ∈ t, ids.all (fun f => f p.1) = true → FileOk cb p) :
    loadOverlayTable d cb ids = .ok ((sortBy Prod.fst t).filter fun p => ids.all (fun f => f p.1)) := by
  obtain ⟨hf, rfl⟩ := saveTable_ok.1 h
  have hp := sortBy_perm Prod.fst t
  unfold loadOverlayTable
  rw [flat_length, show (32 * (sortBy Prod.fst t).length + 31) / 32 = (sortBy Prod.fst t).length by omega,
    load_entries _ 0 [] (At.refl _) (fun p hm => hf p (hp.mem_iff.1 hm)) (fun p hm => hc p (hp.mem_iff.1 hm))
      (fun p hm => hfile p (hp.mem_iff.1 hm)) ((hp.map _).nodup_iff.2 hnd)]
  rfl

/-! ## Files first -/

theorem loadEntry_inv {d : Bytes} {i : Nat} {cb : Nat → Nat → Py Bytes} {acc r : List (Nat × Overlay)}
    (h : loadOverlayEntry d cb none i acc = .ok r) :
    ∃ p : Nat × Overlay, At d i (entryBytes p) ∧ Fits p ∧ p.2.compressedSize < 2 ^ 24 ∧ p.2.flags < 256 ∧
      FileOk cb p ∧ r = dictSet acc p.1 p.2 := by
  unfold loadOverlayEntry at h
  simp only [Option.all_none, if_true, bind_eq_ok, pure_eq_ok] at h
  obtain ⟨a1, h1, a2, h2, a3, h3, a4, h4, a5, h5, a6, h6, a7, h7, a8, h8, raw, hr, ov, ho, rfl⟩ := h
  have b1 := At.of_unpackU h1; have b2 := At.of_unpackU h2; have b3 := At.of_unpackU h3
  have b4 := At.of_unpackU h4; have b5 := At.of_unpackU h5; have b6 := At.of_unpackU h6
  have b7 := At.of_unpackU h7; have b8 := At.of_unpackU h8
  have c1 := unpackU_lt h1; have c2 := unpackU_lt h2; have c3 := unpackU_lt h3; have c4 := unpackU_lt h4
  have c5 := unpackU_lt h5; have c6 := unpackU_lt h6; have c7 := unpackU_lt h7; have c8 := unpackU_lt h8
  have hc : a8 &&& 0xFFFFFF < 2 ^ 24 := by
    rw [Bits.and_mask _ 24 (by decide)]; exact Nat.mod_lt _ (by decide)
  have hw : (a8 &&& 0xFFFFFF) ||| (a8 >>> 24) <<< 24 = a8 := by
    rw [Bits.or_add hc, Bits.and_mask _ 24 (by decide), Bits.shr]; omega
  have hd : ∃ dat, (if a8 >>> 24 % 2 = 1 then CodeCompression.decompress raw = .ok dat else raw = dat) ∧
      ov = ⟨dat, a2, a3, a4, a5, a6, a7, a8 &&& 0xFFFFFF, a8 >>> 24⟩ := by
    unfold Overlay.init at ho
    rw [compressedFlag_eq] at ho
    by_cases hfl : a8 >>> 24 % 2 = 1
    · simp only [hfl, decide_true, if_true, bind_eq_ok, pure_eq_ok] at ho ⊢
      obtain ⟨dat, hd, rfl⟩ := ho
      exact ⟨dat, hd, rfl⟩
    · simp only [hfl, decide_false, if_false, Bool.false_eq_true, bind_eq_ok, pure_eq_ok] at ho ⊢
      obtain ⟨dat, rfl, rfl⟩ := ho
      exact ⟨raw, rfl, rfl⟩
  obtain ⟨dat, hd, rfl⟩ := hd
  refine ⟨⟨a1, _⟩, ?_, ⟨c1, c2, c3, c4, c5, c6, c7, ?_⟩, hc, ?_, ⟨raw, hr, ?_⟩, rfl⟩
  · unfold entryBytes
    dsimp only
    rw [hw]
    refine At.split.2 ⟨At.split.2 ⟨At.split.2 ⟨At.split.2 ⟨At.split.2 ⟨At.split.2 ⟨At.split.2 ⟨b1, ?_⟩, ?_⟩, ?_⟩,
      ?_⟩, ?_⟩, ?_⟩, ?_⟩ <;> simpa only [List.length_append, enBytes_length]
  · dsimp only; rw [hw]; exact c8
  · dsimp only; rw [Bits.shr]; omega
  · exact hd

theorem loadEntries_inv {d : Bytes} {cb : Nat → Nat → Py Bytes} : ∀ {n i : Nat} {acc r : List (Nat × Overlay)},
    loadOverlays d cb none n i acc = .ok r →
    ∃ l : List (Nat × Overlay), l.length = n ∧ At d i ((l.map entryBytes).flatten) ∧ (∀ p ∈ l, Fits p) ∧
      (∀ p ∈ l, p.2.compressedSize < 2 ^ 24 ∧ p.2.flags < 256) ∧ (∀ p ∈ l, FileOk cb p) ∧
      r = l.foldl (fun a p => dictSet a p.1 p.2) acc ∨ n = 0 ∧ r = acc
  | 0, i, acc, r, h => by
    cases h
    exact ⟨[], Or.inr ⟨rfl, rfl⟩⟩
  | n + 1, i, acc, r, h => by
    rw [loadOverlays, bind_eq_ok] at h
    obtain ⟨acc', h1, h2⟩ := h
    obtain ⟨p, hat, hf, hc, hfl, hfile, rfl⟩ := loadEntry_inv h1
    obtain ⟨l, hl⟩ := loadEntries_inv h2
    rcases hl with ⟨h3, h4, h5, h6, h7, rfl⟩ | ⟨rfl, rfl⟩
    · refine ⟨p :: l, Or.inl ⟨by simp [h3], ?_, ?_, ?_, ?_, rfl⟩⟩
      · simp only [List.map_cons, List.flatten_cons]
        exact At.split.2 ⟨hat, by rw [entryBytes_length]; exact h4⟩
      all_goals
        intro q hq
        rcases List.mem_cons.1 hq with rfl | hq
        · first | exact hf | exact ⟨hc, hfl⟩ | exact hfile
        · first | exact h5 q hq | exact h6 q hq | exact h7 q hq
    · refine ⟨[p], Or.inl ⟨rfl, by simpa using hat, ?_, ?_, ?_, rfl⟩⟩ <;>
      · intro q hq
        rw [List.mem_singleton] at hq
        subst hq
        first | exact hf | exact ⟨hc, hfl⟩ | exact hfile

theorem foldl_dictSet {l acc : List (Nat × Overlay)} (h : ((acc ++ l).map Prod.fst).Nodup) :
    l.foldl (fun a p => dictSet a p.1 p.2) acc = acc ++ l := by
  induction l generalizing acc with
  | nil => simp
  | cons p l ih =>
    have hnew : p.1 ∉ acc.map Prod.fst := by
      rw [List.map_append, List.map_cons] at h
      intro hm
      exact (List.nodup_append.1 h).2.2 _ hm _ (by simp) rfl
    rw [List.foldl_cons, dictSet_new hnew, ih (by simpa using h)]
    simp

end Verif.Proofs.Overlay
