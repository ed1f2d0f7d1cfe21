import Verif.Spec.SoundBank

/-!
# Instruments: what they save to and how that loads
-/

namespace Verif.Proofs.SoundBank

open Verif Verif.Model.SoundBank Verif.Spec.SoundBank

/-- The bytes of a note with its type. -/
def noteBytes (n : Note) : Bytes := enBytes .little 2 n.type ++ structBytes .little n.fields

@[simp] theorem fields_length (n : Note) : (structBytes .little n.fields).length = 10 := by
  rw [structBytes_length]; rfl

@[simp] theorem noteBytes_length (n : Note) : (noteBytes n).length = 12 := by
  simp [noteBytes]

theorem note_save_ok {n : Note} {b : Bytes} : n.save = .ok b ↔ Fits n.fields ∧ b = structBytes .little n.fields :=
  packUs_eq_ok

/-- A note fits its record with type. -/
def NoteFits (n : Note) : Prop := n.type < 256 ^ 2 ∧ Fits n.fields

theorem note_saveWithType_ok {n : Note} {b : Bytes} : n.saveWithType = .ok b ↔ NoteFits n ∧ b = noteBytes n := by
  rw [Note.saveWithType]
  simp only [bind_eq_ok, pure_eq_ok, packU_eq_ok, note_save_ok]
  constructor
  · rintro ⟨_, ⟨h1, rfl⟩, _, ⟨h2, rfl⟩, rfl⟩
    exact ⟨⟨h1, h2⟩, rfl⟩
  · rintro ⟨⟨h1, h2⟩, rfl⟩
    exact ⟨_, ⟨h1, rfl⟩, _, ⟨h2, rfl⟩, rfl⟩

theorem note_fromData {n : Note} (hf : Fits n.fields) :
    Note.fromData (structBytes .little n.fields) n.type = .ok n := by
  have := unpackUs_at (At.refl (structBytes .little n.fields)) hf
  rw [Note.fromData]
  have e : n.fields.map Prod.fst = [2, 2, 1, 1, 1, 1, 1, 1] := rfl
  rw [e] at this
  rw [this, bind_ok]
  rfl

theorem note_fromDataWithType {n : Note} (hf : NoteFits n) : Note.fromDataWithType (noteBytes n) = .ok n := by
  have := unpackUs_at (fs := (2, n.type) :: n.fields) (At.refl (structBytes .little ((2, n.type) :: n.fields))) hf
  have e : ((2, n.type) :: n.fields).map Prod.fst = [2, 2, 2, 1, 1, 1, 1, 1, 1] := rfl
  rw [e] at this
  rw [Note.fromDataWithType]
  have e2 : noteBytes n = structBytes .little ((2, n.type) :: n.fields) := rfl
  rw [e2, this, bind_ok]
  rfl

theorem slice_note {d : Bytes} {o : Nat} {n : Note} (h : At d o (noteBytes n)) : slice d o (o + 0xC) = noteBytes n :=
  h.slice_eq (by rw [noteBytes_length])

theorem notesFrom_at {d : Bytes} : ∀ {notes : List Note} {o : Nat}, (∀ n ∈ notes, NoteFits n) →
    At d o (notes.map noteBytes).flatten → notesFrom d notes.length o = .ok notes
  | [], _, _, _ => rfl
  | n :: ns, o, hf, h => by
    rw [List.map_cons, List.flatten_cons, At.split, noteBytes_length] at h
    rw [List.length_cons, notesFrom, slice_note h.1, note_fromDataWithType (hf n (by simp)), bind_ok,
      notesFrom_at (fun m hm => hf m (by simp [hm])) h.2, bind_ok]
    rfl

theorem notesFrom_length {d : Bytes} : ∀ {k o : Nat} {l : List Note}, notesFrom d k o = .ok l → l.length = k
  | 0, _, _, h => by cases h; rfl
  | k + 1, o, l, h => by
    rw [notesFrom] at h
    simp only [bind_eq_ok, pure_eq_ok] at h
    obtain ⟨_, _, r, hr, rfl⟩ := h
    rw [List.length_cons, notesFrom_length hr]

/-- The byte of a region end. -/
def endByte (r : Nat × Note) : UInt8 := UInt8.ofNat r.1

theorem endByte_toNat {r : Nat × Note} (h : r.1 < 256) : (endByte r).toNat = r.1 := by
  rw [endByte, UInt8.toNat_ofNat']; omega

theorem endByte_eq_zero {r : Nat × Note} (h : r.1 < 256) : endByte r = 0 ↔ r.1 = 0 := by
  rw [← UInt8.toNat_inj, endByte_toNat h]; rfl

theorem regionsFrom_at {d : Bytes} : ∀ {regions : List (Nat × Note)} {first : Bool} {o k : Nat},
    (∀ r ∈ regions, r.1 < 256 ∧ NoteFits r.2) → (first = false → ∀ r ∈ regions, r.1 ≠ 0) →
    (∀ r ∈ regions.tail, r.1 ≠ 0) → (first = true → regions ≠ []) →
    At d o (regions.map fun r => noteBytes r.2).flatten →
    regionsFrom d first (regions.map endByte ++ zeros k) o = .ok regions
  | [], first, o, k, _, _, _, hne, _ => by
    cases first with
    | true => exact absurd rfl (hne rfl)
    | false => cases k <;> simp [zeros, regionsFrom, List.replicate_succ]
  | r :: rs, first, o, k, hf, h0, ht, _, h => by
    rw [List.map_cons, List.flatten_cons, At.split, noteBytes_length] at h
    have hr := hf r (by simp)
    have hc : ¬ (endByte r = 0 ∧ first = false) := by
      rintro ⟨h1, h2⟩
      exact h0 h2 r (by simp) ((endByte_eq_zero hr.1).1 h1)
    rw [List.map_cons, List.cons_append, regionsFrom, if_neg hc, slice_note h.1, note_fromDataWithType hr.2, bind_ok,
      regionsFrom_at (regions := rs) (fun m hm => hf m (by simp [hm])) (fun _ => ht) (fun m hm => ht m (List.mem_of_mem_tail hm))
        (by simp) h.2, bind_ok, endByte_toNat hr.1]
    rfl

theorem regionsFrom_inv {d : Bytes} : ∀ {es : List UInt8} {first : Bool} {o : Nat} {l : List (Nat × Note)},
    regionsFrom d first es o = .ok l →
      (first = false → ∀ r ∈ l, r.1 ≠ 0) ∧ (∀ r ∈ l.tail, r.1 ≠ 0) ∧ (first = true → es ≠ [] → l ≠ [])
  | [], first, o, l, h => by cases h; simp
  | e :: es, first, o, l, h => by
    rw [regionsFrom] at h
    split at h
    · rename_i hc
      cases h
      simp [hc.2]
    · rename_i hc
      simp only [bind_eq_ok, pure_eq_ok] at h
      obtain ⟨n, _, r, hr, rfl⟩ := h
      have ih := (regionsFrom_inv hr).1 rfl
      refine ⟨?_, by simpa using ih, by simp⟩
      intro hff x hx
      rcases List.mem_cons.1 hx with rfl | hx
      · intro h0
        exact hc ⟨by rw [← UInt8.toNat_inj]; exact h0, hff⟩
      · exact ih x hx

/-- Everything in an instrument fits its field. -/
def KindFits : Kind → Prop
  | .single n => Fits n.fields
  | .range f ns => f < 256 ∧ 0 < f + ns.length ∧ f + ns.length ≤ 256 ∧ ∀ n ∈ ns, NoteFits n
  | .regional rs => rs.length ≤ 8 ∧ ∀ r ∈ rs, r.1 < 256 ∧ NoteFits r.2

/-- The bytes of an instrument. -/
def kindBytes : Kind → Bytes
  | .single n => structBytes .little n.fields
  | .range f ns => enBytes .little 1 f ++ enBytes .little 1 (f + ns.length - 1) ++ (ns.map noteBytes).flatten
  | .regional rs => rs.map endByte ++ zeros (8 - rs.length) ++ (rs.map fun r => noteBytes r.2).flatten

theorem kind_save_ok {k : Kind} {b : Bytes} : k.save = .ok b ↔ KindFits k ∧ b = kindBytes k := by
  cases k with
  | single n => exact note_save_ok
  | range f ns =>
    rw [Kind.save]
    simp only [bind_eq_ok, pure_eq_ok, packU_eq_ok, natOf_eq_ok,
      mapE_eq_map (fun a b => note_saveWithType_ok (n := a) (b := b)), KindFits, kindBytes]
    constructor
    · rintro ⟨_, ⟨h1, rfl⟩, z, hz, _, ⟨h2, rfl⟩, _, ⟨h3, rfl⟩, rfl⟩
      have : z = f + ns.length - 1 := by omega
      subst this
      exact ⟨⟨by omega, by omega, by omega, h3⟩, rfl⟩
    · rintro ⟨⟨h1, h2, h3, h4⟩, rfl⟩
      exact ⟨_, ⟨by omega, rfl⟩, f + ns.length - 1, by omega, _, ⟨by omega, rfl⟩, _, ⟨h4, rfl⟩, rfl⟩
  | regional rs =>
    have hr : ∀ (r : Nat × Note) (x : UInt8 × Bytes), (do
        let e ← byteOf r.1
        let n ← r.2.saveWithType
        return (e, n)) = .ok x ↔ (r.1 < 256 ∧ NoteFits r.2) ∧ x = (endByte r, noteBytes r.2) := by
      intro r x
      simp only [bind_eq_ok, pure_eq_ok, byteOf_eq_ok, note_saveWithType_ok]
      constructor
      · rintro ⟨_, ⟨h1, rfl⟩, _, ⟨h2, rfl⟩, rfl⟩
        exact ⟨⟨h1, h2⟩, rfl⟩
      · rintro ⟨⟨h1, h2⟩, rfl⟩
        exact ⟨_, ⟨h1, rfl⟩, _, ⟨h2, rfl⟩, rfl⟩
    rw [Kind.save]
    simp only [bind_eq_ok, pure_eq_ok, raiseIf_eq_ok, KindFits, kindBytes, mapE_eq_map hr]
    constructor
    · rintro ⟨_, h1, _, ⟨h2, rfl⟩, rfl⟩
      refine ⟨⟨by omega, h2⟩, ?_⟩
      simp [Function.comp_def]
    · rintro ⟨⟨h1, h2⟩, rfl⟩
      refine ⟨(), by omega, _, ⟨h2, rfl⟩, ?_⟩
      simp [Function.comp_def]

theorem kindBytes_length (k : Kind) (h : KindFits k) : (kindBytes k).length = match k with
    | .single _ => 10
    | .range _ ns => 2 + 12 * ns.length
    | .regional rs => 8 + 12 * rs.length := by
  cases k with
  | single n => simp [kindBytes]
  | range f ns =>
    have := flatten_length_const (n := 12) (parts := ns.map noteBytes) (by simp)
    simp only [kindBytes, List.length_append, enBytes_length, this, List.length_map]
    omega
  | regional rs =>
    have := flatten_length_const (n := 12) (parts := rs.map fun r => noteBytes r.2)
      (by intro p hp; obtain ⟨r, _, rfl⟩ := List.mem_map.1 hp; simp)
    have h8 := h.1
    simp only [kindBytes, List.length_append, this, List.length_map, zeros, List.length_replicate]
    omega

theorem kindAt_at {k : Kind} {d : Bytes} {o : Nat} (hf : KindFits k) (hl : Loadable k) (h : At d o (kindBytes k)) :
    kindAt d k.type o = .ok (some k, (kindBytes k).length) := by
  have hlen := kindBytes_length k hf
  rw [hlen]
  cases k with
  | single n =>
    have h0 : n.type ≠ 0 := by have := hl.1; omega
    have hs : slice d o (o + 10) = structBytes .little n.fields := h.slice_eq (by simp [kindBytes])
    rw [kindAt, Kind.type, if_neg h0, if_pos hl.2, hs, note_fromData hf, bind_ok]
    rfl
  | range f ns =>
    obtain ⟨h1, h2, h3, h4⟩ := hf
    simp only [kindBytes, At.split, List.length_append, enBytes_length] at h
    obtain ⟨⟨ha, hb⟩, hc⟩ := h
    have e : f + ns.length - 1 + 1 - f = ns.length := by omega
    rw [kindAt, Kind.type, if_neg (by decide), if_neg (by decide), if_pos rfl, ha.unpackU (by omega), bind_ok,
      hb.unpackU (by omega), bind_ok, e, notesFrom_at h4 hc, bind_ok]
    rfl
  | regional rs =>
    obtain ⟨h1, h2⟩ := hf
    simp only [kindBytes] at h
    rw [At.split] at h
    have h8 : (rs.map endByte ++ zeros (8 - rs.length)).length = 8 := by simp [zeros]; omega
    rw [h8] at h
    rw [kindAt, Kind.type, if_neg (by decide), if_neg (by decide), if_neg (by decide), if_pos rfl,
      h.1.unpackStr h8, bind_ok, regionsFrom_at h2 (by simp) hl.2 (fun _ => hl.1) h.2, bind_ok]
    rfl

theorem kindAt_inv {k : Kind} {d : Bytes} {t o n : Nat} (h : kindAt d t o = .ok (some k, n)) :
    Loadable k ∧ k.type = t ∧ 2 ≤ n := by
  rw [kindAt] at h
  split at h
  · cases h
  split at h
  · rename_i h1 h2
    simp only [bind_eq_ok, pure_eq_ok, Prod.mk.injEq, Option.some.injEq] at h
    obtain ⟨m, hm, rfl, rfl⟩ := h
    rw [Note.fromData] at hm
    simp only [bind_eq_ok] at hm
    obtain ⟨fs, _, hm⟩ := hm
    split at hm
    · cases hm
      exact ⟨⟨by dsimp only; omega, h2⟩, rfl, by omega⟩
    · cases hm
  split at h
  · rename_i h3
    simp only [bind_eq_ok, pure_eq_ok, Prod.mk.injEq, Option.some.injEq] at h
    obtain ⟨_, _, _, _, _, _, rfl, rfl⟩ := h
    exact ⟨trivial, h3.symm, by omega⟩
  split at h
  · rename_i h3
    simp only [bind_eq_ok, pure_eq_ok, Prod.mk.injEq, Option.some.injEq] at h
    obtain ⟨es, hes, rs, hrs, rfl, rfl⟩ := h
    obtain ⟨_, ha, hb⟩ := regionsFrom_inv hrs
    have : es ≠ [] := by
      have := (unpackStr_eq_ok.1 hes).2
      intro he
      subst he
      simp at this
    exact ⟨⟨hb rfl this, ha⟩, h3.symm, by omega⟩
  · cases h

/-! ## What was loaded can be saved -/

theorem fromData_fits {d : Bytes} {t : Nat} {n : Note} (h : Note.fromData d t = .ok n) :
    Fits n.fields ∧ At d 0 (structBytes .little n.fields) ∧ n.type = t := by
  rw [Note.fromData] at h
  simp only [bind_eq_ok] at h
  obtain ⟨fs, hfs, h⟩ := h
  rcases unpackUs_inv hfs with ⟨h1, h2, h3⟩ | ⟨h1, _⟩
  · split at h
    · cases h
      exact ⟨h2, h3, rfl⟩
    · cases h
  · cases h1

theorem fromDataWithType_fits {d : Bytes} {n : Note} (h : Note.fromDataWithType d = .ok n) :
    NoteFits n ∧ At d 0 (noteBytes n) := by
  rw [Note.fromDataWithType] at h
  simp only [bind_eq_ok] at h
  obtain ⟨fs, hfs, h⟩ := h
  rcases unpackUs_inv hfs with ⟨h1, h2, h3⟩ | ⟨h1, _⟩
  · split at h
    · cases h
      exact ⟨h2, h3⟩
    · cases h
  · cases h1

theorem at_of_slice {d s : Bytes} {o n : Nat} (h : At (slice d o (o + n)) 0 s) (hl : s.length = n) (hn : 0 < n) :
    At d o s := by
  have hb := h.bound
  rw [slice_length] at hb
  have hle : o + n ≤ d.length := by omega
  have h1 : slice d o (o + n) = s := by
    have := h.slice_eq (b := n) (by omega)
    rw [slice, List.drop_zero, Nat.sub_zero, List.take_of_length_le] at this
    · exact this
    · rw [slice_length]; omega
  exact At.of_slice hle (by omega) h1

theorem notesFrom_fits {d : Bytes} : ∀ {k o : Nat} {l : List Note}, notesFrom d k o = .ok l → o ≤ d.length →
    (∀ n ∈ l, NoteFits n) ∧ At d o (l.map noteBytes).flatten
  | 0, o, _, h, ho => by cases h; exact ⟨by simp, At.nil ho⟩
  | k + 1, o, l, h, ho => by
    rw [notesFrom] at h
    simp only [bind_eq_ok, pure_eq_ok] at h
    obtain ⟨n, hn, r, hr, rfl⟩ := h
    obtain ⟨h1, h2⟩ := fromDataWithType_fits hn
    have h3 := at_of_slice h2 (by simp) (by omega)
    have hb := h3.bound
    rw [noteBytes_length] at hb
    obtain ⟨h4, h5⟩ := notesFrom_fits hr (by omega)
    refine ⟨?_, ?_⟩
    · intro m hm
      rcases List.mem_cons.1 hm with rfl | hm
      · exact h1
      · exact h4 m hm
    · rw [List.map_cons, List.flatten_cons, At.split, noteBytes_length]
      exact ⟨h3, h5⟩

theorem regionsFrom_fits {d : Bytes} : ∀ {es : List UInt8} {first : Bool} {o : Nat} {l : List (Nat × Note)},
    regionsFrom d first es o = .ok l → o ≤ d.length →
    (∀ r ∈ l, r.1 < 256 ∧ NoteFits r.2) ∧ l.length ≤ es.length ∧ At d o (l.map fun r => noteBytes r.2).flatten
  | [], _, o, _, h, ho => by cases h; exact ⟨by simp, by simp, At.nil ho⟩
  | e :: es, first, o, l, h, ho => by
    rw [regionsFrom] at h
    split at h
    · cases h; exact ⟨by simp, by simp, At.nil ho⟩
    · simp only [bind_eq_ok, pure_eq_ok] at h
      obtain ⟨n, hn, r, hr, rfl⟩ := h
      obtain ⟨h1, h2⟩ := fromDataWithType_fits hn
      have h3 := at_of_slice h2 (by simp) (by omega)
      have hb := h3.bound
      rw [noteBytes_length] at hb
      obtain ⟨h4, h5, h6⟩ := regionsFrom_fits hr (by omega)
      refine ⟨?_, by simp; omega, ?_⟩
      · intro m hm
        rcases List.mem_cons.1 hm with rfl | hm
        · exact ⟨e.toNat_lt, h1⟩
        · exact h4 m hm
      · rw [List.map_cons, List.flatten_cons, At.split, noteBytes_length]
        exact ⟨h3, h6⟩

/-- What was loaded fits, and takes as many bytes in the file as it saves to. -/
theorem kindAt_fits {k : Kind} {d : Bytes} {t o n : Nat} (h : kindAt d t o = .ok (some k, n)) :
    KindFits k ∧ n = (kindBytes k).length ∧ o + n ≤ d.length ∧
      ((∀ rs, k ≠ .regional rs) → (∀ f, k ≠ .range f []) → At d o (kindBytes k)) := by
  rw [kindAt] at h
  split at h
  · cases h
  split at h
  · simp only [bind_eq_ok, pure_eq_ok, Prod.mk.injEq, Option.some.injEq] at h
    obtain ⟨m, hm, rfl, rfl⟩ := h
    obtain ⟨h1, h2, _⟩ := fromData_fits hm
    have h3 := at_of_slice h2 (by simp) (by omega)
    have hb := h3.bound
    rw [fields_length] at hb
    exact ⟨h1, by simp [kindBytes], hb, fun _ _ => h3⟩
  split at h
  · simp only [bind_eq_ok, pure_eq_ok, Prod.mk.injEq, Option.some.injEq] at h
    obtain ⟨f, hf, l, hl, ns, hns, rfl, rfl⟩ := h
    have ha := At.of_unpackU hf
    have hb := At.of_unpackU hl
    have hbb := hb.bound
    rw [enBytes_length] at hbb
    have hf' := unpackU_lt hf
    have hl' := unpackU_lt hl
    have hlen := notesFrom_length hns
    obtain ⟨h1, h2⟩ := notesFrom_fits hns (by omega)
    have hfit : KindFits (.range f ns) := ⟨by omega, by omega, by omega, h1⟩
    refine ⟨hfit, ?_, ?_, ?_⟩
    · rw [kindBytes_length _ hfit]
    · have := h2.bound
      rw [flatten_length_const (n := 12) (by intro p hp; obtain ⟨r, _, rfl⟩ := List.mem_map.1 hp; simp),
        List.length_map] at this
      omega
    · intro _ hne
      have : ns ≠ [] := fun e => hne f (by rw [e])
      have hpos := List.length_pos_iff.2 this
      have e : f + ns.length - 1 = l := by omega
      simp only [kindBytes, At.split, List.length_append, enBytes_length, e]
      exact ⟨⟨ha, hb⟩, h2⟩
  split at h
  · simp only [bind_eq_ok, pure_eq_ok, Prod.mk.injEq, Option.some.injEq] at h
    obtain ⟨es, hes, rs, hrs, rfl, rfl⟩ := h
    obtain ⟨ha, hl⟩ := unpackStr_eq_ok.1 hes
    have hb := ha.bound
    obtain ⟨h1, h2, h3⟩ := regionsFrom_fits hrs (by omega)
    have hfit : KindFits (.regional rs) := ⟨by omega, h1⟩
    refine ⟨hfit, ?_, ?_, fun hr => absurd rfl (hr rs)⟩
    · rw [kindBytes_length _ hfit]
    · have := h3.bound
      rw [flatten_length_const (n := 12) (by intro p hp; obtain ⟨r, _, rfl⟩ := List.mem_map.1 hp; simp),
        List.length_map] at this
      omega
  · cases h

end Verif.Proofs.SoundBank
