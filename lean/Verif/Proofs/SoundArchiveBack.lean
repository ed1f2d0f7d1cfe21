import Verif.Proofs.SoundArchiveLoad

/-!
# The files that are loaded from a saved sound archive
-/

namespace Verif.Proofs.SoundArchive

open Verif Verif.Model.Common Verif.Model.SoundArchive Verif.Model.SoundStream Verif.Spec.SoundArchive

theorem ceilTo_add {a p n : Nat} (ha : 0 < a) (hp : a ∣ p) : ceilTo a (p + n) = p + ceilTo a n :=
  ceilTo_eq ha (Nat.dvd_add hp (ceilTo_dvd a n)) (by have := le_ceilTo (n := n) ha; omega)
    (by have := ceilTo_lt (n := n) ha; omega)

theorem padFile_at {d : Bytes} {a o L : Nat} {f : Bytes} {incl : Bool} (h : At d o f)
    (hz : incl = true → At d (o + f.length) (zeros (ceilTo a f.length - f.length)))
    (hL : L = if incl = true then ceilTo a f.length else f.length) (ha : 0 < a) :
    slice d o (o + L) = padFile a incl f := by
  unfold padFile
  have := le_ceilTo (n := f.length) ha
  cases incl with
  | false => rw [if_neg (by decide)] at hL ⊢; exact h.slice_eq (by omega)
  | true =>
    rw [if_pos rfl] at hL ⊢
    refine (At.split.2 ⟨h, hz rfl⟩).slice_eq ?_
    rw [List.length_append, zeros_length]
    omega

theorem padFiles_at {d : Bytes} {a m : Nat} (ha : 0 < a) (incl padEnd : Bool) : ∀ {fs : List Bytes} {pos : Nat},
    At d pos (body a pos fs ++ zeros m) → d.length = bodyEnd a pos fs + m →
    m = (if padEnd = true then ceilTo a (bodyEnd a pos fs) - bodyEnd a pos fs else 0) →
    ((places a pos fs).zip fs).map (fun p => slice d p.1 (p.1 + if incl = true then ceilTo a p.2.length else p.2.length)) =
      padFiles a incl (incl && padEnd) fs
  | [], _, _, _, _ => rfl
  | [f], pos, h, hd, hm => by
    have hle := le_ceilTo (n := pos) ha
    have hlf := le_ceilTo (n := f.length) ha
    simp only [body, List.append_nil] at h
    rw [At.split, At.split, List.length_append, zeros_length] at h
    obtain ⟨⟨_, h1⟩, h2⟩ := h
    have h1 : At d (ceilTo a pos) f := h1.cast (by omega)
    have h2 : At d (ceilTo a pos + f.length) (zeros m) := h2.cast (by omega)
    simp only [bodyEnd] at hd hm
    rw [ceilTo_add ha (ceilTo_dvd a pos)] at hm
    simp only [places, List.zip_cons_cons, List.zip_nil_left, List.map_cons, List.map_nil, padFiles]
    congr 1
    cases incl with
    | false =>
      rw [if_neg (by decide)]
      exact h1.slice_eq rfl
    | true =>
      rw [if_pos rfl, Bool.true_and]
      cases padEnd with
      | true =>
        rw [if_pos rfl] at hm
        have hm' : m = ceilTo a f.length - f.length := by omega
        exact padFile_at h1 (fun _ => by rw [← hm']; exact h2) rfl ha
      | false =>
        rw [if_neg (by decide)] at hm
        rw [slice_all (by omega)]
        rw [← slice_all (Nat.le_refl _), hd, hm]
        exact h1.slice_eq rfl
  | f :: g :: fs, pos, h, hd, hm => by
    have hle := le_ceilTo (n := pos) ha
    rw [body, List.append_assoc, At.split, At.split, List.length_append, zeros_length] at h
    obtain ⟨⟨_, h1⟩, h2⟩ := h
    have h1 : At d (ceilTo a pos) f := h1.cast (by omega)
    have h2 : At d (ceilTo a pos + f.length) (body a (ceilTo a pos + f.length) (g :: fs) ++ zeros m) := h2.cast (by omega)
    have ih := padFiles_at ha incl padEnd h2 hd hm
    rw [places, List.zip_cons_cons, List.map_cons, ih, padFiles]
    congr 1
    refine padFile_at h1 (fun _ => ?_) rfl ha
    rw [body, At.split, At.split, At.split, ceilTo_add ha (ceilTo_dvd a pos)] at h2
    have := h2.1.1.1
    rwa [show ceilTo a pos + ceilTo a f.length - (ceilTo a pos + f.length) = ceilTo a f.length - f.length by omega] at this

/-- The files in the FILE block. -/
theorem saved_body {s : SDAT} (h : AlignOk s) :
    At (saved s) (firstPos s) (body s.fileAlignment (firstPos s) (filesOf s) ++ zeros (total s - endPos s)) := by
  have h1 := (segments s).file
  unfold fileBytes at h1
  rw [List.append_assoc, At.split] at h1
  refine h1.2.cast ?_
  rw [List.length_append, List.length_append, structBytes_length, zeros_length]
  have := firstPos_ge h.1
  show fileOff s + (4 + 8 + _) = _
  omega

theorem loadedFiles_eq {s : SDAT} (h : AlignOk s) :
    loadedFiles s = padFiles s.fileAlignment s.fatLengthsIncludePadding (s.fatLengthsIncludePadding && s.padAtEnd) (filesOf s) := by
  by_cases hf : filesOf s = []
  · unfold loadedFiles fatEntries offs
    rw [hf]
    rfl
  · have ha := h.2.2 hf
    have h1 := saved_body h
    have h2 := saved_length h
    have h3 := total_ge h.2.1
    have := padFiles_at ha s.fatLengthsIncludePadding s.padAtEnd h1 (by rw [h2]; unfold endPos at h3 ⊢; omega) (by
      show total s - endPos s = if s.padAtEnd = true then ceilTo s.fileAlignment (endPos s) - endPos s else 0
      unfold total
      split
      · rfl
      · omega)
    rw [← this]
    unfold loadedFiles fatEntries
    rw [List.map_map]
    rfl

theorem padFile_false (a : Nat) (f : Bytes) : padFile a false f = f := by unfold padFile; rw [if_neg (by decide)]

theorem padFiles_false (a : Nat) : ∀ fs : List Bytes, padFiles a false false fs = fs
  | [] => rfl
  | [f] => by rw [padFiles, padFile_false]
  | f :: g :: fs => by rw [padFiles, padFiles_false a (g :: fs), padFile_false]

theorem padFiles_length (a : Nat) (p q : Bool) : ∀ fs : List Bytes, (padFiles a p q fs).length = fs.length
  | [] => rfl
  | [f] => rfl
  | f :: g :: fs => by rw [padFiles, List.length_cons, padFiles_length a p q (g :: fs)]; rfl

end Verif.Proofs.SoundArchive
