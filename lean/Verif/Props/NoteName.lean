import Verif.Model.NoteName

/-!
# Names of notes (C95)
-/

namespace Verif.Props.NoteName

open Verif Verif.Model.NoteName

/-! ## Helmholtz pitch notation

A reader: the letter gives the step, a sharp sign raises it by one; small letters without accents are the octave below middle C
(number 60), every apostrophe raises by an octave; capital letters are another octave lower, and every low accent lowers by an
octave. -/

/-- The step of a small letter above C. -/
def step : Nat → Option Int
  | 99 => some 0
  | 100 => some 2
  | 101 => some 4
  | 102 => some 5
  | 103 => some 7
  | 97 => some 9
  | 98 => some 11
  | _ => none

/-- The number of octaves, for a small or a capital letter. -/
def octave (capital : Bool) (accents : Str) : Option Int :=
  if capital = true then if accents.all (· = 0x375) then some (-2 - accents.length) else none
  else if accents.all (· = 0x27) then some (accents.length - 1) else none

/-- The number of a note with this name. -/
def readName : Str → Option Int
  | [] => none
  | c :: rest => do
    let capital : Bool := decide (c < 97)
    let s ← step (if capital = true then c + 32 else c)
    let o ← octave capital (if rest.head? = some 0x266F then rest.tail else rest)
    return 60 + 12 * o + s + if rest.head? = some 0x266F then 1 else 0

theorem raised_spec : ∀ (fuel : Nat) (note : Int) (acc : Str), note.toNat < fuel →
    raised fuel note acc = (acc ++ List.replicate (if 0 ≤ note then (note / 12).toNat + 1 else 0) 0x27,
      if 0 ≤ note then note % 12 - 12 else note)
  | 0, note, acc, h => by omega
  | fuel + 1, note, acc, h => by
    rw [raised]
    by_cases h0 : 0 ≤ note
    · rw [if_pos h0, if_pos h0, if_pos h0]
      by_cases h1 : 12 ≤ note
      · rw [raised_spec fuel (note - 12) _ (by omega), if_pos (by omega), if_pos (by omega)]
        rw [show (note / 12).toNat + 1 = ((note - 12) / 12).toNat + 1 + 1 by omega, List.append_assoc, List.replicate_succ (n := ((note - 12) / 12).toNat + 1),
          show (note - 12) % 12 = note % 12 by omega]
        rfl
      · cases fuel with
        | zero =>
          rw [raised, show (note / 12).toNat = 0 by omega, show note % 12 - 12 = note - 12 by omega]
          rfl
        | succ fuel =>
          rw [raised, if_neg (by omega), show (note / 12).toNat = 0 by omega, show note % 12 - 12 = note - 12 by omega]
          rfl
    · rw [if_neg h0, if_neg h0, if_neg h0]; simp

theorem lower_spec : ∀ (fuel : Nat) (note : Int) (acc : Str), note.natAbs < fuel →
    (lower fuel note acc).1 = acc ++ List.replicate (if note < -24 then ((-note - 13) / 12).toNat else 0) 0x375
  | 0, note, acc, h => by omega
  | fuel + 1, note, acc, h => by
    rw [lower]
    by_cases h0 : note < -24
    · rw [if_pos h0, if_pos h0, lower_spec fuel (note + 12) _ (by omega)]
      have e : ((-note - 13) / 12).toNat = (if note + 12 < -24 then ((-(note + 12) - 13) / 12).toNat else 0) + 1 := by
        split <;> omega
      rw [e, List.replicate_succ, List.append_assoc]
      rfl
    · rw [if_neg h0, if_neg h0]; simp

/-- The name in closed form. -/
theorem noteName_eq (v : Int) : noteName v =
    [if v < 48 then letters[(v % 12).toNat]?.getD 0 - 32 else letters[(v % 12).toNat]?.getD 0] ++ sharps[(v % 12).toNat]?.getD [] ++
      (List.replicate (if 60 ≤ v then ((v - 60) / 12).toNat + 1 else 0) 0x27 ++
        List.replicate (if v < 36 then ((47 - v) / 12).toNat else 0) 0x375) := by
  unfold noteName
  dsimp only
  rw [raised_spec _ _ _ (by omega)]
  dsimp only
  rw [lower_spec _ _ _ (by omega)]
  have e1 : ((v - 60) % 12).toNat = (v % 12).toNat := by omega
  rw [e1]
  have e2 : (v - 60 < -12) ↔ v < 48 := by omega
  have e3 : (0 ≤ v - 60) ↔ 60 ≤ v := by omega
  simp only [e2, e3, List.nil_append]
  congr 1
  congr 1
  by_cases h : 60 ≤ v
  · simp only [if_pos h, if_neg (show ¬ v < 36 by omega)]
    rw [if_neg (by omega)]
  · simp only [if_neg h]
    by_cases h2 : v < 36
    · rw [if_pos (by omega), if_pos h2, show -(v - 60) - 13 = 47 - v by omega]
    · rw [if_neg (by omega), if_neg h2]

/-- **C95.** The name of any note, read in Helmholtz notation, is that note; so different notes have different names. -/
theorem note_name_reads (v : Int) : readName (noteName v) = some v := by
  rw [noteName_eq]
  have hk : v % 12 = 0 ∨ v % 12 = 1 ∨ v % 12 = 2 ∨ v % 12 = 3 ∨ v % 12 = 4 ∨ v % 12 = 5 ∨ v % 12 = 6 ∨ v % 12 = 7 ∨ v % 12 = 8 ∨
    v % 12 = 9 ∨ v % 12 = 10 ∨ v % 12 = 11 := by omega
  by_cases h48 : v < 48
  · have hn : ¬ 60 ≤ v := by omega
    simp only [if_pos h48, if_neg hn, List.replicate_zero, List.nil_append]
    have key : ∀ n : Nat, octave true (List.replicate n 0x375) = some (-2 - (n : Int)) := fun n => by
      unfold octave; simp
    have hh : ∀ n : Nat, (List.replicate n 0x375).head? ≠ some 0x266F := by
      intro n; cases n <;> simp [List.replicate_succ]
    generalize hN : (if v < 36 then ((47 - v) / 12).toNat else 0) = N
    have hv : (N : Int) = (47 - v) / 12 := by rw [← hN]; split <;> omega
    rcases hk with h | h | h | h | h | h | h | h | h | h | h | h <;> rw [h] <;>
      simp [readName, letters, sharps, step, key, hh, hv] <;> omega
  · simp only [if_neg h48]
    have key : ∀ n : Nat, octave false (List.replicate n 0x27) = some ((n : Int) - 1) := fun n => by
      unfold octave; simp
    have hh : ∀ n : Nat, (List.replicate n 0x27).head? ≠ some 0x266F := by
      intro n; cases n <;> simp [List.replicate_succ]
    rw [if_neg (show ¬ v < 36 by omega), List.replicate_zero, List.append_nil]
    generalize hN : (if 60 ≤ v then ((v - 60) / 12).toNat + 1 else 0) = N
    have hv : (N : Int) = (v - 48) / 12 := by rw [← hN]; split <;> omega
    rcases hk with h | h | h | h | h | h | h | h | h | h | h | h <;> rw [h] <;>
      simp [readName, letters, sharps, step, key, hh, hv] <;> omega

theorem note_name_injective {v w : Int} (h : noteName v = noteName w) : v = w := by
  have := note_name_reads v
  rw [h, note_name_reads w] at this
  exact (Option.some.inj this).symm

/-- `c'`, `f♯`, `B`, `C͵͵͵`. -/
example : noteName 60 = [99, 0x27] ∧ noteName 54 = [102, 0x266F] ∧ noteName 47 = [66] ∧ noteName 0 = [67, 0x375, 0x375, 0x375] := by
  decide

end Verif.Props.NoteName
