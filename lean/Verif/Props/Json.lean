import Verif.Proofs.Json

/-!
# Filename tables as JSON (C141)
-/

namespace Verif.Props.Json

open Verif Verif.Model.Json Verif.Spec.Json
open Verif.Model.Repr (lit)
open Verif.Model.Fnt (Folder Folders)
open Verif.Spec.Fnt (All AllIn names depth depthIn)

/-- A table with two files and a folder, with a quote, a letter and a sign beyond ASCII. -/
def sample : Folder := .mk (.cons [228] (.mk .nil [[34, 10]] 7) .nil) [[97], [0x1F600]] 3

/-- A table without folders. -/
def flat : Folder := .mk .nil [[97], [92, 228]] 3

theorem sample_texts : Texts sample := by
  simp [Texts, sample, All, AllIn, Scalar, names, Folder.files, Folder.folders]

/-- C141: the text that `fntToJson` makes is JSON, and stands for the table: `json.loads` reads it as the object with the
number of the first file, the names of the files and the pairs of names and folders, where empty lists are left out. -/
theorem json_text (t : Folder) (h : Texts t) : loads (fntToJson t) = .ok (document t) := Proofs.Json.loads_json h

example : Texts sample ∧ fntToJson sample = lit
    "{\n    \"first_id\": 3,\n    \"files\": [\n        \"a\",\n        \"\\ud83d\\ude00\"\n    ],\n    \"folders\": [\n        [\n            \"\\u00e4\",\n            {\n                \"first_id\": 7,\n                \"files\": [\n                    \"\\\"\\n\"\n                ]\n            }\n        ]\n    ]\n}" :=
  ⟨sample_texts, by decide +kernel⟩

/-- C141: the text is complete and has nothing to spare: with more text behind it, it is read the same if that is white
space, and is no JSON otherwise. -/
theorem json_followed (t : Folder) (h : Texts t) (more : Str) :
    loads (fntToJson t ++ more) =
      if ∀ c ∈ more, c = 32 ∨ c = 9 ∨ c = 10 ∨ c = 13 then .ok (document t) else .error .valueError := by
  rw [Proofs.Json.loads_followed h]
  have e : skip more = [] ↔ ∀ c ∈ more, c = 32 ∨ c = 9 ∨ c = 10 ∨ c = 13 := by
    unfold skip
    induction more with
    | nil => simp
    | cons c l ih =>
      rw [List.dropWhile_cons]
      by_cases hc : isSpace c = true
      · rw [if_pos hc, ih]
        simp only [isSpace, Bool.or_eq_true, beq_iff_eq] at hc
        simp only [List.mem_cons, forall_eq_or_imp]
        exact ⟨fun h => ⟨by omega, h⟩, fun h => h.2⟩
      · rw [if_neg hc]
        simp only [isSpace, Bool.or_eq_true, beq_iff_eq] at hc
        simp only [List.mem_cons, forall_eq_or_imp]
        exact ⟨fun h => (nomatch h), fun h => absurd h.1 (by omega)⟩
  simp only [e]

example : Texts flat ∧ (loads (fntToJson flat ++ [10])).toBool = true ∧ (loads (fntToJson flat ++ [49])).toBool = false :=
  ⟨by simp [Texts, flat, All, AllIn, Scalar, names, Folder.files, Folder.folders], by decide +kernel, by decide +kernel⟩

/-- C141: all of the text is ASCII, whatever the names are. -/
theorem json_ascii (t : Folder) : ∀ c ∈ fntToJson t, c < 128 := Proofs.Json.ascii_folder 0 t

/-- C141: nothing is lost: different tables have different texts. -/
theorem json_injective (t u : Folder) (ht : Texts t) (hu : Texts u) (h : fntToJson t = fntToJson u) : t = u := by
  have e := json_text t ht
  rw [h, json_text u hu] at e
  exact Proofs.Json.document_inj t u (Except.ok.inj e).symm

example : Texts sample ∧ Texts flat ∧ fntToJson sample ≠ fntToJson flat :=
  ⟨sample_texts, by simp [Texts, flat, All, AllIn, Scalar, names, Folder.files, Folder.folders], by decide +kernel⟩

/-- C141, for tables without folders: `jsonToFnt` gives back the table.  What is missing are all other tables (see
`json_folders_fail`). -/
theorem json_roundtrip_partial (t : Folder) (h : Texts t) (hf : t.folders = .nil) (limit : Nat) (hl : 1 ≤ limit) :
    jsonToFnt limit (fntToJson t) = .ok t := by
  unfold jsonToFnt
  rw [json_text t h, bind_ok]
  exact Proofs.Json.convert_flat t hf limit hl

example : Texts flat ∧ flat.folders = .nil ∧ jsonToFnt 1 (fntToJson flat) = .ok flat :=
  ⟨by simp [Texts, flat, All, AllIn, Scalar, names, Folder.files, Folder.folders], rfl, by decide +kernel⟩

/-- C141: a table with a folder cannot be read back: `jsonToFnt` never returns on its text, and raises `TypeError` unless
the table is too deep. -/
theorem json_folders_fail (t : Folder) (h : Texts t) (hf : t.folders ≠ .nil) (limit : Nat) :
    (∀ u, jsonToFnt limit (fntToJson t) ≠ .ok u) ∧ (depth t ≤ limit → jsonToFnt limit (fntToJson t) = .error .typeError) := by
  unfold jsonToFnt
  rw [json_text t h, bind_ok]
  exact ⟨Proofs.Json.convert_nested t hf limit, Proofs.Json.convert_nested_error t hf limit⟩

example : Texts sample ∧ sample.folders ≠ .nil ∧ depth sample = 2 ∧ jsonToFnt 2 (fntToJson sample) = .error .typeError :=
  ⟨sample_texts, nofun, rfl, by decide +kernel⟩

theorem get_some {d : List (Str × Json)} {key : String} {v : Json} :
    Model.Json.get d (lit key) = some v ↔ Last d key v := by
  unfold Model.Json.get Last
  simp only [Option.map_eq_some_iff, List.find?_eq_some_iff_append, decide_eq_true_eq, Bool.not_eq_true',
    decide_eq_false_iff_not]
  constructor
  · rintro ⟨⟨k, w⟩, ⟨hk, x, y, he, hx⟩, rfl⟩
    dsimp only at hk
    subst hk
    refine ⟨y.reverse, x.reverse, ?_, fun p hp => hx p (List.mem_reverse.1 hp)⟩
    have := congrArg List.reverse he
    simpa using this
  · rintro ⟨a, b, rfl, hb⟩
    exact ⟨(lit key, v), ⟨rfl, b.reverse, a.reverse, by simp, fun p hp => hb p (List.mem_reverse.1 hp)⟩, rfl⟩

theorem get_none {d : List (Str × Json)} {key : String} : Model.Json.get d (lit key) = none ↔ Absent d key := by
  unfold Model.Json.get Absent
  simp

theorem texts_ok : ∀ {l : List Json} {fs : List Str}, texts l = .ok fs ↔ l = fs.map .text
  | [], fs => by
    unfold texts
    simp only [Except.ok.injEq]
    constructor
    · rintro rfl; rfl
    · intro h; cases fs <;> first | rfl | cases h
  | .text s :: l, fs => by
    unfold texts
    simp only [bind_eq_ok, pure_eq_ok, texts_ok]
    constructor
    · rintro ⟨r, rfl, rfl⟩; rfl
    · intro h
      cases fs with
      | nil => cases h
      | cons x fs => simp only [List.map_cons, List.cons.injEq, Json.text.injEq] at h; exact ⟨fs, h.2, by rw [h.1]⟩
  | .num _ :: l, fs => by cases fs <;> simp [texts]
  | .arr _ :: l, fs => by cases fs <;> simp [texts]
  | .obj _ :: l, fs => by cases fs <;> simp [texts]

/-- C141: what texts written by hand are read as.  Exactly those objects are accepted whose number of the first file is a
number, whose files, if there are any, are a list of texts, and whose folders, if there are any, are an empty list; the last
value of a key counts, other keys do not matter, and the table has these values. -/
theorem json_by_hand (s : Str) (d : List (Str × Json)) (h : loads s = .ok (.obj d)) (limit : Nat) (t : Folder) :
    jsonToFnt (limit + 1) s = .ok t ↔
      t.folders = .nil ∧ Last d "first_id" (.num t.firstID) ∧
      (Last d "files" (.arr (t.files.map .text)) ∨ (Absent d "files" ∧ t.files = [])) ∧
      (Absent d "folders" ∨ Last d "folders" (.arr [])) := by
  obtain ⟨folders, files, firstID⟩ := t
  unfold jsonToFnt
  rw [h, bind_ok]
  unfold convertDictToFilenamesTable
  simp only [← get_some, ← get_none, Folder.folders, Folder.files, Folder.firstID]
  generalize Model.Json.get d (lit "first_id") = g1
  generalize Model.Json.get d (lit "files") = g2
  generalize Model.Json.get d (lit "folders") = g3
  have key : ∀ (n : Int) (fs : List Str), (match g3 with
      | none => return .mk .nil fs n
      | some (.arr []) => return .mk .nil fs n
      | some (.arr (.arr [_, folderDict] :: _)) => do
        let _ ← convertDictToFilenamesTable limit folderDict
        .error .typeError
      | some (.arr (.arr _ :: _)) => .error .valueError
      | some _ => .error .typeError : Py Folder) = .ok (.mk folders files firstID) ↔
        folders = .nil ∧ fs = files ∧ n = firstID ∧ (g3 = none ∨ g3 = some (.arr [])) := by
    intro n fs
    split
    · simp only [pure_eq_ok, Folder.mk.injEq]
      constructor
      · rintro ⟨rfl, rfl, rfl⟩; simp
      · rintro ⟨rfl, rfl, rfl, -⟩; exact ⟨rfl, rfl, rfl⟩
    · simp only [pure_eq_ok, Folder.mk.injEq]
      constructor
      · rintro ⟨rfl, rfl, rfl⟩; simp
      · rintro ⟨rfl, rfl, rfl, -⟩; exact ⟨rfl, rfl, rfl⟩
    · simp [bind_eq_ok]
    · simp
    · next h1 h2 h3 h4 =>
      constructor
      · intro h; cases h
      · rintro ⟨-, -, -, h | h⟩ <;> simp_all
  rcases g1 with _ | n | s | l | o
  · exact ⟨(fun h => nomatch h), fun h => nomatch h.2.1⟩
  · rcases g2 with _ | n' | s | l | o
    · refine (key n []).trans ?_
      constructor
      · rintro ⟨rfl, rfl, rfl, h⟩; exact ⟨rfl, rfl, .inr ⟨rfl, rfl⟩, h⟩
      · rintro ⟨rfl, h1, h2, h⟩; cases h1; exact ⟨rfl, by rcases h2 with h2 | h2 <;> simp_all, rfl, h⟩
    · exact ⟨(fun h => nomatch h), fun h => by rcases h.2.2.1 with h | h <;> simp at h⟩
    · exact ⟨(fun h => nomatch h), fun h => by rcases h.2.2.1 with h | h <;> simp at h⟩
    · dsimp only
      rw [bind_ok, bind_eq_ok]
      constructor
      · rintro ⟨fs, h1, h2⟩
        obtain ⟨rfl, rfl, rfl, h⟩ := (key n fs).1 h2
        exact ⟨rfl, rfl, .inl (by rw [texts_ok.1 h1]), h⟩
      · rintro ⟨rfl, h1, h2 | h2, h⟩
        · cases h1; cases h2
          exact ⟨files, texts_ok.2 rfl, (key _ _).2 ⟨rfl, rfl, rfl, h⟩⟩
        · cases h2.1
    · exact ⟨(fun h => nomatch h), fun h => by rcases h.2.2.1 with h | h <;> simp at h⟩
  · exact ⟨(fun h => nomatch h), fun h => nomatch h.2.1⟩
  · exact ⟨(fun h => nomatch h), fun h => nomatch h.2.1⟩
  · exact ⟨(fun h => nomatch h), fun h => nomatch h.2.1⟩

example : (match loads (lit "{\"files\": [1], \"first_id\": 3, \"x\": {}, \"files\": [\"a\"]}") with
      | .ok (.obj d) => d.map Prod.fst
      | _ => []) = [lit "files", lit "first_id", lit "x", lit "files"] ∧
    jsonToFnt 1 (lit "{\"files\": [1], \"first_id\": 3, \"x\": {}, \"files\": [\"a\"]}") = .ok (.mk .nil [[97]] 3) :=
  ⟨by decide +kernel, by decide +kernel⟩

end Verif.Props.Json
