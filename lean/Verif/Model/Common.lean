import Verif.Base.Str

/-!
# Model of the shared helpers in `ndspy/_common.py` that file formats use
-/

namespace Verif.Model.Common

open Verif

/-- The fields of `NDS_STD_FILE_HEADER` (_common.py 28–36). -/
structure StdHeader where
  magic : Bytes
  bom : Nat
  version : Nat
  fileSize : Nat
  headerSize : Nat
  numBlocks : Nat
  deriving DecidableEq, Repr

/-- `NDS_STD_FILE_HEADER.pack(...)`, format `<4sHHIHH` (_common.py 28). -/
def packStdHeader (h : StdHeader) : Py Bytes := do
  let a ← packU .little 2 h.bom
  let b ← packU .little 2 h.version
  let c ← packU .little 4 h.fileSize
  let d ← packU .little 2 h.headerSize
  let e ← packU .little 2 h.numBlocks
  return packStr 4 h.magic ++ a ++ b ++ c ++ d ++ e

/-- `NDS_STD_FILE_HEADER.unpack_from(data, off)` (_common.py 28).  The buffer check comes first for the whole
struct; since all checks raise the same exception, reading field by field makes no difference. -/
def unpackStdHeader (data : Bytes) (off : Nat) : Py StdHeader := do
  let magic ← unpackStr 4 data off
  let bom ← unpackU .little 2 data (off + 4)
  let version ← unpackU .little 2 data (off + 6)
  let fileSize ← unpackU .little 4 data (off + 8)
  let headerSize ← unpackU .little 2 data (off + 12)
  let numBlocks ← unpackU .little 2 data (off + 14)
  return ⟨magic, bom, version, fileSize, headerSize, numBlocks⟩

/-- The bytes of a header whose fields are in range. -/
def stdHeaderBytes (h : StdHeader) : Bytes :=
  packStr 4 h.magic ++ enBytes .little 2 h.bom ++ enBytes .little 2 h.version ++
    enBytes .little 4 h.fileSize ++ enBytes .little 2 h.headerSize ++ enBytes .little 2 h.numBlocks

/-- The fields fit. -/
def StdHeader.Ok (h : StdHeader) : Prop :=
  h.bom < 2 ^ 16 ∧ h.version < 2 ^ 16 ∧ h.fileSize < 2 ^ 32 ∧ h.headerSize < 2 ^ 16 ∧ h.numBlocks < 2 ^ 16

theorem StdHeader.ok_mk {m : Bytes} {v s n : Nat} (hs : s < 2 ^ 32) (hv : v < 2 ^ 16 := by decide)
    (hn : n < 2 ^ 16 := by decide) : StdHeader.Ok ⟨m, 0xFEFF, v, s, 0x10, n⟩ :=
  ⟨(by decide : 0xFEFF < 2 ^ 16), hv, hs, (by decide : 0x10 < 2 ^ 16), hn⟩

@[simp] theorem stdHeaderBytes_length (h : StdHeader) : (stdHeaderBytes h).length = 16 := by
  simp [stdHeaderBytes]

theorem packStdHeader_eq_ok {h : StdHeader} {b : Bytes} :
    packStdHeader h = .ok b ↔ h.Ok ∧ b = stdHeaderBytes h := by
  unfold packStdHeader StdHeader.Ok stdHeaderBytes
  simp only [bind_eq_ok, pure_eq_ok, packU_eq_ok]
  constructor
  · rintro ⟨_, ⟨h1, rfl⟩, _, ⟨h2, rfl⟩, _, ⟨h3, rfl⟩, _, ⟨h4, rfl⟩, _, ⟨h5, rfl⟩, rfl⟩
    exact ⟨⟨h1, h2, h3, h4, h5⟩, rfl⟩
  · rintro ⟨⟨h1, h2, h3, h4, h5⟩, rfl⟩
    exact ⟨_, ⟨h1, rfl⟩, _, ⟨h2, rfl⟩, _, ⟨h3, rfl⟩, _, ⟨h4, rfl⟩, _, ⟨h5, rfl⟩, rfl⟩

theorem packStdHeader_err {h : StdHeader} {e : PyErr} (he : packStdHeader h = .error e) : e = .structError := by
  unfold packStdHeader at he
  simp only [bind_eq_error] at he
  rcases he with he | ⟨_, _, he | ⟨_, _, he | ⟨_, _, he | ⟨_, _, he | ⟨_, _, he⟩⟩⟩⟩⟩
  · exact packU_err he
  · exact packU_err he
  · exact packU_err he
  · exact packU_err he
  · exact packU_err he
  · cases he

/-- A packed header is read back. -/
theorem unpackStdHeader_at {data : Bytes} {off : Nat} {h : StdHeader} (hat : At data off (stdHeaderBytes h))
    (hok : h.Ok) (hm : h.magic.length = 4) : unpackStdHeader data off = .ok h := by
  obtain ⟨h1, h2, h3, h4, h5⟩ := hok
  unfold stdHeaderBytes at hat
  simp only [At.split, packStr_length, enBytes_length, List.length_append] at hat
  obtain ⟨⟨⟨⟨⟨a1, a2⟩, a3⟩, a4⟩, a5⟩, a6⟩ := hat
  rw [packStr_of_length hm] at a1
  unfold unpackStdHeader
  rw [a1.unpackStr hm, bind_ok, a2.unpackU (by omega), bind_ok, a3.unpackU (by omega), bind_ok,
    a4.unpackU (by omega), bind_ok, a5.unpackU (by omega), bind_ok, a6.unpackU (by omega), bind_ok]
  rfl

/-- What is read can be packed. -/
theorem unpackStdHeader_inv {data : Bytes} {off : Nat} {h : StdHeader} (he : unpackStdHeader data off = .ok h) :
    h.Ok ∧ h.magic.length = 4 ∧ At data off (stdHeaderBytes h) := by
  unfold unpackStdHeader at he
  simp only [bind_eq_ok, pure_eq_ok] at he
  obtain ⟨m, h0, a, h1, b, h2, c, h3, d, h4, e, h5, rfl⟩ := he
  obtain ⟨hm, hml⟩ := unpackStr_eq_ok.1 h0
  refine ⟨⟨unpackU_lt h1, unpackU_lt h2, unpackU_lt h3, unpackU_lt h4, unpackU_lt h5⟩, hml, ?_⟩
  unfold stdHeaderBytes
  simp only [At.split, enBytes_length, List.length_append, packStr_of_length hml, hml]
  exact ⟨⟨⟨⟨⟨hm, At.of_unpackU h1⟩, At.of_unpackU h2⟩, At.of_unpackU h3⟩, At.of_unpackU h4⟩,
    At.of_unpackU h5⟩

end Verif.Model.Common
