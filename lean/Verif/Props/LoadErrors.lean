import Verif.Spec.LoadErrors
import Verif.Proofs.LoadErrors
import Verif.Props.Bmg
import Verif.Props.FormatBmg
import Verif.Props.FormatHeader
import Verif.Props.Nsbmd

/-!
# Files of another kind, and damaged ones (C133)
-/

namespace Verif.Props.LoadErrors

open Verif Verif.Model.Common Verif.Spec.LoadErrors Verif.Spec.Reader Verif.Proofs.Reader
open Verif.Proofs.SeqRead (Errs)

/-- What the loaders are given besides the data, or depend on: the Shift-JIS codec, how many rounds the loop over a message may
take, the ID passed for a BMG, the recursion limit, how Python iterates a set of instrument types, and the values that a sound
archive passes on. -/
structure Env where
  sjis : Model.Text.Codec
  fuel : Nat
  id0 : Nat
  limit : Nat
  choose : List Nat → Nat
  unk02 : Nat
  names : List (Option Str)
  waveArchiveIDs : List (Option Int)

/-- Load the data as a file of a kind, and forget the object. -/
def loadAny (v : Env) (k : Kind) (d : Bytes) : Py Unit :=
  match k with
  | .bnbl => (Model.Bn.BNBL.load d).map fun _ => ()
  | .bncl => (Model.Bn.BNCL.load d).map fun _ => ()
  | .bmg => (Model.Bmg.BMG.load v.sjis v.fuel d v.id0).map fun _ => ()
  | .narc => (Model.Narc.load v.limit d).map fun _ => ()
  | .sdat => (Model.SoundArchiveObject.Archive.load v.choose d).map fun _ => ()
  | .sseq => (Model.SequenceObject.SSEQObj.init (some d)).map fun _ => ()
  | .ssar => (Model.SequenceObject.SSARObj.init (some d) v.unk02 v.names).map fun _ => ()
  | .sbnk => (Model.SoundBank.SBNK.load v.choose d v.unk02 v.waveArchiveIDs).map fun _ => ()
  | .swar => (Model.SoundWave.loadSWAR d).map fun _ => ()
  | .swav => (Model.SoundWave.SWAV.load d).map fun _ => ()
  | .strm => (Model.SoundStream.STRM.load d).map fun _ => ()
  | .nsbtx => (Model.Texture.load d).map fun _ => ()
  | .nsbmd => (Model.Nsbmd.NSBMD.load d).map fun _ => ()

theorem map_error {α β : Type} {f : α → β} {x : Py α} {e : PyErr} (h : x = .error e) : x.map f = .error e := by
  rw [h]; rfl

theorem sig4 {d m : Bytes} (hm : m.length = 4) : m <+: d ↔ d.take 4 = m := by
  rw [List.prefix_iff_eq_take, hm]; exact eq_comm

/-! ## The signature -/

/-- Data that do not begin with the signature are refused with `ValueError`; for NARCs and sound archives, if there are at least
the 16 bytes of a header. -/
theorem wrong_signature (v : Env) (k : Kind) (d : Bytes) (h : ¬ k.signature <+: d) (hl : k.headerFirst → 16 ≤ d.length) :
    loadAny v k d = .error .valueError := by
  have first : ∀ {α : Type} {m : Bytes} (f : Unit → Py α), m.length = 4 → ¬ m <+: d →
      (raiseIf (d.take 4 ≠ m) .valueError >>= f) = .error .valueError := by
    intro α m f hm hp
    have hne : d.take 4 ≠ m := fun e => hp ((sig4 hm).2 e)
    rw [raiseIf_true hne]
    rfl
  have hdr : 16 ≤ d.length → unpackStdHeader d 0 =
      .ok ⟨bytesAt d 0 4, u16 d 4, u16 d 6, u32 d 8, u16 d 12, u16 d 14⟩ := fun hl =>
    stdHeader_iff.2 ⟨by omega, rfl⟩
  have sig : ∀ {m : Bytes}, m.length = 4 → ¬ m <+: d → bytesAt d 0 4 ≠ m := fun hm hp e => hp ((sig4 hm).2 e)
  cases k <;> apply map_error
  case bnbl => exact first _ rfl h
  case bncl => exact first _ rfl h
  case bmg =>
    unfold Model.Bmg.BMG.load
    rw [raiseIf_true]
    · rfl
    · intro e; exact h (List.prefix_iff_eq_take.2 e.symm)
  case narc =>
    unfold Model.Narc.load
    rw [hdr (hl (.inl rfl)), bind_ok]
    dsimp only
    generalize (if u16 d 4 = 0xFFFE then u16 d 6 % 256 * 256 + u16 d 6 / 256 else u16 d 6) = w
    by_cases hw : w = 1
    · rw [raiseIf_false (by simpa using hw), bind_ok,
        raiseIf_true (show bytesAt d 0 4 ≠ Model.Narc.magicNARC from sig rfl h)]; rfl
    · rw [raiseIf_true hw]; rfl
  case sdat =>
    unfold Model.SoundArchiveObject.Archive.load Model.SoundArchive.SDAT.load
    rw [hdr (hl (.inr rfl)), bind_ok]
    dsimp only
    by_cases hw : u16 d 6 = 0x100
    · rw [raiseIf_false (by simpa using hw), bind_ok,
        raiseIf_true (show bytesAt d 0 4 ≠ Model.SoundArchive.magicSDAT from sig rfl h)]; rfl
    · rw [raiseIf_true hw]; rfl
  case sseq => exact first _ rfl h
  case ssar =>
    apply bind_eq_error.2
    exact .inl (first _ rfl h)
  case sbnk => exact first _ rfl h
  case swar => exact first _ rfl h
  case swav => exact first _ rfl h
  case strm => exact first _ rfl h
  case nsbtx => exact first _ rfl h
  case nsbmd => exact first _ rfl h

theorem short_header {d : Bytes} (h : d.length < 16) : unpackStdHeader d 0 = .error .structError := by
  cases e : unpackStdHeader d 0 with
  | ok x => have := (stdHeader_iff.1 e).1; omega
  | error err =>
    have := Proofs.LoadErrors.stdHeader (p := (· = .structError)) rfl err e
    rw [this]

/-- NARCs and sound archives with less than 16 bytes, whatever they are, are refused with `struct.error`. -/
theorem header_missing (v : Env) (k : Kind) (d : Bytes) (hk : k.headerFirst) (h : d.length < 16) :
    loadAny v k d = .error .structError := by
  rcases hk with rfl | rfl <;> apply map_error
  · unfold Model.Narc.load
    rw [short_header h]; rfl
  · unfold Model.SoundArchiveObject.Archive.load Model.SoundArchive.SDAT.load
    rw [short_header h]; rfl

/-! ## The version -/

/-- A file with a header that states another version is refused with `ValueError`. -/
theorem wrong_version (v : Env) (k : Kind) (d : Bytes) (n : Nat) (hn : k.version = some n) (hl : 16 ≤ d.length)
    (hv : statedVersion k d ≠ n) : loadAny v k d = .error .valueError := by
  by_cases h : k.signature <+: d
  case neg => exact wrong_signature v k d h fun _ => hl
  have hdr : unpackStdHeader d 0 = .ok ⟨bytesAt d 0 4, u16 d 4, u16 d 6, u32 d 8, u16 d 12, u16 d 14⟩ :=
    stdHeader_iff.2 ⟨by omega, rfl⟩
  have hu : ∀ k', k' ≠ .narc → statedVersion k' d = u16 d 6 := by
    intro k' hk'
    unfold statedVersion
    rw [if_neg (fun h => hk' h.1)]; rfl
  have skip : ∀ {m : Bytes}, m.length = 4 → m <+: d → raiseIf (d.take 4 ≠ m) .valueError = .ok () := by
    intro m hm hp
    exact raiseIf_false (by simpa using (sig4 hm).1 hp)
  cases k <;> apply map_error
  case bnbl => cases hn
  case bncl => cases hn
  case bmg => cases hn
  case narc =>
    cases hn
    unfold Model.Narc.load
    rw [hdr, bind_ok]
    dsimp only
    rw [raiseIf_true]
    · rfl
    · have hb : ∀ o, u8 d o < 256 := fun o => (d[o]?.getD 0).toNat_lt
      have h4 := hb 4; have h5 := hb 5; have h6 := hb 6; have h7 := hb 7
      have e4 : u16 d 4 = u8 d 4 + 0x100 * u8 d 5 := rfl
      have e6 : u16 d 6 = u8 d 6 + 0x100 * u8 d 7 := rfl
      unfold statedVersion at hv
      intro e
      apply hv
      split at e
      · rw [if_pos ⟨rfl, by omega, by omega⟩]; omega
      · rw [if_neg (by rintro ⟨_, h1, h2⟩; omega)]; omega
  case sdat =>
    cases hn
    rw [hu _ (by decide)] at hv
    unfold Model.SoundArchiveObject.Archive.load Model.SoundArchive.SDAT.load
    rw [hdr, bind_ok, raiseIf_true hv]; rfl
  case sseq =>
    cases hn
    rw [hu _ (by decide)] at hv
    show (do
      raiseIf (d.take 4 ≠ Model.SoundSequence.magicSSEQ) .valueError
      let version ← unpackU .little 2 d 6
      let totalFileLen ← unpackU .little 4 d 8
      raiseIf (version ≠ 0x100) .valueError
      let dataOffs ← unpackU .little 4 d 0x18
      return (⟨[], some (slice d dataOffs totalFileLen), false⟩ : Model.SequenceObject.SSEQObj)) = _
    rw [skip (m := Model.SoundSequence.magicSSEQ) rfl h, bind_ok, unpack2.2 ⟨by omega, rfl⟩, bind_ok, unpack4.2 ⟨by omega, rfl⟩, bind_ok, raiseIf_true hv]
    rfl
  case ssar =>
    cases hn
    rw [hu _ (by decide)] at hv
    apply bind_eq_error.2
    left
    unfold Model.SoundSequenceArchive.SSAR.load
    rw [skip (m := Model.SoundSequenceArchive.magicSSAR) rfl h, bind_ok, hdr, bind_ok, raiseIf_true hv]; rfl
  case sbnk =>
    cases hn
    rw [hu _ (by decide)] at hv
    unfold Model.SoundBank.SBNK.load
    rw [skip (m := Model.SoundBank.magicSBNK) rfl h, bind_ok, hdr, bind_ok, pyAssert_true (show bytesAt d 0 4 = Model.SoundBank.magicSBNK from (sig4 rfl).1 h), bind_ok, raiseIf_true hv]; rfl
  case swar =>
    cases hn
    rw [hu _ (by decide)] at hv
    unfold Model.SoundWave.loadSWAR
    rw [skip (m := Model.SoundWave.magicSWAR) rfl h, bind_ok, hdr, bind_ok, raiseIf_true hv]; rfl
  case swav =>
    cases hn
    rw [hu _ (by decide)] at hv
    unfold Model.SoundWave.SWAV.load
    rw [skip (m := Model.SoundWave.magicSWAV) rfl h, bind_ok, hdr, bind_ok, raiseIf_true hv]; rfl
  case strm =>
    cases hn
    rw [hu _ (by decide)] at hv
    unfold Model.SoundStream.STRM.load
    rw [skip (m := Model.SoundStream.magicSTRM) rfl h, bind_ok, hdr, bind_ok, raiseIf_true hv]; rfl
  case nsbtx =>
    cases hn
    rw [hu _ (by decide)] at hv
    unfold Model.Texture.load
    rw [skip (m := Model.Texture.BTX0) rfl h, bind_ok, hdr, bind_ok, raiseIf_true hv]; rfl
  case nsbmd =>
    cases hn
    rw [hu _ (by decide)] at hv
    unfold Model.Nsbmd.NSBMD.load
    rw [skip (m := Model.Nsbmd.BMD0) rfl h, bind_ok, hdr, bind_ok, raiseIf_true hv]; rfl

/-! ## What is accepted -/

theorem map_ok {α : Type} {x : Py α} (h : x.map (fun _ => ()) = .ok ()) : ∃ a, x = .ok a := by
  cases x with
  | ok a => exact ⟨a, rfl⟩
  | error e => cases h

theorem accepted_length (v : Env) (k : Kind) (d : Bytes) (n : Nat) (hn : k.version = some n) (h : loadAny v k d = .ok ()) :
    16 ≤ d.length := by
  rw [← Nat.not_lt]
  intro hl
  have hs := short_header hl
  cases k
  case bnbl => cases hn
  case bncl => cases hn
  case bmg => cases hn
  case narc => rw [header_missing v _ d (.inl rfl) hl] at h; cases h
  case sdat => rw [header_missing v _ d (.inr rfl) hl] at h; cases h
  case sseq =>
    obtain ⟨a, h⟩ := map_ok h
    unfold Model.SequenceObject.SSEQObj.init at h
    simp only [bind_eq_ok, unpack4] at h
    obtain ⟨_, _, _, _, _, _, _, _, _, ⟨h, _⟩, _⟩ := h
    omega
  case ssar =>
    obtain ⟨a, h⟩ := map_ok h
    unfold Model.SequenceObject.SSARObj.init Model.SoundSequenceArchive.SSAR.load at h
    simp only [bind_eq_ok, hs, reduceCtorEq, false_and, exists_false, and_false] at h
  case sbnk =>
    obtain ⟨a, h⟩ := map_ok h
    unfold Model.SoundBank.SBNK.load at h
    simp only [bind_eq_ok, hs, reduceCtorEq, false_and, exists_false, and_false] at h
  case swar =>
    obtain ⟨a, h⟩ := map_ok h
    unfold Model.SoundWave.loadSWAR at h
    simp only [bind_eq_ok, hs, reduceCtorEq, false_and, exists_false, and_false] at h
  case swav =>
    obtain ⟨a, h⟩ := map_ok h
    unfold Model.SoundWave.SWAV.load at h
    simp only [bind_eq_ok, hs, reduceCtorEq, false_and, exists_false, and_false] at h
  case strm =>
    obtain ⟨a, h⟩ := map_ok h
    unfold Model.SoundStream.STRM.load at h
    simp only [bind_eq_ok, hs, reduceCtorEq, false_and, exists_false, and_false] at h
  case nsbtx =>
    obtain ⟨a, h⟩ := map_ok h
    unfold Model.Texture.load at h
    simp only [bind_eq_ok, hs, reduceCtorEq, false_and, exists_false, and_false] at h
  case nsbmd =>
    obtain ⟨a, h⟩ := map_ok h
    unfold Model.Nsbmd.NSBMD.load at h
    simp only [bind_eq_ok, hs, reduceCtorEq, false_and, exists_false, and_false] at h

/-- What is loaded begins with the signature of the kind, and states its version. -/
theorem accepted (v : Env) (k : Kind) (d : Bytes) (h : loadAny v k d = .ok ()) :
    k.signature <+: d ∧ ∀ n, k.version = some n → 16 ≤ d.length ∧ statedVersion k d = n := by
  refine ⟨?_, fun n hn => ?_⟩
  · refine Decidable.byContradiction fun hp => ?_
    by_cases hf : k.headerFirst ∧ d.length < 16
    · rw [header_missing v k d hf.1 hf.2] at h; cases h
    · rw [wrong_signature v k d hp (fun hk => by rw [← Nat.not_lt]; exact fun hl => hf ⟨hk, hl⟩)] at h; cases h
  · have hl := accepted_length v k d n hn h
    refine ⟨hl, Decidable.byContradiction fun hv => ?_⟩
    rw [wrong_version v k d n hn hl hv] at h; cases h

/-- No data are accepted as two kinds of files. -/
theorem one_kind (v w : Env) (k k' : Kind) (d : Bytes) (h : loadAny v k d = .ok ()) (h' : loadAny w k' d = .ok ()) : k = k' := by
  have h1 := (accepted v k d h).1
  have h2 := (accepted w k' d h').1
  have hn : ∀ k k' : Kind, (k.signature.take 4 = k'.signature.take 4 → k = k') ∧ 4 ≤ k.signature.length := by
    intro k k'; cases k <;> cases k' <;> decide
  have t : ∀ {k : Kind}, k.signature <+: d → k.signature.take 4 = d.take 4 := by
    intro k hk
    obtain ⟨r, rfl⟩ := hk
    rw [List.take_append_of_le_length (hn k k).2]
  exact (hn k k').1 ((t h1).trans (t h2).symm)

/-! ## What is saved -/

/-- The bytes were saved by an object of a kind. -/
inductive Saved (sjis : Model.Text.Codec) : Kind → Bytes → Prop
  | bnbl (o : Model.Bn.BNBL) {b : Bytes} : o.save = .ok b → Saved sjis .bnbl b
  | bncl (o : Model.Bn.BNCL) {b : Bytes} : o.save = .ok b → Saved sjis .bncl b
  | bmg (o : Model.Bmg.BMG) {b : Bytes} : o.save sjis = .ok b → Saved sjis .bmg b
  | narc (o : Model.Narc.NARC) {b : Bytes} : Model.Narc.save o = .ok b → Saved sjis .narc b
  | sdat (o : Model.SoundArchiveObject.Archive) {b : Bytes} : o.save = .ok b → Saved sjis .sdat b
  | sseq (o : Model.SequenceObject.SSEQObj) {b : Bytes} : o.save = .ok b → Saved sjis .sseq b
  | ssar (o : Model.SequenceObject.SSARObj) {b : Bytes} {u : Nat} {names : List (Option Str)} :
      o.save = .ok (b, u, names) → Saved sjis .ssar b
  | sbnk (o : Model.SoundBank.SBNK) {b : Bytes} {u : Nat} {ids : List (Option Int)} :
      o.save = .ok (b, u, ids) → Saved sjis .sbnk b
  | swar (o : List Model.SoundWave.SWAV) {b : Bytes} : Model.SoundWave.saveSWAR o = .ok b → Saved sjis .swar b
  | swav (o : Model.SoundWave.SWAV) (x y : Bool) {b : Bytes} {o' : Model.SoundWave.SWAV} :
      o.save x y = .ok (b, o') → Saved sjis .swav b
  | strm (o : Model.SoundStream.STRM) {b : Bytes} : o.save = .ok b → Saved sjis .strm b
  | nsbtx (o : Model.Texture.NSBTX) {b : Bytes} : Model.Texture.save o = .ok b → Saved sjis .nsbtx b
  | nsbmd (o : Model.Nsbmd.NSBMD) {b : Bytes} : o.save = .ok b → Saved sjis .nsbmd b

theorem header_prefix {h : StdHeader} {x rest : Bytes} (hx : packStdHeader h = .ok x) (hm : h.magic.length = 4) :
    h.magic <+: x ++ rest ∧ 16 ≤ (x ++ rest).length := by
  obtain ⟨_, rfl⟩ := packStdHeader_eq_ok.1 hx
  constructor
  · unfold stdHeaderBytes
    rw [packStr_of_length hm]
    exact ⟨_, by simp only [List.append_assoc]; rfl⟩
  · simp

theorem at_prefix {b : Bytes} {h : StdHeader} (hat : At b 0 (stdHeaderBytes h)) (hm : h.magic.length = 4) :
    h.magic <+: b ∧ 16 ≤ b.length := by
  have hb : slice b 0 (0 + (stdHeaderBytes h).length) = stdHeaderBytes h := hat.slice_eq rfl
  have hl : (stdHeaderBytes h).length = 16 := stdHeaderBytes_length h
  have hp : stdHeaderBytes h <+: b := by
    refine List.prefix_iff_eq_take.2 ?_
    rw [← hb]
    simp [slice, hl]
  refine ⟨List.IsPrefix.trans ?_ hp, hl ▸ hp.length_le⟩
  unfold stdHeaderBytes
  rw [packStr_of_length hm]
  exact ⟨_, by simp only [List.append_assoc]; rfl⟩

/-- Every saved file begins with the signature of its kind; all but those of the first two kinds have at least 16 bytes. -/
theorem saved_signature (sjis : Model.Text.Codec) (k : Kind) (b : Bytes) (h : Saved sjis k b) :
    k.signature <+: b ∧ (k ≠ .bnbl → k ≠ .bncl → 16 ≤ b.length) := by
  cases h
  case bnbl o h =>
    unfold Model.Bn.BNBL.save at h
    simp only [bind_eq_ok, pure_eq_ok] at h
    obtain ⟨u, _, n, _, parts, _, rfl⟩ := h
    exact ⟨⟨_, by simp only [List.append_assoc]; rfl⟩, fun h => absurd rfl h⟩
  case bncl o h =>
    unfold Model.Bn.BNCL.save at h
    simp only [bind_eq_ok, pure_eq_ok] at h
    obtain ⟨u, _, n, _, parts, _, rfl⟩ := h
    exact ⟨⟨_, by simp only [List.append_assoc]; rfl⟩, fun _ h => absurd rfl h⟩
  case bmg o h =>
    unfold Model.Bmg.BMG.save Model.Bmg.fileHeader at h
    simp only [bind_eq_ok, pure_eq_ok] at h
    obtain ⟨_, _, _, _, _, _, _, _, _, _, _, _, _, _, x, ⟨y, hy, rfl⟩, rfl⟩ := h
    refine ⟨⟨_, by simp only [List.append_assoc]; rfl⟩, fun _ _ => ?_⟩
    have hl := (packUs_eq_ok.1 hy).2
    rw [hl]
    simp [structBytes_length, Model.Bmg.magicMESG]
    omega
  case narc o h =>
    obtain ⟨names, hs⟩ := Proofs.Narc.save_inv h
    have hl := Proofs.Narc.layout o names
    rw [← hs.bytes] at hl
    exact ⟨(at_prefix hl.header rfl).1, fun _ _ => (at_prefix hl.header rfl).2⟩
  case sdat o h =>
    unfold Model.SoundArchiveObject.Archive.save Model.SoundArchive.SDAT.save at h
    simp only [bind_eq_ok, pure_eq_ok] at h
    obtain ⟨_, _, _, _, _, _, _, _, _, _, x, hx, rfl⟩ := h
    simp only [List.append_assoc]
    exact ⟨(header_prefix hx rfl).1, fun _ _ => (header_prefix hx rfl).2⟩
  case sseq o h =>
    unfold Model.SequenceObject.SSEQObj.save at h
    simp only [bind_eq_ok, pure_eq_ok] at h
    obtain ⟨_, _, x, hx, _, _, _, _, rfl⟩ := h
    rw [List.append_assoc]
    exact ⟨(header_prefix hx rfl).1, fun _ _ => (header_prefix hx rfl).2⟩
  case ssar o u names h =>
    unfold Model.SequenceObject.SSARObj.save at h
    simp only [bind_eq_ok, pure_eq_ok, Prod.mk.injEq] at h
    obtain ⟨_, _, x, hx, _, _, _, _, _, _, rfl, _⟩ := h
    simp only [List.append_assoc]
    exact ⟨(header_prefix hx rfl).1, fun _ _ => (header_prefix hx rfl).2⟩
  case sbnk o u ids h =>
    unfold Model.SoundBank.SBNK.save at h
    simp only [bind_eq_ok, pure_eq_ok, Prod.mk.injEq] at h
    obtain ⟨_, _, _, _, x, hx, _, _, _, _, rfl, _⟩ := h
    simp only [List.append_assoc]
    exact ⟨(header_prefix hx rfl).1, fun _ _ => (header_prefix hx rfl).2⟩
  case swar o h =>
    unfold Model.SoundWave.saveSWAR at h
    simp only [bind_eq_ok, pure_eq_ok] at h
    obtain ⟨x, hx, _, _, _, _, _, _, _, _, rfl⟩ := h
    simp only [List.append_assoc]
    exact ⟨(header_prefix hx rfl).1, fun _ _ => (header_prefix hx rfl).2⟩
  case swav o x y o' h =>
    unfold Model.SoundWave.SWAV.save Model.SoundWave.SWAV.saveBytes at h
    simp only [bind_eq_ok, pure_eq_ok, Prod.mk.injEq] at h
    obtain ⟨_, _, _, ⟨_, _, x, hx, _, _, _, _, rfl⟩, rfl, _⟩ := h
    simp only [List.append_assoc]
    exact ⟨(header_prefix hx rfl).1, fun _ _ => (header_prefix hx rfl).2⟩
  case strm o h =>
    unfold Model.SoundStream.STRM.save at h
    simp only [bind_eq_ok, pure_eq_ok] at h
    obtain ⟨_, _, x, hx, _, _, _, _, _, _, rfl⟩ := h
    simp only [List.append_assoc]
    exact ⟨(header_prefix hx rfl).1, fun _ _ => (header_prefix hx rfl).2⟩
  case nsbtx o h =>
    unfold Model.Texture.save at h
    simp only [bind_eq_ok, pure_eq_ok] at h
    obtain ⟨_, _, x, hx, rfl⟩ := h
    simp only [List.append_assoc]
    exact ⟨(header_prefix hx rfl).1, fun _ _ => (header_prefix hx rfl).2⟩
  case nsbmd o h =>
    unfold Model.Nsbmd.NSBMD.save at h
    split at h
    · cases h
    simp only [bind_eq_ok, pure_eq_ok] at h
    obtain ⟨_, _, _, _, x, hx, rfl⟩ := h
    simp only [List.append_assoc]
    exact ⟨(header_prefix hx rfl).1, fun _ _ => (header_prefix hx rfl).2⟩

/-- A saved file is refused by the loaders of all other kinds: with `ValueError`, or, if it is an empty list of touch areas or of
image positions or has only one entry, by the loaders for NARCs and sound archives with `struct.error`. -/
theorem saved_refused (sjis : Model.Text.Codec) (v : Env) (k k' : Kind) (b : Bytes) (h : Saved sjis k b) (hk : k' ≠ k) :
    loadAny v k' b = .error (if k'.headerFirst ∧ b.length < 16 then .structError else .valueError) := by
  have hs := (saved_signature sjis k b h).1
  split
  · rename_i hc; exact header_missing v k' b hc.1 hc.2
  · rename_i hc
    apply wrong_signature
    · intro hp
      have hn : ∀ k k' : Kind, (k.signature.take 4 = k'.signature.take 4 → k = k') ∧ 4 ≤ k.signature.length := by
        intro k k'; cases k <;> cases k' <;> decide
      have t : ∀ {k : Kind}, k.signature <+: b → k.signature.take 4 = b.take 4 := by
        intro k hk
        obtain ⟨r, rfl⟩ := hk
        rw [List.take_append_of_le_length (hn k k).2]
      exact hk ((hn k' k).1 ((t hp).trans (t hs).symm))
    · intro hf
      rw [← Nat.not_lt]
      exact fun hl => hc ⟨hf, hl⟩

/-! ## All exceptions -/

theorem errs_map {α : Type} {p : PyErr → Prop} {x : Py α} (h : Errs p x) : Errs p (x.map fun _ => ()) := by
  cases x with
  | ok a => exact Errs.ok _
  | error e =>
    intro e' h'
    cases h'
    exact h e rfl

/-- Loading ends with an object or with one of the exceptions listed for the kind, whatever the data. -/
theorem raises_only (v : Env) (k : Kind) (d : Bytes) (e : PyErr) (hj : ∀ b e, v.sjis.dec b = .error e → e = .unicodeError)
    (h : loadAny v k d = .error e) : e ∈ k.mayRaise := by
  revert e
  suffices Errs (· ∈ k.mayRaise) (loadAny v k d) from this
  cases k <;> apply errs_map
  case bnbl => exact Proofs.LoadErrors.bnbl (by decide) (by decide) d
  case bncl => exact Proofs.LoadErrors.bncl (by decide) (by decide) d
  case bmg =>
    refine Proofs.LoadErrors.bmg (by decide) (by decide) (by decide) (by decide) (by decide) ?_ _ _ _
    intro b e he
    rw [hj b e he]
    decide
  case narc => exact Proofs.LoadErrors.narc (by decide) (by decide) (by decide) (by decide) _ d
  case sdat => exact Proofs.LoadErrors.archive (by decide) (by decide) (by decide) (by decide) _ d
  case sseq => exact Proofs.LoadErrors.sseqObj (by decide) (by decide) d
  case ssar => exact Proofs.LoadErrors.ssarObj (by decide) (by decide) (by decide) d _ _
  case sbnk => exact Proofs.LoadErrors.sbnk (by decide) (by decide) (by decide) (by decide) _ d _ _
  case swar => exact Proofs.LoadErrors.swar (by decide) (by decide) (by decide) d
  case swav => exact Proofs.LoadErrors.swav (by decide) (by decide) (by decide) d
  case strm => exact Proofs.LoadErrors.strm (by decide) (by decide) (by decide) d
  case nsbtx => exact Proofs.LoadErrors.nsbtx (by decide) (by decide) (by decide) (by decide) d
  case nsbmd => exact Proofs.LoadErrors.nsbmd (by decide) (by decide) (by decide) (by decide) d

/-! ## None of them is listed in vain -/

/-- A table of names whose only folder contains itself. -/
def selfFnt : Bytes := [8, 0, 0, 0, 0, 0, 1, 0, 129, 97, 0, 240, 0]

theorem selfFnt_loops : ∀ limit, Model.Fnt.loadFolder selfFnt limit 0xF000 = .error .recursionError
  | 0 => rfl
  | n + 1 => by
    show (Model.Fnt.loadFolder selfFnt n 0xF000 >>= _) >>= _ = _
    rw [selfFnt_loops n]
    rfl

/-- The standard header with a signature, a version and one block, for a file of 16 bytes. -/
def head (k : Kind) (size : Nat) : Bytes :=
  k.signature.take 4 ++ [0xFF, 0xFE] ++ enBytes .little 2 (k.version.getD 0) ++ enBytes .little 4 size ++ [0x10, 0, 1, 0]

/-- A texture block with one palette that begins behind its end. -/
def badTex : Bytes :=
  [0x54, 0x45, 0x58, 0x30, 116, 0, 0, 0, 0, 0, 0, 0, 0, 0, 0x3C, 0] ++ zeros 32 ++ [0, 0, 0, 0, 0x4C, 0, 0, 0, 0x74, 0, 0, 0] ++
  [0, 0, 16, 0, 8, 0, 12, 0, 0x7F, 1, 0, 0, 8, 0, 4, 0] ++
  [0, 1, 40, 0, 8, 0, 16, 0, 0x7F, 1, 0, 0] ++ zeros 4 ++ [4, 0, 8, 0, 1, 0, 0, 0] ++ zeros 16

/-- A damaged file of each kind for each exception. -/
def damaged : Kind → PyErr → Bytes
  | .bmg, .structError => Kind.bmg.signature
  | .bmg, .assertionError =>
    Kind.bmg.signature ++ [64, 0, 0, 0, 1, 0, 0, 0, 4] ++ zeros 15 ++ [0x46, 0x4C, 0x49, 0x31, 32, 0, 0, 0] ++ zeros 24
  | .bmg, .unicodeError =>
    Kind.bmg.signature ++ [96, 0, 0, 0, 2, 0, 0, 0, 4] ++ zeros 15 ++
    [0x49, 0x4E, 0x46, 0x31, 32, 0, 0, 0, 1, 0, 4, 0, 0, 0, 0, 0, 1, 0, 0, 0] ++ zeros 12 ++
    [0x44, 0x41, 0x54, 0x31, 32, 0, 0, 0, 0, 0xFF] ++ zeros 22
  | .bmg, .outOfFuel => Bmg.noDat
  | .narc, .recursionError =>
    head .narc 65 ++ [0x42, 0x54, 0x41, 0x46, 12, 0, 0, 0, 0, 0, 0, 0] ++ [0x42, 0x54, 0x4E, 0x46, 21, 0, 0, 0] ++ selfFnt ++
    [0x47, 0x4D, 0x49, 0x46, 8, 0, 0, 0]
  | .sdat, .indexError =>
    head .sdat 0 ++ [0, 0, 0, 0, 0, 0, 0, 0, 76, 0, 0, 0, 58, 0, 0, 0, 64, 0, 0, 0, 12, 0, 0, 0, 0, 0, 0, 0, 0, 0, 0, 0] ++ zeros 16 ++
    [0x46, 0x41, 0x54, 0x20, 12, 0, 0, 0, 0, 0, 0, 0] ++ [0x49, 0x4E, 0x46, 0x4F, 58, 0, 0, 0, 40, 0, 0, 0] ++ zeros 28 ++
    [1, 0, 0, 0, 48, 0, 0, 0] ++ zeros 10
  | .sbnk, .indexError => head .sbnk 100 ++ [0x44, 0x41, 0x54, 0x41] ++ zeros 40
  | .nsbtx, .indexError => head .nsbtx 136 ++ [0x14, 0, 0, 0] ++ badTex
  | .nsbmd, .indexError => head .nsbmd 136 ++ [0x14, 0, 0, 0] ++ badTex
  | .nsbmd, .assertionError => head .nsbmd 36 ++ [0x14, 0, 0, 0, 0x4D, 0x44, 0x4C, 0x30, 32, 0, 0, 0] ++ zeros 24
  | .narc, .structError => []
  | .sdat, .structError => []
  | k, .structError => k.signature
  | k, .assertionError => head k 0 ++ zeros 64
  | _, _ => zeros 16

theorem error_sdat (v : Env) {d : Bytes} {e : PyErr} (h : Model.SoundArchive.SDAT.load d = .error e) :
    loadAny v .sdat d = .error e := by
  apply map_error
  unfold Model.SoundArchiveObject.Archive.load
  rw [h]
  rfl

theorem error_nsbtx (v : Env) {d : Bytes} {e : PyErr} (h : Model.Texture.load d = .error e) : loadAny v .nsbtx d = .error e :=
  map_error h

theorem error_nsbmd (v : Env) {d : Bytes} {e : PyErr} (h : Model.Nsbmd.NSBMD.load d = .error e) :
    loadAny v .nsbmd d = .error e := map_error h

/-- Each of the exceptions listed does occur, whatever the recursion limit, and if the loop over a message may take two rounds. -/
theorem raises_all (v : Env) (k : Kind) (e : PyErr) (hf : 2 ≤ v.fuel) (h : e ∈ k.mayRaise) :
    loadAny v k (damaged k e) = .error e := by
  have hm : ∀ {α : Type} {x : Py α}, x = .error e → x.map (fun _ => ()) = .error e := fun h => map_error h
  cases k <;> simp only [Kind.mayRaise, List.mem_cons, List.not_mem_nil, or_false] at h
  case bnbl => rcases h with rfl | rfl <;> rfl
  case bncl => rcases h with rfl | rfl <;> rfl
  case sseq => rcases h with rfl | rfl <;> rfl
  case ssar => rcases h with rfl | rfl | rfl <;> rfl
  case swar => rcases h with rfl | rfl | rfl <;> rfl
  case swav => rcases h with rfl | rfl | rfl <;> rfl
  case strm => rcases h with rfl | rfl | rfl <;> rfl
  case sbnk => rcases h with rfl | rfl | rfl | rfl <;> rfl
  case sdat =>
    rcases h with rfl | rfl | rfl | rfl
    · rfl
    · rfl
    · rfl
    · exact error_sdat v (by decide +kernel)
  case nsbtx =>
    rcases h with rfl | rfl | rfl | rfl
    · rfl
    · rfl
    · rfl
    · exact error_nsbtx v (by decide +kernel)
  case nsbmd =>
    rcases h with rfl | rfl | rfl | rfl
    · rfl
    · rfl
    · rfl
    · exact error_nsbmd v (by decide +kernel)
  case narc =>
    rcases h with rfl | rfl | rfl | rfl
    · rfl
    · rfl
    · rfl
    · apply hm
      show (Model.Fnt.loadFolder selfFnt v.limit 0xF000 >>= _) = _
      rw [selfFnt_loops]
      rfl
  case bmg =>
    rcases h with rfl | rfl | rfl | rfl | rfl
    · rfl
    · rfl
    · rfl
    · apply hm
      obtain ⟨f, hv⟩ : ∃ f, v.fuel = f + 2 := ⟨v.fuel - 2, by omega⟩
      rw [hv]
      rfl
    · exact hm (Bmg.bmg_load_endless v.sjis v.fuel v.id0).1

/-! ## Messages: unknown encodings and sections -/

open Verif.Spec.FormatBmg Verif.Model.Bmg Verif.Proofs.FormatBmg in
theorem sections_stop {e : Endian} {d : Bytes} {l' : List Nat} {p : Nat} (hp : p + 8 ≤ d.length)
    (hk : bytesAt d p 4 ∉ [INF1, DAT1, FLW1, FLI1]) : ∀ {l : List Nat} {n o : Nat} {r : Raw},
    places e d n o = l ++ p :: l' → (∀ q ∈ l, SectionOk e d q) → parseSections e d n o r = .error .valueError
  | [], 0, _, _, h, _ => by simp [places] at h
  | _ :: _, 0, _, _, h, _ => by simp [places] at h
  | [], n + 1, o, r, h, _ => by
    rw [places, List.nil_append, List.cons.injEq] at h
    obtain ⟨rfl, -⟩ := h
    simp only [List.mem_cons, List.not_mem_nil, or_false, not_or] at hk
    rw [parseSections, unpackStr_iff.2 ⟨by omega, rfl⟩, bind_ok, en4.2 ⟨by omega, rfl⟩, bind_ok]
    unfold parseSection
    rw [show magicINF1 = INF1 from rfl, show magicDAT1 = DAT1 from rfl, show magicFLW1 = FLW1 from rfl,
      show magicFLI1 = FLI1 from rfl, if_neg hk.1, if_neg hk.2.1, if_neg hk.2.2.1, if_neg hk.2.2.2]
    rfl
  | q :: l, n + 1, o, r, h, hl => by
    rw [places, List.cons_append, List.cons.injEq] at h
    obtain ⟨rfl, h⟩ := h
    have ho := hl o (List.mem_cons_self ..)
    have := ho.1
    rw [parseSections, unpackStr_iff.2 ⟨by omega, rfl⟩, bind_ok, en4.2 ⟨by omega, rfl⟩, bind_ok,
      (parseSection_iff ho.1).2 ⟨ho, rfl⟩, bind_ok]
    exact sections_stop hp hk h fun q hq => hl q (List.mem_cons_of_mem _ hq)

open Verif.Spec.FormatBmg Verif.Model.Bmg Verif.Proofs.FormatBmg in
theorem loadAs_eq {sjis : Model.Text.Codec} {fuel id0 : Nat} {d : Bytes} (hs : bytesAt d 0 8 = Kind.bmg.signature)
    (hl : 0x1D ≤ d.length) : BMG.load sjis fuel d id0 = (do
      let encoding ← encodingOf (u8 d 0x10)
      let r ← parseSections (orderOf d) d (e32 (orderOf d) d 0x0C) 0x20 ⟨[], [], [], [], [], id0⟩
      let messages ← mapE (readMessage (codecOf sjis encoding (orderOf d)) r.dat1 fuel) r.inf1
      return ⟨messages, r.instructions, r.labels, r.scripts, r.id, encoding, orderOf d, e32 (orderOf d) d 0x11,
        e32 (orderOf d) d 0x15, e32 (orderOf d) d 0x19⟩) := by
  have hm : d.take 8 = magicMESG := hs
  unfold BMG.load
  rw [raiseIf_false (by simp [hm]), bind_ok, en4.2 ⟨by omega, rfl⟩, bind_ok, en4.2 ⟨by omega, rfl⟩, bind_ok]
  unfold BMG.loadAs
  rw [show guessEndian (e32 .little d 8) (e32 .big d 8) = orderOf d from rfl, fieldsHead.2 ⟨by omega, rfl⟩, bind_ok]

open Verif.Spec.FormatBmg in
/-- Message files whose encoding is none of the four are refused with `ValueError`. -/
theorem bmg_encoding (sjis : Model.Text.Codec) (fuel id0 : Nat) (d : Bytes) (hs : Kind.bmg.signature <+: d)
    (hl : 0x1D ≤ d.length) (he : u8 d 0x10 = 0 ∨ 4 < u8 d 0x10) :
    Model.Bmg.BMG.load sjis fuel d id0 = .error .valueError := by
  rw [loadAs_eq ((List.prefix_iff_eq_take.1 hs).symm) hl]
  have : Model.Bmg.encodingOf (u8 d 0x10) = .error .valueError := by
    unfold Model.Bmg.encodingOf
    split <;> first | rfl | omega
  rw [this]
  rfl

open Verif.Spec.FormatBmg in
/-- Message files with a section of an unknown kind are refused with `ValueError`, if what comes before it is in order. -/
theorem bmg_section (sjis : Model.Text.Codec) (fuel id0 : Nat) (d : Bytes) (hs : Kind.bmg.signature <+: d)
    (hl : 0x1D ≤ d.length) (he : 1 ≤ u8 d 0x10 ∧ u8 d 0x10 ≤ 4) (l l' : List Nat) (p : Nat)
    (hp : sectionPlaces (orderOf d) d = l ++ p :: l') (hok : ∀ q ∈ l, SectionOk (orderOf d) d q) (h8 : p + 8 ≤ d.length)
    (hk : bytesAt d p 4 ∉ [INF1, DAT1, FLW1, FLI1]) : Model.Bmg.BMG.load sjis fuel d id0 = .error .valueError := by
  rw [loadAs_eq ((List.prefix_iff_eq_take.1 hs).symm) hl]
  obtain ⟨enc, henc⟩ : ∃ enc, Model.Bmg.encodingOf (u8 d 0x10) = .ok enc := by
    obtain h | h | h | h : u8 d 0x10 = 1 ∨ u8 d 0x10 = 2 ∨ u8 d 0x10 = 3 ∨ u8 d 0x10 = 4 := by omega
    all_goals rw [h]; exact ⟨_, rfl⟩
  rw [henc, bind_ok, sections_stop h8 hk hp hok]
  rfl

/-- A message file with a section FLI1 and one named ABCD. -/
def oddSection : Bytes :=
  Kind.bmg.signature ++ [72, 0, 0, 0, 2, 0, 0, 0, 4] ++ zeros 15 ++ [0x46, 0x4C, 0x49, 0x31, 32, 0, 0, 0, 1, 0, 8, 0] ++ zeros 20 ++
    [65, 66, 67, 68, 8, 0, 0, 0]

example (sjis : Model.Text.Codec) (fuel : Nat) : Model.Bmg.BMG.load sjis fuel oddSection 0 = .error .valueError :=
  bmg_section sjis fuel 0 oddSection (by decide) (by decide) (by decide) [32] [] 64 (by decide) (by unfold Spec.FormatBmg.SectionOk; decide +kernel)
    (by decide) (by decide)

example (sjis : Model.Text.Codec) (fuel : Nat) :
    Model.Bmg.BMG.load sjis fuel (Kind.bmg.signature ++ [29, 0, 0, 0, 0, 0, 0, 0, 5] ++ zeros 12) 0 = .error .valueError :=
  bmg_encoding sjis fuel 0 _ (by decide) (by decide) (by decide)

/-! ## ROMs, which have no signature -/

/-- Loading a ROM ends with an object, with `struct.error` or with `RecursionError`, whatever the data. -/
theorem rom_raises_only (limit : Nat) (d : Bytes) (e : PyErr) (h : Model.Rom.load limit d = .error e) :
    e = .structError ∨ e = .recursionError :=
  Proofs.LoadErrors.rom (p := fun e => e = .structError ∨ e = .recursionError) (.inl rfl) (.inr rfl) limit d e h

/-- A ROM whose table of names begins at 200h; the header says how long it is. -/
def badRom (fnt : Bytes) : Bytes := zeros 0x40 ++ enBytes .little 4 0x200 ++ enBytes .little 4 fnt.length ++ zeros 0x1B8 ++ fnt

open Model.Rom in
/-- The exception from the table of names is passed on. -/
theorem rom_names {limit : Nat} {raw fnt : Bytes} {x : Nat} {e : PyErr}
    (h1 : unpackUs .little [1, 1, 1, 1, 1, 1, 1, 1, 1, 1, 1, 1, 1, 1] (raw ++ zeros (0x200 - raw.length)) 0x12 =
      .ok [0, 0, 0, 0, 0, 0, 0, 0, 0, 0, 0, 0, 0, 0])
    (h2 : unpackUs .little [4, 4, 4, 4, 4, 4, 4, 4, 4, 4, 4, 4, 4, 4, 4, 4] (raw ++ zeros (0x200 - raw.length)) 0x20 =
      .ok [0, 0, 0, 0, 0, 0, 0, 0, 0x200, fnt.length, 0, 0, 0, 0, 0, 0])
    (h3 : unpackUs .little [4, 4, 4, 2, 2, 4, 4] (raw ++ zeros (0x200 - raw.length)) 0x60 = .ok [0, 0, 0, 0, 0, 0, 0])
    (h4 : unpackUs .little [4, 4] (raw ++ zeros (0x200 - raw.length)) 0x80 = .ok [0, 0])
    (h5 : unpackUs .little [4, 4, 4] (raw ++ zeros (0x200 - raw.length)) 0x160 = .ok [0, 0, 0])
    (h6 : sigOffset (raw ++ zeros (0x200 - raw.length)) 0 = .ok x)
    (h7 : readIconBanner (raw ++ zeros (0x200 - raw.length)) 0 = .ok [])
    (h8 : slice (raw ++ zeros (0x200 - raw.length)) 0x200 (0x200 + fnt.length) = fnt) (h9 : fnt ≠ [])
    (h : Model.Fnt.load limit fnt = .error e) : load limit raw = .error e := by
  unfold load
  dsimp only
  rw [h1, bind_ok, h2, bind_ok, h3, bind_ok, h4, bind_ok, h5, bind_ok]
  dsimp only
  rw [h6, bind_ok, h7, bind_ok, h8, if_neg h9, h]
  rfl

/-- Both occur: a table of names that is cut off raises `struct.error`, a folder within itself `RecursionError`, at every
recursion limit. -/
theorem rom_raises_both (limit : Nat) : Model.Rom.load (limit + 1) (badRom [0]) = .error .structError ∧
    Model.Rom.load limit (badRom selfFnt) = .error .recursionError := by
  refine ⟨rom_names (fnt := [0]) (x := 0) (by decide +kernel) (by decide +kernel) (by decide +kernel) (by decide +kernel)
    (by decide +kernel) (by decide +kernel) (by decide +kernel) (by decide +kernel) (by decide) rfl, ?_⟩
  refine rom_names (fnt := selfFnt) (x := 0) (by decide +kernel) (by decide +kernel) (by decide +kernel) (by decide +kernel)
    (by decide +kernel) (by decide +kernel) (by decide +kernel) (by decide +kernel) (by decide) ?_
  exact selfFnt_loops limit

/-! ## Examples -/

/-- The codec of the examples fails with `UnicodeError` only. -/
def plain : Model.Text.Codec := Model.Text.utf8

def env : Env := ⟨plain, 2, 0, 1000, fun _ => 0, 0, [], []⟩

theorem plain_errors (b : Bytes) (e : PyErr) (h : plain.dec b = .error e) : e = .unicodeError :=
  Proofs.LoadErrors.utf8_errs (p := (· = .unicodeError)) rfl b e h

/-- A list of no touch areas, as it is saved. -/
def empty : Bytes := [0x4A, 0x4E, 0x42, 0x4C, 0, 0, 0, 0]

example : Saved plain .bnbl empty := .bnbl ⟨0, []⟩ rfl
example : loadAny env .bnbl empty = .ok () := rfl
-- accepted by its own loader, it is refused by all others; as an archive with `struct.error`, since it has no whole header
example : loadAny env .bncl empty = .error .valueError :=
  wrong_signature env .bncl empty (by decide) (by decide)
example : loadAny env .narc empty = .error .structError := header_missing env .narc empty (by decide) (by decide)
example (k : Kind) (h : loadAny env k empty = .ok ()) : k = .bnbl := one_kind env env k .bnbl empty h rfl
example (k : Kind) (h : k ≠ .bnbl) : loadAny env k empty ≠ .ok () := by
  rw [saved_refused plain env .bnbl k empty (.bnbl ⟨0, []⟩ rfl) h]
  exact (fun h => nomatch h)

-- a wave archive of the wrong version
example : loadAny env .swar ([0x53, 0x57, 0x41, 0x52, 0xFF, 0xFE, 0, 2] ++ zeros 60) = .error .valueError :=
  wrong_version env .swar _ 0x100 rfl (by decide) (by decide)

example (d : Bytes) : loadAny env .bmg d ≠ .error .keyError := fun h =>
  absurd (raises_only env .bmg d .keyError plain_errors h) (by decide)

example : loadAny env .bmg (damaged .bmg .unicodeError) = .error .unicodeError :=
  raises_all env .bmg .unicodeError (by decide) (by decide)

end Verif.Props.LoadErrors
