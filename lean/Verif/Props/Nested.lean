import Verif.Spec.Nested
import Verif.Props.Reload
import Verif.Props.RomCode

/-!
# C138: replacing a file inside files
-/

namespace Verif.Props.Nested

open Verif Verif.Model Verif.Spec.Nested

/-! ## Files by name -/

/-- What both `getFileByName` do. -/
def getIn (names : Fnt.Folder) (files : List Bytes) (name : Str) : Py Bytes := do
  match ← Fnt.idOf names name with
  | none => raise .valueError
  | some i => pyIdxI files i

/-- What both `setFileByName` do to the list of files. -/
def setIn (names : Fnt.Folder) (files : List Bytes) (name : Str) (new : Bytes) : Py (List Bytes) := do
  match ← Fnt.idOf names name with
  | none => raise .valueError
  | some i => pySetI files i new

theorem getIn_eq_ok {names : Fnt.Folder} {files : List Bytes} {name : Str} {f : Bytes} :
    getIn names files name = .ok f ↔ ∃ k, Denotes names files.length name k ∧ files[k]? = some f := by
  unfold getIn Denotes
  constructor
  · intro h
    obtain ⟨r, hr, h⟩ := bind_eq_ok.1 h
    cases r with
    | none => cases h
    | some i =>
      dsimp only at h
      rw [pyIdxI_eq] at h
      split at h
      · rename_i k hk
        exact ⟨k, ⟨i, hr, hk⟩, pyIdx_eq_ok.1 h⟩
      · cases h
  · rintro ⟨k, ⟨i, hi, hk⟩, hf⟩
    rw [hi, bind_ok]
    dsimp only
    rw [pyIdxI_eq, hk]
    exact pyIdx_eq_ok.2 hf

theorem setIn_eq_ok {names : Fnt.Folder} {files files' : List Bytes} {name : Str} {new : Bytes}
    (h : setIn names files name new = .ok files') : ∃ k, Denotes names files.length name k ∧ k < files.length ∧
      files' = files.set k new := by
  unfold setIn at h
  obtain ⟨r, hr, h⟩ := bind_eq_ok.1 h
  cases r with
  | none => cases h
  | some i =>
    dsimp only at h
    unfold pySetI at h
    split at h
    · rename_i k hk
      cases h
      exact ⟨k, ⟨i, hr, hk⟩, pyPos_lt hk, rfl⟩
    · cases h

theorem denotes_unique {names : Fnt.Folder} {n k l : Nat} {name : Str} (h : Denotes names n name k)
    (h' : Denotes names n name l) : k = l := by
  obtain ⟨i, hi, hk⟩ := h
  obtain ⟨j, hj, hl⟩ := h'
  rw [hi] at hj
  cases hj
  rw [hk] at hl
  cases hl
  rfl

/-- A name that does not denote the file that was changed gives what it gave. -/
theorem getIn_set {names : Fnt.Folder} {files : List Bytes} {name : Str} {new : Bytes} {k : Nat}
    (h : ¬ Denotes names files.length name k) : getIn names (files.set k new) name = getIn names files name := by
  unfold getIn
  cases hr : Fnt.idOf names name with
  | error e => rfl
  | ok r =>
    rw [bind_ok, bind_ok]
    cases r with
    | none => rfl
    | some i =>
      dsimp only
      rw [pyIdxI_eq, pyIdxI_eq, List.length_set]
      split
      · rename_i l hl
        have : k ≠ l := by
          rintro rfl
          exact h ⟨i, hr, hl⟩
        unfold pyIdx
        rw [List.getElem?_set_ne this]
      · rfl

/-! ## One container -/

theorem narc_get (n : Narc.NARC) (name : Str) : Narc.getFileByName n name = getIn n.filenames n.files name := rfl

theorem narc_set {n n' : Narc.NARC} {name : Str} {new : Bytes} (h : Narc.setFileByName n name new = .ok n') :
    ∃ files, setIn n.filenames n.files name new = .ok files ∧ n' = { n with files := files } := by
  unfold Narc.setFileByName at h
  unfold setIn
  obtain ⟨r, hr, h⟩ := bind_eq_ok.1 h
  rw [hr, bind_ok]
  cases r with
  | none => cases h
  | some i =>
    obtain ⟨f, hf, h⟩ := bind_eq_ok.1 h
    cases h
    exact ⟨f, hf, rfl⟩

theorem rom_get (r : Rom.Rom) (name : Str) : Rom.getFileByName r name = getIn r.filenames r.files name := rfl

theorem rom_set {r r' : Rom.Rom} {name : Str} {new : Bytes} (h : Rom.setFileByName r name new = .ok r') :
    ∃ files, setIn r.filenames r.files name new = .ok files ∧ r' = { r with files := files } := by
  unfold Rom.setFileByName at h
  unfold setIn
  obtain ⟨x, hx, h⟩ := bind_eq_ok.1 h
  rw [hx, bind_ok]
  cases x with
  | none => cases h
  | some i =>
    obtain ⟨f, hf, h⟩ := bind_eq_ok.1 h
    cases h
    exact ⟨f, hf, rfl⟩

theorem narc_names {limit : Nat} {d : Bytes} {n : Narc.NARC} (h : Narc.load limit d = .ok n) :
    Spec.Fnt.NoEmptyFileName n.filenames ∧ Spec.Fnt.depth n.filenames ≤ limit := by
  unfold Narc.load at h
  simp only [bind_eq_ok, pure_eq_ok] at h
  obtain ⟨_, _, _, _, _, _, _, _, _, _, _, _, _, _, _, _, _, _, _, _, _, _, _, _, _, _, fs, _, f, hf, rfl⟩ := h
  obtain ⟨-, h2, -, h4⟩ := Proofs.FntLoad.loadFolder_loaded hf
  exact ⟨h2, h4⟩

theorem rom_names {limit : Nat} (hl : 0 < limit) {d : Bytes} {r : Rom.Rom} (h : Rom.load limit d = .ok r) :
    Spec.Fnt.NoEmptyFileName r.filenames ∧ Spec.Fnt.depth r.filenames ≤ limit := by
  unfold Rom.load at h
  simp only [bind_eq_ok] at h
  obtain ⟨_, _, _, _, _, _, _, _, _, _, h⟩ := h
  split at h
  · simp only [bind_eq_ok] at h
    obtain ⟨_, _, _, _, h⟩ := h
    split at h
    · simp only [bind_ok, bind_eq_ok, pure_eq_ok] at h
      obtain ⟨_, _, rfl⟩ := h
      refine ⟨?_, ?_⟩
      · simp [Spec.Fnt.NoEmptyFileName, Fnt.emptyFolder, Spec.Fnt.All, Spec.Fnt.AllIn, Fnt.Folder.files]
      · simp [Fnt.emptyFolder, Spec.Fnt.depth, Spec.Fnt.depthIn]
        omega
    · simp only [bind_eq_ok, pure_eq_ok] at h
      obtain ⟨names, hn, _, _, rfl⟩ := h
      obtain ⟨-, h2, -, h4⟩ := Proofs.FntLoad.loadFolder_loaded hn
      exact ⟨h2, h4⟩
  · cases h

/-- A container before and after a change. -/
structure Changed (names : Fnt.Folder) (files files' : List Bytes) (name : Str) (k : Nat) (new : Bytes) : Prop where
  denotes : Denotes names files.length name k
  lt : k < files.length
  files : files' = files.set k new

theorem narc_write {limit : Nat} {d d' new : Bytes} {n n' : Narc.NARC} {name : Str} (hl : Narc.load limit d = .ok n)
    (hs : Narc.setFileByName n name new = .ok n') (hw : Narc.save n' = .ok d') :
    Narc.load limit d' = .ok n' ∧ n'.filenames = n.filenames ∧ ∃ k, Changed n.filenames n.files n'.files name k new := by
  obtain ⟨files, h1, rfl⟩ := narc_set hs
  obtain ⟨k, h2, h3, h4⟩ := setIn_eq_ok h1
  obtain ⟨h5, h6⟩ := narc_names hl
  exact ⟨Props.Narc.narc_roundtrip _ d' hw h5 limit h6, rfl, k, h2, h3, h4⟩

theorem rom_write {limit : Nat} (h0 : 0 < limit) {u : Bool} {d d' new : Bytes} {r r' r2 : Rom.Rom} {name : Str}
    (hl : Rom.load limit d = .ok r) (hs : Rom.setFileByName r name new = .ok r') (hw : Rom.save r' u = .ok (d', r2)) :
    ∃ q, Rom.load limit d' = .ok q ∧ q.filenames = r.filenames ∧ ∃ k, Changed r.filenames r.files q.files name k new := by
  obtain ⟨files, h1, rfl⟩ := rom_set hs
  obtain ⟨k, h2, h3, h4⟩ := setIn_eq_ok h1
  obtain ⟨h5, h6⟩ := rom_names h0 hl
  obtain ⟨q, h7, h8, h9, -⟩ := Props.RomCode.reload _ r2 u d' hw limit h5 h6
  exact ⟨q, h7, h9, k, h2, h3, by rw [h8]; exact h4⟩

theorem changed_get {names : Fnt.Folder} {files files' : List Bytes} {name name' : Str} {k : Nat} {new : Bytes}
    (h : Changed names files files' name k new) (h' : Denotes names files.length name' k) :
    getIn names files' name' = .ok new := by
  rw [getIn_eq_ok, h.files, List.length_set]
  exact ⟨k, h', by simp [h.lt]⟩

theorem lz10_write {f d : Bytes} (h : Lz10.compress f = .ok d) : Lz10.decompress d = .ok f := by
  have hl : f.length < 2 ^ 24 := by
    refine Nat.lt_of_not_le fun hge => ?_
    rw [(Props.Lz.lz10_compress_error_iff f).1.2 hge] at h
    exact nomatch h
  obtain ⟨c, h1, h2⟩ := Props.Lz.lz10_roundtrip f hl
  rw [h] at h1
  cases h1
  exact h2

/-! ## Theorems -/

/-- **C138.** On the way to the file that was replaced, every archive holds the next one as it was written. -/
theorem write_prefix {limit : Nat} (h0 : 0 < limit) {u : Bool} : ∀ {pre rest : List Layer} {d d' new : Bytes},
    write limit u (pre ++ rest) d new = .ok d' →
    ∃ f f', Spec.Nested.read limit pre d = .ok f ∧ write limit u rest f new = .ok f' ∧ Spec.Nested.read limit pre d' = .ok f'
  | [], rest, d, d', new, h => ⟨d, d', rfl, h, rfl⟩
  | .narc name :: pre, rest, d, d', new, h => by
    simp only [List.cons_append, write, bind_eq_ok] at h
    obtain ⟨n, h1, f, h2, g, h3, n', h4, h5⟩ := h
    obtain ⟨f0, f', h6, h7, h8⟩ := write_prefix h0 h3
    obtain ⟨h9, hn, k, hc⟩ := narc_write h1 h4 h5
    refine ⟨f0, f', ?_, h7, ?_⟩
    · simp only [Spec.Nested.read, bind_eq_ok]
      exact ⟨n, h1, f, h2, h6⟩
    · simp only [Spec.Nested.read, bind_eq_ok]
      refine ⟨n', h9, g, ?_, h8⟩
      rw [narc_get, hn]
      exact changed_get hc hc.denotes
  | .rom name :: pre, rest, d, d', new, h => by
    simp only [List.cons_append, write, bind_eq_ok, pure_eq_ok] at h
    obtain ⟨r, h1, f, h2, g, h3, r', h4, ⟨_, r2⟩, h5, rfl⟩ := h
    obtain ⟨f0, f', h6, h7, h8⟩ := write_prefix h0 h3
    obtain ⟨q, h9, hn, k, hc⟩ := rom_write h0 h1 h4 h5
    refine ⟨f0, f', ?_, h7, ?_⟩
    · simp only [Spec.Nested.read, bind_eq_ok]
      exact ⟨r, h1, f, h2, h6⟩
    · simp only [Spec.Nested.read, bind_eq_ok]
      refine ⟨q, h9, g, ?_, h8⟩
      rw [rom_get, hn]
      exact changed_get hc hc.denotes
  | .lz10 :: pre, rest, d, d', new, h => by
    simp only [List.cons_append, write, bind_eq_ok] at h
    obtain ⟨f, h1, g, h2, h3⟩ := h
    obtain ⟨f0, f', h6, h7, h8⟩ := write_prefix h0 h2
    refine ⟨f0, f', ?_, h7, ?_⟩
    · simp only [Spec.Nested.read, bind_eq_ok]
      exact ⟨f, h1, h6⟩
    · simp only [Spec.Nested.read, bind_eq_ok]
      exact ⟨g, lz10_write h3, h8⟩

/-- **C138.** The file that was replaced is read back. -/
theorem write_read {limit : Nat} (h0 : 0 < limit) {u : Bool} {path : List Layer} {d d' new : Bytes}
    (h : write limit u path d new = .ok d') : Spec.Nested.read limit path d' = .ok new := by
  obtain ⟨f, f', -, h1, h2⟩ := write_prefix h0 (rest := []) (by rw [List.append_nil]; exact h)
  cases h1
  exact h2

/-- **C138.** Every other file is what it was, at every depth. -/
theorem write_apart {limit : Nat} (h0 : 0 < limit) {u : Bool} {path path' : List Layer} {d : Bytes}
    (ha : Apart limit path path' d) : ∀ {d' new : Bytes}, write limit u path d new = .ok d' →
    Spec.Nested.read limit path' d' = Spec.Nested.read limit path' d := by
  induction ha with
  | narc hl hd hd' =>
    intro d' new h
    simp only [write, bind_eq_ok] at h
    obtain ⟨n, h1, f, h2, g, h3, n', h4, h5⟩ := h
    rw [hl] at h1
    cases h1
    obtain ⟨h9, hn, k, hc⟩ := narc_write hl h4 h5
    have := denotes_unique hd hc.denotes
    subst this
    simp only [Spec.Nested.read, hl, h9, bind_ok, narc_get, hn]
    rw [hc.files, getIn_set hd']
  | rom hl hd hd' =>
    intro d' new h
    simp only [write, bind_eq_ok, pure_eq_ok] at h
    obtain ⟨r, h1, f, h2, g, h3, r', h4, ⟨_, r2⟩, h5, rfl⟩ := h
    rw [hl] at h1
    cases h1
    obtain ⟨q, h9, hn, k, hc⟩ := rom_write h0 hl h4 h5
    have := denotes_unique hd hc.denotes
    subst this
    simp only [Spec.Nested.read, hl, h9, bind_ok, rom_get, hn]
    rw [hc.files, getIn_set hd']
  | inNarc hl hd hd' hf _ ih =>
    intro d' new h
    simp only [write, bind_eq_ok] at h
    obtain ⟨n, h1, f, h2, g, h3, n', h4, h5⟩ := h
    rw [hl] at h1
    cases h1
    obtain ⟨h9, hn, k, hc⟩ := narc_write hl h4 h5
    have := denotes_unique hd hc.denotes
    subst this
    rw [narc_get, getIn_eq_ok.2 ⟨_, hd, hf⟩] at h2
    cases h2
    simp only [Spec.Nested.read, hl, h9, bind_ok, narc_get, hn]
    rw [changed_get hc hd', getIn_eq_ok.2 ⟨_, hd', hf⟩, bind_ok, bind_ok]
    exact ih h3
  | inRom hl hd hd' hf _ ih =>
    intro d' new h
    simp only [write, bind_eq_ok, pure_eq_ok] at h
    obtain ⟨r, h1, f, h2, g, h3, r', h4, ⟨_, r2⟩, h5, rfl⟩ := h
    rw [hl] at h1
    cases h1
    obtain ⟨q, h9, hn, k, hc⟩ := rom_write h0 hl h4 h5
    have := denotes_unique hd hc.denotes
    subst this
    rw [rom_get, getIn_eq_ok.2 ⟨_, hd, hf⟩] at h2
    cases h2
    simp only [Spec.Nested.read, hl, h9, bind_ok, rom_get, hn]
    rw [changed_get hc hd', getIn_eq_ok.2 ⟨_, hd', hf⟩, bind_ok, bind_ok]
    exact ih h3
  | lz10 hl _ ih =>
    intro d' new h
    simp only [write, bind_eq_ok] at h
    obtain ⟨f, h1, g, h2, h3⟩ := h
    rw [hl] at h1
    cases h1
    simp only [Spec.Nested.read, hl, lz10_write h3, bind_ok]
    exact ih h2

/-! ## Examples -/

/-- An archive with a file `b`, a compressed archive with files `a` and `b`. -/
def packed : Py Bytes := do
  let inner ← Narc.save ⟨.mk .nil [[97], [98]] 0, [[1, 2, 3, 4, 5], []], .big⟩
  let f ← Lz10.compress inner
  Narc.save ⟨.mk .nil [[97], [98]] 0, [[7, 7], f], .little⟩

/-- A ROM with the archive as its only file `c`. -/
def card : Py Bytes := do
  let f ← packed
  let names := [8, 0, 0, 0, 0, 0, 1, 0, 1, 99, 0, 0]
  return zeros 0x40 ++ [0, 2, 0, 0, 12, 0, 0, 0, 12, 2, 0, 0, 8, 0, 0, 0] ++ zeros 0x1B0 ++ names ++
    [20, 2, 0, 0] ++ leBytes 4 (0x214 + f.length) ++ f

/-- The way to the file `a` of the compressed archive. -/
def way : List Layer := [.rom [99], .narc [98], .lz10, .narc [97]]

example : (card >>= fun d => Spec.Nested.read 1 way d) = .ok [1, 2, 3, 4, 5] := by decide +kernel

/-- The ROM with three bytes as its only file `c`. -/
def small : Bytes := zeros 0x40 ++ [0, 2, 0, 0, 12, 0, 0, 0, 12, 2, 0, 0, 8, 0, 0, 0] ++ zeros 0x1B0 ++
  [8, 0, 0, 0, 0, 0, 1, 0, 1, 99, 0, 0] ++ [20, 2, 0, 0, 23, 2, 0, 0] ++ [1, 2, 3]

/-- The same ROM with another file. -/
def smallEdited : Py Rom.Rom := do
  let r ← Rom.load 1 small
  Rom.setFileByName r [99] [9, 9]

theorem small_saves : ∃ b r', Rom.save (smallEdited.toOption.getD Rom.new) false = .ok (b, r') := by
  refine (Props.Rom.saves_of (ids := []) (fnt := [8, 0, 0, 0, 0, 0, 1, 0, 1, 99, 0]) ?_ (by decide +kernel)
    (by decide +kernel) (by decide +kernel) ?_ ?_).2.2
  · rw [show (smallEdited.toOption.getD Rom.new).arm9OverlayTable = [] by decide +kernel]
    exact Props.Rom.overlayIds_nil
  · exact .inl (by decide +kernel)
  · refine ⟨by decide +kernel, by decide +kernel, by decide +kernel, by decide +kernel, by decide +kernel,
      by decide +kernel, by decide +kernel, ?_, ?_, ?_⟩ <;> decide +kernel

example : ∃ d', write 1 false [.rom [99]] small [9, 9] = .ok d' := by
  obtain ⟨b, r', h⟩ := small_saves
  refine ⟨b, ?_⟩
  simp only [write, bind_eq_ok, pure_eq_ok]
  exact ⟨(Rom.load 1 small).toOption.getD Rom.new, by decide +kernel, [1, 2, 3], by decide +kernel, _, rfl, _,
    by decide +kernel, _, h, rfl⟩

/-- Without the ROM, the other file of the compressed archive, the other file of the archive and a name that is
not there give what they gave. -/
example : (do
    let d ← packed
    let d' ← write 1 false way.tail d [9]
    let a ← Spec.Nested.read 1 [.narc [98], .lz10, .narc [98]] d'
    let b ← Spec.Nested.read 1 [.narc [97]] d'
    return (← Spec.Nested.read 1 way.tail d', a, b,
      Spec.Nested.read 1 [.narc [98], .lz10, .narc [99]] d')) =
    .ok ([9], [], [7, 7], .error .valueError) := by decide +kernel

example (d : Bytes) (h : packed = .ok d) : Apart 1 way.tail [.narc [98], .lz10, .narc [98]] d ∧
    Apart 1 way.tail [.narc [97]] d := by
  obtain ⟨f, hf⟩ : ∃ f, (Narc.save ⟨.mk .nil [[97], [98]] 0, [[1, 2, 3, 4, 5], []], .big⟩ >>= Lz10.compress) = .ok f :=
    ⟨((Narc.save ⟨.mk .nil [[97], [98]] 0, [[1, 2, 3, 4, 5], []], .big⟩ >>= Lz10.compress).toOption.getD []), by
      decide +kernel⟩
  have h1 : (packed >>= Narc.load 1) = .ok ⟨.mk .nil [[97], [98]] 0, [[7, 7], f], .little⟩ := by
    have : (packed >>= Narc.load 1) = (Narc.save ⟨.mk .nil [[97], [98]] 0, [[1, 2, 3, 4, 5], []], .big⟩ >>=
        Lz10.compress).map fun f => ⟨.mk .nil [[97], [98]] 0, [[7, 7], f], .little⟩ := by decide +kernel
    rw [this, hf]
    rfl
  have h2 : (Narc.save ⟨.mk .nil [[97], [98]] 0, [[1, 2, 3, 4, 5], []], .big⟩ >>= Lz10.compress >>= Lz10.decompress >>=
      Narc.load 1) = .ok ⟨.mk .nil [[97], [98]] 0, [[1, 2, 3, 4, 5], []], .big⟩ := by decide +kernel
  rw [h, bind_ok] at h1
  rw [hf, bind_ok] at h2
  obtain ⟨g, hg, h2⟩ := bind_eq_ok.1 h2
  have idA : Fnt.idOf (.mk .nil [[97], [98]] 0) [97] = .ok (some 0) := by decide +kernel
  have idB : Fnt.idOf (.mk .nil [[97], [98]] 0) [98] = .ok (some 1) := by decide +kernel
  have dA : Denotes (.mk .nil [[97], [98]] 0) 2 [97] 0 := ⟨0, idA, rfl⟩
  have dB : Denotes (.mk .nil [[97], [98]] 0) 2 [98] 1 := ⟨1, idB, rfl⟩
  have nA : ¬ Denotes (.mk .nil [[97], [98]] 0) 2 [97] 1 := fun h => absurd (denotes_unique dA h) (by decide)
  have nB : ¬ Denotes (.mk .nil [[97], [98]] 0) 2 [98] 0 := fun h => absurd (denotes_unique dB h) (by decide)
  exact ⟨.inNarc h1 dB dB rfl (.lz10 hg (.narc h2 dA nB)), .narc h1 dB nA⟩

end Verif.Props.Nested
