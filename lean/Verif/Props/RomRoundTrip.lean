import Verif.Props.Rom
import Verif.Proofs.InfoBlock

/-!
# Loading saved ROM images (C39, C79, C80)
-/

namespace Verif.Props.Rom

open Verif Verif.Model.Rom Verif.Model.Util Verif.Spec.Rom Verif.Proofs.Rom

theorem fixed_eq {n : Nat} {b : Bytes} (h : b.length ≤ n) : fixed n b = b ++ zeros (n - b.length) := by
  unfold fixed
  rw [List.take_of_length_le]
  rw [List.length_append, zeros_length]; omega

/-- C39: loading a saved image gives back every attribute of the ROM as it is after saving, apart from four: the padding
behind the header, the signature, the data behind ARM9 and the sorted file IDs (see below).  The name must fit its field
and not end in NUL, the other text field must have its length, and the names of the files must be such as the file name
table can hold. -/
theorem rom_roundtrip (r r' : Rom) (u : Bool) (b : Bytes) (h : save r u = .ok (b, r')) (limit : Nat)
    (hname : r.name.length ≤ 12) (hnul : r.name.getLast? ≠ some 0) (hsad : r.secureAreaDisable.length = 8)
    (hne : Spec.Fnt.NoEmptyFileName r.filenames) (hd : Spec.Fnt.depth r.filenames ≤ limit) :
    ∃ q, load limit b = .ok q ∧ q = { r' with
      pad200 := q.pad200, rsaSignature := q.rsaSignature, arm9PostData := q.arm9PostData,
      sortedFileIds := q.sortedFileIds } := by
  obtain ⟨fnt, ids9, ids7, es9, es7, es, starts, hdr, hs, hr⟩ := save_inv h
  refine ⟨_, load_save hs hne hd, ?_⟩
  have e1 : Model.InfoBlock.rstripZero (fixed 12 r.name) = r.name := by
    rw [fixed_eq hname, Proofs.InfoBlock.rstripZero_append _ hnul]
  have e2 : fixed 8 r.secureAreaDisable = r.secureAreaDisable := by
    rw [fixed_eq (by omega), hsad]; simp [zeros]
  rw [loaded, e1, e2]
  rw [hr]

theorem sample_names : Spec.Fnt.NoEmptyFileName sample.filenames ∧ Spec.Fnt.depth sample.filenames = 1 := by
  unfold sample Spec.Fnt.NoEmptyFileName
  simp [Spec.Fnt.All, Spec.Fnt.AllIn, Model.Fnt.Folder.files, Spec.Fnt.depth, Spec.Fnt.depthIn]

example : (∃ b r', save sample false = .ok (b, r')) ∧ sample.name.length ≤ 12 ∧ sample.name.getLast? ≠ some 0 ∧
    sample.secureAreaDisable.length = 8 ∧ Spec.Fnt.NoEmptyFileName sample.filenames ∧
    Spec.Fnt.depth sample.filenames ≤ 1 :=
  ⟨sample_ok.2.2, by decide, by decide, by decide, sample_names.1, by rw [sample_names.2]; decide⟩

/-- The sample can be saved and the image loaded. -/
theorem sample_loads : ∃ b q, save sample false = .ok (b, sample) ∧ load 1 b = .ok q := by
  obtain ⟨-, -, b, r', h⟩ := sample_ok
  obtain ⟨q, hq, -⟩ := rom_roundtrip sample r' false b h 1 (by decide) (by decide) (by decide) sample_names.1
    (by rw [sample_names.2]; decide)
  obtain ⟨_, _, _, _, _, _, _, _, _, hr⟩ := save_inv h
  rw [if_neg (by decide)] at hr
  exact ⟨b, q, by rw [h, hr], hq⟩

/-! ## The signature -/

/-- C79: what is loaded as the signature.  The image has a pointer to it in two places, it begins at a multiple of 0x20,
and it comes back with the zeros that follow it, as far as 0x88 bytes. -/
theorem rom_signature (r r' q : Rom) (u : Bool) (b : Bytes) (h : save r u = .ok (b, r')) (limit : Nat)
    (hne : Spec.Fnt.NoEmptyFileName r.filenames) (hd : Spec.Fnt.depth r.filenames ≤ limit) (hq : load limit b = .ok q) :
    u32 b 0x1000 = u32 b 0x80 ∧ u32 b 0x80 % 0x20 = 0 ∧ At b (u32 b 0x80) r.rsaSignature ∧
    q.rsaSignature = (r.rsaSignature ++ zeroFill 0x400 (u32 b 0x80 + r.rsaSignature.length)).take 0x88 := by
  obtain ⟨fnt, ids9, ids7, es9, es7, es, starts, hdr, hs, -⟩ := save_inv h
  rw [load_save hs hne hd] at hq
  obtain ⟨-, -, -, -, w1, w2⟩ := header_words hs
  cases hq
  refine ⟨w2.trans w1.symm, ?_, ?_, ?_⟩
  · rw [w1, sigPos, zeroFill, List.length_replicate]; omega
  · rw [w1]; exact hs.at_rsa
  · rw [w1]
    unfold loaded
    dsimp only
    exact hs.rsa_loaded rfl

/-- C79: a signature of 0x88 bytes comes back. -/
theorem rom_signature_roundtrip (r r' q : Rom) (u : Bool) (b : Bytes) (h : save r u = .ok (b, r')) (limit : Nat)
    (hne : Spec.Fnt.NoEmptyFileName r.filenames) (hd : Spec.Fnt.depth r.filenames ≤ limit) (hq : load limit b = .ok q)
    (hl : r.rsaSignature.length = 0x88) : q.rsaSignature = r.rsaSignature := by
  rw [(rom_signature r r' q u b h limit hne hd hq).2.2.2, List.take_append_of_le_length (by omega), ← hl]
  exact List.take_length

example : (∃ b q, save sample false = .ok (b, sample) ∧ load 1 b = .ok q) ∧ sample.rsaSignature.length = 0x88 :=
  ⟨sample_loads, by decide +kernel⟩

/-- C79: without a signature, zeros are loaded as one, unless the image ends right there. -/
theorem rom_no_signature (r r' q : Rom) (u : Bool) (b : Bytes) (h : save r u = .ok (b, r')) (limit : Nat)
    (hne : Spec.Fnt.NoEmptyFileName r.filenames) (hd : Spec.Fnt.depth r.filenames ≤ limit) (hq : load limit b = .ok q)
    (hl : r.rsaSignature = []) : q.rsaSignature = List.replicate (min 0x88 ((0x400 - u32 b 0x80 % 0x400) % 0x400)) 0 := by
  rw [(rom_signature r r' q u b h limit hne hd hq).2.2.2, hl, zeroFill]
  simp [List.take_replicate]

/-! ## The padding behind the header -/

theorem patch_append_left (a d bs : Bytes) (k : Nat) : patch (a ++ d) (a.length + k) bs = a ++ patch d k bs := by
  unfold patch
  rw [List.take_length_add_append, Nat.add_assoc, List.drop_length_add_append]
  simp

/-- C79: the padding behind the header comes back filled up with zeros to the next multiple of 0x4000 of the image, and
with the pointer to the signature in it. -/
theorem rom_padding (r r' q : Rom) (u : Bool) (b : Bytes) (h : save r u = .ok (b, r')) (limit : Nat)
    (hne : Spec.Fnt.NoEmptyFileName r.filenames) (hd : Spec.Fnt.depth r.filenames ≤ limit) (hq : load limit b = .ok q) :
    q.pad200 = patch (r.pad200 ++ zeroFill 0x4000 (0x200 + r.pad200.length)) 0xE00 (leBytes 4 (u32 b 0x1000)) := by
  obtain ⟨fnt, ids9, ids7, es9, es7, es, starts, hdr, hs, -⟩ := save_inv h
  rw [load_save hs hne hd] at hq
  obtain ⟨-, -, -, -, w1, w2⟩ := header_words hs
  cases hq
  rw [w2]
  have g0 := sec0_ge r
  have g1 := hs.hdr_ok.len
  have e0 : sec0 r = zeros 0x200 ++ (r.pad200 ++ zeroFill 0x4000 (0x200 + r.pad200.length)) := by
    unfold sec0
    rw [padTo_zero, List.length_append, zeros_length, List.append_assoc]
  generalize hp : sigPos (full r es9 es7 es fnt (fatOf r starts)).length = p at *
  have e : whole (full r es9 es7 es fnt (fatOf r starts)) r.rsaSignature = sec0 r ++
      (tailOf r es9 es7 es fnt (fatOf r starts) ++
      zeroFill 0x20 (full r es9 es7 es fnt (fatOf r starts)).length ++ r.rsaSignature ++
      zeroFill 0x400 (p + r.rsaSignature.length)) := by
    unfold whole
    rw [hp]
    conv => lhs; arg 1; arg 1; arg 1; rw [full_eq]
    simp only [List.append_assoc]
  have hb := hs.img
  rw [hp, e, patch_append (by rw [leBytes_length]; omega)] at hb
  have hl : (r.pad200 ++ zeroFill 0x4000 (0x200 + r.pad200.length)).length = (sec0 r).length - 0x200 := by
    have := congrArg List.length e0
    rw [List.length_append (as := zeros 0x200), zeros_length] at this
    omega
  have e1 : patch (sec0 r) 0x1000 (leBytes 4 p) = zeros 0x200 ++
      patch (r.pad200 ++ zeroFill 0x4000 (0x200 + r.pad200.length)) 0xE00 (leBytes 4 p) := by
    rw [e0]
    have := patch_append_left (zeros 0x200) (r.pad200 ++ zeroFill 0x4000 (0x200 + r.pad200.length)) (leBytes 4 p) 0xE00
    rw [zeros_length] at this
    exact this
  rw [e1, List.append_assoc] at hb
  have hb' : ∀ y : Bytes, patch (zeros 0x200 ++ y) 0 hdr = hdr ++ y := by
    intro y
    unfold patch
    rw [g1, List.take_zero, List.nil_append, Nat.zero_add, List.drop_left' (by rw [zeros_length])]
  rw [hb'] at hb
  have hpl : (patch (r.pad200 ++ zeroFill 0x4000 (0x200 + r.pad200.length)) 0xE00 (leBytes 4 p)).length =
      (sec0 r).length - 0x200 := by rw [patch_length (by rw [leBytes_length]; omega), hl]
  have hat : At b 0x200 (patch (r.pad200 ++ zeroFill 0x4000 (0x200 + r.pad200.length)) 0xE00 (leBytes 4 p)) := by
    rw [hb, ← List.append_assoc]
    exact At.mk' (by rw [g1])
  unfold loaded
  dsimp only
  exact hat.slice_eq (by rw [hpl]; omega)

/-! ## The data behind ARM9 -/

/-- Data made of records of 12 bytes that begin with the marker. -/
def Records (d : Bytes) : Prop :=
  ∃ rs : List Bytes, d = rs.flatten ∧ ∀ x ∈ rs, x.length = 12 ∧ x.take 4 = [0x21, 0x06, 0xC0, 0xDE]

theorem readPostData_records {b : Bytes} : ∀ {rs : List Bytes} {fuel off : Nat}, rs.length < fuel →
    (∀ x ∈ rs, x.length = 12 ∧ x.take 4 = [0x21, 0x06, 0xC0, 0xDE]) → At b off rs.flatten →
    slice b (off + rs.flatten.length) (off + rs.flatten.length + 4) ≠ [0x21, 0x06, 0xC0, 0xDE] →
    readPostData b fuel off = rs.flatten
  | [], 0, _, h, _, _, _ => by simp at h
  | [], fuel + 1, off, _, _, _, hn => by
    simp only [List.flatten_nil, List.length_nil, Nat.add_zero] at hn
    rw [readPostData, if_neg (by unfold postMagic; exact hn)]; rfl
  | x :: rs, 0, _, h, _, _, _ => by simp at h
  | x :: rs, fuel + 1, off, h, hx, ha, hn => by
    rw [List.flatten_cons, At.split] at ha
    obtain ⟨h12, hm⟩ := hx x (by simp)
    have h4 : slice b off (off + 4) = postMagic := by
      have : At x 0 (x.take 4) := by
        have := At.first (x.take 4) (x.drop 4)
        rwa [List.take_append_drop] at this
      have := ha.1.sub this
      rw [hm] at this
      exact this.slice_eq rfl
    have hs12 : slice b off (off + 12) = x := ha.1.slice_eq (by rw [h12])
    rw [h12] at ha
    rw [readPostData, if_pos h4, hs12, List.flatten_cons]
    rw [List.flatten_cons, List.length_append, h12, ← Nat.add_assoc] at hn
    rw [readPostData_records (rs := rs) (by simpa using h) (fun y hy => hx y (by simp [hy])) ha.2 hn]

/-- C79: data behind ARM9 that is made of records comes back if no marker follows it in the image. -/
theorem rom_post_data (r r' q : Rom) (u : Bool) (b : Bytes) (h : save r u = .ok (b, r')) (limit : Nat)
    (hne : Spec.Fnt.NoEmptyFileName r.filenames) (hd : Spec.Fnt.depth r.filenames ≤ limit) (hq : load limit b = .ok q)
    (hr : Records r.arm9PostData)
    (hn : ¬ At b (u32 b 0x20 + r.arm9.length + r.arm9PostData.length) [0x21, 0x06, 0xC0, 0xDE]) :
    q.arm9PostData = r.arm9PostData := by
  obtain ⟨fnt, ids9, ids7, es9, es7, es, starts, hdr, hs, -⟩ := save_inv h
  rw [load_save hs hne hd] at hq
  obtain ⟨w1, -⟩ := header_words hs
  cases hq
  obtain ⟨rs, hrs, hx⟩ := hr
  unfold loaded
  dsimp only
  have ha := hs.at_arm9
  rw [At.split, hrs] at ha
  rw [hrs, w1] at hn
  rw [hrs]
  have hlen : rs.flatten.length = 12 * rs.length := by
    rw [flatten_length_const (n := 12) (fun x h => (hx x h).1), Nat.mul_comm]
  have hb := ha.2.bound
  have hg := hs.len_ge
  refine readPostData_records (by omega) hx ha.2 ?_
  intro e
  apply hn
  refine At.of_slice (b := (sec0 r).length + r.arm9.length + rs.flatten.length + 4) ?_ (by omega) e
  have := congrArg List.length e
  rw [slice_length] at this
  simp only [List.length_cons, List.length_nil] at this
  omega

theorem sample_records : Records sample.arm9PostData :=
  ⟨[sample.arm9PostData], by decide, by decide⟩
example : Records sample.arm9PostData := sample_records

/-- C79: padding follows unless the data ends at a multiple of 0x200, and padding is no marker. -/
theorem rom_post_data_padded (r r' : Rom) (u : Bool) (b : Bytes) (h : save r u = .ok (b, r'))
    (hm : (r.arm9.length + r.arm9PostData.length) % 0x200 ≠ 0) :
    ¬ At b (u32 b 0x20 + r.arm9.length + r.arm9PostData.length) [0x21, 0x06, 0xC0, 0xDE] := by
  obtain ⟨fnt, ids9, ids7, es9, es7, es, starts, hdr, hs, -⟩ := save_inv h
  obtain ⟨w1, -⟩ := header_words hs
  rw [w1]
  intro ha
  have h1 : At b (sec0 r).length (block (r.arm9 ++ r.arm9PostData)) := by
    refine hs.at_full (by have := sec0_ge r; omega) (at_prefix ?_ pre1)
    exact At.last _ _
  unfold block at h1
  rw [At.split, List.length_append] at h1
  have h2 := h1.2
  have h3 : ∃ k, (0x200 - (r.arm9.length + r.arm9PostData.length) % 0x200) % 0x200 = k + 1 :=
    ⟨(0x200 - (r.arm9.length + r.arm9PostData.length) % 0x200) % 0x200 - 1, by omega⟩
  obtain ⟨k, hk⟩ := h3
  rw [hk, List.replicate_succ] at h2
  have h4 := At.split.1 (show At b _ ([0xFF] ++ List.replicate k 0xFF) from h2)
  have h5 := At.split.1 (show At b _ ([0x21] ++ [0x06, 0xC0, 0xDE]) from ha)
  have := At.unique (h4.1.cast (by omega)) h5.1 rfl
  simp at this

example : (sample.arm9.length + sample.arm9PostData.length) % 0x200 ≠ 0 := by decide

/-- C79: data behind ARM9 that does not begin with the marker is lost. -/
theorem rom_post_data_lost (r r' q : Rom) (u : Bool) (b : Bytes) (h : save r u = .ok (b, r')) (limit : Nat)
    (hne : Spec.Fnt.NoEmptyFileName r.filenames) (hd : Spec.Fnt.depth r.filenames ≤ limit) (hq : load limit b = .ok q)
    (hr : ¬ r.arm9PostData.take 4 <+: [0x21, 0x06, 0xC0, 0xDE]) : q.arm9PostData = [] := by
  obtain ⟨fnt, ids9, ids7, es9, es7, es, starts, hdr, hs, -⟩ := save_inv h
  rw [load_save hs hne hd] at hq
  cases hq
  unfold loaded
  dsimp only
  have ha := (At.split.1 hs.at_arm9).2
  have hg := hs.len_ge
  have hf : ∃ n, b.length = n + 1 := ⟨b.length - 1, by omega⟩
  obtain ⟨n, hn⟩ := hf
  rw [hn, readPostData, if_neg]
  intro e
  apply hr
  obtain ⟨x, y, h1, h2⟩ := ha
  rw [h1, ← h2] at e
  unfold slice at e
  rw [List.append_assoc, List.drop_left, Nat.add_sub_cancel_left, List.take_append] at e
  exact ⟨_, e⟩

example : ¬ ([1, 2, 3, 4, 5] : Bytes).take 4 <+: [0x21, 0x06, 0xC0, 0xDE] := by decide

end Verif.Props.Rom
