import Verif.Model.Files

/-!
# Specification vocabulary for files
-/

namespace Verif.Spec.Files

open Verif Verif.Model Verif.Model.Files

/-- The files after `d` was written to `p`: `p` is there, and every other file is as it was. -/
structure Wrote (fs fs' : FS) (p : Path) (d : Bytes) : Prop where
  here : fs'.content p = some d
  elsewhere : ∀ q, q ≠ p → fs'.content q = fs.content q
  writable : ∀ q, fs'.writable q = fs.writable q

/-- `name` is `stem` followed by the suffix `ext`, which is empty or begins with a dot and has more to it.  A suffix has
no other dot; if it is empty, then there is no dot in the name but at its beginning, or the last one is at its end. -/
def Splits (name stem ext : Str) : Prop :=
  name = stem ++ ext ∧ stem ≠ [] ∧
    ((∃ r, ext = 46 :: r ∧ r ≠ [] ∧ 46 ∉ r) ∨ (ext = [] ∧ (46 ∉ name.drop 1 ∨ name.getLast? = some 46)))

/-- The file that a command asks to write. -/
inductive Target : Command → Path → Prop
  | compressTo {i a} (p : Path) : Target (.compress i (some p) a) p
  | decompressTo {i} (p : Path) : Target (.decompress i (some p)) p
  | compress {folder name stem ext a} : Splits name stem ext →
      Target (.compress ⟨folder, name⟩ none a) ⟨folder, stem ++ [46, 99, 109, 112]⟩
  | decompress {folder name stem ext} : Splits name stem ext →
      Target (.decompress ⟨folder, name⟩ none) ⟨folder, stem ++ [46, 100, 101, 99]⟩

/-- `c` asks to turn the file `i` into what `convert` makes of it. -/
inductive Asks (compress : Bool → Bytes → Py Bytes) (decompress : Bytes → Py Bytes) :
    Command → Path → (Bytes → Py Bytes) → Prop
  | compress {i o a} : Asks compress decompress (.compress i o a) i (compress a)
  | decompress {i o} : Asks compress decompress (.decompress i o) i decompress

/-- The call asks to write `d` to `p`, where the files are as in `fs`. -/
inductive Op.Makes (fs : FS) : Op → Path → Bytes → Prop
  | lz10Decompress {data p d} : Lz10.decompress data = .ok d → Makes fs (.lz10Decompress data p) p d
  | lz10Compress {data p d} : Lz10.compress data = .ok d → Makes fs (.lz10Compress data p) p d
  | codeDecompress {data p d} : CodeCompression.decompress data = .ok d → Makes fs (.codeDecompress data p) p d
  | codeCompress {data p a d} : CodeCompression.compress data a = .ok d → Makes fs (.codeCompress data p a) p d
  | bmg {sjis b p d} : b.save sjis = .ok d → Makes fs (.bmg sjis b p) p d
  | bnbl {b p d} : b.save = .ok d → Makes fs (.bnbl b p) p d
  | bncl {b p d} : b.save = .ok d → Makes fs (.bncl b p) p d
  | mainCode {f p c d} : f.save c = .ok d → Makes fs (.mainCode f p c) p d
  | palette {c p d} : Color.savePalette c = .ok d → Makes fs (.palette c p) p d
  | imageTiles {t p d} : Graphics2D.saveImageTiles t = .ok d → Makes fs (.imageTiles t p) p d
  | tilemapTiles {t p d} : Graphics2D.saveTilemapTiles t = .ok d → Makes fs (.tilemapTiles t p) p d
  | narc {n p d} : Narc.save n = .ok d → Makes fs (.narc n p) p d
  | rom {r p u d r'} : Rom.save r u = .ok (d, r') → Makes fs (.rom r p u) p d
  | sdat {o p d} : o.save = .ok d → Makes fs (.sdat o p) p d
  | sseq {x p} {i : SoundArchive.SeqItem} : x.save = .ok i → Makes fs (.sseq x p) p i.file
  | ssar {x p} {i : SoundArchive.SsarItem} : x.save = .ok i → Makes fs (.ssar x p) p i.file
  | sbnk {x p} {i : SoundArchive.BankItem} : x.save = .ok i → Makes fs (.sbnk x p) p i.file
  | swav {w p a b d w'} : w.save a b = .ok (d, w') → Makes fs (.swav w p a b) p d
  | swar {x p} {i : SoundArchive.SwarItem} : x.save = .ok i → Makes fs (.swar x p) p i.file
  | strm {x p} {i : SoundArchive.StrmItem} : x.save = .ok i → Makes fs (.strm x p) p i.file
  | lz10Tool {c i conv p s d} : Asks (fun _ => Lz10.compress) Lz10.decompress c i conv → Target c p →
      fs.content i = some s → conv s = .ok d → Makes fs (.lz10Tool c) p d
  | codeTool {c i conv p s d} : Asks (fun a s => CodeCompression.compress s a) CodeCompression.decompress c i conv →
      Target c p → fs.content i = some s → conv s = .ok d → Makes fs (.codeTool c) p d

/-- The call has nothing to do with the file `p` but perhaps reading it. -/
def Op.Spares (op : Op) (p : Path) : Prop := ∀ fs q d, Op.Makes fs op q d → q ≠ p

end Verif.Spec.Files
