import Verif.Model.SoundArchive

/-!
# What the tables of a sound archive point at

A description of the file format for readers: total functions on bytes.  Only the data structures of the model are used, none
of its functions.
-/

namespace Verif.Spec.SoundArchive.Reader

open Verif Verif.Model.SoundArchive Verif.Model.SoundStream

def u8 (d : Bytes) (o : Nat) : Nat := leVal (slice d o (o + 1))
def u16 (d : Bytes) (o : Nat) : Nat := leVal (slice d o (o + 2))
def u32 (d : Bytes) (o : Nat) : Nat := leVal (slice d o (o + 4))
def i16 (d : Bytes) (o : Nat) : Int := if u16 d o < 0x8000 then (u16 d o : Int) else (u16 d o : Int) - 0x10000

/-- A bit of a number. -/
def bit (n k : Nat) : Bool := decide (n / 2 ^ k % 2 = 1)

/-- Where the blocks are. -/
def symbBlock (d : Bytes) : Nat := u32 d 0x10
def infoBlock (d : Bytes) : Nat := u32 d 0x18
def fatBlock (d : Bytes) : Nat := u32 d 0x20

/-- The file with a number. -/
def fileAt (d : Bytes) (k : Nat) : Bytes :=
  (d.drop (u32 d (fatBlock d + 0xC + 0x10 * k))).take (u32 d (fatBlock d + 0xC + 0x10 * k + 4))

/-! ## Names -/

/-- The characters up to the next NUL; without any NUL, all but the last. -/
def textAt (d : Bytes) (o : Nat) : Str :=
  (if 0 ∈ d.drop o then (d.drop o).takeWhile (· ≠ 0) else (d.drop o).dropLast).map UInt8.toNat

/-- The name that a word of a table refers to. -/
def nameOf (d : Bytes) (word : Nat) : Symbol := if word = 0 then none else some (textAt d (symbBlock d + word))

/-- The names in a table at a place in the block of the names. -/
def nameTable (d : Bytes) (o : Nat) : List Symbol :=
  (List.range (u32 d (symbBlock d + o))).map fun i => nameOf d (u32 d (symbBlock d + o + 4 + 4 * i))

/-- The names of the items of a kind. -/
def names (d : Bytes) (kind : Nat) : List Symbol :=
  if symbBlock d = 0 then [] else nameTable d (u32 d (symbBlock d + 8 + 4 * kind))

/-- The names of the sequence archives, and of the sequences in each of them. -/
def ssarNames (d : Bytes) : List (Symbol × List Symbol) :=
  if symbBlock d = 0 then []
  else
    (List.range (u32 d (symbBlock d + u32 d (symbBlock d + 0xC)))).map fun i =>
      (nameOf d (u32 d (symbBlock d + u32 d (symbBlock d + 0xC) + 4 + 8 * i)),
        if u32 d (symbBlock d + u32 d (symbBlock d + 0xC) + 4 + 8 * i + 4) = 0 then []
        else nameTable d (u32 d (symbBlock d + u32 d (symbBlock d + 0xC) + 4 + 8 * i + 4)))

/-! ## Entries -/

/-- The places of the entries of a kind; `none` for an empty slot. -/
def places (d : Bytes) (kind : Nat) : List (Option Nat) :=
  (List.range (u32 d (infoBlock d + u32 d (infoBlock d + 8 + 4 * kind)))).map fun i =>
    if u32 d (infoBlock d + u32 d (infoBlock d + 8 + 4 * kind) + 4 + 4 * i) = 0 then none
    else some (infoBlock d + u32 d (infoBlock d + u32 d (infoBlock d + 8 + 4 * kind) + 4 + 4 * i))

def seqAt (d : Bytes) (o : Nat) : SeqItem :=
  ⟨fileAt d (u16 d o), u16 d o, u16 d (o + 2), u16 d (o + 4), u8 d (o + 6), u8 d (o + 7), u8 d (o + 8), u8 d (o + 9)⟩

def ssarAt (d : Bytes) (names : List Symbol) (o : Nat) : SsarItem := ⟨fileAt d (u16 d o), u16 d o, u16 d (o + 2), names⟩

def bankAt (d : Bytes) (o : Nat) : BankItem :=
  ⟨fileAt d (u16 d o), u16 d o, u16 d (o + 2),
    (List.range 4).map fun i => if i16 d (o + 4 + 2 * i) = -1 then none else some (i16 d (o + 4 + 2 * i))⟩

def swarAt (d : Bytes) (o : Nat) : SwarItem := ⟨fileAt d (u16 d o), u16 d o, u16 d (o + 2)⟩

def playerAt (d : Bytes) (o : Nat) : SeqPlayer := ⟨u16 d o, (List.range 16).filter fun i => bit (u16 d (o + 2)) i, u32 d (o + 4)⟩

def groupAt (d : Bytes) (o : Nat) : List GroupEntry :=
  (List.range (u32 d o)).map fun i =>
    let e := o + 4 + 8 * i
    ⟨u8 d e, u32 d (e + 4), bit (u16 d (e + 1)) 0, if bit (u16 d (e + 1)) 1 then 1 else 0, bit (u16 d (e + 1)) 2, bit (u16 d (e + 1)) 3⟩

def streamPlayerAt (d : Bytes) (o : Nat) : List Nat := (List.range (u8 d o)).map fun i => u8 d (o + 1 + i)

def strmAt (d : Bytes) (o : Nat) : StrmItem :=
  ⟨fileAt d (u16 d o), u16 d o, u16 d (o + 2), u8 d (o + 4), u8 d (o + 5), u8 d (o + 6), u8 d (o + 7)⟩

/-! ## Names and entries together -/

/-- The items of a kind: as many as there are names or entries. -/
def items {α : Type} (d : Bytes) (kind : Nat) (itemAt : Nat → α) : List (Symbol × Option α) :=
  (List.range (max (places d kind).length (names d kind).length)).map fun i =>
    ((names d kind)[i]?.getD none, ((places d kind)[i]?.getD none).map itemAt)

/-- The sequence archives. -/
def ssars (d : Bytes) : List (Symbol × Option SsarItem) :=
  (List.range (max (places d 1).length (ssarNames d).length)).map fun i =>
    (((ssarNames d)[i]?.getD (none, [])).1, ((places d 1)[i]?.getD none).map (ssarAt d ((ssarNames d)[i]?.getD (none, [])).2))

end Verif.Spec.SoundArchive.Reader
