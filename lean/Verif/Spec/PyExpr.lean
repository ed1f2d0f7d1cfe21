import Verif.Base.Str

/-!
# Python expressions

A reader for a part of the expressions of Python, after the language reference (2.4 "Literals", 6.2 "Atoms", 6.3.4
"Calls"): numbers, string and bytes literals, lists, tuples, sets, `...`, dotted names, and calls of dotted names with
positional and keyword arguments.  Operators, comprehensions, floats, triple-quoted and raw literals are left out: a
text that needs them is not read.
-/

namespace Verif.Spec.PyExpr

open Verif

/-- The code points of a name. -/
def str (s : String) : Str := s.toList.map Char.toNat

/-- An expression.  A literal of bytes has code points below 256.  The names include `None`, `True` and `False`. -/
inductive Expr
  | int (n : Int)
  | text (s : Str)
  | bytes (s : Str)
  | ellipsis
  | name (path : List Str)
  | list (items : List Expr)
  | tuple (items : List Expr)
  | set (items : List Expr)
  | call (path : List Str) (args : List (Option Str × Expr))

/-! ## Characters -/

def isDigit (c : Nat) : Bool := 48 ≤ c && c ≤ 57

/-- The value of a hexadecimal digit. -/
def hexVal (c : Nat) : Option Nat :=
  if 48 ≤ c ∧ c ≤ 57 then some (c - 48)
  else if 97 ≤ c ∧ c ≤ 102 then some (c - 87)
  else if 65 ≤ c ∧ c ≤ 70 then some (c - 55)
  else none

def isOct (c : Nat) : Bool := 48 ≤ c && c ≤ 55

/-- Characters of names (only those of ASCII). -/
def isIdStart (c : Nat) : Bool := (65 ≤ c && c ≤ 90) || (97 ≤ c && c ≤ 122) || c = 95
def isIdChar (c : Nat) : Bool := isIdStart c || isDigit c

/-! ## Numbers -/

/-- The number with these digits, after those of `v`. -/
def decValue (v : Nat) : Str → Nat
  | [] => v
  | c :: s => decValue (v * 10 + (c - 48)) s

/-- The same with hexadecimal digits. -/
def hexValue (v : Nat) : Str → Nat
  | [] => v
  | c :: s => hexValue (v * 16 + (hexVal c).getD 0) s

/-- After a number there may be no name or fraction. -/
def endsNumber : Str → Bool
  | [] => true
  | c :: _ => ! (isIdChar c || c = 46)

/-- Decimal digits, which may begin with 0 only if they are all 0. -/
def decimal (s : Str) : Option (Nat × Str) :=
  let ds := s.takeWhile isDigit
  let rest := s.dropWhile isDigit
  if ds = [] ∨ endsNumber rest = false then none
  else if ds.head? = some 48 ∧ ds.any (· ≠ 48) then none
  else some (decValue 0 ds, rest)

/-- Hexadecimal digits. -/
def hexadecimal (s : Str) : Option (Nat × Str) :=
  let ds := s.takeWhile fun c => (hexVal c).isSome
  let rest := s.dropWhile fun c => (hexVal c).isSome
  if ds = [] ∨ endsNumber rest = false then none else some (hexValue 0 ds, rest)

/-- A number: `0x` and hexadecimal digits, or decimal digits. -/
def number (s : Str) : Option (Nat × Str) :=
  match s with
  | 48 :: x :: t => if x = 120 ∨ x = 88 then hexadecimal t else decimal s
  | _ => decimal s

/-! ## Literals -/

/-- `n` hexadecimal digits. -/
def hexDigits : Nat → Nat → Str → Option (Nat × Str)
  | 0, v, s => some (v, s)
  | _ + 1, _, [] => none
  | n + 1, v, c :: s => (hexVal c).bind fun d => hexDigits n (v * 16 + d) s

/-- Up to `n` octal digits. -/
def octDigits : Nat → Nat → Str → Nat × Str
  | 0, v, s => (v, s)
  | _ + 1, v, [] => (v, [])
  | n + 1, v, c :: s => if isOct c then octDigits n (v * 8 + (c - 48)) s else (v, c :: s)

/-- What follows a backslash: the characters it stands for, and the rest.  `uni` is set within strings; octal escapes
of bytes are taken modulo 256.  Names of characters (`\N{…}`) are left out. -/
def escape (uni : Bool) : Str → Option (Str × Str)
  | [] => none
  | c :: s =>
    if c = 10 then some ([], s)
    else if c = 92 ∨ c = 39 ∨ c = 34 then some ([c], s)
    else if c = 97 then some ([7], s)
    else if c = 98 then some ([8], s)
    else if c = 102 then some ([12], s)
    else if c = 110 then some ([10], s)
    else if c = 114 then some ([13], s)
    else if c = 116 then some ([9], s)
    else if c = 118 then some ([11], s)
    else if isOct c then
      let r := octDigits 2 (c - 48) s
      some ([if uni then r.1 else r.1 % 256], r.2)
    else if c = 120 then (hexDigits 2 0 s).map fun r => ([r.1], r.2)
    else if uni ∧ c = 117 then (hexDigits 4 0 s).map fun r => ([r.1], r.2)
    else if uni ∧ c = 85 then
      (hexDigits 8 0 s).bind fun r => if r.1 < 0x110000 then some ([r.1], r.2) else none
    else if uni ∧ c = 78 then none
    else some ([92, c], s)

/-- The rest of a literal that ends with `quote`; bytes literals have only ASCII characters. -/
def literal (uni : Bool) (quote : Nat) : Nat → Str → Option (Str × Str)
  | 0, _ => none
  | _ + 1, [] => none
  | f + 1, c :: s =>
    if c = quote then some ([], s)
    else if c = 10 ∨ c = 13 then none
    else if c = 92 then
      (escape uni s).bind fun r => (literal uni quote f r.2).map fun q => (r.1 ++ q.1, q.2)
    else if uni ∨ c < 128 then (literal uni quote f s).map fun q => (c :: q.1, q.2)
    else none

/-! ## Expressions -/

/-- The names separated by dots. -/
def dotted : Nat → Str → Option (List Str × Str)
  | 0, _ => none
  | f + 1, s =>
    let n := s.takeWhile isIdChar
    let rest := s.dropWhile isIdChar
    if (s.head?.map isIdStart) ≠ some true then none
    else match rest with
      | 46 :: t => (dotted f t).map fun r => (n :: r.1, r.2)
      | _ => some ([n], rest)

def skip (s : Str) : Str := s.dropWhile (· = 32)

/-- A single name with an equals sign after it is a keyword, and what comes then is its value. -/
def keyword : Expr × Str → Option (Str × Str)
  | (.name [k], 61 :: t) => some (k, t)
  | _ => none

mutual

/-- An expression at the beginning of the text, and the rest.  The number bounds the depth. -/
def expr : Nat → Str → Option (Expr × Str)
  | 0, _ => none
  | _ + 1, [] => none
  | f + 1, c :: s =>
    if c = 91 then (items f 93 s).bind fun r => (plain r.1).map fun l => (.list l, r.2.2)
    else if c = 123 then
      (items f 125 s).bind fun r => (plain r.1).bind fun l => if l.isEmpty then none else some (.set l, r.2.2)
    else if c = 40 then
      (items f 41 s).bind fun r => (plain r.1).map fun l =>
        match l, r.2.1 with
        | [e], false => (e, r.2.2)
        | l, _ => (.tuple l, r.2.2)
    else if c = 39 ∨ c = 34 then (literal true c f s).map fun r => (.text r.1, r.2)
    else if c = 46 then if s.take 2 = [46, 46] then some (.ellipsis, s.drop 2) else none
    else if c = 45 then (number s).map fun r => (.int (- (r.1 : Int)), r.2)
    else if isDigit c then (number (c :: s)).map fun r => (.int r.1, r.2)
    else if c = 98 ∧ (s.head? = some 39 ∨ s.head? = some 34) then
      (literal false (s.headD 0) f s.tail).map fun r => (.bytes r.1, r.2)
    else
      (dotted f (c :: s)).bind fun r =>
        match r.2 with
        | 40 :: t => (items f 41 t).map fun q => (.call r.1 q.1, q.2.2)
        | rest => some (.name r.1, rest)
where
  /-- The items, if none is a keyword. -/
  plain (l : List (Option Str × Expr)) : Option (List Expr) :=
    if l.all fun x => x.1.isNone then some (l.map Prod.snd) else none

/-- Items separated by commas up to the character `close`; whether there is a comma after the last one; the rest.  An
item may have a keyword. -/
def items : Nat → Nat → Str → Option (List (Option Str × Expr) × Bool × Str)
  | 0, _, _ => none
  | f + 1, close, s =>
    if (skip s).head? = some close then some ([], true, (skip s).tail)
    else
      (expr f (skip s)).bind fun r =>
      (match keyword r with
        | some (k, t) => (expr f t).map fun q : Expr × Str => ((some k, q.1), q.2)
        | none => some ((none, r.1), r.2)).bind fun q : (Option Str × Expr) × Str =>
      match skip q.2 with
      | [] => none
      | d :: t =>
        if d = 44 then (items f close t).map fun p : List (Option Str × Expr) × Bool × Str => (q.1 :: p.1, p.2.1, p.2.2)
        else if d = close then some ([q.1], false, t)
        else none

end

/-- The text is this expression. -/
def Parses (s : Str) (e : Expr) : Prop := ∃ f, expr f s = some (e, [])

/-! ## Values -/

def Expr.isName (e : Expr) (n : String) : Bool :=
  match e with
  | .name [k] => k = str n
  | _ => false

/-- A number; `True` and `False` are 1 and 0. -/
def Expr.asInt : Expr → Option Int
  | .int n => some n
  | .name [k] => if k = str "True" then some 1 else if k = str "False" then some 0 else none
  | _ => none

def Expr.asNat (e : Expr) : Option Nat := e.asInt.bind fun n => if 0 ≤ n then some n.toNat else none

def Expr.asBool : Expr → Option Bool
  | .name [k] => if k = str "True" then some true else if k = str "False" then some false else none
  | _ => none

def Expr.asText : Expr → Option Str
  | .text s => some s
  | _ => none

def Expr.asBytes : Expr → Option Bytes
  | .bytes s => some (s.map UInt8.ofNat)
  | _ => none

/-- `None`, or what `f` says. -/
def Expr.asOption {α : Type} (f : Expr → Option α) (e : Expr) : Option (Option α) :=
  if e.isName "None" then some none else (f e).map some

/-- All elements, if there is a value for each. -/
def allOf {α : Type} (f : Expr → Option α) : List Expr → Option (List α)
  | [] => some []
  | e :: es => (f e).bind fun x => (allOf f es).map (x :: ·)

def Expr.asList {α : Type} (f : Expr → Option α) : Expr → Option (List α)
  | .list l => allOf f l
  | _ => none

/-- A set, as the list of the elements that are written. -/
def Expr.asSet {α : Type} (f : Expr → Option α) : Expr → Option (List α)
  | .set l => allOf f l
  | .call [k] [] => if k = str "set" then some [] else none
  | _ => none

def Expr.asPair {α β : Type} (f : Expr → Option α) (g : Expr → Option β) : Expr → Option (α × β)
  | .tuple [a, b] => (f a).bind fun x => (g b).map fun y => (x, y)
  | _ => none

/-! ## Calls -/

/-- The arguments with keywords, if they all come last. -/
def keywords : List (Option Str × Expr) → Option (List (Str × Expr))
  | [] => some []
  | (some k, e) :: l => (keywords l).map ((k, e) :: ·)
  | (none, _) :: _ => none

/-- The arguments without keywords at the beginning, and the others. -/
def positional : List (Option Str × Expr) → List Expr × List (Option Str × Expr)
  | (none, e) :: l => (e :: (positional l).1, (positional l).2)
  | l => ([], l)

/-- The values of the parameters that are left, from keywords or defaults. -/
def fillIn (kws : List (Str × Expr)) : List (String × Option Expr) → Option (List Expr)
  | [] => some []
  | (p, d) :: ps =>
    ((kws.lookup (str p)).or d).bind fun e => (fillIn kws ps).map (e :: ·)

/-- The values of the parameters `params` (in order, with their defaults) and of the parameters `only` that have to be
given with keywords, in a call with these arguments (language reference 6.3.4): there may be no more positional
arguments than parameters, no keyword twice, no keyword for a parameter that has got a value, and no unknown one. -/
def bindArgs (params only : List (String × Option Expr)) (args : List (Option Str × Expr)) : Option (List Expr) :=
  let pos := (positional args).1
  (keywords (positional args).2).bind fun kws =>
  if params.length < pos.length then none
  else if ! (decide (kws.map Prod.fst).Nodup) then none
  else if ! (kws.all fun k => ((params.drop pos.length ++ only).map fun p => str p.1).contains k.1) then none
  else (fillIn kws (params.drop pos.length ++ only)).map (pos ++ ·)

/-- The values of the parameters, if the expression is a call of this name. -/
def Expr.asCall (e : Expr) (path : List String) (params : List (String × Option Expr))
    (only : List (String × Option Expr) := []) : Option (List Expr) :=
  match e with
  | .call p args => if p = path.map str then bindArgs params only args else none
  | _ => none

/-- The text is an expression with this value; `f` says which calls have which values. -/
def Evaluates {α : Type} (s : Str) (f : Expr → Option α) (x : α) : Prop := ∃ e, Parses s e ∧ f e = some x

end Verif.Spec.PyExpr
