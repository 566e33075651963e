import Verif.Model.Core

/-!
# Query text

The textual query language of `select` (`mem_dataset.py:385-478`, `db_dataset.py:723-762`).
Texts are lists of characters.
-/

namespace DRec

/-- Python `text.split(sep)` for a one-character separator: the pieces between separators, always at
least one piece (`mem_dataset.py:387,394`, `db_dataset.py:725,730`). -/
def pySplit (sep : Char) : List Char → List (List Char)
  | [] => [[]]
  | c :: cs =>
    if c = sep then [] :: pySplit sep cs
    else match pySplit sep cs with
      | [] => [[c]]
      | p :: ps => (c :: p) :: ps

/-- Python `text.strip()` (`mem_dataset.py:392`).  Simplification: whitespace is the ASCII
whitespace of `Char.isWhitespace`. -/
def strip (s : List Char) : List Char :=
  ((s.dropWhile Char.isWhitespace).reverse.dropWhile Char.isWhitespace).reverse

/-- One raw segment: column, operator and value text. -/
structure RawCond where
  col : String
  op : String
  val : List Char
  deriving DecidableEq, Repr

/-- `column, operator, value = segment.split(" ")` (`mem_dataset.py:392-399`,
`db_dataset.py:729-730`). -/
def parseSegment (seg : List Char) : Except Err RawCond :=
  match pySplit ' ' (strip seg) with
  | [c, o, v] => .ok ⟨String.ofList c, String.ofList o, v⟩
  | _ => .error .badSegment

/-- Digits only, at least one. -/
def isDigits (s : List Char) : Bool := !s.isEmpty && s.all Char.isDigit

/-- Value of a digit string. -/
def digitsVal (s : List Char) : Nat := Nat.ofDigitChars 10 s 0

/-- Split off a leading minus or plus sign: `true` means negative. -/
def signOf : List Char → Bool × List Char
  | '-' :: s => (true, s)
  | '+' :: s => (false, s)
  | s => (false, s)

/-- Python `int(text)` (`mem_dataset.py:423`).  Simplification: no underscores, no surrounding
blanks (segments are stripped and split on blanks before). -/
def pyInt (s : List Char) : Option Int :=
  let (neg, d) := signOf s
  if isDigits d then some (if neg then -(digitsVal d : Int) else digitsVal d) else none

/-- Unsigned decimal `digits[.digits]`. -/
def pyDecimal (s : List Char) : Option ℚ :=
  match pySplit '.' s with
  | [a] => if isDigits a then some (digitsVal a) else none
  | [a, b] =>
    if (isDigits a || a.isEmpty) && (isDigits b || b.isEmpty) && !(a.isEmpty && b.isEmpty) then
      some ((digitsVal a : ℚ) + (digitsVal b : ℚ) / (10 ^ b.length : ℕ))
    else none
  | _ => none

/-- Python `float(text)` (`mem_dataset.py:414`).  Simplification: no exponents, `inf`, `nan` or
underscores; those texts are rejected here although Python accepts them. -/
def pyFloat (s : List Char) : Option ℚ :=
  let (neg, d) := signOf s
  (pyDecimal d).map fun q => if neg then -q else q

/-- Body of a quoted string without quotes and backslashes inside. -/
def plainBody (q : Char) (s : List Char) : Bool := s.all fun c => c ≠ q && c ≠ '\\'

/-- Python `eval(text)` restricted to literals (`mem_dataset.py:416`, `db_dataset.py:738`): integers
without superfluous leading zeros, decimals, and quoted strings.  Everything else, in particular a
bare word (`NameError`), is an error.  Simplification: expressions are not evaluated. -/
def pyEval (s : List Char) : Option Lit :=
  match s with
  | '\'' :: rest =>
    match rest.reverse with
    | '\'' :: body => if plainBody '\'' body then some (.str (String.ofList body.reverse)) else none
    | _ => none
  | '"' :: rest =>
    match rest.reverse with
    | '"' :: body => if plainBody '"' body then some (.str (String.ofList body.reverse)) else none
    | _ => none
  | _ =>
    let (neg, d) := signOf s
    if isDigits d then
      if d.head? = some '0' && !(d.all (· = '0')) then none
      else some (.int (if neg then -(digitsVal d : Int) else digitsVal d))
    else (pyFloat s).map .flt

/-! ## Writing queries (the form documented in `dataset_abc.py:25-26`) -/

/-- Text of one condition. -/
def RawCond.text (c : RawCond) : List Char :=
  c.col.toList ++ ' ' :: c.op.toList ++ ' ' :: c.val

end DRec
