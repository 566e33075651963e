import Verif.Model.Db

/-!
# Random table names (`db_dataset.py:531,834`)

`f'interactions_{str(random.random()).split(".")[1]}'`.  `Model/Db` numbers the tables; here they have the names the code
gives them.
-/

namespace DRec

/-- A decimal number as Python's float formatting produces it: the digits after "0." and the power of ten to multiply
with. -/
structure Decimal where
  digits : List Nat
  point : Int
  deriving DecidableEq, Repr

/-- The digits as characters. -/
def digitText (ds : List Nat) : List Char := ds.map Nat.digitChar

/-- The exponent part of the scientific notation: a sign and at least two digits. -/
def exponentText (e : Int) : List Char :=
  (if e < 0 then '-' else '+') :: (if e.natAbs < 10 then '0' :: Nat.toDigits 10 e.natAbs else Nat.toDigits 10 e.natAbs)

/-- `str(x)` of a float, from its shortest digits (CPython, `format_float_short` with `repr` style): scientific notation
below 1e-4 and from 1e16. -/
def floatText (d : Decimal) : List Char :=
  if d.point ≤ -4 ∨ 16 < d.point then
    digitText (d.digits.take 1) ++ (if d.digits.length ≤ 1 then [] else '.' :: digitText (d.digits.drop 1)) ++
      'e' :: exponentText (d.point - 1)
  else if d.point ≤ 0 then '0' :: '.' :: (List.replicate d.point.natAbs '0' ++ digitText d.digits)
  else if d.digits.length ≤ d.point.natAbs then
    digitText d.digits ++ List.replicate (d.point.natAbs - d.digits.length) '0' ++ ['.', '0']
  else digitText (d.digits.take d.point.natAbs) ++ '.' :: digitText (d.digits.drop d.point.natAbs)

/-- The name of a new table (`db_dataset.py:531,834`); `none` is the `IndexError` of `[1]` on a text without a point. -/
def tableName (d : Decimal) : Option (List Char) :=
  match (pySplit '.' (floatText d)).drop 1 with
  | [] => none
  | s :: _ => some ("interactions_".toList ++ s)

/-- A character that may occur in an unquoted SQL name.  Simplification: `$` and non-ASCII letters, which never occur, are
left out. -/
def sqlNameChar (c : Char) : Bool := c.isAlphanum || c = '_'

/-- The names of the tables in the file, `nm` being the names given to the tables so far. -/
def World.tableNames (w : World) (nm : Nat → List Char) : List (List Char) :=
  ((List.range w.nextT).filter fun n => (w.tables n).isSome).map nm

/-- `CREATE TABLE` succeeds when the name is a name and not in use (`db_dataset.py:925`). -/
def World.nameOk (w : World) (nm : Nat → List Char) (n : List Char) : Bool :=
  n.all sqlNameChar && !decide (n ∈ w.tableNames nm)

/-- The name of a table that has been created. -/
def setName (nm : Nat → List Char) (w w' : World) (n : List Char) : Nat → List Char :=
  if w.nextT < w'.nextT then fun k => if k = w.nextT then n else nm k else nm

/-- `World.split` with the random number `d` (`db_dataset.py:831-848`): the name is made first, then the columns are
checked, then the table is created. -/
def World.splitNamed (w : World) (nm : Nat → List Char) (d : Decimal) (i : Nat) (x : Inst) (t : Table) (us : List Nat) :
    (World × (Nat → List Char)) × Option Err :=
  match tableName d with
  | none => ((w, nm), some .outOfRange)
  | some n =>
    match x.buildTable with
    | .error e => ((w, nm), some e)
    | .ok _ =>
      if w.nameOk nm n then (((w.split i x t us).1, setName nm w (w.split i x t us).1 n), (w.split i x t us).2)
      else ((w, nm), some .crash)

/-- `_optimize_states` (`db_dataset.py:807-849`) with the random number `d`. -/
def World.optimizeNamed (w : World) (nm : Nat → List Char) (d : Decimal) (i : Nat) (skipEmpty : Bool) :
    (World × (Nat → List Char)) × Option Err :=
  match w.insts i with
  | none => ((w, nm), some .crash)
  | some x =>
    if x.state = .table ∧ skipEmpty = true then ((w.put i x.reset, nm), none)
    else if 0 < w.gens then ((w.put i x.reset, nm), none)
    else
      match w.users x.table, w.tables x.table with
      | some us, some t =>
        if us.length = 1 then ((((w.put i x.reset).shrink i x.reset t).1, nm), ((w.put i x.reset).shrink i x.reset t).2)
        else (w.put i x.reset).splitNamed nm d i x.reset t us
      | _, _ => ((w.put i x.reset, nm), some .keyError)

/-- The part of `apply` for a new type (`db_dataset.py:525-558`) with the random number `d`: `_col_types` is changed
before the name is made. -/
def World.applyNewNamed (w : World) (nm : Nat → List Char) (d : Decimal) (i : Nat) (c : String) (f : Val → Option Lit)
    (dt : DType) : (World × (Nat → List Char)) × Option Err :=
  match w.insts i with
  | none => ((w, nm), some .crash)
  | some x0 =>
    match x0.types, w.tables x0.table, w.users x0.table with
    | some ty, some t, some _ =>
      match evalSrc t x0.query with
      | .error e => ((w, nm), some e)
      | .ok _ =>
        let x : Inst := { x0 with types := some fun c' => if c' = c then dt else ty c' }
        match tableName d with
        | none => ((w.put i x, nm), some .outOfRange)
        | some n =>
          match x.buildTable with
          | .error e => ((w.put i x, nm), some e)
          | .ok _ =>
            if w.nameOk nm n then
              (((w.applyNew i c f dt).1, setName nm w (w.applyNew i c f dt).1 n), (w.applyNew i c f dt).2)
            else ((w.put i x, nm), some .crash)
    | _, _, _ => ((w, nm), some .applyFailed)

end DRec
