import Mathlib.Algebra.Order.Field.Rat

/-!
# Values, literals, rows and comparisons

Shared vocabulary of the in-memory and the database dataset models.
-/

namespace DRec

/-- A cell value.  Python `int` and `float` are one exact numeric type (they compare and hash equal
in Python); strings are strings; `null` is Python `None` / SQL `NULL`.
Simplification: floats are exact rationals, NaN and infinities do not occur. -/
inductive Val where
  | num (q : ℚ)
  | str (s : String)
  | null
  deriving DecidableEq, Repr, Inhabited

/-- A Python value handed in by a caller or produced by `eval`/`int`/`float` on query text.  Here
`int` and `float` are kept apart because `str(3)` and `str(3.0)` differ. -/
inductive Lit where
  | int (n : Int)
  | flt (q : ℚ)
  | str (s : String)
  | none
  deriving DecidableEq, Repr, Inhabited

/-- The cell value a literal compares as. -/
def Lit.toVal : Lit → Val
  | .int n => .num n
  | .flt q => .num q
  | .str s => .str s
  | .none => .null

/-- Python `str(x)`.  Simplification: a non-integral float prints as `num/den` instead of its
decimal expansion (only its being different from every integer and word matters here). -/
def Lit.pyStr : Lit → String
  | .int n => toString n
  | .flt q => if q.den = 1 then toString q.num ++ ".0" else toString q.num ++ "/" ++ toString q.den
  | .str s => s
  | .none => "None"

/-- The six comparison operators accepted in queries
(`mem_dataset.py:438-469`, `db_dataset.py:735-760`). -/
inductive Op where
  | gt | ge | le | lt | eq | ne
  deriving DecidableEq, Repr, Inhabited

/-- Text of an operator (`mem_dataset.py:438-463`). -/
def Op.text : Op → String
  | .gt => ">" | .ge => ">=" | .le => "<=" | .lt => "<" | .eq => "==" | .ne => "!="

/-- Operator recognition (`mem_dataset.py:438-469`, `db_dataset.py:735`). -/
def Op.ofText (s : String) : Option Op :=
  if s = ">" then some .gt else if s = ">=" then some .ge else if s = "<=" then some .le
  else if s = "<" then some .lt else if s = "==" then some .eq else if s = "!=" then some .ne
  else none

/-- Errors raised by the modelled functions (only the kind matters, not the message). -/
inductive Err where
  | badSegment      -- query segment does not have three parts
  | badColumn       -- unexpected column
  | badOperator     -- unexpected operator
  | badValue        -- value text cannot be converted
  | typeError       -- Python TypeError
  | noIds           -- no internal ids assigned
  | readOnly        -- read-only column
  | applyFailed     -- function raised inside apply
  | missingColumn   -- KeyError on a column
  | notFound        -- assertion "was not found"
  | empty           -- empty input where a record is needed
  | outOfRange      -- index/dimension error
  | assertion       -- any other failed assertion
  | crash           -- uncaught internal exception
  | memory          -- MemoryError
  | zeroDiv         -- ZeroDivisionError
  | keyError        -- KeyError on a dictionary
  deriving DecidableEq, Repr, Inhabited

/-- Numeric comparison. -/
def Op.onRat : Op → ℚ → ℚ → Bool
  | .gt, a, b => decide (b < a)
  | .ge, a, b => decide (b ≤ a)
  | .le, a, b => decide (a ≤ b)
  | .lt, a, b => decide (a < b)
  | .eq, a, b => decide (a = b)
  | .ne, a, b => decide (a ≠ b)

/-- Lexicographic comparison of strings by code point (Python and SQLite BINARY collation). -/
def Op.onStr : Op → String → String → Bool
  | .gt, a, b => decide (b < a)
  | .ge, a, b => decide (¬ a < b)
  | .le, a, b => decide (¬ b < a)
  | .lt, a, b => decide (a < b)
  | .eq, a, b => decide (a = b)
  | .ne, a, b => decide (a ≠ b)

/-- Element-wise numpy/Python comparison `a op b` (`mem_dataset.py:438-467`).  Comparing different
kinds of values is `False`/`True` for `==`/`!=` and raises `TypeError` for the orderings. -/
def cmpPy : Op → Val → Val → Except Err Bool
  | op, .num a, .num b => .ok (op.onRat a b)
  | op, .str a, .str b => .ok (op.onStr a b)
  | .eq, .null, .null => .ok true
  | .ne, .null, .null => .ok false
  | .eq, _, _ => .ok false
  | .ne, _, _ => .ok true
  | _, _, _ => .error .typeError

/-- SQLite comparison in a `WHERE` clause: anything with `NULL` is not true; every number is smaller
than every text (https://www.sqlite.org/datatype3.html). -/
def cmpSql : Op → Val → Val → Bool
  | _, .null, _ => false
  | _, _, .null => false
  | op, .num a, .num b => op.onRat a b
  | op, .str a, .str b => op.onStr a b
  | .lt, .num _, .str _ => true
  | .le, .num _, .str _ => true
  | .ne, .num _, .str _ => true
  | .gt, .str _, .num _ => true
  | .ge, .str _, .num _ => true
  | .ne, .str _, .num _ => true
  | _, _, _ => false

/-- A stored record: its record id (dataframe index / `rid` column) and its other cells.  Which
columns are visible is decided by the dataset's column list. -/
structure Row where
  rid : Nat
  cell : String → Val

instance : Inhabited Row := ⟨⟨0, fun _ => .null⟩⟩

/-- Value of a column of a row; the record id is the column `rid`. -/
def Row.get (r : Row) (c : String) : Val := if c = "rid" then .num r.rid else r.cell c

/-- Overwrite one cell. -/
def Row.set (r : Row) (c : String) (v : Val) : Row :=
  { r with cell := fun d => if d = c then v else r.cell d }

/-- One query condition after parsing: column, operator, value. -/
structure Cond where
  col : String
  op : Op
  val : Lit
  deriving DecidableEq, Repr, Inhabited

end DRec
