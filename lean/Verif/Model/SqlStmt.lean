import Verif.Model.Sql
import Mathlib.Data.List.Dedup
import Mathlib.Data.List.Sort

/-!
# The other SQL statements of database datasets

Counting, extreme values, deleting, copying, inserting, updating (`db_dataset.py:77,259,267,275,344,457-480,521,547,655,
795,829,839,890`), read as in `Model/Sql`.  Simplifications: values given for `?` are not converted to the types of the columns
(that is `stored` and `Inst.idArg` in `Model/Db`); the order of a selection without `ORDER BY` is that of the primary key.
-/

namespace DRec

/-! ## Reading statements -/

/-- What a statement does: it returns values (one column), or gives a table a new content. -/
inductive SqlOut where
  | vals (vs : List Val)
  | wrote (n : String) (t : Table)

/-- Behind `SELECT COUNT(*) FROM`: a selection with `DISTINCT`, or any source. -/
def sqlCount (db : String → Option Table) (f : Nat) : List Tok → Option Nat
  | .lpar :: .kw .select :: .kw (.other "DISTINCT") :: ts =>
    match nameList ts with
    | some (cols, .kw .from :: ts1) =>
      match sqlSource db f ts1 with
      | some ((scols, rows), [.rpar]) => (cols.mapM (resolve scols)).map fun cs => ((rows.map (keyOn cs)).dedup).length
      | _ => none
    | _ => none
  | ts =>
    match sqlSource db f ts with
    | some ((_, rows), []) => some rows.length
    | _ => none

/-- Behind `SELECT MAX(c) FROM`, `SELECT MIN(c) FROM`. -/
def sqlExtreme (db : String → Option Table) (f : Nat) (agg c : String) (ts : List Tok) : Option Val :=
  match sqlSource db f ts with
  | some ((scols, rows), []) =>
    match resolve scols c with
    | none => none
    | some d =>
      if sameName agg "MAX" then some (sqlExt sqlLe (rows.map (·.get d)))
      else if sameName agg "MIN" then some (sqlExt (fun a b => sqlLe b a) (rows.map (·.get d)))
      else none
  | _ => none

/-- `SELECT DISTINCT(c) FROM t ORDER BY o`: every value once, at its first place in the order. -/
def sqlDistinct (t : Table) (c o : String) : Option (List Val) :=
  match resolve t.cols c, resolve t.cols o with
  | some d, some e =>
    some (distinctVals ((t.rows.insertionSort fun a b => sqlLe (a.get e) (b.get e) = true).map (·.get d)))
  | _, _ => none

/-- `SELECT c FROM t WHERE d = v`. -/
def sqlLookup (t : Table) (c d : String) (v : Val) : Option (List Val) :=
  match resolve t.cols c, resolve t.cols d with
  | some c', some d' => some ((t.rows.filter fun r => cmpSql .eq (r.get d') v).map (·.get c'))
  | _, _ => none

/-- Behind `DELETE FROM t WHERE c NOT IN (`: a selection of one column.  A missing value in it makes the condition unknown. -/
def sqlDelete (db : String → Option Table) (f : Nat) (t : Table) (c : String) (ts : List Tok) : Option Table :=
  match resolve t.cols c, sqlSelect db f ts with
  | some d, some (([e], rows), [.rpar]) =>
    let vs := rows.map (·.get e)
    some ⟨t.cols, t.rows.filter fun r => !(decide (Val.null ∉ vs) && inList true vs (r.get d))⟩
  | _, _ => none

/-- A new row; the primary key has to be a natural number.  Simplification: SQLite numbers rows without one. -/
def newRow (cells : List (String × Val)) : Option Row :=
  match cells.lookup "rid" with
  | some (.num q) => if q.den = 1 ∧ 0 ≤ q.num then some ⟨q.num.toNat, fun c => (cells.lookup c).getD .null⟩ else none
  | _ => none

/-- Insertion at the place given by the primary key, which may not be there yet. -/
def insertRow (rows : List Row) (r : Row) : Option (List Row) :=
  if rows.any (·.rid = r.rid) then none
  else some (rows.takeWhile (fun x => decide (x.rid < r.rid)) ++ r :: rows.dropWhile fun x => decide (x.rid < r.rid))

/-- Insertion of several rows of values for the given columns. -/
def insertAll (cols : List String) : List Row → List (List Val) → Option (List Row)
  | rows, [] => some rows
  | rows, vs :: vss =>
    match newRow (cols.zip vs) with
    | none => none
    | some r =>
      match insertRow rows r with
      | none => none
      | some rows' => insertAll cols rows' vss

/-- `?,?,…,?)`: how many. -/
def paramList : List Tok → Option Nat
  | [.param, .rpar] => some 1
  | .param :: .comma :: ts => (paramList ts).map (· + 1)
  | _ => none

/-- Behind `INSERT INTO t (cols)`: `VALUES (?,…,?)`, or a selection of as many columns. -/
def insertTail (db : String → Option Table) (ps : List Val) (f : Nat) (n : Nat) : List Tok → Option (List (List Val))
  | .kw (.other "VALUES") :: .lpar :: ts => if paramList ts = some n ∧ ps.length = n then some [ps] else none
  | ts =>
    match sqlSelect db f ts with
    | some ((cs, rows), []) => if cs.length = n then some (rows.map (keyOn cs)) else none
    | _ => none

/-- Behind `INSERT INTO t (`. -/
def sqlInsert (db : String → Option Table) (ps : List Val) (f : Nat) (t : Table) (ts : List Tok) : Option Table :=
  match nameList ts with
  | some (cols, .rpar :: ts1) =>
    match cols.mapM (resolve t.cols), insertTail db ps f cols.length ts1 with
    | some cs, some vss => (insertAll cs t.rows vss).map fun rows => ⟨t.cols, rows⟩
    | _, _ => none
  | _ => none

/-- `UPDATE t SET c = v WHERE d = u`.  Simplification: the primary key cannot be changed. -/
def sqlUpdate (t : Table) (c d : String) (v u : Val) : Option Table :=
  match resolve t.cols c, resolve t.cols d with
  | some c', some d' =>
    if c' = "rid" then none else some ⟨t.cols, t.rows.map fun r => if cmpSql .eq (r.get d') u then r.set c' v else r⟩
  | _, _ => none

/-- One statement, with the values for its `?`. -/
def sqlStmt (db : String → Option Table) (ps : List Val) (f : Nat) : List Tok → Option SqlOut
  | .kw .select :: .name a :: .lpar :: .star :: .rpar :: .kw .from :: ts =>
    if sameName a "COUNT" then (sqlCount db f ts).map fun n : Nat => .vals [.num n] else none
  | .kw .select :: .name a :: .lpar :: .name c :: .rpar :: .kw .from :: ts =>
    (sqlExtreme db f a c ts).map fun v => .vals [v]
  | [.kw .select, .kw (.other "DISTINCT"), .lpar, .name c, .rpar, .kw .from, .name n, .kw (.other "ORDER"), .name b, .name o] =>
    if sameName b "BY" then (db n).bind fun t => (sqlDistinct t c o).map .vals else none
  | [.kw .select, .name c, .kw .from, .lpar, .name n, .rpar, .kw .where, .name d, .cmp .eq, .param] =>
    match ps with
    | [v] => (db n).bind fun t => (sqlLookup t c d v).map .vals
    | _ => none
  | .kw (.other "DELETE") :: .kw .from :: .name n :: .kw .where :: .name c :: .kw .not :: .kw .in :: .lpar :: ts =>
    (db n).bind fun t => (sqlDelete db f t c ts).map (.wrote n)
  | .kw (.other "INSERT") :: .kw (.other "INTO") :: .name n :: .lpar :: ts =>
    (db n).bind fun t => (sqlInsert db ps f t ts).map (.wrote n)
  | [.kw (.other "UPDATE"), .name n, .kw (.other "SET"), .name c, .cmp .eq, .param, .kw .where, .name d, .cmp .eq, .param] =>
    match ps with
    | [v, u] => (db n).bind fun t => (sqlUpdate t c d v u).map (.wrote n)
    | _ => none
  | _ => none

/-- What SQLite does with the statement. -/
def sqlExec (db : String → Option Table) (ps : List Val) (s : List Char) : Except Err SqlOut :=
  match sqlLex s with
  | none => .error .crash
  | some ts =>
    match sqlStmt db ps (ts.length + 1) ts with
    | some o => .ok o
    | none => .error .crash

/-! ## The texts the code builds -/

/-- Counting the records of a state (`db_dataset.py:77,795`). -/
def countText (src : List Char) : List Char := "SELECT COUNT(*) FROM (".toList ++ src ++ [')']

/-- `count_unique` (`db_dataset.py:259`). -/
def countUniqueText (cols : List String) (src : List Char) : List Char :=
  "SELECT COUNT(*) FROM (SELECT DISTINCT ".toList ++ colsText cols ++ " FROM (".toList ++ src ++ "))".toList

/-- `max` (`db_dataset.py:267`). -/
def maxText (c : String) (src : List Char) : List Char :=
  "SELECT MAX(".toList ++ c.toList ++ ") FROM (".toList ++ src ++ [')']

/-- `min` (`db_dataset.py:275`). -/
def minText (c : String) (src : List Char) : List Char :=
  "SELECT MIN(".toList ++ c.toList ++ ") FROM (".toList ++ src ++ [')']

/-- Removing what a state does not select (`db_dataset.py:829-830`). -/
def deleteText (table src : List Char) : List Char :=
  "DELETE FROM ".toList ++ table ++ [' '] ++ "WHERE rid NOT IN (SELECT rid FROM (".toList ++ src ++ "))".toList

/-- Copying a state to another table (`db_dataset.py:838-839`). -/
def copyText (table : List Char) (cols : List String) (src : List Char) : List Char :=
  "INSERT INTO ".toList ++ table ++ " (".toList ++ colsText cols ++ ") SELECT ".toList ++ colsText cols ++ " FROM (".toList ++
    src ++ [')']

/-- Inserting one record (`db_dataset.py:536-537,547,551,652-655,888-890`); `','.join('?' * n)`. -/
def insertText (table : List Char) (cols : List String) : List Char :=
  "INSERT INTO ".toList ++ table ++ " (".toList ++ colsText cols ++ ") VALUES (".toList ++
    joinText [','] (List.replicate cols.length ['?']) ++ [')']

/-- The distinct raw ids (`db_dataset.py:459,473`). -/
def distinctText (table : List Char) (c : String) : List Char :=
  "SELECT DISTINCT(".toList ++ c.toList ++ ") FROM ".toList ++ table ++ " ORDER BY rid".toList

/-- Setting a column where another has a value (`db_dataset.py:465,479,521`). -/
def updateText (table : List Char) (c d : String) : List Char :=
  "UPDATE ".toList ++ table ++ " SET ".toList ++ c.toList ++ " = ? WHERE ".toList ++ d.toList ++ " = ?".toList

/-- Looking up an id (`db_dataset.py:344,353,370,379`). -/
def lookupText (table : List Char) (c d : String) : List Char :=
  "SELECT ".toList ++ c.toList ++ " FROM (".toList ++ table ++ ") WHERE ".toList ++ d.toList ++ " = ?".toList

/-- The loop over the distinct raw ids (`db_dataset.py:459-466,473-480`): every one is given the next number. -/
def numberLoop (db : String → Option Table) (n raw idc : String) : Nat → List Val → Table → Option Table
  | _, [], t => some t
  | k, v :: vs, t =>
    match sqlExec (fun m => if m = n then some t else db m) [.num k, v] (updateText n.toList idc raw) with
    | .ok (.wrote _ t') => numberLoop db n raw idc (k + 1) vs t'
    | _ => none

/-- Executing the same insertion for many records (`db_dataset.py:547,551,655,897,900`). -/
def insertMany (db : String → Option Table) (n : String) (cols : List String) : Table → List (List Val) → Option Table
  | t, [] => some t
  | t, vs :: vss =>
    match sqlExec (fun m => if m = n then some t else db m) vs (insertText n.toList cols) with
    | .ok (.wrote _ t') => insertMany db n cols t' vss
    | _ => none

end DRec
