import Verif.Model.Mem

/-!
# The database dataset (`DRecPy/Dataset/db_dataset.py`)

All `DatabaseInteractionDataset` objects backed by one SQLite file, with the registries they share
(`db_dataset.py:19-21`).  A state query is a syntax tree of exactly the statements the code builds (`Model/Sql` has their texts).
Simplifications: statements are atomic and every connection to the file sees every write at once (no
locking); row order is the order of record ids (SQLite does not promise one, so statements about results
speak about records, not positions); random table names are fresh (`Model/TableNames` has the
real ones); a closed object is not used again.
-/

namespace DRec

/-! ## SQL -/

/-- Right-hand side of a comparison in a `WHERE` clause (`db_dataset.py:738-760`): a number, or a text
between double quotes. -/
inductive Rhs where
  | num (q : ℚ)
  | quoted (s : String)
  deriving DecidableEq, Repr

/-- The conditions the code writes: comparisons (`db_dataset.py:755-760`), `rid IN (…)` and
`rid NOT IN (…)` (`db_dataset.py:325-328`), and `rid IN (SELECT MIN(rid) FROM (src) GROUP BY cols)` over the
source of the same statement (`db_dataset.py:242-248`). -/
inductive SqlCond where
  | cmp (col : String) (op : Op) (rhs : Rhs)
  | ridIn (ids : List Nat)
  | ridNotIn (ids : List Nat)
  | ridFirst (group : List String)
  deriving DecidableEq, Repr

/-- A source: the active table, or `SELECT cols FROM (src) WHERE c₁ AND c₂ …`. -/
inductive Src where
  | table
  | sub (cols : List String) (src : Src) (conds : List SqlCond)
  deriving DecidableEq, Repr

/-- A table: its declared columns and its rows in the order of the primary key `rid`. -/
structure Table where
  cols : List String
  rows : List Row

/-- SQL names are case-insensitive. -/
def sameName (a b : String) : Bool := decide (a.toLower = b.toLower)

/-- Value of a right-hand side.  A text between double quotes is a column name if the source has such a
column, and only otherwise a string (https://www.sqlite.org/quirks.html#dblquote). -/
def Rhs.value (scols : List String) (r : Row) : Rhs → Val
  | .num q => .num q
  | .quoted s => match scols.find? (sameName s) with
    | some c => r.get c
    | none => .str s

/-- The statement can be prepared: all columns exist and `GROUP BY` has a column. -/
def SqlCond.valid (scols : List String) : SqlCond → Bool
  | .cmp c _ _ => decide (c ∈ scols)
  | .ridIn _ => decide ("rid" ∈ scols)
  | .ridNotIn _ => decide ("rid" ∈ scols)
  | .ridFirst g => decide ("rid" ∈ scols) && !g.isEmpty && g.all (· ∈ scols)

/-- Does a row of the source satisfy a condition?  As record ids are distinct, a row has the smallest id of
some group exactly when it has the smallest one of its own group.  Simplification: no type conversion when
two columns are compared. -/
def SqlCond.holds (scols : List String) (rows : List Row) (r : Row) : SqlCond → Bool
  | .cmp c op rhs => cmpSql op (r.get c) (rhs.value scols r)
  | .ridIn ids => decide (r.rid ∈ ids)
  | .ridNotIn ids => !decide (r.rid ∈ ids)
  | .ridFirst g => rows.all fun r' => !decide (keyOn g r' = keyOn g r) || decide (r.rid ≤ r'.rid)

/-- Columns and rows of a source over the active table; an error when it cannot be prepared.  Rows keep all
cells, only the listed columns can be referred to. -/
def evalSrc (t : Table) : Src → Except Err (List String × List Row)
  | .table => .ok (t.cols, t.rows)
  | .sub cols src conds =>
    match evalSrc t src with
    | .error e => .error e
    | .ok (scols, rows) =>
      if cols ≠ [] ∧ cols.all (· ∈ scols) = true ∧ conds.all (SqlCond.valid scols) = true then
        .ok (cols, rows.filter fun r => conds.all (SqlCond.holds scols rows r))
      else .error .missingColumn

/-! ## Datasets and what they share -/

/-- One dataset object (`db_dataset.py:29-72`): `_state_query` (`.table` is the empty string),
`_active_table`, `_col_types` (`none` after loading a `.sqlite` file, `db_dataset.py:606-610`), `_n_rows` and
the counters. -/
structure Inst where
  columns : List String
  state : Src
  table : Nat
  hasIds : Bool
  types : Option (String → DType)
  nRows : Nat
  nBefore : Nat
  queries : Nat
  direct : Nat

/-- The file, the objects, `_shared_db_table_instances` (`users`), `_shared_db_instances` (`live`), the number
of open value generators and the next unused table name and object id. -/
structure World where
  tables : Nat → Option Table
  insts : Nat → Option Inst
  users : Nat → Option (List Nat)
  live : Option (List Nat)
  gens : Nat
  nextT : Nat
  nextI : Nat
  file : Bool
  temp : Bool

/-- Write an object back. -/
def World.put (w : World) (i : Nat) (x : Inst) : World :=
  { w with insts := fun j => if j = i then some x else w.insts j }

/-- Write a table. -/
def World.putT (w : World) (n : Nat) (t : Option Table) : World :=
  { w with tables := fun m => if m = n then t else w.tables m }

/-- Write a registry entry. -/
def World.putU (w : World) (n : Nat) (us : Option (List Nat)) : World :=
  { w with users := fun m => if m = n then us else w.users m }

/-- `_build_new_state()` without conditions (`db_dataset.py:764-772`). -/
def Inst.query (x : Inst) : Src :=
  match x.state with
  | .table => .sub x.columns .table []
  | s => s

/-- `_build_new_state(conditions)` (`db_dataset.py:764-772`): further conditions go to the outermost
statement. -/
def Inst.queryWith (x : Inst) (cs : List SqlCond) : Src :=
  match x.state with
  | .table => .sub x.columns .table cs
  | .sub cols src conds => .sub cols src (conds ++ cs)

/-- Records of an object: `_from_row_to_record` with all columns (`db_dataset.py:851-857`) pairs the column
list of the object with the result columns by position. -/
def Inst.decode (x : Inst) (scols : List String) (r : Row) : Rec := x.columns.zip (scols.map r.get)

/-- The records seen through an object (what reading it would give). -/
def World.view (w : World) (i : Nat) : Except Err (List Rec) :=
  match w.insts i with
  | none => .error .crash
  | some x =>
    match w.tables x.table with
    | none => .error .crash
    | some t => (evalSrc t x.query).map fun p => p.2.map (x.decode p.1)

/-! ## Hidden reductions -/

/-- Columns that every table needs (`db_dataset.py:910`). -/
def tableCols : List String := ["rid", "user", "item", "interaction"]

/-- `_build_table` (`db_dataset.py:902-926`): the columns of the new table.  Fails without a required column,
without column types, or with a repeated column. -/
def Inst.buildTable (x : Inst) : Except Err (List String) :=
  if tableCols.all (· ∈ x.columns) then
    if x.types.isSome then
      if x.columns.Nodup then .ok (["rid", "uid", "iid"] ++ x.columns.filter (· ∉ ["rid", "uid", "iid"]))
      else .error .crash
    else .error .typeError
  else .error .assertion

/-- A row as inserted with only some of its columns. -/
def Row.restrict (cs : List String) (r : Row) : Row :=
  ⟨r.rid, fun c => if c ∈ cs then r.cell c else .null⟩

/-- Reset of the counters (`db_dataset.py:816-817`). -/
def Inst.reset (x : Inst) : Inst := { x with queries := 0, direct := 0 }

/-- Sole user: delete what the state does not select (`db_dataset.py:826-830,848`). -/
def World.shrink (w : World) (i : Nat) (x : Inst) (t : Table) : World × Option Err :=
  if x.state = .table then (w, none)
  else
    match evalSrc t x.state with
    | .error e => (w, some e)
    | .ok (scols, rows) =>
      if "rid" ∈ scols then
        ((w.putT x.table (some ⟨t.cols, t.rows.filter fun r => rows.any (·.rid = r.rid)⟩)).put i
          { x with state := .table }, none)
      else (w, some .missingColumn)

/-- Shared table: move the selected rows to a table of its own (`db_dataset.py:831-848`).  Simplification:
the empty table that stays behind when the copy fails is left out. -/
def World.split (w : World) (i : Nat) (x : Inst) (t : Table) (us : List Nat) : World × Option Err :=
  match x.buildTable with
  | .error e => (w, some e)
  | .ok cols =>
    match evalSrc t x.state with
    | .error e => (w, some e)
    | .ok (scols, rows) =>
      if x.columns.all (· ∈ scols) then
        ({ (((w.putT w.nextT (some ⟨cols, rows.map (Row.restrict x.columns)⟩)).putU x.table (some (us.erase i))).putU
            w.nextT (some [i])).put i { x with state := .table, table := w.nextT } with nextT := w.nextT + 1 }, none)
      else (w, some .missingColumn)

/-- `_optimize_states` (`db_dataset.py:807-849`). -/
def World.optimize (w : World) (i : Nat) (skipEmpty : Bool) : World × Option Err :=
  match w.insts i with
  | none => (w, some .crash)
  | some x =>
    if x.state = .table ∧ skipEmpty = true then (w.put i x.reset, none)
    else if 0 < w.gens then (w.put i x.reset, none)
    else
      match w.users x.table, w.tables x.table with
      | some us, some t =>
        if us.length = 1 then (w.put i x.reset).shrink i x.reset t
        else (w.put i x.reset).split i x.reset t us
      | _, _ => (w.put i x.reset, some .keyError)

/-- `_record_interaction` (`db_dataset.py:784-790`). -/
def World.record (w : World) (i : Nat) : World × Option Err :=
  match w.insts i with
  | none => (w, some .crash)
  | some x =>
    if 4 ≤ x.direct + 1 ∧ w.gens = 0 then (w.put i { x with direct := x.direct + 1 }).optimize i true
    else (w.put i { x with direct := x.direct + 1 }, none)

/-- Should `_update_state` reduce? (`db_dataset.py:799-803`) -/
def Inst.shouldReduce (x : Inst) (gens : Nat) : Bool :=
  decide (0 < x.nBefore) && decide (0 < x.nRows) && decide (3 ≤ x.queries) &&
    decide ((x.nRows : ℚ) / x.nBefore < 8 / 10) && decide (5000 ≤ (x.nBefore : Int) - x.nRows) && decide (gens = 0)

/-- `_update_state` (`db_dataset.py:792-805`). -/
def World.update (w : World) (i : Nat) (s : Src) : World × Option Err :=
  match w.insts i with
  | none => (w, some .crash)
  | some x =>
    match w.tables x.table with
    | none => (w.put i { x with queries := x.queries + 1 }, some .crash)
    | some t =>
      match evalSrc t s with
      | .error e => (w.put i { x with queries := x.queries + 1 }, some e)
      | .ok (_, rows) =>
        let y : Inst := { x with queries := x.queries + 1, nRows := rows.length, state := s }
        if y.shouldReduce w.gens then (w.put i { y with nBefore := rows.length }).optimize i true
        else (w.put i y, none)

/-! ## Life cycle -/

/-- `copy` (`db_dataset.py:565-579`) with `__init__` and `_load_from_db` (`db_dataset.py:29-72,606-610`); the
new object is number `nextI`. -/
def World.copy (w : World) (i : Nat) : World × Option Err :=
  match w.insts i with
  | none => (w, some .crash)
  | some x =>
    match w.tables x.table with
    | none => (w, some .crash)
    | some _ =>
      ({ ((w.put w.nextI { x with direct := 0 }).putU x.table
            (some (w.nextI :: (w.users x.table).getD []))) with
          live := some (w.nextI :: w.live.getD []), nextI := w.nextI + 1 }, none)

/-- Forget an object in the table registry; the table is dropped when nobody is left and no value generator
is open (`db_dataset.py:584-589`). -/
def World.leaveTable (w : World) (i : Nat) (n : Nat) : World × Option Err :=
  match w.users n with
  | none => (w, none)
  | some us =>
    if i ∈ us then
      if us.erase i = [] then
        if w.gens = 0 then ((w.putU n none).putT n none, none) else (w.putU n none, none)
      else (w.putU n (some (us.erase i)), none)
    else (w, some .keyError)

/-- Forget an object in the file registry; a temporary file is removed with the last one
(`db_dataset.py:594-600`). -/
def World.leaveFile (w : World) (i : Nat) : World × Option Err :=
  match w.live with
  | none => (w, none)
  | some us =>
    if i ∈ us then
      if us.erase i = [] then
        if w.temp then ({ w with live := none, file := false, tables := fun _ => none }, none)
        else ({ w with live := none }, none)
      else ({ w with live := some (us.erase i) }, none)
    else (w, some .keyError)

/-- `close` (`db_dataset.py:581-600`); the object is gone afterwards. -/
def World.close (w : World) (i : Nat) : World × Option Err :=
  match w.insts i with
  | none => (w, some .crash)
  | some x =>
    match w.leaveTable i x.table with
    | (w1, some e) => ({ w1 with insts := fun j => if j = i then none else w1.insts j }, some e)
    | (w1, none) =>
      let p := w1.leaveFile i
      ({ p.1 with insts := fun j => if j = i then none else p.1.insts j }, p.2)

/-! ## Queries -/

/-- Value of a query condition as SQL (`db_dataset.py:738-753`).  A text containing a double quote ends the
quoting early; simplification: that is an error here (`C123_injection` shows what the text really does). -/
def sqlRhs (d : DType) (l : Lit) : Except Err Rhs :=
  match d, l with
  | .int, .int n => .ok (.num n)
  | .int, .flt q => .ok (.num q)
  | .int, _ => .error .badValue
  | .float, .int n => .ok (.num n)
  | .float, .flt q => .ok (.num q)
  | .float, .str s => match pyFloat s.toList with
    | some q => .ok (.num q)
    | none => .error .badValue
  | .float, .none => .error .typeError
  | .obj, .str s => if '"' ∈ s.toList then .error .crash else .ok (.quoted s)
  | .obj, _ => .error .typeError

/-- One segment of a query (`db_dataset.py:729-760`). -/
def Inst.parseSeg (x : Inst) (seg : List Char) : Except Err SqlCond := do
  let rc ← parseSegment seg
  if rc.col ∈ x.columns then
    match Op.ofText rc.op with
    | none => .error .badOperator
    | some op =>
      match pyEval rc.val with
      | none => .error .badValue
      | some l =>
        match x.types with
        | none => .error .typeError
        | some ty => (sqlRhs (ty rc.col) l).map fun r => .cmp rc.col op r
  else .error .badColumn

/-- `_parse_query` (`db_dataset.py:723-762`). -/
def Inst.parse (x : Inst) (q : List Char) : Except Err (List SqlCond) := (pySplit ',' q).mapM x.parseSeg

/-- Run a step on a fresh copy: `new_ds = self.copy(); self._record_interaction(); …`.  When something raises
the copy is garbage and closed.  The result is the number of the new object. -/
def World.onCopy (w : World) (i : Nat) (f : World → Nat → World × Option Err) : World × Except Err Nat :=
  match w.copy i with
  | (w1, some e) => (w1, .error e)
  | (w1, none) =>
    match w1.record i with
    | (w2, some e) => ((w2.close w.nextI).1, .error e)
    | (w2, none) =>
      match f w2 w.nextI with
      | (w3, some e) => ((w3.close w.nextI).1, .error e)
      | (w3, none) => (w3, .ok w.nextI)

/-- `select` on the object itself (`db_dataset.py:81-89`). -/
def World.selectOn (w : World) (i : Nat) (q : List Char) : World × Option Err :=
  match w.insts i with
  | none => (w, some .crash)
  | some x =>
    match x.parse q with
    | .error e => (w, some e)
    | .ok cs => w.update i (x.queryWith cs)

/-- Result of an operation that is done in place or on a copy. -/
def World.inPlaceOrCopy (w : World) (i : Nat) (copy : Bool) (f : World → Nat → World × Option Err) :
    World × Except Err Nat :=
  if copy then w.onCopy i f
  else match f w i with
    | (w1, some e) => (w1, .error e)
    | (w1, none) => (w1, .ok i)

/-- `select(query, copy)` (`db_dataset.py:81-89`). -/
def World.select (w : World) (i : Nat) (q : List Char) (copy : Bool) : World × Except Err Nat :=
  w.inPlaceOrCopy i copy fun w j => w.selectOn j q

/-- `drop` on the object itself (`db_dataset.py:323-330`). -/
def World.dropOn (w : World) (i : Nat) (ids : List Nat) (keep : Bool) : World × Option Err :=
  match w.insts i with
  | none => (w, some .crash)
  | some x => w.update i (.sub x.columns x.state [if keep then .ridIn ids else .ridNotIn ids])

/-- `drop(ids, copy, keep)` (`db_dataset.py:319-330`). -/
def World.drop (w : World) (i : Nat) (ids : List Nat) (keep copy : Bool) : World × Except Err Nat :=
  w.inPlaceOrCopy i copy fun w j => w.dropOn j ids keep

/-- Columns of the result of `unique` (`db_dataset.py:245-249`). -/
def withRid (l : List String) : List String := if "rid" ∈ l then l else l ++ ["rid"]

/-- `unique` on the object itself (`db_dataset.py:237-252`): the column list is replaced first. -/
def World.uniqueOn (w : World) (i : Nat) (l : List String) : World × Option Err :=
  match w.insts i with
  | none => (w, some .crash)
  | some x => (w.put i { x with columns := withRid l }).update i (.sub (withRid l) x.state [.ridFirst l])

/-- `unique(columns, copy)` (`db_dataset.py:234-252`). -/
def World.unique (w : World) (i : Nat) (cs : Option (List String)) (copy : Bool) : World × Except Err Nat :=
  match w.insts i with
  | none => (w, .error .crash)
  | some x =>
    match handleColumns x.columns cs with
    | .error e => (w, .error e)
    | .ok l => w.inPlaceOrCopy i copy fun w j => w.uniqueOn j l

/-! ## Reading -/

/-- What can be read from a dataset. -/
inductive ReadOp where
  | values (cs : Option (List String))
  | selectOne (q : List Char) (cs : Option (List String))
  | countUnique (cs : Option (List String))
  | max (c : String)
  | min (c : String)

/-- What a read returns. -/
inductive ReadRes where
  | recs (l : List Rec)
  | one (r : Option Rec)
  | count (n : Nat)
  | val (v : Val)
  deriving DecidableEq

/-- SQL order of values that are not null: numbers before texts. -/
def sqlLe : Val → Val → Bool
  | .num a, .num b => decide (a ≤ b)
  | .num _, _ => true
  | .str a, .str b => decide (¬ b < a)
  | _, _ => false

/-- SQL `MAX`/`MIN`: the extreme value other than null, null when there is none. -/
def sqlExt (le : Val → Val → Bool) (vs : List Val) : Val :=
  (vs.filter (· ≠ .null)).foldl (fun m v => if m = .null then v else if le m v then v else m) .null

/-- A record with the requested columns only (`db_dataset.py:852`). -/
def pick (cs : List String) (r : Rec) : Rec := r.filter fun p => p.1 ∈ cs

/-- The part of a read after `_record_interaction` (`db_dataset.py:91-103,254-276,310-317`). -/
def World.look (w : World) (i : Nat) (op : ReadOp) : Except Err ReadRes :=
  match w.insts i with
  | none => .error .crash
  | some x =>
    match w.tables x.table with
    | none => .error .crash
    | some t =>
      match op with
      | .values cs => do
        let l ← handleColumns x.columns cs
        let p ← evalSrc t x.query
        .ok (.recs (p.2.map fun r => pick l (x.decode p.1 r)))
      | .selectOne q cs => do
        let conds ← x.parse q
        let l ← handleColumns x.columns cs
        let p ← evalSrc t (x.queryWith conds)
        .ok (.one (p.2.head?.map fun r => pick l (x.decode p.1 r)))
      | .countUnique cs => do
        let l ← handleColumns x.columns cs
        let p ← evalSrc t (.sub l x.state [])
        .ok (.count (dedupGo (keyOn l) p.2 []).length)
      | .max c => if c ∈ x.columns then do
          let p ← evalSrc t (.sub [c] x.state [])
          .ok (.val (sqlExt sqlLe (p.2.map (·.get c))))
        else .error .badColumn
      | .min c => if c ∈ x.columns then do
          let p ← evalSrc t (.sub [c] x.state [])
          .ok (.val (sqlExt (fun a b => sqlLe b a) (p.2.map (·.get c))))
        else .error .badColumn

/-- A complete read: `_record_interaction`, then the query; the value generator is read to its end. -/
def World.read (w : World) (i : Nat) (op : ReadOp) : World × Except Err ReadRes :=
  match w.record i with
  | (w1, some e) => (w1, .error e)
  | (w1, none) => (w1, w1.look i op)

/-- `__len__` (`db_dataset.py:74-79`). -/
def World.len (w : World) (i : Nat) : Option Nat := (w.insts i).map (·.nRows)

/-! ## Internal ids -/

/-- The loop of updates for one pair of columns (`db_dataset.py:457-466,471-480`): distinct values in the order
of record ids get consecutive numbers; `WHERE user = NULL` is never true. -/
def numberBy (raw idc : String) (rows : List Row) : List Row :=
  rows.map fun r =>
    if r.get raw = .null then r else r.set idc (codeOf (distinctVals (rows.map (·.get raw))) (r.get raw))

/-- `assign_internal_ids` (`db_dataset.py:444-486`).  Indexes are left out, see `Model/DbIndex`. -/
def World.assign (w : World) (i : Nat) : World × Option Err :=
  match w.optimize i true with
  | (w1, some e) => (w1, some e)
  | (w1, none) =>
    match w1.insts i with
    | none => (w1, some .crash)
    | some x =>
      match x.types, w1.tables x.table with
      | some ty, some t =>
        ((w1.putT x.table (some ⟨t.cols, numberBy "item" "iid" (numberBy "user" "uid" t.rows)⟩)).put i
          { x with columns := addCol (addCol x.columns "uid") "iid", hasIds := true,
                   types := some fun c => if c = "uid" ∨ c = "iid" then .int else ty c }, none)
      | _, _ => (w1.put i { x with columns := addCol x.columns "uid" }, some .typeError)

/-- `remove_internal_ids` (`db_dataset.py:488-493`). -/
def World.removeIds (w : World) (i : Nat) : World × Option Err :=
  match w.insts i with
  | none => (w, some .crash)
  | some x =>
    if "uid" ∈ x.columns then
      if "iid" ∈ x.columns then
        (w.put i { x with hasIds := false, columns := (x.columns.erase "uid").erase "iid" }, none)
      else (w.put i { x with hasIds := false, columns := x.columns.erase "uid" }, some .badValue)
    else (w.put i { x with hasIds := false }, none)

/-- Conversion of an id argument (`db_dataset.py:335-341,361-367`), and what SQLite compares a number column with:
a text that looks like a number is turned into one (https://www.sqlite.org/datatype3.html#type_conversions_prior_to_comparison).
Simplification: number texts as in `pyFloat`. -/
def Inst.idArg (x : Inst) (col : String) (a : Lit) : Except Err Val :=
  match x.types with
  | none => .error .typeError
  | some ty =>
    match ty col, normId (ty col) a with
    | .float, .ok (.str s) => match pyFloat s.toList with
      | some q => .ok (.num q)
      | none => .ok (.str s)
    | _, r => r

/-- `user_to_uid`, `item_to_iid` (`db_dataset.py:332-347,358-373`): the *table* is searched, not the state. -/
def World.toId (w : World) (i : Nat) (raw idc : String) (a : Lit) : Except Err (Option Val) :=
  match w.insts i with
  | none => .error .crash
  | some x =>
    if x.hasIds then
      match x.idArg raw a, w.tables x.table with
      | .error e, _ => .error e
      | .ok _, none => .error .crash
      | .ok v, some t => .ok ((t.rows.find? fun r => cmpSql .eq (r.get raw) v).map (·.get idc))
    else .error .noIds

/-- `uid_to_user`, `iid_to_item` (`db_dataset.py:349-356,375-382`). -/
def World.toRaw (w : World) (i : Nat) (raw idc : String) (n : Nat) : Except Err (Option Val) :=
  match w.insts i with
  | none => .error .crash
  | some x =>
    if x.hasIds then
      match w.tables x.table with
      | none => .error .crash
      | some t => .ok ((t.rows.find? fun r => cmpSql .eq (r.get idc) (.num n)).map (·.get raw))
    else .error .noIds

/-! ## `apply` -/

/-- Type of a Python value (`db_dataset.py:506-507`); `None` is not supported. -/
def Lit.dtype : Lit → Option DType
  | .int _ => some .int
  | .flt _ => some .float
  | .str _ => some .obj
  | .none => Option.none

/-- Conversion on storing into a column of a declared type (https://www.sqlite.org/datatype3.html#type_affinity):
numeric columns turn texts that look like numbers into numbers, text columns turn numbers into texts.
Simplification: number texts as in `pyFloat`, numbers printed as by `Lit.pyStr`. -/
def stored (d : DType) (l : Lit) : Val :=
  match d, l with
  | .obj, .int n => .str (Lit.int n).pyStr
  | .obj, .flt q => .str (Lit.flt q).pyStr
  | .obj, l => l.toVal
  | _, .str s => match pyFloat s.toList with
    | some q => .num q
    | none => .str s
  | _, l => l.toVal

/-- The update loop (`db_dataset.py:519-522`) over the record ids of the view: rows before the one on which the
function raises stay changed. -/
def updateLoop (d : DType) (c : String) (f : Val → Option Lit) : List Row → List Nat → List Row × Bool
  | rows, [] => (rows, true)
  | rows, id :: ids =>
    match rows.find? fun r => decide (r.rid = id) with
    | none => updateLoop d c f rows ids
    | some r =>
      match f (r.get c) with
      | none => (rows, false)
      | some l => updateLoop d c f (rows.map fun r => if r.rid = id then r.set c (stored d l) else r) ids

/-- The same type (`db_dataset.py:509-524`): unshare, then update in place. -/
def World.applySame (w : World) (i : Nat) (c : String) (f : Val → Option Lit) (d : DType) : World × Option Err :=
  match w.optimize i false with
  | (w1, some e) => (w1, some e)
  | (w1, none) =>
    match w1.insts i with
    | none => (w1, some .crash)
    | some x =>
      match w1.tables x.table with
      | none => (w1, some .crash)
      | some t =>
        match evalSrc t x.query with
        | .error e => (w1, some e)
        | .ok (_, rows) =>
          let p := updateLoop d c f t.rows (rows.map (·.rid))
          (w1.putT x.table (some ⟨t.cols, p.1⟩), if p.2 then none else some .applyFailed)

/-- A new type (`db_dataset.py:525-558`): the records go to a new table.  The registry entry of the old table
stays, even when it is empty; the old table is never dropped. -/
def World.applyNew (w : World) (i : Nat) (c : String) (f : Val → Option Lit) (d : DType) : World × Option Err :=
  match w.insts i with
  | none => (w, some .crash)
  | some x0 =>
    match x0.types, w.tables x0.table, w.users x0.table with
    | some ty, some t, some us =>
      match evalSrc t x0.query with
      | .error e => (w, some e)
      | .ok (scols, rows) =>
        let x : Inst := { x0 with types := some fun c' => if c' = c then d else ty c' }
        match x.buildTable with
        | .error e => (w.put i x, some e)
        | .ok cols =>
          match rows.mapM fun r => (f (r.get c)).map fun l => (r.restrict x.columns).set c (stored d l) with
          | none => (w.put i x, some .applyFailed)
          | some rows' =>
            if x.columns.isPrefixOf scols then
              ({ (((w.putT w.nextT (some ⟨cols, rows'⟩)).putU x.table (some (us.erase i))).putU
                  w.nextT (some [i])).put i { x with state := .table, table := w.nextT } with
                nextT := w.nextT + 1 }, none)
            else (w.put i x, some .crash)
    | _, _, _ => (w, some .applyFailed)

/-- `apply` (`db_dataset.py:495-563`).  The first record decides about the type. -/
def World.apply (w : World) (i : Nat) (c : String) (f : Val → Option Lit) : World × Option Err :=
  match w.insts i with
  | none => (w, some .crash)
  | some x =>
    if c ∈ x.columns then
      if c ∈ ["rid", "uid", "iid", "user", "item"] then (w, some .readOnly)
      else
        match w.read i (.values (some [c])) with
        | (w1, .error e) => (w1, some e)
        | (w1, .ok (.recs (r0 :: _))) =>
          match f ((r0.lookup c).getD .null) with
          | none => (w1, some .applyFailed)
          | some l =>
            match l.dtype, x.types with
            | some d, some ty => if d = ty c then w1.applySame i c f d else w1.applyNew i c f d
            | _, _ => (w1, some .applyFailed)
        | (w1, .ok _) => (w1, some .applyFailed)
    else (w, some .badColumn)

/-! ## Starting points -/

/-- After importing a csv file (`db_dataset.py:612-704`): one object on the table `interactions` of a temporary
file. -/
def World.ofCsv (cols : List String) (types : String → DType) (rows : List Row) : World where
  tables n := if n = 0 then some ⟨["rid", "uid", "iid"] ++ cols.filter (· ∉ ["rid", "uid", "iid"]), rows⟩ else none
  insts i := if i = 0 then some ⟨cols, .table, 0, false, some types, rows.length, rows.length, 0, 0⟩ else none
  users n := if n = 0 then some [0] else none
  live := some [0]
  gens := 0
  nextT := 1
  nextI := 1
  file := true
  temp := true

/-- After opening an existing `.sqlite` file (`db_dataset.py:606-610`). -/
def World.ofFile (t : Table) : World where
  tables n := if n = 0 then some t else none
  insts i := if i = 0 then
    some ⟨t.cols.filter (· ∉ ["uid", "iid"]), .table, 0, false, none, t.rows.length, t.rows.length, 0, 0⟩ else none
  users n := if n = 0 then some [0] else none
  live := some [0]
  gens := 0
  nextT := 1
  nextI := 1
  file := true
  temp := false

/-- Opening the file of this world once more (`db_dataset.py:56-72,606-610`): a new object on the table
`interactions` (number 0), without column types. -/
def World.reopen (w : World) : World × Option Err :=
  match w.file, w.tables 0 with
  | true, some t =>
    ({ ((w.put w.nextI ⟨t.cols.filter (· ∉ ["uid", "iid"]), .table, 0, false, none, t.rows.length,
            t.rows.length, 0, 0⟩).putU 0 (some (w.nextI :: (w.users 0).getD []))) with
        live := some (w.nextI :: w.live.getD []), nextI := w.nextI + 1 }, none)
  | _, _ => (w, some .crash)

end DRec
