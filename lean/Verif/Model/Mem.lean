import Verif.Model.QueryText

/-!
# The in-memory dataset (`DRecPy/Dataset/mem_dataset.py`)

A dataset value as seen through one Python object.  Sharing of the underlying dataframe and list
objects between Python objects is modelled separately in `Verif.Model.MemHeap`.
-/

namespace DRec

/-- pandas dtype classes the code distinguishes by substring search in the dtype name
(`mem_dataset.py:268,285,413-416,426-429`). -/
inductive DType where
  | int | float | obj
  deriving DecidableEq, Repr, Inhabited

/-- A scipy `csr_matrix` given by coordinate triples; repeated coordinates add up. -/
structure Mat where
  nrows : Nat
  ncols : Nat
  entries : List (Nat × Nat × ℚ)
  deriving DecidableEq, Repr

/-- Entry of a matrix: the sum of the triples at that coordinate. -/
def Mat.entry (m : Mat) (i j : Nat) : ℚ :=
  ((m.entries.filter fun e => e.1 = i ∧ e.2.1 = j).map fun e => e.2.2).sum

/-- Row `i` as a dense vector. -/
def Mat.row (m : Mat) (i : Nat) : List ℚ := (List.range m.ncols).map (m.entry i)

/-- Column `j` as a dense vector (row of the transposed matrix, `mem_dataset.py:498`). -/
def Mat.col (m : Mat) (j : Nat) : List ℚ := (List.range m.nrows).map fun i => m.entry i j

/-- `csr_matrix((data, (rows, cols)), shape=...)`: raises when a coordinate is outside the shape. -/
def mkMat (nrows ncols : Nat) (es : List (Nat × Nat × ℚ)) : Except Err Mat :=
  if es.all (fun e => e.1 < nrows && e.2.1 < ncols) then .ok ⟨nrows, ncols, es⟩
  else .error .outOfRange

/-- State of a `MemoryInteractionDataset` (`mem_dataset.py:11-77`): the column list, the dtype of
each dataframe column, the dataframe rows in order (index = record id), and the id and matrix caches.
`userMap`/`itemMap` are the category lists behind `_user_mapping`/`_item_mapping` (code = position,
`mem_dataset.py:316-328`). -/
structure Mem where
  cols : List String
  dtype : String → DType
  rows : List Row
  hasIds : Bool
  userMap : List Val
  itemMap : List Val
  /-- `_cached_interaction_matrix` -/
  cache : Option Mat
  /-- `_cached_trans_interaction_matrix`, kept untransposed -/
  cacheT : Option Mat

/-- `__len__` (`mem_dataset.py:79-80`). -/
def Mem.len (ds : Mem) : Nat := ds.rows.length

/-- `copy` (`mem_dataset.py:365-382`): same data, empty matrix caches. -/
def Mem.copy (ds : Mem) : Mem := { ds with cache := none, cacheT := none }

/-- `uid_to_user` (`mem_dataset.py:276-279`). -/
def Mem.uidToUser (ds : Mem) (uid : Nat) : Except Err (Option Val) :=
  if ds.hasIds then .ok ds.userMap[uid]? else .error .noIds

/-- `iid_to_item` (`mem_dataset.py:293-296`). -/
def Mem.iidToItem (ds : Mem) (iid : Nat) : Except Err (Option Val) :=
  if ds.hasIds then .ok ds.itemMap[iid]? else .error .noIds

/-- Python `int(x)` on a caller-supplied id (`mem_dataset.py:270,287`, `db_dataset.py:337,363`):
floats are truncated towards zero, strings are parsed, `None` raises. -/
def Lit.toInt : Lit → Except Err Int
  | .int n => .ok n
  | .flt q => .ok (if 0 ≤ q then q.floor else -((-q).floor))
  | .str s => match pyInt s.toList with
    | .some n => .ok n
    | .none => .error .badValue
  | .none => .error .typeError

/-- Normalisation of a raw id before lookup (`mem_dataset.py:267-273,284-290`): integer columns use
`int(x)`, all others `str(x)`. -/
def normId (d : DType) (x : Lit) : Except Err Val :=
  match d with
  | .int => (x.toInt).map fun n => .num n
  | _ => .ok (.str x.pyStr)

/-- Position of the first element equal to `v` (dictionary lookup in `_user_mapping`; categories are
distinct). -/
def lookupCode (m : List Val) (v : Val) : Option Nat :=
  if v ∈ m then some (m.idxOf v) else none

/-- `user_to_uid` (`mem_dataset.py:264-274`).  `self._df['user']` raises when the column is gone. -/
def Mem.userToUid (ds : Mem) (x : Lit) : Except Err (Option Nat) :=
  if ds.hasIds then
    if "user" ∈ ds.cols then
      (normId (ds.dtype "user") x).map (lookupCode ds.userMap)
    else .error .missingColumn
  else .error .noIds

/-- `item_to_iid` (`mem_dataset.py:281-291`). -/
def Mem.itemToIid (ds : Mem) (x : Lit) : Except Err (Option Nat) :=
  if ds.hasIds then
    if "item" ∈ ds.cols then
      (normId (ds.dtype "item") x).map (lookupCode ds.itemMap)
    else .error .missingColumn
  else .error .noIds

/-! ## Queries -/

/-- `'int' in col_dtype` for a column; the index `rid` is an integer index
(`mem_dataset.py:405-408`). -/
def Mem.colDType (ds : Mem) (c : String) : DType := if c = "rid" then .int else ds.dtype c

/-- Conversion of the value text of one condition (`mem_dataset.py:411-423`). -/
def Mem.parseValue (ds : Mem) (c : String) (v : List Char) : Except Err Lit :=
  if c = "iid" ∨ c = "uid" ∨ c = "rid" then
    match pyInt v with
    | some n => .ok (.int n)
    | none => .error .badValue
  else match ds.colDType c with
    | .obj => match pyEval v with
      | some l => .ok l
      | none => .error .badValue
    | _ => match pyFloat v with
      | some q => .ok (.flt q)
      | none => .error .badValue

/-- Optional internal id as a comparison value (`None` when the raw id is unknown). -/
def optVal : Option Nat → Val
  | some n => .num n
  | none => .null

/-- The column and value actually compared: conditions on non-integer `user`/`item` columns are
rewritten to the internal id columns once ids are assigned (`mem_dataset.py:425-431`). -/
def Mem.target (ds : Mem) (c : Cond) : Except Err (String × Val) :=
  if c.col = "user" ∧ ds.hasIds ∧ ds.dtype "user" ≠ .int then
    (ds.userToUid c.val).map fun o => ("uid", optVal o)
  else if c.col = "item" ∧ ds.hasIds ∧ ds.dtype "item" ≠ .int then
    (ds.itemToIid c.val).map fun o => ("iid", optVal o)
  else .ok (c.col, c.val.toVal)

/-- Values of a column for all rows (`mem_dataset.py:433-436`); `KeyError` when the dataframe does
not have it. -/
def Mem.column (ds : Mem) (c : String) : Except Err (List Val) :=
  if c ∈ ds.cols then .ok (ds.rows.map (·.get c)) else .error .missingColumn

/-- The boolean vector of one condition (`mem_dataset.py:425-469`). -/
def Mem.condMask (ds : Mem) (c : Cond) : Except Err (List Bool) := do
  let (col, v) ← ds.target c
  let vs ← ds.column col
  vs.mapM fun x => cmpPy c.op x v

/-- Rows at the positions where the boolean vector is true (`mem_dataset.py:473,477`). -/
def keepMask : List Row → List Bool → List Row
  | r :: rs, b :: bs => if b then r :: keepMask rs bs else keepMask rs bs
  | _, _ => []

/-- Interpretation of one raw segment: column check, value conversion, operator check
(`mem_dataset.py:401-423,468-469`). -/
def Mem.readCond (ds : Mem) (rc : RawCond) : Except Err Cond := do
  if rc.col ∈ ds.cols then
    let v ← ds.parseValue rc.col rc.val
    match Op.ofText rc.op with
    | some op => .ok ⟨rc.col, op, v⟩
    | none => .error .badOperator
  else .error .badColumn

/-- Loop over the conditions accumulating `condition_vector` (`mem_dataset.py:389-469`). -/
def Mem.maskLoop (ds : Mem) : List (List Char) → Option (List Bool) → Except Err (Option (List Bool))
  | [], acc => .ok acc
  | seg :: segs, acc => do
    let rc ← parseSegment seg
    let c ← ds.readCond rc
    let m ← ds.condMask c
    ds.maskLoop segs (some (match acc with
      | none => m
      | some a => List.zipWith (· && ·) a m))

/-- `_apply_query(query, in_place=False)` (`mem_dataset.py:385-478`): the selected rows. -/
def Mem.applyQuery (ds : Mem) (q : List Char) : Except Err (List Row) := do
  match ← ds.maskLoop (pySplit ',' q) none with
  | some m => .ok (keepMask ds.rows m)
  | none => .ok ds.rows

/-- `select(query, copy=True)` (`mem_dataset.py:82-86`): the new dataset; the old one is untouched
because the in-place filter acts on the copy. -/
def Mem.select (ds : Mem) (q : List Char) : Except Err Mem :=
  (ds.copy.applyQuery q).map fun rs => { ds.copy with rows := rs }

/-- `select(query, copy=False)` (`mem_dataset.py:82-86`): rows are replaced, the matrix caches are
kept. -/
def Mem.selectInPlace (ds : Mem) (q : List Char) : Except Err Mem :=
  (ds.applyQuery q).map fun rs => { ds with rows := rs }

/-! ## Reading -/

/-- A record returned as a dict. -/
abbrev Rec := List (String × Val)

/-- One row restricted to columns. -/
def Row.toRec (cs : List String) (r : Row) : Rec := cs.map fun c => (c, r.get c)

/-- `_handle_columns` (`dataset_abc.py:341-348`). -/
def handleColumns (cols : List String) (cs : Option (List String)) : Except Err (List String) :=
  match cs with
  | none => .ok cols
  | some l => if l.all (· ∈ cols) then .ok l else .error .badColumn

/-- `values(columns)` as dicts (`mem_dataset.py:242-253`). -/
def Mem.values (ds : Mem) (cs : Option (List String)) : Except Err (List Rec) :=
  (handleColumns ds.cols cs).map fun l => ds.rows.map (Row.toRec l)

/-- `values(c, to_list=True)` for a single column (`mem_dataset.py:247-250`). -/
def Mem.valuesOf (ds : Mem) (c : String) : Except Err (List Val) :=
  (handleColumns ds.cols (some [c])).map fun _ => ds.rows.map (·.get c)

/-- `select_one` (`mem_dataset.py:88-99`): the first selected record. -/
def Mem.selectOne (ds : Mem) (q : List Char) (cs : Option (List String)) :
    Except Err (Option Rec) := do
  let l ← handleColumns ds.cols cs
  let rs ← ds.applyQuery q
  .ok (rs.head?.map (Row.toRec l))

/-- `exists` (`dataset_abc.py:108-118`). -/
def Mem.exists_ (ds : Mem) (q : List Char) : Except Err Bool :=
  (ds.selectOne q none).map Option.isSome

/-- Larger of two optional numeric values, skipping non-numbers. -/
def foldNum (f : ℚ → ℚ → ℚ) : List Val → Option ℚ
  | [] => none
  | .num q :: vs => match foldNum f vs with
    | some m => some (f q m)
    | none => some q
  | _ :: vs => foldNum f vs

/-- `max(column)` (`mem_dataset.py:232-235`).  Simplification: numeric columns only. -/
def Mem.max (ds : Mem) (c : String) : Except Err (Option ℚ) :=
  if c ∈ ds.cols then .ok (foldNum Max.max (ds.rows.map (·.get c))) else .error .badColumn

/-- `min(column)` (`mem_dataset.py:237-240`).  Simplification: numeric columns only. -/
def Mem.min (ds : Mem) (c : String) : Except Err (Option ℚ) :=
  if c ∈ ds.cols then .ok (foldNum Min.min (ds.rows.map (·.get c))) else .error .badColumn

/-! ## Restructuring -/

/-- pandas `drop_duplicates(subset=key columns)` keeping the first occurrence: walk over the rows
remembering the keys seen (`mem_dataset.py:226`). -/
def dedupGo (key : Row → List Val) : List Row → List (List Val) → List Row
  | [], _ => []
  | r :: rs, seen =>
    if key r ∈ seen then dedupGo key rs seen
    else r :: dedupGo key rs (key r :: seen)

/-- Key of a row on a list of columns. -/
def keyOn (cs : List String) (r : Row) : List Val := cs.map r.get

/-- `unique(columns)` (`mem_dataset.py:220-230`): the result keeps the columns in the requested order
plus `rid`.  (`rid` itself is never part of the comparison.) -/
def Mem.uniqueOn (ds : Mem) (l : List String) : Mem :=
  let cols' := if "rid" ∈ l then l else l ++ ["rid"]
  let dfCols := cols'.filter (· ≠ "rid")
  { ds with cols := cols', rows := dedupGo (keyOn dfCols) ds.rows [] }

/-- `unique(columns, copy=True)` (`mem_dataset.py:220-230`). -/
def Mem.unique (ds : Mem) (cs : Option (List String)) : Except Err Mem :=
  (handleColumns ds.cols cs).map fun l => ds.copy.uniqueOn l

/-- `unique(columns, copy=False)` (`mem_dataset.py:220-230`). -/
def Mem.uniqueInPlace (ds : Mem) (cs : Option (List String)) : Except Err Mem :=
  (handleColumns ds.cols cs).map fun l => ds.uniqueOn l

/-- `count_unique` (`dataset_abc.py:135-144`). -/
def Mem.countUnique (ds : Mem) (cs : Option (List String)) : Except Err Nat :=
  (ds.unique cs).map Mem.len

/-- Row filter of `drop` (`mem_dataset.py:258-261`). -/
def dropRows (ids : List Nat) (keep : Bool) (rs : List Row) : List Row :=
  if keep then rs.filter (fun r => r.rid ∈ ids) else rs.filter (fun r => !decide (r.rid ∈ ids))

/-- `drop(ids, copy=True, keep)` (`mem_dataset.py:255-262`). -/
def Mem.drop (ds : Mem) (ids : List Nat) (keep : Bool) : Mem :=
  { ds.copy with rows := dropRows ids keep ds.rows }

/-- `drop(ids, copy=False, keep)` (`mem_dataset.py:255-262`). -/
def Mem.dropInPlace (ds : Mem) (ids : List Nat) (keep : Bool) : Mem :=
  { ds with rows := dropRows ids keep ds.rows }

/-- pandas `unique()`: distinct values in order of first appearance (`mem_dataset.py:314,323`). -/
def distinctVals : List Val → List Val
  | [] => []
  | v :: vs => v :: (distinctVals vs).filter (· ≠ v)

/-- Categorical code of a value (`mem_dataset.py:315-316,324-325`). -/
def codeOf (cats : List Val) (v : Val) : Val := .num (cats.idxOf v)

/-- `columns.append(c)` if absent (`mem_dataset.py:312,321`). -/
def addCol (cols : List String) (c : String) : List String := if c ∈ cols then cols else cols ++ [c]

/-- `assign_internal_ids` (`mem_dataset.py:309-330`).  Without a `user` column nothing but the column
list changes before the `KeyError`; without an `item` column the user half has been done.  The uid and
iid columns are integer columns. -/
def Mem.assignIds (ds : Mem) : Mem × Option Err :=
  let cols1 := addCol ds.cols "uid"
  if "user" ∈ ds.cols then
    let users := distinctVals (ds.rows.map (·.get "user"))
    let rows1 := ds.rows.map fun r => r.set "uid" (codeOf users (r.get "user"))
    let dt1 := fun c => if c = "uid" then DType.int else ds.dtype c
    let cols2 := addCol cols1 "iid"
    if "item" ∈ ds.cols then
      let items := distinctVals (ds.rows.map (·.get "item"))
      let rows2 := rows1.map fun r => r.set "iid" (codeOf items (r.get "item"))
      let dt2 := fun c => if c = "iid" then DType.int else dt1 c
      ({ ds with cols := cols2, dtype := dt2, rows := rows2, hasIds := true,
                 userMap := users, itemMap := items }, none)
    else
      ({ ds with cols := cols2, dtype := dt1, rows := rows1, userMap := users },
        some .missingColumn)
  else ({ ds with cols := cols1 }, some .missingColumn)

/-- `remove_internal_ids` (`mem_dataset.py:332-337`): dropping both columns raises when only `uid` is
present. -/
def Mem.removeIds (ds : Mem) : Mem × Option Err :=
  if "uid" ∈ ds.cols then
    if "iid" ∈ ds.cols then
      ({ ds with hasIds := false, cols := (ds.cols.erase "uid").erase "iid" }, none)
    else ({ ds with hasIds := false }, some .missingColumn)
  else ({ ds with hasIds := false }, none)

/-! ## Interaction matrix and vectors -/

/-- A cell used as a matrix index. -/
def Val.toNat? : Val → Option Nat
  | .num q => if q.den = 1 ∧ 0 ≤ q.num then some q.num.toNat else none
  | _ => none

/-- A cell used as an interaction value (`float(row[...])`, `mem_dataset.py:493`): the text of a number is read,
other texts raise.  Simplification: a missing value raises as well (`float(nan)` does not). -/
def Val.toRat? : Val → Option ℚ
  | .num q => some q
  | .str s => pyFloat s.toList
  | .null => none

/-- Index and interaction of a row for matrix building. -/
def rowEntry (idxCol : String) (r : Row) : Except Err (Nat × ℚ) :=
  match (r.get idxCol).toNat?, (r.get "interaction").toRat? with
  | some i, some x => .ok (i, x)
  | _, _ => .error .typeError

/-- Rows whose column equals a given id (`self._df[self._df['uid'].values == uid]`). -/
def rowsWith (c : String) (k : Nat) (rs : List Row) : List Row :=
  rs.filter fun r => r.get c = .num (k : ℚ)

/-- Number of distinct values of a column (`count_unique(c)`, `drop_duplicates(subset=c)`). -/
def countDistinct (c : String) (rs : List Row) : Nat := (dedupGo (keyOn [c]) rs []).length

/-- `_build_interaction_matrix` (`mem_dataset.py:480-498`). -/
def Mem.buildMatrix (ds : Mem) : Except Err Mat :=
  if ds.hasIds then
    if "uid" ∈ ds.cols ∧ "iid" ∈ ds.cols ∧ "interaction" ∈ ds.cols then do
      let n := countDistinct "uid" ds.rows
      let perUser ← (List.range n).mapM fun u =>
        (rowsWith "uid" u ds.rows).mapM fun r =>
          (rowEntry "iid" r).map fun p => (u, p.1, p.2)
      mkMat n (countDistinct "iid" ds.rows) perUser.flatten
    else .error .missingColumn
  else .error .noIds

/-- The matrix left by the memory-error path, `csr_matrix(0)` (`mem_dataset.py:179,206`). -/
def zeroMat : Mat := ⟨1, 1, []⟩

/-- Fallback of `select_user_interaction_vec` (`mem_dataset.py:177-190`). -/
def Mem.userVecSlow (ds : Mem) (uid : Nat) : Except Err (List ℚ) := do
  let es ← (rowsWith "uid" uid ds.rows).mapM (rowEntry "iid")
  let m ← mkMat 1 (countDistinct "iid" ds.rows) (es.map fun p => (0, p.1, p.2))
  .ok (m.row 0)

/-- Fallback of `select_item_interaction_vec` (`mem_dataset.py:204-218`).  The column index stored is
the *item* id (line 214), as in the code. -/
def Mem.itemVecSlow (ds : Mem) (iid : Nat) : Except Err (List ℚ) := do
  let es ← (rowsWith "iid" iid ds.rows).mapM (rowEntry "iid")
  let m ← mkMat 1 (countDistinct "uid" ds.rows) (es.map fun p => (0, p.1, p.2))
  .ok (m.row 0)

/-- `select_user_interaction_vec` (`mem_dataset.py:165-190`).  Simplification: building the matrix
never runs out of memory; the `MemoryError` path is taken exactly when the cached matrix has at most
one row (line 170). -/
def Mem.userVec (ds : Mem) (uid : Nat) : Mem × Except Err (List ℚ) :=
  match ds.uidToUser uid with
  | .error e => (ds, .error e)
  | .ok none => (ds, .error .notFound)
  | .ok (some _) =>
    match ds.cache with
    | some m =>
      if m.nrows ≤ 1 then ({ ds with cache := some zeroMat }, ds.userVecSlow uid)
      else (ds, if uid < m.nrows then .ok (m.row uid) else .error .outOfRange)
    | none =>
      match ds.buildMatrix with
      | .error e => (ds, .error e)
      | .ok m => ({ ds with cache := some m, cacheT := some m },
          if uid < m.nrows then .ok (m.row uid) else .error .outOfRange)

/-- `select_item_interaction_vec` (`mem_dataset.py:192-218`). -/
def Mem.itemVec (ds : Mem) (iid : Nat) : Mem × Except Err (List ℚ) :=
  match ds.iidToItem iid with
  | .error e => (ds, .error e)
  | .ok none => (ds, .error .notFound)
  | .ok (some _) =>
    match ds.cache with
    | some m =>
      if m.nrows ≤ 1 then ({ ds with cache := some zeroMat }, ds.itemVecSlow iid)
      else match ds.cacheT with
        | some t => (ds, if iid < t.ncols then .ok (t.col iid) else .error .outOfRange)
        | none => (ds, .error .crash)
    | none =>
      match ds.buildMatrix with
      | .error e => (ds, .error e)
      | .ok m => ({ ds with cache := some m, cacheT := some m },
          if iid < m.ncols then .ok (m.col iid) else .error .outOfRange)

/-! ## apply -/

/-- dtype pandas infers for a recomputed column: object as soon as a value is not a number
(`mem_dataset.py:352`).  Simplification: an all-number result of an object column is a float column
(integer columns are only told apart for `user` and `item`, which are read-only). -/
def newDType (old : DType) (vs : List Val) : DType :=
  if vs.all (fun v => match v with | .num _ => true | _ => false) then
    if old = .obj then .float else old
  else .obj

/-- `apply(column, function)` (`mem_dataset.py:339-360`).  The function may raise (`none`).  The first
value is tried first; then the whole column is computed before the new dataframe replaces the old one
(pandas `Series.apply` raises before assignment); the matrix is rebuilt when it was cached.
Simplification: the check that the new values are int, float or str (line 349) always passes because
`Val`s other than `null` are. -/
def Mem.apply (ds : Mem) (c : String) (f : Val → Option Val) : Mem × Option Err :=
  if c ∈ ds.cols then
    if c ∈ ["rid", "uid", "iid", "user", "item"] then (ds, some .readOnly)
    else match ds.rows with
      | [] => (ds, some .applyFailed)
      | r0 :: _ =>
        match f (r0.get c) with
        | none => (ds, some .applyFailed)
        | some .null => (ds, some .applyFailed)
        | some _ =>
          match ds.rows.mapM (fun r => (f (r.get c)).map fun v => r.set c v) with
          | none => (ds, some .applyFailed)
          | some rs =>
            let ds1 := { ds with
              rows := rs
              dtype := fun d =>
                if d = c then newDType (ds.dtype c) (rs.map (·.get c)) else ds.dtype d }
            if c = "interaction" ∧ ds.cache.isSome then
              match ds1.buildMatrix with
              | .ok m => ({ ds1 with cache := some m, cacheT := some m }, none)
              | .error _ => ({ ds1 with cache := none, cacheT := none }, some .applyFailed)
            else (ds1, none)
  else (ds, some .badColumn)

end DRec
