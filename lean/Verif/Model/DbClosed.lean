import Verif.Model.Db

/-!
# Database datasets after `close` (`DRecPy/Dataset/db_dataset.py`)

`close` forgets an object in the registries and closes its connection, but the object stays usable: the next
cursor opens a new connection (`db_dataset.py:872-877`).  A closed object is given by its number `i` and its
attributes `x`; it is in no registry.  Same simplifications as `Model/Db`.
-/

namespace DRec

/-- `close` called on an object that was closed before (`db_dataset.py:581-600`): it is in neither registry
any more, `set.remove` raises when the registry has an entry. -/
def World.closeAgain (w : World) (i : Nat) (x : Inst) : World × Option Err :=
  match w.leaveTable i x.table with
  | (w1, some e) => (w1, some e)
  | (w1, none) => w1.leaveFile i

/-- `_open_cursor` on a closed connection (`db_dataset.py:859-877`): a file that is gone is made again, empty. -/
def World.reconnect (w : World) : World := { w with file := true }

/-- Sole *registered* user (`db_dataset.py:826-830,848`): the rows the closed object does not select are
deleted; that the one registered user is the object itself is not checked. -/
def World.shrinkClosed (w : World) (x : Inst) (t : Table) : World × Inst × Option Err :=
  match evalSrc t x.state with
  | .error e => (w, x, some e)
  | .ok (scols, rows) =>
    if "rid" ∈ scols then
      (w.putT x.table (some ⟨t.cols, t.rows.filter fun r => rows.any (·.rid = r.rid)⟩), { x with state := .table }, none)
    else (w, x, some .missingColumn)

/-- Any other number of registered users (`db_dataset.py:831-843`): the reduced table is built, then the
object is not found in the registry. -/
def World.splitClosed (w : World) (x : Inst) (t : Table) : World × Inst × Option Err :=
  match x.buildTable with
  | .error e => (w, x, some e)
  | .ok cols =>
    match evalSrc t x.state with
    | .error e => (w, x, some e)
    | .ok (scols, rows) =>
      if x.columns.all (· ∈ scols) then
        ({ (w.putT w.nextT (some ⟨cols, rows.map (Row.restrict x.columns)⟩)) with nextT := w.nextT + 1 }, x,
          some .keyError)
      else (w, x, some .missingColumn)

/-- `_optimize_states` of a closed object (`db_dataset.py:807-849`). -/
def World.optimizeClosed (w : World) (x : Inst) : World × Inst × Option Err :=
  if x.state = .table then (w, x.reset, none)
  else if 0 < w.gens then (w, x.reset, none)
  else
    match w.users x.table, w.tables x.table with
    | none, _ => (w.reconnect, x.reset, some .keyError)
    | some _, none => (w.reconnect, x.reset, some .crash)
    | some us, some t =>
      if us.length = 1 then w.reconnect.shrinkClosed x.reset t else w.reconnect.splitClosed x.reset t

/-- `_record_interaction` of a closed object (`db_dataset.py:784-790`). -/
def World.recordClosed (w : World) (x : Inst) : World × Inst × Option Err :=
  if 4 ≤ x.direct + 1 ∧ w.gens = 0 then w.optimizeClosed { x with direct := x.direct + 1 }
  else (w, { x with direct := x.direct + 1 }, none)

/-- What a read checks before it opens a cursor (`db_dataset.py:93-98,256-258,264-266,272-274,311-314`). -/
def Inst.readArgs (x : Inst) : ReadOp → Except Err Unit
  | .values cs => (handleColumns x.columns cs).map fun _ => ()
  | .selectOne q cs => (x.parse q).bind fun _ => (handleColumns x.columns cs).map fun _ => ()
  | .countUnique cs => (handleColumns x.columns cs).map fun _ => ()
  | .max c => if c ∈ x.columns then .ok () else .error .badColumn
  | .min c => if c ∈ x.columns then .ok () else .error .badColumn

/-- A read of a closed object. -/
def World.readClosed (w : World) (x : Inst) (op : ReadOp) : World × Inst × Except Err ReadRes :=
  match w.recordClosed x with
  | (w1, y, some e) => (w1, y, .error e)
  | (w1, y, none) =>
    match y.readArgs op with
    | .error e => (w1, y, .error e)
    | .ok _ => (w1.reconnect, y, (w1.put w1.nextI y).look w1.nextI op)

/-- Several reads of a closed object. -/
def World.readsClosed (w : World) (x : Inst) : List ReadOp → World × Inst
  | [] => (w, x)
  | op :: ops => World.readsClosed (w.readClosed x op).1 (w.readClosed x op).2.1 ops

end DRec
