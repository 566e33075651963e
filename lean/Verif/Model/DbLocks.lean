import Mathlib.Data.List.Basic

/-!
# Locks on the database file (`DRecPy/Dataset/db_dataset.py`)

Every dataset object has a connection of its own to the shared file (`db_dataset.py:859-870`).  A call is the
list of statements it executes; a statement fails when another connection holds a lock it needs
(https://www.sqlite.org/lockingv3.html, rollback modes).  Python's `sqlite3` begins a transaction before
`INSERT`, `UPDATE` and `DELETE`; `CREATE` and `DROP` outside a transaction commit at once.  Simplifications: one
call at a time (the busy timeout only matters for calls at the same time), changes stay in the page cache until
they are committed.
-/

namespace DRec.Lock

/-- The connections in a transaction, the one with uncommitted changes, and the connections of the suspended
value generators (`_open_value_generators`, `db_dataset.py:20`) and of the suspended random generators, and the
closed connections. -/
structure Locks where
  txn : Nat → Bool
  writer : Option Nat
  vals : List Nat
  rands : List Nat
  closed : List Nat

/-- A new file. -/
def Locks.init : Locks := ⟨fun _ => false, none, [], [], []⟩

/-- Statements. -/
inductive Stmt where
  | begin
  | change
  | create
  | drop
  | commit

/-- Another connection has uncommitted changes. -/
def Locks.othersWrite (l : Locks) (c : Nat) : Bool :=
  match l.writer with
  | none => false
  | some j => j != c

/-- Connections in the middle of a `SELECT`: those of the suspended generators, unless they were closed. -/
def Locks.reading (l : Locks) : List Nat := (l.vals ++ l.rands).filter (· ∉ l.closed)

/-- Another connection is reading. -/
def Locks.othersRead (l : Locks) (c : Nat) : Bool := l.reading.any (· != c)

/-- The connection itself is reading. -/
def Locks.reads (l : Locks) (c : Nat) : Bool := l.reading.any (· == c)

/-- Write the transaction flag of a connection. -/
def Locks.setTxn (l : Locks) (c : Nat) (b : Bool) : Locks := { l with txn := fun j => if j = c then b else l.txn j }

/-- One statement of connection `c`; `false`: it raises. -/
def exec (c : Nat) : Stmt → Locks → Locks × Bool
  | .begin, l => if l.txn c then (l, false) else (l.setTxn c true, true)
  | .change, l =>
    if l.othersWrite c then (l.setTxn c true, false) else ({ l.setTxn c true with writer := some c }, true)
  | .create, l =>
    if l.othersWrite c then (l, false)
    else if l.txn c then ({ l with writer := some c }, true)
    else if l.othersRead c then (l, false)
    else (l, true)
  | .drop, l =>
    if l.othersWrite c || l.reads c then (l, false)
    else if l.txn c then ({ l with writer := some c }, true)
    else if l.othersRead c then (l, false)
    else (l, true)
  | .commit, l =>
    if l.writer = some c then
      if l.othersRead c then (l, false) else ({ l.setTxn c false with writer := none }, true)
    else (l.setTxn c false, true)

/-- Statements one after the other, up to the first that raises. -/
def execAll (c : Nat) : List Stmt → Locks → Locks × Bool
  | [], l => (l, true)
  | s :: ss, l => if (exec c s l).2 then execAll c ss (exec c s l).1 else ((exec c s l).1, false)

/-- What `_optimize_states` has to do (`db_dataset.py:807-849`): it is not due, there is no filter (with
`skip_empty_query=False`), the table is the object's own, or it is shared. -/
inductive Reduction where
  | notDue
  | empty
  | own
  | shared

/-- Its statements (`db_dataset.py:826-849,902-945`); nothing as long as a value generator is suspended
(`db_dataset.py:788,803,820`). -/
def Reduction.stmts (l : Locks) (r : Reduction) : List Stmt :=
  if l.vals ≠ [] then []
  else match r with
    | .notDue => []
    | .empty => [.commit]
    | .own => [.change, .commit]
    | .shared => [.create, .change, .create, .create, .create, .create, .create, .commit]

/-- Calls: a method that only reads (reads, selections, copies; `db_dataset.py:81-103,234-317`), a value
generator left suspended and its end (`db_dataset.py:278-317`), a random generator suspended at a record that is not the last
one of its user (`db_dataset.py:167-195`) and its end, `assign_internal_ids` with `n` updates
(`db_dataset.py:444-486`), `apply` with `n` changed records, then the function raises or not
(`db_dataset.py:495-563`), and `close` of the last or another user of the table (`db_dataset.py:581-600`). -/
inductive Call where
  | read (r : Reduction)
  | openVal (r : Reduction)
  | closeVal
  | openRand
  | closeRand
  | assign (r : Reduction) (n : Nat)
  | applySame (r₀ r : Reduction) (n : Nat) (ok : Bool)
  | applyNew (r₀ : Reduction) (n : Nat) (ok : Bool)
  | close (last : Bool)

/-- The statements of a call. -/
def Call.stmts (l : Locks) : Call → List Stmt
  | .read r => r.stmts l
  | .openVal r => r.stmts l
  | .closeVal | .openRand | .closeRand => []
  | .assign r n => r.stmts l ++ [.commit, .drop, .drop, .begin] ++ List.replicate n .change ++
      [.commit, .create, .create, .commit]
  | .applySame r₀ r n ok => r₀.stmts l ++ r.stmts l ++ [.begin] ++ List.replicate n .change ++
      (if ok then [.commit, .commit] else [])
  | .applyNew r₀ n ok => r₀.stmts l ++ [.create] ++ List.replicate n .change ++
      (if ok then [.create, .create, .create, .create, .create, .commit] else [])
  | .close last => if last ∧ l.vals = [] then [.drop] else []

/-- What a call changes besides: suspended generators, and the closed connection
(its uncommitted changes are given up).  Value generators of a closed dataset stay in the registry. -/
def Call.after (c : Nat) : Call → Locks → Locks
  | .openVal _, l => { l with vals := c :: l.vals }
  | .closeVal, l => { l with vals := l.vals.erase c }
  | .openRand, l => { l with rands := c :: l.rands }
  | .closeRand, l => { l with rands := l.rands.erase c }
  | .close _, l =>
    { l.setTxn c false with
      writer := if l.writer = some c then none else l.writer, closed := c :: l.closed }
  | _, l => l

/-- A call on the dataset with connection `c`; `false`: "database is locked" (or a nested transaction). -/
def runCall (c : Nat) (k : Call) (l : Locks) : Locks × Bool :=
  if (execAll c (k.stmts l) l).2 then (k.after c (execAll c (k.stmts l) l).1, true)
  else ((execAll c (k.stmts l) l).1, false)

/-- A history of calls on any number of datasets: the locks at its end. -/
def runCalls : Locks → List (Nat × Call) → Locks
  | l, [] => l
  | l, p :: ps => runCalls (runCall p.1 p.2 l).1 ps

end DRec.Lock
