import Verif.Model.Db

/-!
# Selections by several threads on one database dataset

The splits and the evaluation processes hand one dataset object to a pool of threads, each of which calls
`interaction_dataset.select(query)` and reads the result (`leave_k_out.py:65-77,99-135`,
`matrix_split.py:59-64,86-100`, `recommendation_evaluation.py:93-103,141`).  The dataset has no lock.  A task is cut into
the steps between which another thread can run.  Simplifications: the statements of one hidden reduction are one
step, so is the selection on the new object, which no other thread knows, and so is reading it to the end; the
value generators opened meanwhile by the reads are left out.
-/

namespace DRec.Conc

/-- Where a task is: not started, with a new object on the table of the dataset (`opened`), with a finished copy
(`copied`), having read the counter of the dataset (`loaded`), having written it (`counted`), after the check of the
counter (`recorded`), with its selection made (`selected`), finished. -/
inductive Phase where
  | todo (q : List Char)
  | opened (q : List Char) (j : Nat)
  | copied (q : List Char) (j : Nat)
  | loaded (q : List Char) (j d : Nat)
  | counted (q : List Char) (j : Nat)
  | recorded (q : List Char) (j : Nat)
  | selected (j : Nat)
  | done (r : Except Err ReadRes)

/-- `type(self)(path=self._db_path, active_table=self._active_table, …)` (`db_dataset.py:566-567,29-72`): a new
object on the table that is now active, with the number of rows of that table.  The columns, the column types and
the id flag, which no task changes, are copied here instead of in `db_dataset.py:569-573`. -/
def opening (w : World) (x : Inst) (t : Table) : World :=
  let y : Inst := { x with state := .table, nRows := t.rows.length, nBefore := t.rows.length, queries := 0, direct := 0 }
  { ((w.put w.nextI y).putU x.table (some (w.nextI :: (w.users x.table).getD []))) with
    live := some (w.nextI :: w.live.getD []), nextI := w.nextI + 1 }

/-- One step of a task on dataset `i` (`db_dataset.py:81-89,565-579,784-790,310-317`); `none` when it is finished.
The exception of a task ends it, its copy is garbage and closed. -/
def stepTask (w : World) (i : Nat) : Phase → Option (World × Phase)
  | .todo q =>
    some (match w.insts i with
      | none => (w, .done (.error .crash))
      | some x => match w.tables x.table with
        | none => (w, .done (.error .crash))
        | some t => (opening w x t, .opened q w.nextI))
  | .opened q j =>
    some (match w.insts i, w.insts j with
      | some x, some y =>
        let y' : Inst := { y with state := x.state, nRows := x.nRows, nBefore := x.nBefore, queries := x.queries }
        (w.put j y', .copied q j)
      | _, _ => (w, .done (.error .crash)))
  | .copied q j =>
    some (match w.insts i with
      | none => (w, .done (.error .crash))
      | some x => (w, .loaded q j x.direct))
  | .loaded q j d =>
    some (match w.insts i with
      | none => (w, .done (.error .crash))
      | some x => (w.put i { x with direct := d + 1 }, .counted q j))
  | .counted q j =>
    some (match w.insts i with
      | none => (w, .done (.error .crash))
      | some x =>
        if 4 ≤ x.direct ∧ w.gens = 0 then
          match w.optimize i true with
          | (w1, some e) => ((w1.close j).1, .done (.error e))
          | (w1, none) => (w1, .recorded q j)
        else (w, .recorded q j))
  | .recorded q j =>
    some (match w.selectOn j q with
      | (w1, some e) => ((w1.close j).1, .done (.error e))
      | (w1, none) => (w1, .selected j))
  | .selected j =>
    some (((w.read j (.values none)).1.close j).1, .done (w.read j (.values none)).2)
  | .done _ => none

/-- The world and the tasks. -/
structure State where
  w : World
  tasks : List Phase

/-- A step of task `k`. -/
def State.step (i : Nat) (s : State) (k : Nat) : Option State :=
  match s.tasks[k]? with
  | none => none
  | some ph => (stepTask s.w i ph).map fun p => ⟨p.1, s.tasks.set k p.2⟩

/-- All tasks submitted, none started. -/
def State.init (w : World) (qs : List (List Char)) : State := ⟨w, qs.map .todo⟩

/-- Some interleaving of the tasks leads from one state to another. -/
inductive Runs (i : Nat) : State → State → Prop
  | refl (s : State) : Runs i s s
  | step {s s' s'' : State} (k : Nat) : Runs i s s' → s'.step i k = some s'' → Runs i s s''

/-- A schedule: which task makes the next step; steps of finished tasks do nothing. -/
def State.run (i : Nat) : State → List Nat → State
  | s, [] => s
  | s, k :: ks => ((s.step i k).getD s).run i ks

end DRec.Conc
