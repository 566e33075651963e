import Mathlib.Logic.Function.Basic
import Mathlib.Data.Fin.VecNotation

/-!
# Several calls of an evaluation or split function at the same time

`n_tasks_done` and `n_tasks_lock` are variables of the module, so all calls of `ranking_evaluation` that run
in one process share them (and likewise all calls of `recommendation_evaluation`, of `leave_k_out` and of
`matrix_split`; each of the four modules has variables of its own).  A call resets the counter, submits its
tasks, waits in a loop that looks at the counter (only when `verbose`), and joins its pool.
Not modelled: what the tasks compute (Model/Evaluation, Model/Splits), the progress bar, the number of
workers of a pool (every execution with a limited number of workers is one of the executions here), and
tasks that raise (C37, C45).
-/

namespace DRec.Prog

/-- Where a task is: not submitted yet, submitted, finished with its own work but not with
`with n_tasks_lock: n_tasks_done += 1`, or finished.
Source: `DRecPy/Evaluation/Processes/ranking_evaluation.py:149-160`,
`DRecPy/Evaluation/Splits/leave_k_out.py:114-135`. -/
inductive TPc where
  | new | ready | worked | done
  deriving DecidableEq

/-- Where the thread is that holds `n_tasks_lock`: before it reads the counter, after it has read the value
`v`, after it has stored `v + 1`.
Source: `DRecPy/Evaluation/Processes/ranking_evaluation.py:159-160` (`n_tasks_done += 1` is a read and a
write). -/
inductive Phase where
  | entered | loaded (v : Nat) | stored
  deriving DecidableEq

/-- Where the calling thread is: before the reset of the counter, after the submission of `k` tasks, before
the test of the loop, before the comparison in its body, in `pool.join()`, returned.
Source: `DRecPy/Evaluation/Processes/ranking_evaluation.py:104-130`. -/
inductive MPc where
  | start | submit (k : Nat) | test | compare | join | returned
  deriving DecidableEq

/-- The state: the counter, the holder of the lock with its phase, the calls, their tasks, and for each call
the tasks that have done their work, in order.
Source: `DRecPy/Evaluation/Processes/ranking_evaluation.py:14-15` (`n_tasks_done`, `n_tasks_lock`), `:92`
(`metric_sums`, one for each call). -/
structure St (N : Nat) where
  counter : Nat
  lock : Option (Fin N × Nat × Phase)
  main : Fin N → MPc
  task : Fin N → Nat → TPc
  log : Fin N → List Nat

/-- A calling thread or the thread of a task.
Source: `DRecPy/Evaluation/Processes/ranking_evaluation.py:107-118` (`ThreadPool`, `apply_async`). -/
inductive Agent (N : Nat) where
  | main (i : Fin N)
  | task (i : Fin N) (j : Nat)
  deriving DecidableEq

/-- The state before the calls.
Source: `DRecPy/Evaluation/Processes/ranking_evaluation.py:14`. -/
def init (N : Nat) : St N :=
  { counter := 0, lock := none, main := fun _ => .start, task := fun _ _ => .new, log := fun _ => [] }

/-- One step of the thread of call `i`, which submits `n i` tasks.
Source: `DRecPy/Evaluation/Processes/ranking_evaluation.py:104-130`, the same lines in
`DRecPy/Evaluation/Processes/recommendation_evaluation.py:90-118`,
`DRecPy/Evaluation/Splits/leave_k_out.py:62-91` and `DRecPy/Evaluation/Splits/matrix_split.py:56-78`.
`n_tasks_done, n_tasks = 0, 0` does not take the lock; `while n_tasks_done <= n_tasks` and
`if n_tasks_done == n_tasks` read the counter separately. The two reads for the progress bar are left
out. -/
def mainStep {N : Nat} (n : Fin N → Nat) (verbose : Fin N → Bool) (s : St N) (i : Fin N) : St N :=
  match s.main i with
  | .start => { s with counter := 0, main := Function.update s.main i (.submit 0) }
  | .submit k =>
    if k < n i then
      { s with
        task := Function.update s.task i (Function.update (s.task i) k .ready)
        main := Function.update s.main i (.submit (k + 1)) }
    else { s with main := Function.update s.main i (if verbose i then .test else .join) }
  | .test => { s with main := Function.update s.main i (if s.counter ≤ n i then .compare else .join) }
  | .compare => { s with main := Function.update s.main i (if s.counter = n i then .join else .test) }
  | .join =>
    if ∀ j < n i, s.task i j = .done then { s with main := Function.update s.main i .returned } else s
  | .returned => s

/-- One step of the thread of task `j` of call `i`: its work, which goes to the structures of its own call,
then the increment of the counter under the lock. A thread that finds the lock taken waits.
Source: `DRecPy/Evaluation/Processes/ranking_evaluation.py:149-160`,
`DRecPy/Evaluation/Processes/recommendation_evaluation.py:136-192`,
`DRecPy/Evaluation/Splits/leave_k_out.py:114-135`, `DRecPy/Evaluation/Splits/matrix_split.py:86-106`. -/
def taskStep {N : Nat} (s : St N) (i : Fin N) (j : Nat) : St N :=
  match s.task i j with
  | .new => s
  | .ready =>
    { s with
      task := Function.update s.task i (Function.update (s.task i) j .worked)
      log := Function.update s.log i (s.log i ++ [j]) }
  | .worked =>
    match s.lock with
    | none => { s with lock := some (i, j, .entered) }
    | some (a, b, ph) =>
      if a = i ∧ b = j then
        match ph with
        | .entered => { s with lock := some (i, j, .loaded s.counter) }
        | .loaded v => { s with counter := v + 1, lock := some (i, j, .stored) }
        | .stored =>
          { s with lock := none, task := Function.update s.task i (Function.update (s.task i) j .done) }
      else s
  | .done => s

/-- One step of a thread. Source: see `mainStep` and `taskStep`
(`DRecPy/Evaluation/Processes/ranking_evaluation.py:104-160`). -/
def step {N : Nat} (n : Fin N → Nat) (verbose : Fin N → Bool) (s : St N) : Agent N → St N
  | .main i => mainStep n verbose s i
  | .task i j => taskStep s i j

/-- The state after the first `t` steps of a schedule.
Source: `DRecPy/Evaluation/Processes/ranking_evaluation.py:104-160`. -/
def run {N : Nat} (n : Fin N → Nat) (verbose : Fin N → Bool) (sched : Nat → Agent N) : Nat → St N
  | 0 => init N
  | t + 1 => step n verbose (run n verbose sched t) (sched t)

end DRec.Prog
