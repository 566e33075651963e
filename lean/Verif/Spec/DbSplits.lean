import Verif.Model.DbSplits
import Verif.Spec.Both
import Verif.Spec.Splits

/-! # Splits of a database dataset -/

namespace DRec.Spec

open Conc

/-- The selections of all users have run to their end, in some interleaving. -/
def PoolRun (w : World) (i : Nat) (us : List Val) (s : State) : Prop :=
  Runs i (State.init w (us.map userQuery)) s ∧ ∀ ph ∈ s.tasks, ∃ r, ph = .done r

/-- `leave_k_out` on database dataset `i` returns these sets for some interleaving; the dataset of users is closed on
return (`leave_k_out.py:47-96`). -/
def DbLeaveKOut (w : World) (i : Nat) (k : KArg) (minN : Nat) (last : Option String) (rngs : Nat → Nat → Nat)
    (verbose : Bool) (w' : World) (train test : Nat) : Prop :=
  k.valid = true ∧ ∃ w1 j us x s m w2, dbUnique w i "user" = (w1, .ok (j, us)) ∧ w1.insts i = some x ∧
    PoolRun w1 i us s ∧
    SplitRun (s.tasks.zipIdx.map fun p => dbLeaveKUser x.columns k minN last (rngs p.2) p.1) m ∧
    (verbose = true → m .done = us.length) ∧ dbFinish s.w i m = (w2, .ok (train, test)) ∧ w' = (w2.close j).1

/-- `matrix_split` on database dataset `i` returns these sets for some interleaving (`matrix_split.py:38-83`). -/
def DbMatrixSplit (w : World) (i : Nat) (userRatio itemRatio : ℚ) (minN : Nat) (rngU rngI : Nat → Nat)
    (verbose : Bool) (w' : World) (train test : Nat) : Prop :=
  ((0 < userRatio ∧ userRatio ≤ 1) ∧ (0 < itemRatio ∧ itemRatio ≤ 1)) ∧
  ∃ w0 j0 us w1 j is s m w2, dbUnique w i "user" = (w0, .ok (j0, us)) ∧ dbUnique w0 i "item" = (w1, .ok (j, is)) ∧
    PoolRun w1 i us s ∧
    SplitRun ((us.zip s.tasks).map fun p => dbMatrixUser minN (drawn us userRatio rngU) (drawn is itemRatio rngI)
      p.1 p.2) m ∧
    (verbose = true → m .done = us.length) ∧ dbFinish s.w i m = (w2, .ok (train, test)) ∧
    w' = ((w2.close j).1.close j0).1

/-- The limit of four direct interactions cannot turn the filter of the dataset into a table of its own while the
`n` tasks run: it has no filter, it reaches the limit in the `before` interactions that come first, or it does not reach
it at all. -/
def PoolSafe (x : Inst) (before n : Nat) : Prop :=
  x.state = .table ∨ 4 ≤ x.direct + before ∨ x.direct + before + n < 4

/-- Narrowing the dataset to `n` records makes a copy of it reduce itself (`db_dataset.py:799-803`): it is the third
narrowing, and leaves less than 80% of the records and at least 5000 records less. -/
def UniqueReduces (x : Inst) (n : Nat) : Prop :=
  2 ≤ x.queries ∧ 0 < n ∧ (n : ℚ) / x.nBefore < 8 / 10 ∧ n + 5000 ≤ x.nBefore

/-- A state of the datasets after importing a csv file and any admissible history. -/
def Reached (names : List String) (w : World) : Prop :=
  ∃ (cols : List String) (types : String → DType) (rows : List Row) (ops : List DbOp),
    (tableCols ⊆ names ∧ "uid" ∈ names ∧ "iid" ∈ names) ∧ cols ⊆ names ∧ "rid" ∈ cols ∧
    rows.Pairwise (fun a b => a.rid < b.rid) ∧ AdmissibleAll names (World.ofCsv cols types rows) ops ∧
    w = runOps (World.ofCsv cols types rows) ops

/-- Database dataset `i`, whose object is `x`, shows what the in-memory dataset `m` shows: same columns, same
records. -/
structure SameData (w : World) (i : Nat) (x : Inst) (m : Mem) : Prop where
  shows : plainOf w i = some (memPlain m)
  object : w.insts i = some x
  full : FullCols m.cols
  sorted : m.rows.Pairwise fun a b => a.rid < b.rid
  cache : m.cache = none

/-- Number of different values in a column. -/
def distinct (m : Mem) (c : String) : Nat := (m.rows.map (·.get c)).dedup.length

/-- The split made new datasets that show what `mtrain` and `mtest` show, and all old datasets show what they
showed. -/
def SplitInto (w w' : World) (train test : Nat) (mtrain mtest : Mem) : Prop :=
  plainOf w' train = some (memPlain mtrain) ∧ plainOf w' test = some (memPlain mtest) ∧
  ∀ k q, plainOf w k = some q → plainOf w' k = some q

end DRec.Spec
