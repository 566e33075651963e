import Verif.Model.Splits
import Verif.Spec.Mem
import Mathlib.Data.List.Dedup

/-! # Notions used in the statements about splits -/

namespace DRec.Spec

/-- The records of a user. -/
def recordsOf (rows : List Row) (user : Val) : List Row := rows.filter fun r => r.get "user" = user

/-- Record ids identify records. -/
def RidsUnique (ds : Mem) : Prop := (ds.rows.map (·.rid)).Nodup

/-- A dataset with integer user ids. -/
structure IntUsers (ds : Mem) : Prop where
  hasUser : "user" ∈ ds.cols
  int : ds.dtype "user" = .int
  whole : ∀ r ∈ ds.rows, ∃ n : Int, r.get "user" = .num n

/-- The tasks have run to their end, in some interleaving, leaving these shared variables. -/
def SplitRun (tasks : List (List SAct)) (m : (v : SVar) → v.Ty) : Prop :=
  ∃ n c, Steps n (splitStart tasks) c ∧ c.Complete ∧ c.mem = m

/-- `leave_k_out` returns these sets for some interleaving of its tasks; when verbose, the waiting loop
only ends when the counter has reached the number of tasks (`leave_k_out.py:81-91`). -/
def LeaveKOut (ds : Mem) (k : KArg) (minN : Nat) (last : Option String) (rngs : Nat → Nat → Nat)
    (verbose : Bool) (train test : Mem) : Prop :=
  ∃ tasks m, leaveKTasks ds k minN last rngs = .ok tasks ∧ SplitRun tasks m ∧
    (verbose = true → m .done = tasks.length) ∧ splitFinish ds m = (train, test)

/-- `matrix_split` returns these sets for some interleaving (`matrix_split.py:68-83`). -/
def MatrixSplit (ds : Mem) (userRatio itemRatio : ℚ) (minN : Nat) (rngU rngI : Nat → Nat)
    (verbose : Bool) (train test : Mem) : Prop :=
  ∃ tasks m, matrixTasks ds userRatio itemRatio minN rngU rngI = .ok tasks ∧ SplitRun tasks m ∧
    (verbose = true → m .done = tasks.length) ∧ splitFinish ds m = (train, test)

/-- The test set can be read: without `last_timestamps`, or with an existing timestamp column. -/
def LabelOk (ds : Mem) : Option String → Prop
  | none => True
  | some label => label ∈ ds.cols

/-- Train and test set have no record in common and consist of records of the dataset in their order. -/
def Disjoint (ds train test : Mem) : Prop :=
  train.rows.Sublist ds.rows ∧ test.rows.Sublist ds.rows ∧
  ∀ r ∈ train.rows, ∀ r' ∈ test.rows, r.rid ≠ r'.rid

/-- Record ids a critical section puts into the removal list. -/
def removedBy : SAct → List Nat
  | .remove ids => ids
  | _ => []

/-- Record ids a critical section puts into the test list. -/
def testedBy : SAct → List Nat
  | .toTest ids => ids
  | _ => []

/-- Does the section count the task as done? -/
def counts : SAct → Bool
  | .count => true
  | _ => false

/-- A text id that is a plain word: a letter followed by letters and digits. -/
def PlainWord (s : String) : Prop :=
  ∃ c cs, s.toList = c :: cs ∧ c.isAlpha = true ∧ ∀ x ∈ cs, x.isAlphanum = true

/-- An integer other than zero written with a leading zero. -/
def ZeroNumber (s : List Char) : Prop :=
  ∃ cs, s = '0' :: cs ∧ (∀ x ∈ cs, x.isDigit = true) ∧ ∃ x ∈ cs, x ≠ '0'

/-- What the split should be for drawn users `U` and items `I`. -/
def MatrixResult (ds : Mem) (minN : Nat) (U I : List Val) (train test : Mem) : Prop :=
  Disjoint ds train test ∧
  ∀ r ∈ ds.rows,
    (r ∈ test.rows ↔ minN ≤ (recordsOf ds.rows (r.get "user")).length ∧
      r.get "user" ∈ U ∧ r.get "item" ∈ I ∧
      ∃ r' ∈ recordsOf ds.rows (r.get "user"), r'.get "item" ∉ I) ∧
    (r ∈ train.rows ↔ minN ≤ (recordsOf ds.rows (r.get "user")).length ∧ r ∉ test.rows)

/-- A draw of a share of the values occurring in a column (the product in floating point). -/
def Draw (ds : Mem) (c : String) (ratio : ℚ) (U : List Val) : Prop :=
  U.Nodup ∧ (∀ v ∈ U, ∃ r ∈ ds.rows, r.get c = v) ∧
  (U.length : Int) = (toFloat ((ds.rows.map (·.get c)).dedup.length * ratio)).floor

/-- Every user's test records are at least as late as its train records. -/
def LatestInTest (label : String) (train test : Mem) : Prop :=
  ∀ v, ∀ b ∈ recordsOf train.rows v, ∀ a ∈ recordsOf test.rows v,
    numCell (b.get label) ≤ numCell (a.get label)

end DRec.Spec
