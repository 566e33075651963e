import Verif.Spec.Evaluation
import Verif.Spec.DbEval
import Verif.Model.Fitted

/-! # Notions used in the statements about evaluating on held-out records -/

namespace DRec.Spec

/-- Train and test set are parts of the dataset without a common record, with its columns and types, and every
user of the test set has a record in the train set. -/
structure HeldOut (ds train test : Mem) : Prop where
  parts : Disjoint ds train test
  trainCols : train.cols = ds.cols
  testCols : test.cols = ds.cols
  trainTypes : train.dtype = ds.dtype
  testTypes : test.dtype = ds.dtype
  users : ∀ r ∈ test.rows, ∃ r' ∈ train.rows, r'.get "user" = r.get "user"

/-- The model has a score for every pair of internal ids of the dataset. -/
def ScoresAll (m : Mem) (f : PredictFn ℚ) : Prop :=
  ∀ u < m.userMap.length, ∀ i < m.itemMap.length, ∃ s, f (some u) (some i) = .ok (some s)

/-- Some record is about the item. -/
def Occurs (ds : Mem) (item : Val) : Prop := ∃ r ∈ ds.rows, itemOf r = item

/-- Number of different items in the records. -/
def itemCount (ds : Mem) : Nat := (ds.rows.map itemOf).dedup.length

end DRec.Spec
