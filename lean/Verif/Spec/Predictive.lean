import Verif.Model.Predictive

/-! # Predictive evaluation -/

namespace DRec.Spec

/-- A test set: it has users and items, and every interaction is a number from `lo` to `hi`. -/
structure TestSet (ds : Mem) (lo hi : ℚ) : Prop where
  cols : "user" ∈ ds.cols ∧ "item" ∈ ds.cols ∧ "interaction" ∈ ds.cols
  range : ∀ r ∈ ds.rows, ∃ q, r.get "interaction" = .num q ∧ lo ≤ q ∧ q ≤ hi

/-- The prediction counted for a record, if any: a missing prediction counts as 0 on request. -/
def counted (predict : Val → Val → Except Err (Option ℚ)) (countNone : Bool) (r : Row) : Option ℚ :=
  match predict (r.get "user") (r.get "item") with
  | .ok (some y) => some y
  | .ok none => if countNone then some 0 else none
  | .error _ => none

/-- True and predicted values of the first `n` records with a counted prediction, in order. -/
def countedPairs (predict : Val → Val → Except Err (Option ℚ)) (countNone : Bool) (n : Nat) (ds : Mem) : List (ℚ × ℚ) :=
  (ds.rows.filterMap fun r => (counted predict countNone r).map fun y => (sortKey "interaction" r, y)).take n

end DRec.Spec
