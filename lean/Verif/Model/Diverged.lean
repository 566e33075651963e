import Verif.Model.Fit

/-!
# NaN in validation values and losses

`Model/Fit` has numbers only.  Here a value or a loss may be NaN (`none`), as after training that diverged.
-/

namespace DRec.Div

/-- `x > b` for floats: false with NaN. -/
def above (b x : Option ℚ) : Bool :=
  match b, x with
  | some b, some x => decide (b < x)
  | _, _ => false

/-- The loop of `MaxValidationValueRule._compute_best_epoch` (`max_validation_value_rule.py:22-25`). -/
def bestGo : List (Option ℚ) → Nat → Option ℚ → Nat → Nat
  | [], _, _, bi => bi
  | x :: xs, i, b, bi => if above b x then bestGo xs (i + 1) x i else bestGo xs (i + 1) b bi

/-- `_compute_best_epoch` (`max_validation_value_rule.py:18-27`) for the values of the metric. -/
def maxBest (vals : List (Option ℚ)) (epochs : List Nat) : Except Err Nat :=
  match vals with
  | [] => .error .outOfRange
  | x :: xs =>
    match epochs[bestGo (x :: xs) 0 x 0]? with
    | none => .error .outOfRange
    | some e => .ok e

/-- `add_epoch_loss` (`loss_tracker.py:15-22`): number of losses and average so far. -/
def addLoss (s : Nat × Option ℚ) (x : Option ℚ) : Nat × Option ℚ :=
  (s.1 + 1, s.2.bind fun a => x.map fun y => a + (y - a) / ((s.1 + 1 : Nat) : ℚ))

/-- The average after the losses of all epochs (`loss_tracker.py:9-10,15-30`). -/
def avgLoss (l : List (Option ℚ)) : Option ℚ := (l.foldl addLoss (0, some 0)).2

end DRec.Div
