import Verif.Model.Float
import Verif.Model.Recommender
import Verif.Model.Fit

/-!
# Standardised values, rescaled predictions and the mean loss in floating point

Python numbers are doubles (53 binary digits), the tensors of TensorFlow single precision numbers (24 digits); a Python
number in an operation with a tensor is converted first.  Simplification: exponents are unbounded.
-/

namespace DRec

variable {K : Type} [Field K] [LinearOrder K] [FloorRing K]

/-- Exponent of the last one of the `q + 1` binary digits of a number near `x`
(the operations of `recommender_abc.py:463-469`, `loss_tracker.py:22`). -/
def lastDigit (q : Nat) (x : K) : Int := Int.log 2 |x| - q

/-- Rounding to `q + 1` binary digits, ties to even (the operations of `recommender_abc.py:463-469`, `loss_tracker.py:22`). -/
def roundTo (q : Nat) (x : K) : K := (roundHalfEven (x / 2 ^ lastDigit q x) : K) * 2 ^ lastDigit q x

/-- What an operation on `tf.float32` tensors returns for the exact result `x` (`dmf.py:82-83`, `106`). -/
def single (x : K) : K := roundTo 23 x

/-- `_standardize_value` (`recommender_abc.py:463-465`) with doubles.  Simplification as in `standardize`: division by
zero is an error. -/
def standardizeFloat (lo hi x : ℚ) : Except Err ℚ :=
  if toFloat (hi - lo) = 0 then .error .zeroDiv else .ok (toFloat (toFloat (x - lo) / toFloat (hi - lo)))

/-- `_rescale_value` (`recommender_abc.py:467-469`) of a tensor (`dmf.py:106`). -/
def rescaleSingle (lo hi v : K) : K := single (single lo + single (single (toFloat (hi - lo)) * v))

/-- `add_epoch_loss` (`loss_tracker.py:15-22`) with numbers of `q + 1` binary digits: the epoch loss is a tensor of single
precision (`recommender_abc.py:200-209`).  The state is the number of losses and the average. -/
def addLossTo (q : Nat) (s : Nat × ℚ) (x : ℚ) : Nat × ℚ :=
  (s.1 + 1, roundTo q (s.2 + roundTo q (roundTo q (x - s.2) / ((s.1 + 1 : Nat) : ℚ))))

/-- `curr_avg_epoch_loss` after the losses of some epochs (`loss_tracker.py:9-22`). -/
def meanLossTo (q : Nat) (losses : List ℚ) : ℚ := (losses.foldl (addLossTo q) (0, 0)).2

end DRec
