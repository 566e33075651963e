import Verif.Model.Training

/-!
# The recommender of `examples/custom_deep_recommender.py`

One variable with two numbers; the score of a pair is computed from the internal ids themselves.
-/

namespace DRec.Trn

noncomputable section

/-- `_predict` (`examples/custom_deep_recommender.py:43-45`); the variable is stored under the address `a`. -/
def customScore (a : Nat) (w : Weights) (u i : Nat) : ℝ := sigmoid (u * w a 0 + i * w a 1)

/-- The registered variable (`examples/custom_deep_recommender.py:15-16`). -/
def customNet (a : Nat) : Net := ⟨[a], [], []⟩

/-- Loss of a batch (`examples/custom_deep_recommender.py:24-41`, `recommender_abc.py:191-201`).  Every prediction is a matrix of one row and
one column, so the predictions have shape (B, 1, 1) and the desired values (B,).  Tensorflow broadcasts them to (B, 1, B): every prediction meets
every desired value. -/
def customObjective (rate : ℝ) (a : Nat) (batch : List (Nat × Nat × ℝ)) (w : Weights) : Except Err ℝ :=
  .ok (cdaeLoss bce (batch.map fun s => [customScore a w s.1 s.2.1]) (batch.map fun s => [s.2.2]) +
    cdaeReg rate batch.length [elements w a 2])

end

end DRec.Trn
