import Verif.Model.Evaluation
import Verif.Model.Fit

/-!
# Validation while training (`examples/cdae_validation.py`, `DRecPy/Evaluation/Processes/ranking_evaluation.py:132-133`)

The callback of `fit` evaluates the model on a validation set and returns the results under names with a prefix.
-/

namespace DRec

/-- The key of a result, `m + f'@{k}'` (`ranking_evaluation.py:132`). -/
def resultName (key : String × Nat) : MName := key.1.toList ++ '@' :: Nat.toDigits 10 key.2

/-- What the callback returns (`examples/cdae_validation.py:18-22`): every key with a prefix (`'val_'` there) in front. -/
def validation (pre : MName) (rs : List ((String × Nat) × ℚ)) : Results := rs.map fun p => (pre ++ resultName p.1, p.2)

end DRec
