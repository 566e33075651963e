import Verif.Model.Training

/-! # What training should do with weights that the batches do not use -/

namespace DRec.Spec

open DRec.Trn DRec.Opt

/-- Apart from a regularization term `c · x²` the loss does not depend on element `i` of variable `a`. -/
def Outside (c : ℝ) (loss : Weights → Except Err ℝ) (a : Addr) (i : Nat) : Prop :=
  ∀ w x, loss (put w a i x) = (loss w).map fun y => y + c * (x ^ 2 - w a i ^ 2)

/-- The optimizer leaves a number alone as long as all its derivatives are 0. -/
def Still {S : Type} (R : Algo S) : Prop := ∀ t, R.step t R.start 0 = (R.start, 0)

end DRec.Spec
