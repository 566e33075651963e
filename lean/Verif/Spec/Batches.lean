import Verif.Model.Training

/-!
# Batches as lists of samples (C148)
-/

namespace DRec.Trn

/-- A sample of DMF: interactions of a user, interactions of an item, wanted score. -/
structure DmfRow where
  user : List ℚ
  item : List ℚ
  wanted : ℚ

/-- The samples as a batch. -/
def dmfRows (l : List DmfRow) : DmfBatch := ⟨l.map (·.user), l.map (·.item), l.map (·.wanted)⟩

/-- A sample of Caser: user, items before, items after, labels, and the random numbers of the dropout. -/
structure CaserRow where
  user : Nat
  before : List Nat
  after : List Nat
  labels : List ℝ
  drop : Nat → ℝ

/-- The samples as a batch; `rate` is the rate of the dropout. -/
def caserRows (rate : ℝ) (l : List CaserRow) : CaserBatch :=
  ⟨l.map (·.user), l.map (·.before), l.map (·.after), l.map (·.labels), (rate, fun r => ((l.map (·.drop))[r]?).getD fun _ => 0)⟩

/-- The loss of a batch is the mean of the losses of its samples, each in a batch of its own. -/
def EachEqually {α : Type} (obj : List α → Weights → Except Err ℝ) (l : List α) : Prop :=
  ∀ w, ∃ xs : List ℝ, (l.map fun s => obj [s] w) = xs.map .ok ∧ obj l w = .ok (xs.sum / xs.length)

/-- The derivative of a loss by element `i` of variable `a`. -/
noncomputable def partialAt (loss : Weights → Except Err ℝ) (w : Weights) (a : Addr) (i : Nat) : ℝ :=
  deriv (fun x => lossOr0 (loss (put w a i x))) (w a i)

/-- The loss has a derivative by element `i` of variable `a`. -/
def HasPartial (loss : Weights → Except Err ℝ) (w : Weights) (a : Addr) (i : Nat) : Prop :=
  DifferentiableAt ℝ (fun x => lossOr0 (loss (put w a i x))) (w a i)

end DRec.Trn
