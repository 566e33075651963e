import Verif.Spec.DmfNet
import Verif.Spec.DmfFloat

/-! # How far rounding may take DMF's networks -/

namespace DRec.Spec

open DRec.Dm

/-- The representation of a network whose inputs, weights and biases are replaced by their absolute values: nothing cancels. -/
noncomputable def reachOf : Nat → List Layer → (Nat → ℝ) → Nat → ℝ
  | _, [], x => fun k => |x k|
  | n, l :: ls, x => reachOf l.units ls fun k => ∑ j ∈ Finset.range n, |x j| * |l.W j k| + |l.b k|

/-- The rounded operations on the way to one number of a representation. -/
def layerSteps : Nat → List Layer → Nat
  | _, [] => 0
  | n, l :: ls => n + 1 + layerSteps l.units ls

/-- The same with the preparation of the vector. -/
def stepsOf (l2Norm : Bool) (n : Nat) (ls : List Layer) : Nat := (if l2Norm then n + 11 else 1) + layerSteps n ls

/-- The relative error of that many operations. -/
noncomputable def stepError (k : Nat) : ℝ := 65 / 64 * (k / 2 ^ 24)

/-- How much is lost by cancellation: the length of `reachOf`, divided by the length of the representation. -/
noncomputable def lossOf (n : Nat) (ls : List Layer) (x : Nat → ℝ) : ℝ :=
  Real.sqrt (∑ k ∈ Finset.range (repSize n ls), reachOf n ls x k ^ 2) / normOf (repSize n ls) (repOf n ls x)

/-- The bound for the score of a pair. -/
noncomputable def netError (m : Net) (u i : List ℚ) : ℝ :=
  scoreError (repSize m.items m.userNN) +
    2 * stepError (stepsOf m.l2Norm m.items m.userNN) * lossOf m.items m.userNN (inputOf m.l2Norm m.items u) +
    2 * stepError (stepsOf m.l2Norm m.users m.itemNN) * lossOf m.users m.itemNN (inputOf m.l2Norm m.users i)

end DRec.Spec
