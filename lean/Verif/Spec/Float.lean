import Mathlib.Data.Int.Log
import Mathlib.Data.Rat.Floor

/-! # Notions used in the statements about floating point numbers -/

namespace DRec.Spec

variable {K : Type} [Field K]

/-- A number with 53 binary digits. -/
def IsDouble (x : K) : Prop := ∃ m e : Int, |m| < 2 ^ 53 ∧ x = m * 2 ^ e

/-- `y` is a double, and none is closer to `x`. -/
def NearestDouble [LinearOrder K] (x y : K) : Prop := IsDouble y ∧ ∀ z : K, IsDouble z → |y - x| ≤ |z - x|

end DRec.Spec
