import Mathlib.Data.Int.Log
import Mathlib.Data.Rat.Floor

/-! # Notions used in the statements about numbers of other precisions -/

namespace DRec.Spec

variable {K : Type} [Field K]

/-- A number with `q + 1` binary digits (single precision: `q = 23`). -/
def Digits (q : Nat) (x : K) : Prop := ∃ m e : Int, |m| < 2 ^ (q + 1) ∧ x = m * 2 ^ e

/-- `y` has `q + 1` binary digits, and no such number is closer to `x`. -/
def Nearest [LinearOrder K] (q : Nat) (x y : K) : Prop := Digits q y ∧ ∀ z : K, Digits q z → |y - x| ≤ |z - x|

end DRec.Spec
