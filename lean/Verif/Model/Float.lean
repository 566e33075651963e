import Mathlib.Data.Int.Log
import Mathlib.Data.Rat.Floor

/-!
# Floating point numbers

Python's `float` is IEEE 754 binary64; every operation gives the double nearest to the exact result.  Simplification:
exponents are unbounded (no overflow, no subnormal numbers).
-/

namespace DRec

variable {K : Type} [Field K] [LinearOrder K] [FloorRing K]

/-- Python `round(x)`: to the nearest integer, ties to the even one (`ranking_evaluation.py:132`). -/
def roundHalfEven (x : K) : Int :=
  if x - ⌊x⌋ < 1 / 2 then ⌊x⌋
  else if 1 / 2 < x - ⌊x⌋ then ⌊x⌋ + 1
  else if ⌊x⌋ % 2 = 0 then ⌊x⌋ else ⌊x⌋ + 1

/-- `round(x, 4)` (`ranking_evaluation.py:132`). -/
def round4 (x : K) : K := (roundHalfEven (x * 10000) : K) / 10000

/-- Exponent of the last one of the 53 binary digits of a double near `x` (the products and sums of
`leave_k_out.py:102`, `random_split.py:33`, `ranking_evaluation.py:132,188,244`). -/
def lastPlace (x : K) : Int := Int.log 2 |x| - 52

/-- The double that an operation with exact result `x` returns: 53 binary digits, ties to even
(`leave_k_out.py:102`, `random_split.py:33`, `ranking_evaluation.py:132,188,244`). -/
def toFloat (x : K) : K := (roundHalfEven (x / 2 ^ lastPlace x) : K) * 2 ^ lastPlace x

/-- `int(n * ratio)`, `math.floor(n * ratio)` for a float `ratio` (`leave_k_out.py:102`, `random_split.py:33`,
`matrix_split.py:45,49`, `ranking_evaluation.py:188`). -/
def shareOf (n : Nat) (ratio : ℚ) : Nat := (toFloat (n * ratio)).floor.toNat

end DRec
