import Verif.Model.FloatFit
import Verif.Model.DmfNet
import Mathlib.Data.List.Perm.Basic

/-!
# DMF's scores in single precision (`DRecPy/Recommender/dmf.py:88-106`)

The representations are arbitrary numbers: what the two networks returned.  From there on every operation rounds to 24 binary digits.
TensorFlow does not say in which order a sum is added, nor the last digits of a reciprocal root; so the results are a relation.
Simplification: exponents are unbounded.
-/

namespace DRec.Dm

noncomputable section

/-- `tf.reduce_sum` along the last axis (`dmf.py:92-95`), in any order and grouping. -/
inductive Added : List ℝ → ℝ → Prop
  | nil : Added [] 0
  | one (x : ℝ) : Added [x] x
  | add {l r : List ℝ} {a b : ℝ} : l ≠ [] → r ≠ [] → Added l a → Added r b → Added (l ++ r) (single (a + b))
  | perm {l l' : List ℝ} {a : ℝ} : l.Perm l' → Added l a → Added l' a

/-- `tf.math.rsqrt`, of which `tf.nn.l2_normalize` makes use (`dmf.py:92-93`): at most four times the relative error of a rounded
operation. -/
def Rsqrt (s r : ℝ) : Prop := |r * Real.sqrt s - 1| ≤ 4 / 2 ^ 24

/-- `tf.math.rsqrt` (`dmf.py:92-93`) when it rounds like the other operations. -/
def RsqrtBest (s r : ℝ) : Prop := r = single (1 / Real.sqrt s)

/-- `tf.nn.l2_normalize` (`dmf.py:92-93`) with a reciprocal root `R`: `x * rsqrt(maximum(reduce_sum(square(x)), 1e-12))`. -/
def Normalised (R : ℝ → ℝ → Prop) (x y : List ℝ) : Prop :=
  ∃ s r : ℝ, Added (x.map fun a => single (a * a)) s ∧ R (max s (single (1 / 10 ^ 12))) r ∧ y = x.map fun a => single (a * r)

/-- The score of one pair (`dmf.py:92-95`) for the representations `x` and `y`. -/
def Scored (R : ℝ → ℝ → Prop) (x y : List ℝ) (v : ℝ) : Prop :=
  ∃ (x' y' : List ℝ) (d : ℝ), Normalised R x x' ∧ Normalised R y y' ∧ Added (List.zipWith (fun a b => single (a * b)) x' y') d ∧
    v = max (single (1 / 10 ^ 6)) d

/-- `_predict` (`dmf.py:101-106`) from the representations on. -/
def Predicted (R : ℝ → ℝ → Prop) (lo hi : ℝ) (x y : List ℝ) (p : ℝ) : Prop := ∃ v, Scored R x y v ∧ p = rescaleSingle lo hi v

end

end DRec.Dm
