import Verif.Spec.DescentCaser
import Mathlib.Analysis.Calculus.ContDiff.Defs

/-! # What several epochs do -/

namespace DRec.Spec

open DRec.Cas DRec.Trn DRec.Opt

/-- With every small enough learning rate each of the first `n` epochs lowers the loss; `run lr k` is the state after `k` epochs. -/
def LowersEach {S : Type} (L : Weights → Except Err ℝ) (n : Nat) (run : ℝ → Nat → Except Err (St S)) : Prop :=
  ∃ ε > 0, ∀ lr, 0 < lr → lr < ε → ∀ k, k < n → ∃ s1 s2 y1 y2, run lr k = .ok s1 ∧ run lr (k + 1) = .ok s2 ∧ L s1.w = .ok y1 ∧ L s2.w = .ok y2 ∧ y2 < y1

/-- The activations even have continuous derivatives around the values of the batch. -/
structure CaserSmoothAround (m : Cas.Net) (ex : List (Nat × List Nat × List Nat)) (noise : ℝ × (Nat → Nat → ℝ)) : Prop extends CaserSmooth m ex noise where
  actC : ∀ e ∈ ex, ∀ i, i < m.cfg.L → ∀ f, f < m.cfg.nh → ∀ t, t < m.cfg.L - i → ContDiffAt ℝ 1 m.actH (beforeAct m e.2.1 (i + 1) f t)
  mlpC : ∀ p ∈ ex.zipIdx, ∀ k, k < m.cfg.d → ContDiffAt ℝ 1 m.actMlp
    (∑ i ∈ Finset.range (noisy (some noise) p.2 (feat m p.1.2.1)).length, (noisy (some noise) p.2 (feat m p.1.2.1)).getD i 0 * m.D i k + m.bd k)

end DRec.Spec
