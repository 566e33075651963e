import Verif.Model.Training
import Verif.Lemmas.CaserNet
import Mathlib.Analysis.Calculus.FDeriv.Defs
import Mathlib.Analysis.Normed.Module.Basic

/-! # Where the loss of Caser has a derivative -/

namespace DRec.Spec

open DRec.Cas

/-- What goes into the activation of horizontal filter `f` of height `h` at position `t`. -/
noncomputable def beforeAct (m : Cas.Net) (seq : List Nat) (h f t : Nat) : ℝ :=
  ∑ j ∈ Finset.range h, ∑ c ∈ Finset.range m.cfg.d, m.E (seq.getD (t + j) 0) c * m.Kh (h - 1) j c f + m.bh (h - 1) f

/-- The activations have derivatives at the values of the batch, pooling has one largest value (or all values are constant nearby), and no
score is exactly at a clipping bound. -/
structure CaserSmooth (m : Cas.Net) (ex : List (Nat × List Nat × List Nat)) (noise : ℝ × (Nat → Nat → ℝ)) : Prop where
  act : ∀ e ∈ ex, ∀ i, i < m.cfg.L → ∀ f, f < m.cfg.nh → ∀ t, t < m.cfg.L - i → DifferentiableAt ℝ m.actH (beforeAct m e.2.1 (i + 1) f t)
  pool : ∀ e ∈ ex, ∀ i, i < m.cfg.L → ∀ f, f < m.cfg.nh →
    (∃ t0, t0 < m.cfg.L - i ∧ ∀ t, t < m.cfg.L - i → t ≠ t0 → horizontalAt m e.2.1 (i + 1) f t < horizontalAt m e.2.1 (i + 1) f t0) ∨
    ∃ c, ∀ t, t < m.cfg.L - i → m.actH =ᶠ[nhds (beforeAct m e.2.1 (i + 1) f t)] fun _ => c
  mlp : ∀ p ∈ ex.zipIdx, ∀ k, k < m.cfg.d → DifferentiableAt ℝ m.actMlp
    (∑ i ∈ Finset.range (noisy (some noise) p.2 (feat m p.1.2.1)).length, (noisy (some noise) p.2 (feat m p.1.2.1)).getD i 0 * m.D i k + m.bd k)
  clip : ∀ p ∈ ex.zipIdx, ∀ i ∈ p.1.2.2, caserScore m (noisy (some noise) p.2 (feat m p.1.2.1)) p.1.1 i ≠ kEps ∧
    caserScore m (noisy (some noise) p.2 (feat m p.1.2.1)) p.1.1 i ≠ 1 - kEps

end DRec.Spec
