import Verif.Lemmas.Untouched
import Mathlib.Analysis.Calculus.Deriv.Pi
import Mathlib.Analysis.Calculus.Deriv.Prod
import Mathlib.Analysis.Calculus.FDeriv.Pi
import Mathlib.Analysis.Calculus.Deriv.Comp
import Mathlib.Analysis.Calculus.Deriv.Slope
import Mathlib.Analysis.SpecialFunctions.ExpDeriv
import Mathlib.Analysis.SpecialFunctions.Log.Deriv

/-! # Lemmas about steps along a gradient -/

namespace DRec.Trn

open DRec.Spec DRec.Opt

/-- Weights whose elements in `P` are given by `v`. -/
noncomputable def embed (P : Finset (Addr × Nat)) (w : Weights) (v : P → ℝ) : Weights := fun a i => if h : (a, i) ∈ P then v ⟨(a, i), h⟩ else w a i

/-- The partial derivatives. -/
noncomputable def partials (loss : Weights → Except Err ℝ) (w : Weights) : Weights := fun a i => deriv (fun x => lossOr0 (loss (put w a i x))) (w a i)

theorem embed_update (P : Finset (Addr × Nat)) (w : Weights) (p : P) (x : ℝ) :
    embed P w (Function.update (fun q : P => w q.1.1 q.1.2) p x) = put w p.1.1 p.1.2 x := by
  funext a i
  unfold embed put
  split
  · next h =>
    by_cases hp : a = p.1.1 ∧ i = p.1.2
    · rw [if_pos hp]
      have : (⟨(a, i), h⟩ : P) = p := Subtype.ext (Prod.ext hp.1 hp.2)
      rw [this, Function.update_self]
    · rw [if_neg hp, Function.update_of_ne]
      intro he
      exact hp ⟨congrArg (fun q : P => q.1.1) he, congrArg (fun q : P => q.1.2) he⟩
  · next h =>
    rw [if_neg]
    rintro ⟨rfl, rfl⟩
    exact h p.2

theorem line_deriv (loss : Weights → Except Err ℝ) (w : Weights) (P : Finset (Addr × Nat))
    (hd : DifferentiableAt ℝ (fun v : P → ℝ => lossOr0 (loss (embed P w v))) fun q => w q.1.1 q.1.2)
    (d : Weights) (h0 : ∀ a i, (a, i) ∉ P → d a i = 0) :
    HasDerivAt (fun t : ℝ => lossOr0 (loss fun a i => w a i - t * d a i)) (-∑ p ∈ P, d p.1 p.2 * partials loss w p.1 p.2) 0 := by
  set F := fun v : P → ℝ => lossOr0 (loss (embed P w v)) with hF
  set v0 : P → ℝ := fun q => w q.1.1 q.1.2 with hv0
  have hc : HasDerivAt (fun t : ℝ => fun q : P => v0 q - t * d q.1.1 q.1.2) (fun q : P => -d q.1.1 q.1.2) 0 := by
    rw [hasDerivAt_pi]
    intro q
    have := ((hasDerivAt_id (0 : ℝ)).mul_const (d q.1.1 q.1.2)).const_sub (v0 q)
    simpa using this
  have hd' : HasFDerivAt F (fderiv ℝ F v0) ((fun t : ℝ => fun q : P => v0 q - t * d q.1.1 q.1.2) 0) := by
    have : ((fun t : ℝ => fun q : P => v0 q - t * d q.1.1 q.1.2) 0) = v0 := by funext q; simp
    rw [this]
    exact hd.hasFDerivAt
  have key := hd'.comp_hasDerivAt (0 : ℝ) hc
  have e1 : (F ∘ fun t : ℝ => fun q : P => v0 q - t * d q.1.1 q.1.2) = fun t : ℝ => lossOr0 (loss fun a i => w a i - t * d a i) := by
    funext t
    simp only [hF, Function.comp]
    congr 2
    funext a i
    unfold embed
    split
    · rfl
    · next h => rw [h0 a i h]; simp
  have e2 : (fderiv ℝ F v0) (fun q : P => -d q.1.1 q.1.2) = -∑ p ∈ P, d p.1 p.2 * partials loss w p.1 p.2 := by
    have hp : ∀ q : P, (fderiv ℝ F v0) (Pi.single q 1) = partials loss w q.1.1 q.1.2 := by
      intro q
      have h1 : HasDerivAt (fun x : ℝ => Function.update v0 q x) (Pi.single q 1) (v0 q) := hasDerivAt_update v0 q (v0 q)
      have h2 : HasFDerivAt F (fderiv ℝ F v0) (Function.update v0 q (v0 q)) := by
        rw [Function.update_eq_self]
        exact hd.hasFDerivAt
      have h3 := h2.comp_hasDerivAt (v0 q) h1
      have h4 : (F ∘ fun x : ℝ => Function.update v0 q x) = fun x => lossOr0 (loss (put w q.1.1 q.1.2 x)) := by
        funext x
        simp only [hF, Function.comp]
        rw [hv0, embed_update]
      rw [h4] at h3
      exact h3.deriv.symm
    have hs : (fun q : P => -d q.1.1 q.1.2) = ∑ q : P, (-d q.1.1 q.1.2) • (Pi.single q (1 : ℝ) : P → ℝ) := by
      funext r
      simp [Finset.sum_apply, Pi.single_apply]
    rw [hs, map_sum]
    simp only [map_smul, hp, smul_eq_mul]
    rw [← Finset.sum_coe_sort P (fun p => d p.1 p.2 * partials loss w p.1 p.2), ← Finset.sum_neg_distrib]
    exact Finset.sum_congr rfl fun q _ => by ring
  rw [e1, e2] at key
  exact key

/-- A function with a negative derivative at 0 decreases at first. -/
theorem decreases {f : ℝ → ℝ} {c : ℝ} (h : HasDerivAt f c 0) (hc : c < 0) : ∃ ε > 0, ∀ t, 0 < t → t < ε → f t < f 0 := by
  rw [hasDerivAt_iff_tendsto_slope] at h
  have h1 := h.eventually_lt_const hc
  rw [eventually_nhdsWithin_iff, Metric.eventually_nhds_iff] at h1
  obtain ⟨ε, he, h2⟩ := h1
  refine ⟨ε, he, fun t h3 h4 => ?_⟩
  have h5 := h2 (show dist t 0 < ε by rw [Real.dist_eq, sub_zero, abs_of_pos h3]; exact h4) (by simpa using h3.ne')
  rw [slope_def_field, sub_zero, div_lt_iff₀ h3, zero_mul] at h5
  linarith

end DRec.Trn
