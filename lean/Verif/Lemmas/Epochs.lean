import Verif.Lemmas.Descent
import Mathlib.Analysis.Calculus.ContDiff.RCLike
import Mathlib.Analysis.Calculus.ContDiff.Operations

/-! # Lemmas about several steps along a gradient -/

namespace DRec.Trn

open DRec.Spec DRec.Opt Filter Topology Asymptotics

/-- Small steps `x ↦ x - lr · d` whose directions `d` point upwards in the limit. -/
theorem steps_decrease {E : Type} [NormedAddCommGroup E] [NormedSpace ℝ E] {G : E → ℝ} {G' : E →L[ℝ] ℝ} {v : E}
    (hG : HasStrictFDerivAt G G' v) (x d : Nat → ℝ → E) (δ : Nat → E) (h0 : ∀ lr, x 0 lr = v) (hx : ∀ k lr, x (k + 1) lr = x k lr - lr • d k lr)
    (hd : ∀ k, (∀ j, j ≤ k → Tendsto (x j) (𝓝 0) (𝓝 v)) → Tendsto (d k) (𝓝 0) (𝓝 (δ k))) (hpos : ∀ k, 0 < G' (δ k)) (n : Nat) :
    ∃ ε > 0, ∀ lr, 0 < lr → lr < ε → ∀ k, k < n → G (x (k + 1) lr) < G (x k lr) := by
  have hlim : ∀ k, ∀ j, j ≤ k → Tendsto (x j) (𝓝 0) (𝓝 v) := by
    intro k
    induction k with
    | zero =>
      intro j hj
      obtain rfl : j = 0 := by omega
      exact tendsto_const_nhds.congr fun lr => (h0 lr).symm
    | succ k ih =>
      intro j hj
      rcases Nat.lt_or_ge j (k + 1) with h | h
      · exact ih j (by omega)
      · obtain rfl : j = k + 1 := by omega
        have h1 : Tendsto (fun lr => x k lr - lr • d k lr) (𝓝 0) (𝓝 (v - (0 : ℝ) • δ k)) :=
          (ih k le_rfl).sub (tendsto_id.smul (hd k ih))
        rw [zero_smul, sub_zero] at h1
        exact h1.congr fun lr => (hx k lr).symm
  have hev : ∀ k, ∀ᶠ lr in 𝓝 (0 : ℝ), 0 < lr → G (x (k + 1) lr) < G (x k lr) := by
    intro k
    have hdk := hd k (hlim k)
    have h1 : Tendsto (fun lr => G' (d k lr)) (𝓝 0) (𝓝 (G' (δ k))) := (G'.continuous.tendsto _).comp hdk
    have h2 := h1.eventually_const_lt (half_lt_self (hpos k))
    have h3 : ∀ᶠ lr in 𝓝 (0 : ℝ), ‖d k lr‖ < ‖δ k‖ + 1 := hdk.norm.eventually_lt_const (lt_add_one _)
    have hp := hpos k
    have hc : 0 < G' (δ k) / 2 / (‖δ k‖ + 1) := by positivity
    have h4 := (hG.isLittleO.comp_tendsto ((hlim (k + 1) _ le_rfl).prodMk_nhds (hlim k _ le_rfl))).def hc
    filter_upwards [h2, h3, h4] with lr h2 h3 h4 hlr
    simp only [Function.comp] at h4
    have e : x (k + 1) lr - x k lr = -(lr • d k lr) := by rw [hx]; abel
    rw [e, map_neg, map_smul, norm_neg, norm_smul, Real.norm_eq_abs, Real.norm_eq_abs, abs_of_pos hlr, smul_eq_mul] at h4
    have h5 := (abs_le.1 h4).2
    have h6 : G' (δ k) / 2 / (‖δ k‖ + 1) * (lr * ‖d k lr‖) ≤ lr * (G' (δ k) / 2) := by
      have : G' (δ k) / 2 / (‖δ k‖ + 1) * ‖d k lr‖ ≤ G' (δ k) / 2 := by
        rw [div_mul_eq_mul_div, div_le_iff₀ (by positivity)]
        exact mul_le_mul_of_nonneg_left h3.le (by positivity)
      calc _ = lr * (G' (δ k) / 2 / (‖δ k‖ + 1) * ‖d k lr‖) := by ring
        _ ≤ _ := mul_le_mul_of_nonneg_left this hlr.le
    nlinarith [mul_lt_mul_of_pos_left h2 hlr]
  have hall : ∀ᶠ lr in 𝓝 (0 : ℝ), ∀ k, k < n → 0 < lr → G (x (k + 1) lr) < G (x k lr) := by
    have := (Finset.eventually_all (Finset.range n)).2 fun k _ => hev k
    filter_upwards [this] with lr h k hk hl
    exact h k (Finset.mem_range.2 hk) hl
  obtain ⟨ε, he, h⟩ := Metric.eventually_nhds_iff.1 hall
  exact ⟨ε, he, fun lr h1 h2 k hk => h (by rw [Real.dist_eq, sub_zero, abs_of_pos h1]; exact h2) k hk h1⟩

/-- The partial derivatives near a point. -/
theorem partials_fderiv (loss : Weights → Except Err ℝ) (w : Weights) (P : Finset (Addr × Nat)) (v : P → ℝ)
    (hd : DifferentiableAt ℝ (fun v : P → ℝ => lossOr0 (loss (embed P w v))) v) (q : P) :
    partials loss (embed P w v) q.1.1 q.1.2 = fderiv ℝ (fun v : P → ℝ => lossOr0 (loss (embed P w v))) v (Pi.single q 1) := by
  set F := fun v : P → ℝ => lossOr0 (loss (embed P w v)) with hF
  have h1 : HasDerivAt (fun x : ℝ => Function.update v q x) (Pi.single q 1) (v q) := hasDerivAt_update v q (v q)
  have h2 : HasFDerivAt F (fderiv ℝ F v) (Function.update v q (v q)) := by
    rw [Function.update_eq_self]
    exact hd.hasFDerivAt
  have h3 := h2.comp_hasDerivAt (v q) h1
  have hv : embed P w v q.1.1 q.1.2 = v q := by simp [embed]
  have h4 : (F ∘ fun x : ℝ => Function.update v q x) = fun x => lossOr0 (loss (put (embed P w v) q.1.1 q.1.2 x)) := by
    funext x
    simp only [hF, Function.comp]
    congr 2
    have := embed_update P (embed P w v) q x
    rw [← this]
    funext a i
    unfold embed
    split
    · next h =>
      congr 1
      funext r
      simp
    · rfl
  rw [h4] at h3
  unfold partials
  rw [hv]
  exact h3.deriv

/-- What an optimizer stores for one number whose derivatives were `γ 0 lr`, `γ 1 lr`, ... -/
def stored {S : Type} (R : ℝ → Algo S) (t : Nat → Nat) (γ : Nat → ℝ → ℝ) (lr : ℝ) : Nat → S
  | 0 => (R lr).start
  | k + 1 => ((R lr).step (t k) (stored R t γ lr k) (γ k lr)).1

/-- The steps have the size of the learning rate, and with nearly constant derivatives they have their sign. -/
def Follows {S : Type} (R : ℝ → Algo S) : Prop :=
  ∀ t : Nat → Nat, (∀ k, 1 ≤ t k) → ∀ k : Nat, ∃ φ : ℝ → ℝ, (∀ g, g ≠ 0 → 0 < φ g * g) ∧
    ∀ γ : Nat → ℝ → ℝ, ∃ d : ℝ → ℝ, (∀ lr, ((R lr).step (t k) (stored R t γ lr k) (γ k lr)).2 = lr * d lr) ∧
      ∀ g, (∀ j, j ≤ k → Tendsto (γ j) (𝓝 0) (𝓝 g)) → Tendsto d (𝓝 0) (𝓝 (φ g))

/-- Weights that follow an optimizer. -/
theorem weights_decrease {S : Type} (R : ℝ → Algo S) (hR : Follows R) (L : Weights → Except Err ℝ) (w : Weights) (P : Finset (Addr × Nat))
    (hd : ContDiffAt ℝ 1 (fun v : P → ℝ => lossOr0 (L (embed P w v))) fun q => w q.1.1 q.1.2)
    (h0 : ∀ a i, (a, i) ∉ P → partials L w a i = 0) (hg : ∃ a i, partials L w a i ≠ 0) (t : Addr → Nat → Nat) (ht : ∀ a k, 1 ≤ t a k)
    (W : Nat → ℝ → Weights) (hW0 : ∀ lr, W 0 lr = w) (hout : ∀ k lr a i, (a, i) ∉ P → W k lr a i = w a i)
    (hW : ∀ k lr a i, (a, i) ∈ P → W (k + 1) lr a i = W k lr a i -
      ((R lr).step (t a k) (stored R (t a) (fun k lr => partials L (W k lr) a i) lr k) (partials L (W k lr) a i)).2) (n : Nat) :
    ∃ ε > 0, ∀ lr, 0 < lr → lr < ε → ∀ k, k < n → lossOr0 (L (W (k + 1) lr)) < lossOr0 (L (W k lr)) := by
  set F := fun v : P → ℝ => lossOr0 (L (embed P w v)) with hF
  set v0 : P → ℝ := fun q => w q.1.1 q.1.2 with hv0
  have hself : embed P w v0 = w := by
    funext x i
    unfold embed
    split <;> rfl
  have hemb : ∀ k lr, embed P w (fun q => W k lr q.1.1 q.1.2) = W k lr := by
    intro k lr
    funext a i
    unfold embed
    split
    · rfl
    · next h => exact (hout k lr a i h).symm
  have hgc : ContinuousAt (fun (v : P → ℝ) (q : P) => partials L (embed P w v) q.1.1 q.1.2) v0 := by
    have h1 : ContinuousAt (fun (v : P → ℝ) (q : P) => fderiv ℝ F v (Pi.single q 1)) v0 := by
      rw [continuousAt_pi]
      intro q
      exact (hd.continuousAt_fderiv one_ne_zero).clm_apply continuousAt_const
    refine h1.congr ?_
    filter_upwards [hd.eventually (by simp)] with v hv
    funext q
    exact (partials_fderiv L w P v (hv.differentiableAt one_ne_zero) q).symm
  choose φ hφ hdir using fun (q : P) (k : Nat) => hR (t q.1.1) (ht q.1.1) k
  choose d hstep hlim using fun (q : P) (k : Nat) => hdir q k fun k lr => partials L (W k lr) q.1.1 q.1.2
  have hpos : ∀ k, 0 < fderiv ℝ F v0 (fun q : P => φ q k (partials L w q.1.1 q.1.2)) := by
    intro k
    have hs : (fun q : P => φ q k (partials L w q.1.1 q.1.2)) = ∑ q : P, (φ q k (partials L w q.1.1 q.1.2)) • (Pi.single q (1 : ℝ) : P → ℝ) := by
      funext r
      simp [Finset.sum_apply, Pi.single_apply]
    rw [hs, map_sum]
    simp only [map_smul, smul_eq_mul]
    have hp := fun q => partials_fderiv L w P v0 (hd.differentiableAt one_ne_zero) q
    rw [hself] at hp
    obtain ⟨a, i, hai⟩ := hg
    have hm : (a, i) ∈ P := by
      by_contra h
      exact hai (h0 a i h)
    refine Finset.sum_pos' (fun q _ => ?_) ⟨⟨(a, i), hm⟩, Finset.mem_univ _, ?_⟩
    · rw [← hp q]
      by_cases h : partials L w q.1.1 q.1.2 = 0
      · rw [h, mul_zero]
      · exact (hφ q k _ h).le
    · rw [← hp]; exact hφ _ k _ hai
  obtain ⟨ε, he, h⟩ := steps_decrease (hd.hasStrictFDerivAt one_ne_zero) (fun k lr q => W k lr q.1.1 q.1.2) (fun k lr q => d q k lr)
    (fun k q => φ q k (partials L w q.1.1 q.1.2)) (fun lr => by rw [hW0])
    (fun k lr => by
      funext q
      simp only [Pi.sub_apply, Pi.smul_apply, smul_eq_mul]
      rw [hW k lr _ _ q.2, ← hstep q k lr])
    (fun k hk => by
      rw [tendsto_pi_nhds]
      intro q
      refine hlim q k _ fun j hj => ?_
      have h1 := ((tendsto_pi_nhds.1 (hgc.tendsto)) q).comp (hk j hj)
      simp only [Function.comp_def, hemb, hself] at h1
      exact h1) hpos n
  refine ⟨ε, he, fun lr h1 h2 k hk => ?_⟩
  have := h lr h1 h2 k hk
  simp only [hF] at this
  rw [hemb, hemb] at this
  exact this

/-- Gradient descent. -/
theorem follows_sgd : Follows sgd := by
  intro t _ k
  exact ⟨fun g => g, fun g h => mul_self_pos.2 h, fun γ => ⟨γ k, fun _ => rfl, fun g h => h k le_rfl⟩⟩

/-- Gradient descent with momentum. -/
theorem follows_momentum {mu : ℝ} (hmu : 0 ≤ mu) : Follows fun lr => momentum lr mu := by
  intro t _ k
  have key : ∀ k, ∃ c : ℝ, 0 ≤ c ∧ ∀ γ : Nat → ℝ → ℝ, ∃ u : ℝ → ℝ, (∀ lr, stored (fun lr => momentum lr mu) t γ lr k = lr * u lr) ∧
      ∀ g, (∀ j, j ≤ k → Tendsto (γ j) (𝓝 0) (𝓝 g)) → Tendsto u (𝓝 0) (𝓝 (c * g)) := by
    intro k
    induction k with
    | zero => exact ⟨0, le_rfl, fun γ => ⟨fun _ => 0, fun lr => by simp [stored, momentum], fun g _ => by simp⟩⟩
    | succ k ih =>
      obtain ⟨c, hc, h⟩ := ih
      refine ⟨mu * c + 1, by positivity, fun γ => ?_⟩
      obtain ⟨u, h1, h2⟩ := h γ
      refine ⟨fun lr => mu * u lr + γ k lr, fun lr => ?_, fun g hg => ?_⟩
      · simp only [stored, h1]
        simp only [momentum]
        ring
      · rw [show (mu * c + 1) * g = mu * (c * g) + g by ring]
        exact ((h2 g fun j hj => hg j (by omega)).const_mul mu).add (hg k (by omega))
  obtain ⟨c, hc, h⟩ := key k
  refine ⟨fun g => (mu * c + 1) * g, fun g hg => ?_, fun γ => ?_⟩
  · have := mul_self_pos.2 hg
    rw [mul_assoc]
    positivity
  · obtain ⟨u, h1, h2⟩ := h γ
    refine ⟨fun lr => mu * u lr + γ k lr, fun lr => ?_, fun g hg => ?_⟩
    · rw [h1]
      simp only [momentum]
      ring
    · beta_reduce
      rw [show (mu * c + 1) * g = mu * (c * g) + g by ring]
      exact ((h2 g hg).const_mul mu).add (hg k le_rfl)

/-- Adam. -/
theorem follows_adam : Follows adam := by
  intro t ht k
  have key : ∀ k, ∃ c e : ℝ, 0 ≤ c ∧ ∀ γ : Nat → ℝ → ℝ, ∀ g, (∀ j, j ≤ k → Tendsto (γ j) (𝓝 0) (𝓝 g)) →
      Tendsto (fun lr => (stored adam t γ lr k).1) (𝓝 0) (𝓝 (c * g)) ∧ Tendsto (fun lr => (stored adam t γ lr k).2) (𝓝 0) (𝓝 (e * g ^ 2)) := by
    intro k
    induction k with
    | zero => exact ⟨0, 0, le_rfl, fun γ g _ => by simp [stored, adam]⟩
    | succ k ih =>
      obtain ⟨c, e, hc, h⟩ := ih
      refine ⟨0.9 * c + 0.1, 0.999 * e + 0.001, by positivity, fun γ g hg => ?_⟩
      obtain ⟨h1, h2⟩ := h γ g fun j hj => hg j (by omega)
      have h3 := hg k (by omega)
      constructor
      · rw [show (0.9 * c + 0.1) * g = 0.9 * (c * g) + 0.1 * g by ring]
        exact (h1.const_mul 0.9).add (h3.const_mul 0.1)
      · rw [show (0.999 * e + 0.001) * g ^ 2 = 0.999 * (e * g ^ 2) + 0.001 * g ^ 2 by ring]
        exact (h2.const_mul 0.999).add ((h3.pow 2).const_mul 0.001)
  obtain ⟨c, e, hc, h⟩ := key k
  refine ⟨fun g => correction (t k) * ((0.9 * c + 0.1) * g) / (√((0.999 * e + 0.001) * g ^ 2) + 1e-7), fun g hg => ?_, fun γ =>
    ⟨fun lr => correction (t k) * (0.9 * (stored adam t γ lr k).1 + 0.1 * γ k lr) / (√(0.999 * (stored adam t γ lr k).2 + 0.001 * γ k lr ^ 2) + 1e-7),
      fun lr => ?_, fun g hg => ?_⟩⟩
  · have h1 : 0 < correction (t k) := correction_pos (by have := ht k; omega)
    have h2 : 0 < √((0.999 * e + 0.001) * g ^ 2) + 1e-7 := by positivity
    have h3 : 0 < g * g := mul_self_pos.2 hg
    rw [div_mul_eq_mul_div]
    refine div_pos ?_ h2
    calc (0 : ℝ) < correction (t k) * ((0.9 * c + 0.1) * (g * g)) := by positivity
      _ = _ := by ring
  · simp only [adam]
    ring
  · obtain ⟨h1, h2⟩ := h γ g hg
    have h3 := hg k le_rfl
    beta_reduce
    rw [show (0.9 * c + 0.1) * g = 0.9 * (c * g) + 0.1 * g by ring, show (0.999 * e + 0.001) * g ^ 2 = 0.999 * (e * g ^ 2) + 0.001 * g ^ 2 by ring]
    refine Tendsto.div ?_ ?_ (by positivity)
    · exact ((h1.const_mul 0.9).add (h3.const_mul 0.1)).const_mul _
    · exact (((h2.const_mul 0.999).add ((h3.pow 2).const_mul 0.001)).sqrt).add_const _

end DRec.Trn
