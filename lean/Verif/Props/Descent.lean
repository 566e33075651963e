import Verif.Lemmas.DescentCdae
import Verif.Props.Untouched
import Verif.Props.Cdae

/-!
# C145: training makes progress

One epoch with a small enough learning rate lowers the loss of its batch, unless all derivatives are 0.
-/

namespace DRec.Trn

open DRec.Spec DRec.Opt

variable {S : Type}

/-! ## Any model -/

/-- One epoch. -/
theorem one_epoch (R : Algo S) (net : DRec.Net) (hn : net.all.Nodup) (L : Weights → Except Err ℝ) (s : St S) {y : ℝ} (hy : L s.w = .ok y) :
    ∃ s', fitEpochs R net (fun _ => L) 1 s = .ok s' ∧ ∀ a i, s'.w a i = if a ∈ net.all then
      s.w a i - (R.step (s.iterations + place net a) (s.slots a i) (partials L s.w a i)).2 else s.w a i := by
  have h1 : fitEpochs R net (fun _ => L) 1 s = updateWeights R net (gradient L s.w) s := by
    rw [show (1 : Nat) = 0 + 1 from rfl, fitEpochs_succ]
    simp only [fitEpochs, List.range'_zero, chain, hy]
  obtain ⟨s', hs⟩ : ∃ s', updateWeights R net (gradient L s.w) s = .ok s' := by
    rw [C142_raises]
    unfold updateAll updateMany
    rw [if_pos (by simp [gradient]), if_pos]
    rw [List.all_eq_true]
    intro ws _
    rw [if_pos]
    · rfl
    · cases ws with
      | nil => simp
      | cons a l => right; simp [gradient]
  refine ⟨s', h1.trans hs, fun a i => ?_⟩
  rw [updateWeights_ok] at hs
  obtain ⟨c1, -, -⟩ := chain_groups R _ (groups net) s s' (fun _ => groups_nonempty) (by rw [groups_flatten]; exact hn) hs
  have := congrFun (congrFun c1 a) i
  rw [groups_flatten] at this
  rw [this]
  rfl

/-- Steps `lr · D a g` that point the way of the derivative `g`, for a loss that is differentiable in the finitely many elements `P` and
depends on nothing else. -/
theorem descent (R : ℝ → Algo S) (net : DRec.Net) (hn : net.all.Nodup) (L : Weights → Except Err ℝ) (s : ℝ → St S) (w : Weights)
    (hw : ∀ lr, (s lr).w = w) (hL : ∀ w', ∃ y, L w' = .ok y) (P : Finset (Addr × Nat)) (hP : ∀ p ∈ P, p.1 ∈ net.all)
    (hd : DifferentiableAt ℝ (fun v : P → ℝ => lossOr0 (L (embed P w v))) fun q => w q.1.1 q.1.2)
    (h0 : ∀ a i, (a, i) ∉ P → partials L w a i = 0) (D : Addr → ℝ → ℝ) (hD0 : ∀ a, D a 0 = 0) (hD : ∀ a ∈ net.all, ∀ g, g ≠ 0 → 0 < D a g * g)
    (hR : ∀ lr, ∀ a ∈ net.all, ∀ i g, ((R lr).step ((s lr).iterations + place net a) ((s lr).slots a i) g).2 = lr * D a g)
    (hg : ∃ a i, partials L w a i ≠ 0) :
    ∃ ε > 0, ∀ lr, 0 < lr → lr < ε → ∃ s' y y', fitEpochs (R lr) net (fun _ => L) 1 (s lr) = .ok s' ∧ L w = .ok y ∧ L s'.w = .ok y' ∧ y' < y := by
  have key := line_deriv L w P hd (fun a i => D a (partials L w a i)) (fun a i h => by rw [h0 a i h, hD0])
  have hpos : 0 < ∑ p ∈ P, D p.1 (partials L w p.1 p.2) * partials L w p.1 p.2 := by
    obtain ⟨a, i, hai⟩ := hg
    have hm : (a, i) ∈ P := by
      by_contra h
      exact hai (h0 a i h)
    refine Finset.sum_pos' (fun p hp => ?_) ⟨(a, i), hm, hD a (hP _ hm) _ hai⟩
    by_cases h : partials L w p.1 p.2 = 0
    · rw [h, mul_zero]
    · exact (hD p.1 (hP p hp) _ h).le
  obtain ⟨ε, he, h1⟩ := decreases key (neg_lt_zero.2 hpos)
  refine ⟨ε, he, fun lr h2 h3 => ?_⟩
  obtain ⟨y, hy⟩ := hL w
  obtain ⟨s', h4, h5⟩ := one_epoch (R lr) net hn L (s lr) (y := y) (by rw [hw]; exact hy)
  have h6 : s'.w = fun a i => w a i - lr * D a (partials L w a i) := by
    funext a i
    rw [h5 a i, hw]
    split
    · next ha => rw [hR lr a ha]
    · next ha =>
      rw [h0 a i fun h => ha (hP _ h), hD0]
      simp
  obtain ⟨y', hy'⟩ := hL s'.w
  refine ⟨s', y, y', h4, hy, hy', ?_⟩
  have h7 := h1 lr h2 h3
  rw [← h6, hy'] at h7
  simpa [hy, lossOr0] using h7

/-! ## CDAE -/

/-- The numbers that CDAE trains. -/
def cdaeElements (users items hidden a : Nat) : Finset (Addr × Nat) :=
  (Finset.range (items * hidden)).image (fun i => (a, i)) ∪ (Finset.range (hidden * items)).image (fun i => (a + 1, i)) ∪
    (Finset.range (users * hidden)).image (fun i => (a + 2, i)) ∪ (Finset.range hidden).image (fun i => (a + 3, i)) ∪
    (Finset.range items).image (fun i => (a + 4, i))

theorem mem_cdaeElements {users items hidden a : Nat} {x : Addr} {i : Nat} : (x, i) ∈ cdaeElements users items hidden a ↔
    (x = a ∧ i < items * hidden) ∨ (x = a + 1 ∧ i < hidden * items) ∨ (x = a + 2 ∧ i < users * hidden) ∨ (x = a + 3 ∧ i < hidden) ∨
    (x = a + 4 ∧ i < items) := by
  simp only [cdaeElements, Finset.mem_union, Finset.mem_image, Finset.mem_range, Prod.mk.injEq]
  constructor
  · rintro ((((⟨j, h, rfl, rfl⟩ | ⟨j, h, rfl, rfl⟩) | ⟨j, h, rfl, rfl⟩) | ⟨j, h, rfl, rfl⟩) | ⟨j, h, rfl, rfl⟩) <;> simp [h]
  · rintro (⟨rfl, h⟩ | ⟨rfl, h⟩ | ⟨rfl, h⟩ | ⟨rfl, h⟩ | ⟨rfl, h⟩) <;> simp [h]

theorem cdae_agree (f : ℝ → ℝ → ℝ) (rate : ℝ) {users items hidden a : Nat} {batch : List CdaeSample}
    (hb : ∀ s ∈ batch, s.uid < users ∧ s.input.length = items) {w w' : Weights}
    (h : ∀ x i, (x, i) ∈ cdaeElements users items hidden a → w' x i = w x i) :
    cdaeFormula f rate users items hidden a batch w' = cdaeFormula f rate users items hidden a batch w := by
  have hH : ∀ s ∈ batch, ∀ k, k < hidden → cdaeHidden hidden a s w' k = cdaeHidden hidden a s w k := by
    intro s hs k hk
    unfold cdaeHidden
    have h1 : (s.input.zipIdx.map fun p => p.1 * w' a (p.2 * hidden + k)) = s.input.zipIdx.map fun p => p.1 * w a (p.2 * hidden + k) := by
      refine List.map_congr_left fun p hp => ?_
      have hl := List.snd_lt_of_mem_zipIdx hp
      rw [Nat.add_zero, (hb s hs).2] at hl
      rw [h a _ (mem_cdaeElements.2 (Or.inl ⟨rfl, row_lt hl hk⟩))]
    rw [h1, h (a + 2) _ (mem_cdaeElements.2 (Or.inr (Or.inr (Or.inl ⟨rfl, row_lt (hb s hs).1 hk⟩)))),
      h (a + 3) _ (mem_cdaeElements.2 (Or.inr (Or.inr (Or.inr (Or.inl ⟨rfl, hk⟩)))))]
  have hP : ∀ s ∈ batch, ∀ j, j < items → cdaePred items hidden a s w' j = cdaePred items hidden a s w j := by
    intro s hs j hj
    unfold cdaePred
    have h1 : ((List.range hidden).map fun k => cdaeHidden hidden a s w' k * w' (a + 1) (k * items + j)) =
        (List.range hidden).map fun k => cdaeHidden hidden a s w k * w (a + 1) (k * items + j) := by
      refine List.map_congr_left fun k hk => ?_
      have hk := List.mem_range.1 hk
      rw [hH s hs k hk, h (a + 1) _ (mem_cdaeElements.2 (Or.inr (Or.inl ⟨rfl, row_lt hk hj⟩)))]
    rw [h1, h (a + 4) _ (mem_cdaeElements.2 (Or.inr (Or.inr (Or.inr (Or.inr ⟨rfl, hj⟩)))))]
  have sq : ∀ x n, (∀ i, i < n → w' x i = w x i) → ((List.range n).map fun i => w' x i ^ 2) = (List.range n).map fun i => w x i ^ 2 := by
    intro x n hh
    refine List.map_congr_left fun i hi => ?_
    rw [hh i (List.mem_range.1 hi)]
  unfold cdaeFormula
  rw [sq a _ fun i hi => h a i (mem_cdaeElements.2 (Or.inl ⟨rfl, hi⟩)), sq (a + 1) _ fun i hi => h _ i (mem_cdaeElements.2 (Or.inr (Or.inl ⟨rfl, hi⟩))),
    sq (a + 2) _ fun i hi => h _ i (mem_cdaeElements.2 (Or.inr (Or.inr (Or.inl ⟨rfl, hi⟩))))]
  congr 3
  refine List.map_congr_left fun s hs => congrArg List.sum (List.map_congr_left fun d _ => ?_)
  congr 2
  refine List.map_congr_left fun p hp => ?_
  rw [hP s hs p.2 (List.mem_range.1 (List.of_mem_zip hp).2)]

/-- The loss between a desired and a predicted number has a derivative at all predictions of the batch. -/
def SmoothAt (f : ℝ → ℝ → ℝ) (m : Cdae) (batch : List CdaeSample) : Prop :=
  ∀ s ∈ batch, ∀ ps, m.reconstruct s.uid s.input = .ok ps → ∀ p ∈ ps, ∀ t ∈ batch, ∀ d ∈ t.wanted, DifferentiableAt ℝ (f d) p

theorem cdae_descent (R : ℝ → Algo S) (s : ℝ → St S) (w : Weights) (hw : ∀ lr, (s lr).w = w) (f : ℝ → ℝ → ℝ) (rate : ℝ) (users items hidden a : Nat)
    (batch : List CdaeSample) {y0 : ℝ} (hy : cdaeObjective f rate users items hidden a batch w = .ok y0)
    (hf : SmoothAt f (cdaeOf users items hidden a w) batch) (D : Addr → ℝ → ℝ) (hD0 : ∀ x, D x 0 = 0)
    (hD : ∀ x ∈ (cdaeNet a).all, ∀ g, g ≠ 0 → 0 < D x g * g)
    (hR : ∀ lr, ∀ x ∈ (cdaeNet a).all, ∀ i g, ((R lr).step ((s lr).iterations + place (cdaeNet a) x) ((s lr).slots x i) g).2 = lr * D x g)
    (hg : ∃ x i, deriv (fun v => lossOr0 (cdaeObjective f rate users items hidden a batch (put w x i v))) (w x i) ≠ 0) :
    ∃ ε > 0, ∀ lr, 0 < lr → lr < ε → ∃ s' y y', fitEpochs (R lr) (cdaeNet a) (fun _ => cdaeObjective f rate users items hidden a batch) 1 (s lr) = .ok s' ∧
      cdaeObjective f rate users items hidden a batch w = .ok y ∧ cdaeObjective f rate users items hidden a batch s'.w = .ok y' ∧ y' < y := by
  have hb := cdae_valid hy
  have hform := cdae_formula (hidden := hidden) (a := a) f rate hb
  refine descent R (cdaeNet a) (cdae_nodup a) _ s w hw (fun w' => ⟨_, hform w'⟩) (cdaeElements users items hidden a) ?_ ?_ ?_ D hD0 hD hR hg
  · rintro ⟨x, i⟩ hp
    rcases mem_cdaeElements.1 hp with ⟨rfl, -⟩ | ⟨rfl, -⟩ | ⟨rfl, -⟩ | ⟨rfl, -⟩ | ⟨rfl, -⟩
    · exact cdae_mem x 0 (by omega)
    · exact cdae_mem a 1 (by omega)
    · exact cdae_mem a 2 (by omega)
    · exact cdae_mem a 3 (by omega)
    · exact cdae_mem a 4 (by omega)
  · have he : (fun v : cdaeElements users items hidden a → ℝ => lossOr0 (cdaeObjective f rate users items hidden a batch
        (embed (cdaeElements users items hidden a) w v))) =
        fun v => cdaeFormula f rate users items hidden a batch (embed (cdaeElements users items hidden a) w v) := by
      funext v
      rw [hform]
      rfl
    rw [he]
    have hself : embed (cdaeElements users items hidden a) w (fun q => w q.1.1 q.1.2) = w := by
      funext x i
      unfold embed
      split <;> rfl
    refine cdae_diff f rate _ _ (fun x i => ?_) (fun s hs j hj t ht d hd => ?_)
    · unfold embed
      split
      · exact differentiableAt_apply _ _
      · exact differentiableAt_const _
    · rw [hself]
      exact hf s hs _ (reconstruct_pred s (hb s hs).1 (hb s hs).2 w) _ (List.mem_map.2 ⟨j, List.mem_range.2 hj, rfl⟩) t ht d hd
  · intro x i hx
    unfold partials
    have : (fun v => lossOr0 (cdaeObjective f rate users items hidden a batch (put w x i v))) =
        fun _ => cdaeFormula f rate users items hidden a batch w := by
      funext v
      rw [hform]
      refine cdae_agree f rate hb fun z j hz => if_neg ?_
      rintro ⟨rfl, rfl⟩
      exact hx hz
    rw [this, deriv_const]

/-! ## The property -/

/-- **C145** (any model): wherever the loss is differentiable in the numbers that it depends on, and these belong to registered variables, an
epoch of gradient descent with a small enough learning rate lowers it, unless all derivatives are 0. -/
theorem C145_any (net : DRec.Net) (hn : net.all.Nodup) (L : Weights → Except Err ℝ) (s : St Unit) (hL : ∀ w, ∃ y, L w = .ok y)
    (P : Finset (Addr × Nat)) (hP : ∀ p ∈ P, p.1 ∈ net.all) (hdep : ∀ w w', (∀ p ∈ P, w' p.1 p.2 = w p.1 p.2) → L w' = L w)
    (hd : DifferentiableAt ℝ (fun v : P → ℝ => lossOr0 (L fun a i => if h : (a, i) ∈ P then v ⟨(a, i), h⟩ else s.w a i)) fun q => s.w q.1.1 q.1.2)
    (hg : ∃ a i, deriv (fun v => lossOr0 (L (put s.w a i v))) (s.w a i) ≠ 0) :
    ∃ ε > 0, ∀ lr, 0 < lr → lr < ε → ∃ s' y y', fitEpochs (sgd lr) net (fun _ => L) 1 s = .ok s' ∧ L s.w = .ok y ∧ L s'.w = .ok y' ∧ y' < y := by
  refine descent sgd net hn L (fun _ => s) s.w (fun _ => rfl) hL P hP hd (fun a i h => ?_) (fun _ g => g) (fun _ => rfl)
    (fun _ _ g h => mul_self_pos.2 h) (fun _ _ _ _ _ => rfl) hg
  unfold partials
  have : (fun v => lossOr0 (L (put s.w a i v))) = fun _ => lossOr0 (L s.w) := by
    funext v
    refine congrArg lossOr0 (hdep s.w _ fun p hp => if_neg ?_)
    rintro ⟨h1, h2⟩
    exact h (by rw [← h1, ← h2]; exact hp)
  rw [this, deriv_const]

/-- **C145** (CDAE, gradient descent): from every state, an epoch with a small enough learning rate lowers the loss of its batch, unless all
derivatives are 0. -/
theorem C145_sgd (f : ℝ → ℝ → ℝ) (rate : ℝ) (users items hidden a : Nat) (batch : List CdaeSample) (s : St Unit) (y : ℝ)
    (hy : cdaeObjective f rate users items hidden a batch s.w = .ok y) (hf : SmoothAt f (cdaeOf users items hidden a s.w) batch)
    (hg : ∃ x i, deriv (fun v => lossOr0 (cdaeObjective f rate users items hidden a batch (put s.w x i v))) (s.w x i) ≠ 0) :
    ∃ ε > 0, ∀ lr, 0 < lr → lr < ε → ∃ s' y', fitEpochs (sgd lr) (cdaeNet a) (fun _ => cdaeObjective f rate users items hidden a batch) 1 s = .ok s' ∧
      cdaeObjective f rate users items hidden a batch s'.w = .ok y' ∧ y' < y := by
  obtain ⟨ε, he, h⟩ := cdae_descent sgd (fun _ => s) s.w (fun _ => rfl) f rate users items hidden a batch hy hf (fun _ g => g) (fun _ => rfl)
    (fun _ _ g h => mul_self_pos.2 h) (fun _ _ _ _ _ => rfl) hg
  refine ⟨ε, he, fun lr h1 h2 => ?_⟩
  obtain ⟨s', y1, y', h3, h4, h5, h6⟩ := h lr h1 h2
  rw [hy] at h4
  cases h4
  exact ⟨s', y', h3, h5, h6⟩

/-- **C145** (CDAE, momentum): the first epoch with a new optimizer. -/
theorem C145_momentum (mu : ℝ) (f : ℝ → ℝ → ℝ) (rate : ℝ) (users items hidden a : Nat) (batch : List CdaeSample) (w : Weights) (y : ℝ)
    (hy : cdaeObjective f rate users items hidden a batch w = .ok y) (hf : SmoothAt f (cdaeOf users items hidden a w) batch)
    (hg : ∃ x i, deriv (fun v => lossOr0 (cdaeObjective f rate users items hidden a batch (put w x i v))) (w x i) ≠ 0) :
    ∃ ε > 0, ∀ lr, 0 < lr → lr < ε → ∃ s' y',
      fitEpochs (momentum lr mu) (cdaeNet a) (fun _ => cdaeObjective f rate users items hidden a batch) 1 (St.init (momentum lr mu) w) = .ok s' ∧
      cdaeObjective f rate users items hidden a batch s'.w = .ok y' ∧ y' < y := by
  obtain ⟨ε, he, h⟩ := cdae_descent (fun lr => momentum lr mu) (fun lr => St.init (momentum lr mu) w) w (fun _ => rfl) f rate users items hidden a
    batch hy hf (fun _ g => g) (fun _ => rfl) (fun _ _ g h => mul_self_pos.2 h) (fun _ _ _ _ _ => by simp [momentum, St.init]) hg
  refine ⟨ε, he, fun lr h1 h2 => ?_⟩
  obtain ⟨s', y1, y', h3, h4, h5, h6⟩ := h lr h1 h2
  rw [hy] at h4
  cases h4
  exact ⟨s', y', h3, h5, h6⟩

/-- **C145** (CDAE, Adam): the first epoch with a new optimizer, as `fit` creates it. -/
theorem C145_adam (f : ℝ → ℝ → ℝ) (rate : ℝ) (users items hidden a : Nat) (batch : List CdaeSample) (w : Weights) (y : ℝ)
    (hy : cdaeObjective f rate users items hidden a batch w = .ok y) (hf : SmoothAt f (cdaeOf users items hidden a w) batch)
    (hg : ∃ x i, deriv (fun v => lossOr0 (cdaeObjective f rate users items hidden a batch (put w x i v))) (w x i) ≠ 0) :
    ∃ ε > 0, ∀ lr, 0 < lr → lr < ε → ∃ s' y',
      fitEpochs (adam lr) (cdaeNet a) (fun _ => cdaeObjective f rate users items hidden a batch) 1 (St.init (adam lr) w) = .ok s' ∧
      cdaeObjective f rate users items hidden a batch s'.w = .ok y' ∧ y' < y := by
  obtain ⟨ε, he, h⟩ := cdae_descent adam (fun lr => St.init (adam lr) w) w (fun _ => rfl) f rate users items hidden a
    batch hy hf (fun x g => correction (place (cdaeNet a) x) * (0.1 * g) / (√(0.001 * g ^ 2) + 1e-7)) (fun _ => by simp)
    (fun x hx g h => by
      have h1 : 0 < correction (place (cdaeNet a) x) := correction_pos (by unfold place; omega)
      have h2 : 0 < √(0.001 * g ^ 2) + 1e-7 := by positivity
      have h3 : 0 < g * g := mul_self_pos.2 h
      rw [div_mul_eq_mul_div]
      refine div_pos ?_ h2
      calc (0 : ℝ) < correction (place (cdaeNet a) x) * (0.1 * (g * g)) := by positivity
        _ = _ := by ring)
    (fun lr x _ i g => by
      simp only [adam, St.init, mul_zero, zero_add]
      ring) hg
  refine ⟨ε, he, fun lr h1 h2 => ?_⟩
  obtain ⟨s', y1, y', h3, h4, h5, h6⟩ := h lr h1 h2
  rw [hy] at h4
  cases h4
  exact ⟨s', y', h3, h5, h6⟩

/-- **C145** (the two losses of CDAE): mean squared error has derivatives everywhere, binary crossentropy between the two clipping bounds. -/
theorem C145_smooth (m : Cdae) (batch : List CdaeSample) : SmoothAt mse m batch ∧
    ((∀ s ∈ batch, ∀ ps, m.reconstruct s.uid s.input = .ok ps → ∀ p ∈ ps, kEps < p ∧ p < 1 - kEps) → SmoothAt bce m batch) := by
  have hk : (0 : ℝ) < kEps := by norm_num [kEps]
  refine ⟨fun s _ ps _ p _ t _ d _ => ?_, fun h s hs ps hps p hp t _ d _ => ?_⟩
  · unfold mse
    fun_prop
  · obtain ⟨h1, h2⟩ := h s hs ps hps p hp
    have hev : (bce d) =ᶠ[nhds p] fun q => -(d * Real.log (q + kEps) + (1 - d) * Real.log (1 - q + kEps)) := by
      filter_upwards [Ioo_mem_nhds h1 h2] with q hq
      have : clipProb q = q := by
        unfold clipProb
        rw [min_eq_left hq.2.le, max_eq_right hq.1.le]
      simp only [bce, this]
    refine DifferentiableAt.congr_of_eventuallyEq ?_ hev
    have a1 : p + kEps ≠ 0 := by linarith
    have a2 : 1 - p + kEps ≠ 0 := by linarith
    have d1 : DifferentiableAt ℝ (fun q : ℝ => Real.log (q + kEps)) p := (differentiableAt_id.add_const _).log a1
    have d2 : DifferentiableAt ℝ (fun q : ℝ => Real.log (1 - q + kEps)) p := ((differentiableAt_id.const_sub 1).add_const _).log a2
    exact ((d1.const_mul d).add (d2.const_mul (1 - d))).neg

/-- **C145** (any model): when all derivatives are 0, an epoch of gradient descent, or the first with Adam or momentum, leaves the weights alone. -/
theorem C145_stationary (net : DRec.Net) (hn : net.all.Nodup) (L : Weights → Except Err ℝ) (w : Weights) {y : ℝ} (hy : L w = .ok y)
    (h0 : ∀ x i, deriv (fun v => lossOr0 (L (put w x i v))) (w x i) = 0) (lr mu : ℝ) :
    (∀ s : St Unit, s.w = w → ∃ s', fitEpochs (sgd lr) net (fun _ => L) 1 s = .ok s' ∧ s'.w = w) ∧
    (∃ s', fitEpochs (adam lr) net (fun _ => L) 1 (St.init (adam lr) w) = .ok s' ∧ s'.w = w) ∧
    ∃ s', fitEpochs (momentum lr mu) net (fun _ => L) 1 (St.init (momentum lr mu) w) = .ok s' ∧ s'.w = w := by
  have hp : ∀ a i, partials L w a i = 0 := h0
  refine ⟨fun s hs => ?_, ?_, ?_⟩
  · obtain ⟨s', h1, h2⟩ := one_epoch (sgd lr) net hn L s (y := y) (by rw [hs]; exact hy)
    refine ⟨s', h1, funext fun a => funext fun i => ?_⟩
    rw [h2, hs, hp]
    simp [sgd]
  · obtain ⟨s', h1, h2⟩ := one_epoch (adam lr) net hn L (St.init (adam lr) w) (y := y) hy
    refine ⟨s', h1, funext fun a => funext fun i => ?_⟩
    rw [h2, show (St.init (adam lr) w).w = w from rfl, hp]
    simp [adam, St.init]
  · obtain ⟨s', h1, h2⟩ := one_epoch (momentum lr mu) net hn L (St.init (momentum lr mu) w) (y := y) hy
    refine ⟨s', h1, funext fun a => funext fun i => ?_⟩
    rw [h2, show (St.init (momentum lr mu) w).w = w from rfl, hp]
    simp [momentum, St.init]

/-- **C145** (witness): the learning rate must be small.  With one that is too large for the regularization, the loss of the same batch rises. -/
theorem C145_large_refuted : ∃ (s s' : St Unit) (y y' : ℝ), cdaeObjective mse 1 2 1 1 0 [⟨0, [1], [1]⟩] s.w = .ok y ∧
    fitEpochs (sgd 100) (cdaeNet 0) (fun _ => cdaeObjective mse 1 2 1 1 0 [⟨0, [1], [1]⟩]) 1 s = .ok s' ∧
    cdaeObjective mse 1 2 1 1 0 [⟨0, [1], [1]⟩] s'.w = .ok y' ∧ y < y' := by
  have hb : ∀ s ∈ [(⟨0, [1], [1]⟩ : CdaeSample)], s.uid < 2 ∧ s.input.length = 1 := by simp
  have hform := cdae_formula (hidden := 1) (a := 0) mse 1 hb
  obtain ⟨s', h⟩ := fitEpochs_ok (sgd 100) (cdaeNet 0) (loss := fun _ => cdaeObjective mse 1 2 1 1 0 [⟨0, [1], [1]⟩])
    (fun e w => ⟨_, hform w⟩) 1 (St.init (sgd 100) fun _ _ => 1)
  refine ⟨St.init (sgd 100) fun _ _ => 1, s', _, _, hform _, h, hform _, ?_⟩
  have hv : s'.w 2 1 = -99 := by
    have := C144_cdae_user mse 100 1 2 1 1 0 1 (fun _ => [⟨0, [1], [1]⟩]) _ s' h 1 0 (by omega) (by omega) (by simp)
    simp [cdaeOf, St.init] at this
    rw [this]
    norm_num
  have h0 : ∀ w : Weights, 0 < cdaePred 1 1 0 ⟨0, [1], [1]⟩ w 0 ∧ cdaePred 1 1 0 ⟨0, [1], [1]⟩ w 0 < 1 := fun w => sigmoid_range _
  have h1 := h0 (St.init (sgd 100) fun _ _ => 1).w
  have h2 := h0 s'.w
  simp only [cdaeFormula, List.map_cons, List.map_nil, List.range_succ, List.range_zero, List.nil_append, List.cons_append, List.sum_cons, List.sum_nil,
    mse, List.length_cons, List.length_nil, List.zip_cons_cons, List.zip_nil_right]
  generalize cdaePred 1 1 0 ⟨0, [1], [1]⟩ s'.w 0 = q at h2 ⊢
  generalize cdaePred 1 1 0 ⟨0, [1], [1]⟩ (St.init (sgd 100) fun _ _ => 1).w 0 = p at h1 ⊢
  simp [hv, St.init]
  nlinarith [sq_nonneg (s'.w 0 0), sq_nonneg (s'.w 1 0), sq_nonneg (s'.w 2 0), sq_nonneg (1 - q)]

/-! ## Examples -/

/-- User 1 is not in the batch, but its vector is regularized: not all derivatives are 0. -/
theorem example_deriv (f : ℝ → ℝ → ℝ) : ∃ x i, deriv (fun v => lossOr0 (cdaeObjective f 1 2 1 1 0 [⟨0, [1], [1]⟩]
    (put (fun _ _ => 1) x i v))) ((fun _ _ => 1 : Weights) x i) ≠ 0 := by
  have hb : ∀ s ∈ [(⟨0, [1], [1]⟩ : CdaeSample)], s.uid < 2 ∧ s.input.length = 1 := by simp
  obtain ⟨g, h1, h2⟩ := gradient_outside (cdae_user_outside f 1 2 1 1 0 [⟨0, [1], [1]⟩] (u := 1) (k := 0) (by omega) (by omega) (by simp))
    (w := fun _ _ => 1) (cdae_formula (hidden := 1) (a := 0) f 1 hb _)
  refine ⟨0 + 2, 1 * 1 + 0, ?_⟩
  cases h1
  refine ne_of_eq_of_ne h2 ?_
  norm_num

/-- The hypotheses of `C145_sgd`, `C145_adam` and `C145_momentum` hold for a network with two users and one item, whose weights are all 1. -/
example : (∃ ε > 0, ∀ lr, 0 < lr → lr < ε → ∃ s' y', fitEpochs (adam lr) (cdaeNet 0) (fun _ => cdaeObjective mse 1 2 1 1 0 [⟨0, [1], [1]⟩]) 1
      (St.init (adam lr) fun _ _ => 1) = .ok s' ∧ cdaeObjective mse 1 2 1 1 0 [⟨0, [1], [1]⟩] s'.w = .ok y' ∧
      y' < cdaeFormula mse 1 2 1 1 0 [⟨0, [1], [1]⟩] fun _ _ => 1) ∧
    ∃ ε > 0, ∀ lr, 0 < lr → lr < ε → ∃ s' y', fitEpochs (sgd lr) (cdaeNet 0) (fun _ => cdaeObjective mse 1 2 1 1 0 [⟨0, [1], [1]⟩]) 1
      ⟨fun _ _ => 1, fun _ _ => (), 7⟩ = .ok s' ∧ cdaeObjective mse 1 2 1 1 0 [⟨0, [1], [1]⟩] s'.w = .ok y' ∧
      y' < cdaeFormula mse 1 2 1 1 0 [⟨0, [1], [1]⟩] fun _ _ => 1 := by
  have hb : ∀ s ∈ [(⟨0, [1], [1]⟩ : CdaeSample)], s.uid < 2 ∧ s.input.length = 1 := by simp
  exact ⟨C145_adam mse 1 2 1 1 0 _ _ _ (cdae_formula mse 1 hb _) (C145_smooth _ _).1 (example_deriv mse),
    C145_sgd mse 1 2 1 1 0 _ ⟨fun _ _ => 1, fun _ _ => (), 7⟩ _ (cdae_formula mse 1 hb _) (C145_smooth _ _).1 (example_deriv mse)⟩

/-- A loss that depends on one number only: `x²`, with the number at 3. -/
example : ∃ ε > 0, ∀ lr, 0 < lr → lr < ε → ∃ s' y y', fitEpochs (sgd lr) ⟨[0], [], []⟩ (fun _ w => .ok (w 0 0 ^ 2)) 1 ⟨fun _ _ => 3, fun _ _ => (), 0⟩ = .ok s' ∧
    (.ok (3 ^ 2) : Except Err ℝ) = .ok y ∧ (.ok (s'.w 0 0 ^ 2) : Except Err ℝ) = .ok y' ∧ y' < y := by
  refine C145_any ⟨[0], [], []⟩ (by decide) (fun w => .ok (w 0 0 ^ 2)) ⟨fun _ _ => 3, fun _ _ => (), 0⟩ (fun w => ⟨_, rfl⟩) {(0, 0)} ?_ ?_ ?_ ?_
  · simp [DRec.Net.all]
  · intro w w' h
    rw [h (0, 0) (by simp)]
  · simp only [lossOr0, Finset.mem_singleton, dite_true]
    fun_prop
  · refine ⟨0, 0, ?_⟩
    simp [lossOr0, put]

/-- The same loss with the number at 0: its derivative is 0, and Adam leaves it there. -/
example : ∃ s', fitEpochs (adam 1) ⟨[0], [], []⟩ (fun _ w => .ok (w 0 0 ^ 2)) 1 (St.init (adam 1) fun _ _ => 0) = .ok s' ∧ s'.w = fun _ _ => 0 := by
  refine (C145_stationary ⟨[0], [], []⟩ (by decide) (fun w => .ok (w 0 0 ^ 2)) (fun _ _ => 0) rfl (fun x i => ?_) 1 0).2.1
  by_cases h : x = 0 ∧ i = 0
  · obtain ⟨rfl, rfl⟩ := h
    simp [lossOr0, put]
  · have : (fun v : ℝ => lossOr0 (.ok (put (fun _ _ => 0) x i v 0 0 ^ 2) : Except Err ℝ)) = fun _ => 0 := by
      funext v
      have : ¬ ((0 : Nat) = x ∧ 0 = i) := fun h' => h ⟨h'.1.symm, h'.2.symm⟩
      simp only [lossOr0, put]
      rw [if_neg this]
      norm_num
    rw [this, deriv_const]

end DRec.Trn
