import Verif.Lemmas.Descent
import Verif.Props.Training

/-! # The loss of CDAE is differentiable -/

namespace DRec.Trn

open DRec.Spec DRec.Opt

theorem diff_sum {E α : Type} [NormedAddCommGroup E] [NormedSpace ℝ E] (l : List α) {φ : α → E → ℝ} {v : E}
    (h : ∀ x ∈ l, DifferentiableAt ℝ (φ x) v) : DifferentiableAt ℝ (fun v => (l.map fun x => φ x v).sum) v := by
  induction l with
  | nil => simp
  | cons x l ih =>
    simp only [List.map_cons, List.sum_cons]
    exact (h x (by simp)).add (ih fun y hy => h y (by simp [hy]))

theorem diff_sigmoid : Differentiable ℝ sigmoid := by
  intro x
  unfold sigmoid
  have h : (1 + Real.exp (-x)) ≠ 0 := by positivity
  exact (differentiableAt_const _).div ((differentiableAt_const _).add (differentiableAt_id.neg.exp)) h

theorem zipIdx_range_map {α : Type} (n : Nat) (χ : Nat → α) : ((List.range n).map χ).zipIdx = (List.range n).map fun k => (χ k, k) := by
  refine List.ext_getElem (by simp) fun i h1 h2 => ?_
  simp

theorem zip_range_map {α β : Type} (n : Nat) (d : List α) (ψ : Nat → β) :
    d.zip ((List.range n).map ψ) = (d.zip (List.range n)).map fun p => (p.1, ψ p.2) := by
  refine List.ext_getElem (by simp) fun i h1 h2 => ?_
  simp

/-- The hidden layer and the prediction in terms of the weights. -/
noncomputable def cdaeHidden (hidden a : Nat) (s : CdaeSample) (w : Weights) (k : Nat) : ℝ :=
  sigmoid ((s.input.zipIdx.map fun p => p.1 * w a (p.2 * hidden + k)).sum + w (a + 2) (s.uid * hidden + k) + w (a + 3) k)

noncomputable def cdaePred (items hidden a : Nat) (s : CdaeSample) (w : Weights) (j : Nat) : ℝ :=
  sigmoid (((List.range hidden).map fun k => cdaeHidden hidden a s w k * w (a + 1) (k * items + j)).sum + w (a + 4) j)

theorem reconstruct_pred {users items hidden a : Nat} (s : CdaeSample) (hu : s.uid < users) (hl : s.input.length = items) (w : Weights) :
    (cdaeOf users items hidden a w).reconstruct s.uid s.input = .ok ((List.range items).map (cdaePred items hidden a s w)) := by
  rw [reconstruct_cdaeOf, if_neg (by omega), if_neg (by simp [hl])]
  congr 1
  refine List.map_congr_left fun j _ => ?_
  unfold cdaePred
  have : (cdaeOf users items hidden a w).layer s.uid s.input = (List.range hidden).map (cdaeHidden hidden a s w) := rfl
  rw [this, zipIdx_range_map, List.map_map]
  rfl

theorem mapM_ok_of {α β : Type} {f : α → Except Err β} {g : α → β} {l : List α} (h : ∀ x ∈ l, f x = .ok (g x)) : l.mapM f = .ok (l.map g) := by
  induction l with
  | nil => rfl
  | cons x l ih =>
    rw [List.mapM_cons, h x (by simp), ih fun y hy => h y (by simp [hy])]
    rfl

theorem mapM_ok_mem {α β : Type} {f : α → Except Err β} {l : List α} {ys : List β} (h : l.mapM f = .ok ys) : ∀ x ∈ l, ∃ y, f x = .ok y := by
  induction l generalizing ys with
  | nil => simp
  | cons x l ih =>
    rw [List.mapM_cons] at h
    cases hx : f x with
    | error e => rw [hx] at h; cases h
    | ok y =>
      cases hl : l.mapM f with
      | error e => rw [hx, hl] at h; cases h
      | ok zs =>
        intro z hz
        rcases List.mem_cons.1 hz with rfl | hz
        · exact ⟨y, hx⟩
        · exact ih hl z hz

/-- A batch on which the loss can be computed. -/
theorem cdae_valid {f : ℝ → ℝ → ℝ} {rate : ℝ} {users items hidden a : Nat} {batch : List CdaeSample} {w : Weights} {y : ℝ}
    (h : cdaeObjective f rate users items hidden a batch w = .ok y) : ∀ s ∈ batch, s.uid < users ∧ s.input.length = items := by
  intro s hs
  unfold cdaeObjective at h
  split at h
  · cases h
  next preds hp =>
    obtain ⟨z, hz⟩ := mapM_ok_mem hp s hs
    rw [reconstruct_cdaeOf] at hz
    split at hz
    · cases hz
    split at hz
    · cases hz
    · next h1 h2 => exact ⟨by omega, by simpa using h2⟩

theorem sum_flatMap' {α : Type} (l : List α) (g : α → List ℝ) : (l.flatMap g).sum = (l.map fun x => (g x).sum).sum := by
  induction l with
  | nil => rfl
  | cons x l ih => simp [List.flatMap_cons, ih]

/-- The loss as a formula. -/
noncomputable def cdaeFormula (f : ℝ → ℝ → ℝ) (rate : ℝ) (users items hidden a : Nat) (batch : List CdaeSample) (w : Weights) : ℝ :=
  (batch.map fun s => ((batch.map (·.wanted)).map fun d =>
    ((d.zip (List.range items)).map fun p => f p.1 (cdaePred items hidden a s w p.2)).sum / (((d.zip (List.range items)).length : Nat) : ℝ)).sum).sum /
    (((batch.map fun _ => batch.length).sum : Nat) : ℝ) +
  (((List.range (items * hidden)).map fun i => w a i ^ 2).sum / 2 + (((List.range (hidden * items)).map fun i => w (a + 1) i ^ 2).sum / 2 +
    ((List.range (users * hidden)).map fun i => w (a + 2) i ^ 2).sum / 2)) * rate / batch.length

theorem cdae_formula (f : ℝ → ℝ → ℝ) (rate : ℝ) {users items hidden a : Nat} {batch : List CdaeSample}
    (hb : ∀ s ∈ batch, s.uid < users ∧ s.input.length = items) (w : Weights) :
    cdaeObjective f rate users items hidden a batch w = .ok (cdaeFormula f rate users items hidden a batch w) := by
  unfold cdaeObjective
  rw [mapM_ok_of (g := fun s => (List.range items).map (cdaePred items hidden a s w)) fun s hs => reconstruct_pred s (hb s hs).1 (hb s hs).2 w]
  simp only
  congr 1
  unfold cdaeFormula
  congr 1
  · unfold cdaeLoss average
    rw [List.length_flatMap, sum_flatMap', List.map_map, List.map_map]
    congr 3
    · funext s
      simp only [Function.comp]
      refine congrArg List.sum (List.map_congr_left fun d _ => ?_)
      unfold vecLoss average
      rw [zip_range_map, List.map_map]
      simp [Function.comp_def]
    · simp [Function.comp_def]
  · simp [cdaeReg, elements, List.map_map, Function.comp_def]

/-- **Differentiability.** -/
theorem cdae_diff {E : Type} [NormedAddCommGroup E] [NormedSpace ℝ E] (f : ℝ → ℝ → ℝ) (rate : ℝ) {users items hidden a : Nat}
    {batch : List CdaeSample} (W : E → Weights) (v : E) (hW : ∀ x i, DifferentiableAt ℝ (fun v => W v x i) v)
    (hf : ∀ s ∈ batch, ∀ j, j < items → ∀ t ∈ batch, ∀ d ∈ t.wanted, DifferentiableAt ℝ (f d) (cdaePred items hidden a s (W v) j)) :
    DifferentiableAt ℝ (fun v => cdaeFormula f rate users items hidden a batch (W v)) v := by
  have hH : ∀ s k, DifferentiableAt ℝ (fun v => cdaeHidden hidden a s (W v) k) v := by
    intro s k
    unfold cdaeHidden
    exact (diff_sigmoid _).comp v (((diff_sum _ fun p _ => (differentiableAt_const _).mul (hW _ _)).add (hW _ _)).add (hW _ _))
  have hP : ∀ s j, DifferentiableAt ℝ (fun v => cdaePred items hidden a s (W v) j) v := by
    intro s j
    unfold cdaePred
    exact (diff_sigmoid _).comp v ((diff_sum _ fun k _ => (hH s k).mul (hW _ _)).add (hW _ _))
  have sq : ∀ x n, DifferentiableAt ℝ (fun v => ((List.range n).map fun i => W v x i ^ 2).sum) v :=
    fun x n => diff_sum _ fun i _ => (hW x i).pow 2
  unfold cdaeFormula
  simp only [div_eq_mul_inv]
  refine DifferentiableAt.add (DifferentiableAt.mul_const (diff_sum _ fun s hs => diff_sum _ fun d hd => DifferentiableAt.mul_const
    (diff_sum _ fun p hp => ?_) _) _) ?_
  · obtain ⟨t, ht, rfl⟩ := List.mem_map.1 hd
    have hm := List.of_mem_zip hp
    exact (hf s hs p.2 (List.mem_range.1 hm.2) t ht p.1 hm.1).comp v (hP s p.2)
  · exact (((((sq _ _).mul_const _).add (((sq _ _).mul_const _).add ((sq _ _).mul_const _)))).mul_const _).mul_const _

end DRec.Trn
