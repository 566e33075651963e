import Verif.Lemmas.DescentCaser
import Verif.Props.DescentDmf

/-!
# C145 for Caser

Where the activations have derivatives, every pooled filter has one largest value (or is constant nearby) and no score is at a clipping
bound, one epoch with a small enough learning rate lowers the loss of the batch.
-/

namespace DRec.Trn

open DRec.Spec DRec.Opt

variable {S : Type}

theorem caser_descent (R : ℝ → Algo S) (s : ℝ → St S) (w : Weights) (hw : ∀ lr, (s lr).w = w) (rate : ℝ) (c : Caser) (users items : Nat)
    (actH actMlp : ℝ → ℝ) (a : Nat) (ex : List (Nat × List Nat × List Nat)) (labels : List (List ℝ)) (noise : ℝ × (Nat → Nat → ℝ))
    (hx : GoodExamples c users items ex) (hf : CaserSmooth (caserOf c users items actH actMlp a w) ex noise)
    (D : Addr → ℝ → ℝ) (hD0 : ∀ x, D x 0 = 0)
    (hD : ∀ x ∈ (caserNet c.L a).all, ∀ g, g ≠ 0 → 0 < D x g * g)
    (hR : ∀ lr, ∀ x ∈ (caserNet c.L a).all, ∀ i g,
      ((R lr).step ((s lr).iterations + place (caserNet c.L a) x) ((s lr).slots x i) g).2 = lr * D x g)
    (hg : ∃ x i, deriv (fun v => lossOr0 (caserObjective rate c users items actH actMlp a (caserBatch ex labels noise) (put w x i v))) (w x i) ≠ 0) :
    ∃ ε > 0, ∀ lr, 0 < lr → lr < ε → ∃ s' y y',
      fitEpochs (R lr) (caserNet c.L a) (fun _ => caserObjective rate c users items actH actMlp a (caserBatch ex labels noise)) 1 (s lr) = .ok s' ∧
      caserObjective rate c users items actH actMlp a (caserBatch ex labels noise) w = .ok y ∧
      caserObjective rate c users items actH actMlp a (caserBatch ex labels noise) s'.w = .ok y' ∧ y' < y := by
  have hform := caser_formula rate actH actMlp a hx labels noise
  refine descent R _ (caser_nodup c.L a) _ s w hw (fun w' => ⟨_, hform w'⟩) (caserElements c users items a) (fun p hp => ?_) ?_ (fun x i hn => ?_) D hD0 hD hR hg
  · obtain ⟨x, i⟩ := p
    rw [mem_caserElements] at hp
    obtain ⟨n, hm, -⟩ := hp
    exact caserSizes_mem hm
  · have hself : embed (caserElements c users items a) w (fun q => w q.1.1 q.1.2) = w := by
      funext x i
      unfold embed
      split <;> rfl
    simp only [hform, lossOr0]
    refine caser_diff rate actH actMlp a labels noise (W := embed (caserElements c users items a) w) (fun x i => ?_) (by rw [hself]; exact hf)
    unfold embed
    split
    · exact differentiableAt_apply _ _
    · exact differentiableAt_const _
  · have hc : ∀ v, caserFormula rate c users items actH actMlp a ex labels noise (put w x i v) = caserFormula rate c users items actH actMlp a ex labels noise w :=
      fun v => caser_agree rate actH actMlp a hx labels noise fun z j hz => if_neg fun (h : z = x ∧ j = i) => by
        obtain ⟨h1, h2⟩ := h
        rw [h1, h2] at hz
        exact absurd hz hn
    simp only [partials, hform, lossOr0, hc, deriv_const]

/-- **C145** (Caser): an epoch of gradient descent from every state, and the first epoch with Adam or momentum. -/
theorem C145_caser (rate : ℝ) (c : Caser) (users items : Nat) (actH actMlp : ℝ → ℝ) (a : Nat) (ex : List (Nat × List Nat × List Nat))
    (labels : List (List ℝ)) (noise : ℝ × (Nat → Nat → ℝ)) (hx : GoodExamples c users items ex) (w : Weights)
    (hf : CaserSmooth (caserOf c users items actH actMlp a w) ex noise)
    (hg : ∃ x i, deriv (fun v => lossOr0 (caserObjective rate c users items actH actMlp a (caserBatch ex labels noise) (put w x i v))) (w x i) ≠ 0) :
    (∀ (slots : Addr → Nat → Unit) (n : Nat), ∃ ε > 0, ∀ lr, 0 < lr → lr < ε → ∃ s' y y',
      fitEpochs (sgd lr) (caserNet c.L a) (fun _ => caserObjective rate c users items actH actMlp a (caserBatch ex labels noise)) 1 ⟨w, slots, n⟩ = .ok s' ∧
      caserObjective rate c users items actH actMlp a (caserBatch ex labels noise) w = .ok y ∧
      caserObjective rate c users items actH actMlp a (caserBatch ex labels noise) s'.w = .ok y' ∧ y' < y) ∧
    (∃ ε > 0, ∀ lr, 0 < lr → lr < ε → ∃ s' y y',
      fitEpochs (adam lr) (caserNet c.L a) (fun _ => caserObjective rate c users items actH actMlp a (caserBatch ex labels noise)) 1
        (St.init (adam lr) w) = .ok s' ∧
      caserObjective rate c users items actH actMlp a (caserBatch ex labels noise) w = .ok y ∧
      caserObjective rate c users items actH actMlp a (caserBatch ex labels noise) s'.w = .ok y' ∧ y' < y) ∧
    ∀ mu, ∃ ε > 0, ∀ lr, 0 < lr → lr < ε → ∃ s' y y',
      fitEpochs (momentum lr mu) (caserNet c.L a) (fun _ => caserObjective rate c users items actH actMlp a (caserBatch ex labels noise)) 1
        (St.init (momentum lr mu) w) = .ok s' ∧
      caserObjective rate c users items actH actMlp a (caserBatch ex labels noise) w = .ok y ∧
      caserObjective rate c users items actH actMlp a (caserBatch ex labels noise) s'.w = .ok y' ∧ y' < y := by
  refine ⟨fun slots n => ?_, ?_, fun mu => ?_⟩
  · exact caser_descent sgd (fun _ => ⟨w, slots, n⟩) w (fun _ => rfl) rate c users items actH actMlp a ex labels noise hx hf (fun _ g => g) (fun _ => rfl)
      (fun _ _ g h => mul_self_pos.2 h) (fun _ _ _ _ _ => rfl) hg
  · refine caser_descent adam (fun lr => St.init (adam lr) w) w (fun _ => rfl) rate c users items actH actMlp a ex labels noise hx hf
      (fun x g => correction (place (caserNet c.L a) x) * (0.1 * g) / (√(0.001 * g ^ 2) + 1e-7)) (fun _ => by simp)
      (fun x _ g h => ?_) (fun lr x _ i g => ?_) hg
    · have h1 : 0 < correction (place (caserNet c.L a) x) := correction_pos (by unfold place; omega)
      have h2 : 0 < √(0.001 * g ^ 2) + 1e-7 := by positivity
      have h3 : 0 < g * g := mul_self_pos.2 h
      rw [div_mul_eq_mul_div]
      refine div_pos ?_ h2
      calc (0 : ℝ) < correction (place (caserNet c.L a) x) * (0.1 * (g * g)) := by positivity
        _ = _ := by ring
    · simp only [adam, St.init, mul_zero, zero_add]
      ring
  · exact caser_descent (fun lr => momentum lr mu) (fun lr => St.init (momentum lr mu) w) w (fun _ => rfl) rate c users items actH actMlp a ex labels noise
      hx hf (fun _ g => g) (fun _ => rfl) (fun _ _ g h => mul_self_pos.2 h) (fun _ _ _ _ _ => by simp [momentum, St.init]) hg

/-- **C145** (the default activations of Caser): `relu` has a derivative at every number but 0, and is constant near negative ones. -/
theorem C145_relu (x : ℝ) : (x ≠ 0 → DifferentiableAt ℝ (fun y : ℝ => max 0 y) x) ∧ (x < 0 → (fun y : ℝ => max 0 y) =ᶠ[nhds x] fun _ => 0) := by
  refine ⟨fun h => diff_max_left 0 differentiableAt_id h, fun h => ?_⟩
  filter_upwards [gt_mem_nhds h] with y hy
  exact max_eq_left (le_of_lt hy)

/-- Sequences of one item, all weights 1, relu: no value is at a bound, and the vector of user 1, who is not in the batch, is regularized. -/
example : ∃ ε > 0, ∀ lr, 0 < lr → lr < ε → ∃ s' y y',
    fitEpochs (adam lr) (caserNet 1 0) (fun _ => caserObjective 1 ⟨1, 1, 1, 1, 1⟩ 2 2 (fun y => max 0 y) (fun y => max 0 y) 0
      (caserBatch [(0, [0], [1])] [[1]] (0, fun _ _ => 1))) 1 (St.init (adam lr) fun _ _ => 1) = .ok s' ∧
    caserObjective 1 ⟨1, 1, 1, 1, 1⟩ 2 2 (fun y => max 0 y) (fun y => max 0 y) 0 (caserBatch [(0, [0], [1])] [[1]] (0, fun _ _ => 1)) (fun _ _ => 1) = .ok y ∧
    caserObjective 1 ⟨1, 1, 1, 1, 1⟩ 2 2 (fun y => max 0 y) (fun y => max 0 y) 0 (caserBatch [(0, [0], [1])] [[1]] (0, fun _ _ => 1)) s'.w = .ok y' ∧
    y' < y := by
  have hx : GoodExamples ⟨1, 1, 1, 1, 1⟩ 2 2 [(0, [0], [1])] := ⟨by simp, by simp, by simp, ⟨1, by simp⟩, le_rfl, le_rfl⟩
  have hb : ∀ t, beforeAct (caserOf ⟨1, 1, 1, 1, 1⟩ 2 2 (fun y => max 0 y) (fun y => max 0 y) 0 fun _ _ => 1) [0] (0 + 1) 0 t = 2 := by
    intro t
    simp [beforeAct, caserOf]
    norm_num
  have hF : Cas.noisy (some (0, fun _ _ => 1)) 0 (Cas.feat (caserOf ⟨1, 1, 1, 1, 1⟩ 2 2 (fun y => max 0 y) (fun y => max 0 y) 0 fun _ _ => 1) [0]) = [2, 2] := by
    simp [Cas.noisy, Cas.feat, Cas.hfeat, weighted, horizontalAt, caserOf, Cas.maxOf, Cas.dropout]
    norm_num
  refine (C145_caser 1 ⟨1, 1, 1, 1, 1⟩ 2 2 (fun y => max 0 y) (fun y => max 0 y) 0 [(0, [0], [1])] [[1]] (0, fun _ _ => 1) hx (fun _ _ => 1) ⟨?_, ?_, ?_, ?_⟩ ?_).2.1
  · intro e he i hi f hf t ht
    obtain rfl : e = (0, [0], [1]) := by simpa using he
    obtain rfl : i = 0 := Nat.lt_one_iff.1 hi
    obtain rfl : f = 0 := Nat.lt_one_iff.1 hf
    rw [hb]
    exact (C145_relu 2).1 (by norm_num)
  · intro e he i hi f hf
    obtain rfl : i = 0 := Nat.lt_one_iff.1 hi
    refine Or.inl ⟨0, Nat.one_pos, fun t ht hne => absurd (Nat.lt_one_iff.1 ht) hne⟩
  · intro p hp k hk
    obtain rfl : p = ((0, [0], [1]), 0) := by simpa using hp
    rw [hF]
    refine (C145_relu _).1 ?_
    simp [caserOf, Finset.sum_range_succ]
    norm_num
  · intro p hp i hi
    obtain rfl : p = ((0, [0], [1]), 0) := by simpa using hp
    rw [hF]
    simp [caserScore, caserOf, Finset.sum_range_succ]
    norm_num [kEps]
  · obtain ⟨g, h1, h2⟩ := gradient_outside (caser_user_outside 1 ⟨1, 1, 1, 1, 1⟩ 2 2 (fun y => max 0 y) (fun y => max 0 y) 0
      (caserBatch [(0, [0], [1])] [[1]] (0, fun _ _ => 1)) (u := 1) (k := 0) (by omega) (by simp) (by simp [caserBatch])) (w := fun _ _ => 1)
      (caser_formula 1 _ _ 0 hx [[1]] (0, fun _ _ => 1) _)
    refine ⟨0, 1 * 1 + 0, ?_⟩
    cases h1
    refine ne_of_eq_of_ne h2 ?_
    norm_num

end DRec.Trn
