import Verif.Lemmas.DescentDmf
import Verif.Props.Descent

/-!
# C145 for DMF

Where no value that DMF computes for the batch is exactly at a bound (`relu`, `l2_normalize`, `maximum`, clipping), one epoch with a small
enough learning rate lowers the loss of the batch.
-/

namespace DRec.Trn

open DRec.Spec DRec.Opt

variable {S : Type}

theorem dmf_descent (R : ℝ → Algo S) (s : ℝ → St S) (w : Weights) (hw : ∀ lr, (s lr).w = w) (rate : ℝ) (users items : Nat) (norm : Bool)
    (f : List Nat × List Nat) (h1 : f.1 ≠ []) (h2 : f.2 ≠ []) (a : Nat) (b : DmfBatch) {y0 : ℝ}
    (hy : dmfObjective rate users items norm f a b w = .ok y0) (hf : DmfSmooth (dmfOf users items norm f a w) b)
    (D : Addr → ℝ → ℝ) (hD0 : ∀ x, D x 0 = 0)
    (hD : ∀ x ∈ (dmfNet f.1.length f.2.length a).all, ∀ g, g ≠ 0 → 0 < D x g * g)
    (hR : ∀ lr, ∀ x ∈ (dmfNet f.1.length f.2.length a).all, ∀ i g,
      ((R lr).step ((s lr).iterations + place (dmfNet f.1.length f.2.length a) x) ((s lr).slots x i) g).2 = lr * D x g)
    (hg : ∃ x i, deriv (fun v => lossOr0 (dmfObjective rate users items norm f a b (put w x i v))) (w x i) ≠ 0) :
    ∃ ε > 0, ∀ lr, 0 < lr → lr < ε → ∃ s' y',
      fitEpochs (R lr) (dmfNet f.1.length f.2.length a) (fun _ => dmfObjective rate users items norm f a b) 1 (s lr) = .ok s' ∧
      dmfObjective rate users items norm f a b s'.w = .ok y' ∧ y' < y0 := by
  have hn : (dmfNet f.1.length f.2.length a).all.Nodup :=
    (C142_models 1 _ _ a (List.length_pos_of_ne_nil h1) (List.length_pos_of_ne_nil h2)).2.2.2
  have hL : ∀ w', ∃ y, dmfObjective rate users items norm f a b w' = .ok y := by
    intro w'
    have h0 : (fun (x : Addr) (i : Nat) => w x i + (0 : ℝ) * (w' x i - w x i)) = w := by
      funext x i
      ring
    obtain ⟨φ, hφ, -⟩ := dmf_diff (E := ℝ) rate users items norm f a b (W := fun t x i => w x i + t * (w' x i - w x i)) (v := 0)
      (fun x i => (differentiableAt_const _).add (differentiableAt_id.mul_const _)) (by rw [h0]; exact hf) (by rw [h0]; exact hy)
    refine ⟨φ 1, ?_⟩
    rw [← hφ 1]
    congr 1
    funext x i
    ring
  obtain ⟨ε, he, h⟩ := descent R _ hn _ s w hw hL (towerElements a items f.1 ∪ towerElements (a + 2 * f.1.length) users f.2) (by
      rintro ⟨x, i⟩ hp
      simp only [DRec.Net.all, dmfNet, List.flatten_cons, List.flatten_nil, List.append_nil, List.nil_append, List.mem_append]
      rcases Finset.mem_union.1 hp with h | h
      · exact Or.inl (towerElements_vars _ _ _ _ _ h)
      · exact Or.inr (towerElements_vars _ _ _ _ _ h)) (by
      have hself : embed (towerElements a items f.1 ∪ towerElements (a + 2 * f.1.length) users f.2) w (fun q => w q.1.1 q.1.2) = w := by
        funext x i
        unfold embed
        split <;> rfl
      obtain ⟨φ, hφ, hd⟩ := dmf_diff rate users items norm f a b
        (W := embed (towerElements a items f.1 ∪ towerElements (a + 2 * f.1.length) users f.2) w) (v := fun q => w q.1.1 q.1.2) (fun x i => by
          unfold embed
          split
          · exact differentiableAt_apply _ _
          · exact differentiableAt_const _) (by rw [hself]; exact hf) (by rw [hself]; exact hy)
      simp only [hφ]
      exact hd) (by
      intro x i hx
      unfold partials
      have : (fun v => lossOr0 (dmfObjective rate users items norm f a b (put w x i v))) = fun _ => lossOr0 (dmfObjective rate users items norm f a b w) := by
        funext v
        refine congrArg lossOr0 (dmf_agree rate users items norm f a b fun z j hz => if_neg ?_).2
        rintro ⟨rfl, rfl⟩
        exact hx hz
      rw [this, deriv_const]) D hD0 hD hR hg
  refine ⟨ε, he, fun lr e1 e2 => ?_⟩
  obtain ⟨s', y1, y', h3, h4, h5, h6⟩ := h lr e1 e2
  rw [hy] at h4
  cases h4
  exact ⟨s', y', h3, h5, h6⟩

/-- **C145** (DMF): an epoch of gradient descent from every state, and the first epoch with Adam or momentum. -/
theorem C145_dmf (rate : ℝ) (users items : Nat) (norm : Bool) (f : List Nat × List Nat) (h1 : f.1 ≠ []) (h2 : f.2 ≠ []) (a : Nat) (b : DmfBatch)
    (w : Weights) (y : ℝ) (hy : dmfObjective rate users items norm f a b w = .ok y) (hf : DmfSmooth (dmfOf users items norm f a w) b)
    (hg : ∃ x i, deriv (fun v => lossOr0 (dmfObjective rate users items norm f a b (put w x i v))) (w x i) ≠ 0) :
    (∀ (slots : Addr → Nat → Unit) (n : Nat), ∃ ε > 0, ∀ lr, 0 < lr → lr < ε → ∃ s' y',
      fitEpochs (sgd lr) (dmfNet f.1.length f.2.length a) (fun _ => dmfObjective rate users items norm f a b) 1 ⟨w, slots, n⟩ = .ok s' ∧
      dmfObjective rate users items norm f a b s'.w = .ok y' ∧ y' < y) ∧
    (∃ ε > 0, ∀ lr, 0 < lr → lr < ε → ∃ s' y',
      fitEpochs (adam lr) (dmfNet f.1.length f.2.length a) (fun _ => dmfObjective rate users items norm f a b) 1 (St.init (adam lr) w) = .ok s' ∧
      dmfObjective rate users items norm f a b s'.w = .ok y' ∧ y' < y) ∧
    ∀ mu, ∃ ε > 0, ∀ lr, 0 < lr → lr < ε → ∃ s' y',
      fitEpochs (momentum lr mu) (dmfNet f.1.length f.2.length a) (fun _ => dmfObjective rate users items norm f a b) 1
        (St.init (momentum lr mu) w) = .ok s' ∧
      dmfObjective rate users items norm f a b s'.w = .ok y' ∧ y' < y := by
  refine ⟨fun slots n => ?_, ?_, fun mu => ?_⟩
  · exact dmf_descent sgd (fun _ => ⟨w, slots, n⟩) w (fun _ => rfl) rate users items norm f h1 h2 a b hy hf (fun _ g => g) (fun _ => rfl)
      (fun _ _ g h => mul_self_pos.2 h) (fun _ _ _ _ _ => rfl) hg
  · refine dmf_descent adam (fun lr => St.init (adam lr) w) w (fun _ => rfl) rate users items norm f h1 h2 a b hy hf
      (fun x g => correction (place (dmfNet f.1.length f.2.length a) x) * (0.1 * g) / (√(0.001 * g ^ 2) + 1e-7)) (fun _ => by simp)
      (fun x _ g h => ?_) (fun lr x _ i g => ?_) hg
    · have h1 : 0 < correction (place (dmfNet f.1.length f.2.length a) x) := correction_pos (by unfold place; omega)
      have h2 : 0 < √(0.001 * g ^ 2) + 1e-7 := by positivity
      have h3 : 0 < g * g := mul_self_pos.2 h
      rw [div_mul_eq_mul_div]
      refine div_pos ?_ h2
      calc (0 : ℝ) < correction (place (dmfNet f.1.length f.2.length a) x) * (0.1 * (g * g)) := by positivity
        _ = _ := by ring
    · simp only [adam, St.init, mul_zero, zero_add]
      ring
  · exact dmf_descent (fun lr => momentum lr mu) (fun lr => St.init (momentum lr mu) w) w (fun _ => rfl) rate users items norm f h1 h2 a b hy hf
      (fun _ g => g) (fun _ => rfl) (fun _ _ g h => mul_self_pos.2 h) (fun _ _ _ _ _ => by simp [momentum, St.init]) hg

/-- One user and one item, all weights 1, layers of one unit: no value is at a bound, and the regularization has derivatives. -/
example : ∃ ε > 0, ∀ lr, 0 < lr → lr < ε → ∃ s' y',
    fitEpochs (adam lr) (dmfNet 1 1 0) (fun _ => dmfObjective 1 2 2 false ([1], [1]) 0 ⟨[[1, 0]], [[1, 0]], [1]⟩) 1 (St.init (adam lr) fun _ _ => 1) = .ok s' ∧
    dmfObjective 1 2 2 false ([1], [1]) 0 ⟨[[1, 0]], [[1, 0]], [1]⟩ s'.w = .ok y' ∧
    y' < lossOr0 (dmfObjective 1 2 2 false ([1], [1]) 0 ⟨[[1, 0]], [[1, 0]], [1]⟩ fun _ _ => 1) := by
  refine (C145_dmf 1 2 2 false ([1], [1]) (by simp) (by simp) 0 ⟨[[1, 0]], [[1, 0]], [1]⟩ (fun _ _ => 1) _ rfl ?_ ?_).2.1
  · have hst : ∀ u, Dm.stack [[(1 : ℚ), 0]] = some u → u = [[1, 0]] := by
      intro u hu
      simp [Dm.stack, Cas.tensor] at hu
      rw [← hu]
    have ht : ∀ r, Dm.tower 2 [(⟨1, fun _ _ => 1, fun _ => 1⟩ : Dm.Layer)] [[1, 0]] = some r → r = [[2]] := by
      intro r hr
      simp [Dm.tower, Dm.dense] at hr
      rw [← hr]
      norm_num
    have hk : NoKink 2 [(⟨1, fun _ _ => 1, fun _ => 1⟩ : Dm.Layer)] [[1, 0]] := by
      refine ⟨?_, fun _ _ => trivial⟩
      simp
    have hl : l2Normalize [2] = [1] := by
      have : √(max (2 ^ 2) (1 / 10 ^ 12) : ℝ) = 2 := by
        rw [max_eq_left (by norm_num), Real.sqrt_sq (by norm_num)]
      simp only [l2Normalize, List.map_cons, List.map_nil, List.sum_cons, List.sum_nil, add_zero, this]
      norm_num
    refine ⟨fun u hu => ?_, fun u hu => ?_, fun u r hu hr => ?_, fun u r hu hr => ?_, fun u i ur ir p hu hi hur hir hp => ?_⟩
    · rw [hst u hu]; exact hk
    · rw [hst u hu]; exact hk
    · rw [hst u hu] at hr
      rw [ht r hr]
      norm_num
    · rw [hst u hu] at hr
      rw [ht r hr]
      norm_num
    · rw [hst u hu] at hur
      rw [hst i hi] at hir
      rw [ht ur hur, ht ir hir] at hp
      simp [Dm.multiply, hl] at hp
      rw [← hp]
      norm_num [kEps]
  · obtain ⟨y, hy⟩ : ∃ y, dmfObjective 1 2 2 false ([1], [1]) 0 ⟨[[1, 0]], [[1, 0]], [1]⟩ (fun _ _ => 1) = .ok y := ⟨_, rfl⟩
    obtain ⟨g, h1, h2⟩ := gradient_outside (dmf_item_outside 1 2 2 false 1 [] [1] 0 ⟨[[1, 0]], [[1, 0]], [1]⟩ (i := 1) (k := 0) (by omega) (by omega)
      (by simp)) hy
    refine ⟨0, 1 * 1 + 0, ?_⟩
    cases h1
    refine ne_of_eq_of_ne h2 ?_
    norm_num

end DRec.Trn
