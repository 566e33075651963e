import Verif.Lemmas.EpochsCaser
import Verif.Props.Epochs
import Verif.Props.DescentCaser

/-!
# C151 for DMF and Caser

Where no value computed for the batch is exactly at a bound, each of the first epochs with a small enough learning rate lowers the loss.
-/

namespace DRec.Trn

open DRec.Spec DRec.Opt

variable {S : Type}

theorem dmf_epochs (R : ℝ → Algo S) (hR : Follows R) (s : ℝ → St S) (w : Weights) (i0 : Nat) (hw : ∀ lr, (s lr).w = w)
    (hs : ∀ lr a i, (s lr).slots a i = (R lr).start) (hi : ∀ lr, (s lr).iterations = i0)
    (hz : ∀ t lr k, (∀ k, 1 ≤ t k) → ((R lr).step (t k) (stored R t (fun _ _ => 0) lr k) 0).2 = 0) (rate : ℝ) (users items : Nat) (norm : Bool)
    (f : List Nat × List Nat) (h1 : f.1 ≠ []) (h2 : f.2 ≠ []) (a : Nat) (b : DmfBatch) {y0 : ℝ}
    (hy : dmfObjective rate users items norm f a b w = .ok y0) (hf : DmfSmooth (dmfOf users items norm f a w) b)
    (hg : ∃ x i, deriv (fun v => lossOr0 (dmfObjective rate users items norm f a b (put w x i v))) (w x i) ≠ 0) (n : Nat) :
    LowersEach (dmfObjective rate users items norm f a b) n fun lr k =>
      fitEpochs (R lr) (dmfNet f.1.length f.2.length a) (fun _ => dmfObjective rate users items norm f a b) k (s lr) := by
  have hn : (dmfNet f.1.length f.2.length a).all.Nodup :=
    (C142_models 1 _ _ a (List.length_pos_of_ne_nil h1) (List.length_pos_of_ne_nil h2)).2.2.2
  have hL : ∀ w', ∃ y, dmfObjective rate users items norm f a b w' = .ok y := by
    intro w'
    have h0 : (fun (x : Addr) (i : Nat) => w x i + (0 : ℝ) * (w' x i - w x i)) = w := by
      funext x i
      ring
    obtain ⟨φ, hφ, -⟩ := dmf_diff (E := ℝ) rate users items norm f a b (W := fun t x i => w x i + t * (w' x i - w x i)) (v := 0)
      (fun x i => (differentiableAt_const _).add (differentiableAt_id.mul_const _)) (by rw [h0]; exact hf) (by rw [h0]; exact hy)
    refine ⟨φ 1, ?_⟩
    rw [← hφ 1]
    congr 1
    funext x i
    ring
  refine epochs_descent R hR _ hn _ s w i0 hw hs hi hL (towerElements a items f.1 ∪ towerElements (a + 2 * f.1.length) users f.2) ?_ ?_ hz ?_ hg n
  · rintro ⟨x, i⟩ hp
    simp only [DRec.Net.all, dmfNet, List.flatten_cons, List.flatten_nil, List.append_nil, List.nil_append, List.mem_append]
    rcases Finset.mem_union.1 hp with h | h
    · exact Or.inl (towerElements_vars _ _ _ _ _ h)
    · exact Or.inr (towerElements_vars _ _ _ _ _ h)
  · intro w x i hx
    unfold partials
    have : (fun v => lossOr0 (dmfObjective rate users items norm f a b (put w x i v))) = fun _ => lossOr0 (dmfObjective rate users items norm f a b w) := by
      funext v
      refine congrArg lossOr0 (dmf_agree rate users items norm f a b fun z j hz => if_neg ?_).2
      rintro ⟨rfl, rfl⟩
      exact hx hz
    rw [this, deriv_const]
  · have hself : embed (towerElements a items f.1 ∪ towerElements (a + 2 * f.1.length) users f.2) w (fun q => w q.1.1 q.1.2) = w := by
      funext x i
      unfold embed
      split <;> rfl
    obtain ⟨φ, hφ, hd⟩ := Cont.dmf_diff rate users items norm f a b
      (W := embed (towerElements a items f.1 ∪ towerElements (a + 2 * f.1.length) users f.2) w) (v := fun q => w q.1.1 q.1.2) (fun x i => by
        unfold embed
        split
        · exact contDiffAt_pi.1 contDiffAt_id _
        · exact contDiffAt_const) (by rw [hself]; exact hf) (by rw [hself]; exact hy)
    simp only [hφ]
    exact hd

theorem caser_epochs (R : ℝ → Algo S) (hR : Follows R) (s : ℝ → St S) (w : Weights) (i0 : Nat) (hw : ∀ lr, (s lr).w = w)
    (hs : ∀ lr a i, (s lr).slots a i = (R lr).start) (hi : ∀ lr, (s lr).iterations = i0)
    (hz : ∀ t lr k, (∀ k, 1 ≤ t k) → ((R lr).step (t k) (stored R t (fun _ _ => 0) lr k) 0).2 = 0) (rate : ℝ) (c : Caser) (users items : Nat)
    (actH actMlp : ℝ → ℝ) (a : Nat) (ex : List (Nat × List Nat × List Nat)) (labels : List (List ℝ)) (noise : ℝ × (Nat → Nat → ℝ))
    (hx : GoodExamples c users items ex) (hf : CaserSmoothAround (caserOf c users items actH actMlp a w) ex noise)
    (hg : ∃ x i, deriv (fun v => lossOr0 (caserObjective rate c users items actH actMlp a (caserBatch ex labels noise) (put w x i v))) (w x i) ≠ 0) (n : Nat) :
    LowersEach (caserObjective rate c users items actH actMlp a (caserBatch ex labels noise)) n fun lr k =>
      fitEpochs (R lr) (caserNet c.L a) (fun _ => caserObjective rate c users items actH actMlp a (caserBatch ex labels noise)) k (s lr) := by
  have hform := caser_formula rate actH actMlp a hx labels noise
  refine epochs_descent R hR _ (caser_nodup c.L a) _ s w i0 hw hs hi (fun w' => ⟨_, hform w'⟩) (caserElements c users items a) (fun p hp => ?_)
    (fun w x i hn => ?_) hz ?_ hg n
  · obtain ⟨x, i⟩ := p
    rw [mem_caserElements] at hp
    obtain ⟨n, hm, -⟩ := hp
    exact caserSizes_mem hm
  · have hc : ∀ v, caserFormula rate c users items actH actMlp a ex labels noise (put w x i v) = caserFormula rate c users items actH actMlp a ex labels noise w :=
      fun v => caser_agree rate actH actMlp a hx labels noise fun z j hz => if_neg fun (h : z = x ∧ j = i) => by
        obtain ⟨h1, h2⟩ := h
        rw [h1, h2] at hz
        exact absurd hz hn
    simp only [partials, hform, lossOr0, hc, deriv_const]
  · have hself : embed (caserElements c users items a) w (fun q => w q.1.1 q.1.2) = w := by
      funext x i
      unfold embed
      split <;> rfl
    simp only [hform, lossOr0]
    refine Cont.caser_diff rate actH actMlp a labels noise (W := embed (caserElements c users items a) w) (fun x i => ?_) (by rw [hself]; exact hf)
    unfold embed
    split
    · exact contDiffAt_pi.1 contDiffAt_id _
    · exact contDiffAt_const

/-- **C151** (DMF): with Adam and momentum from a new optimizer, and with gradient descent from every state. -/
theorem C151_dmf (rate : ℝ) (users items : Nat) (norm : Bool) (f : List Nat × List Nat) (h1 : f.1 ≠ []) (h2 : f.2 ≠ []) (a : Nat) (b : DmfBatch)
    (w : Weights) (y : ℝ) (hy : dmfObjective rate users items norm f a b w = .ok y) (hf : DmfSmooth (dmfOf users items norm f a w) b)
    (hg : ∃ x i, deriv (fun v => lossOr0 (dmfObjective rate users items norm f a b (put w x i v))) (w x i) ≠ 0) (n : Nat) :
    (LowersEach (dmfObjective rate users items norm f a b) n fun lr k =>
      fitEpochs (adam lr) (dmfNet f.1.length f.2.length a) (fun _ => dmfObjective rate users items norm f a b) k (St.init (adam lr) w)) ∧
    (∀ mu, 0 ≤ mu → LowersEach (dmfObjective rate users items norm f a b) n fun lr k =>
      fitEpochs (momentum lr mu) (dmfNet f.1.length f.2.length a) (fun _ => dmfObjective rate users items norm f a b) k (St.init (momentum lr mu) w)) ∧
    ∀ (slots : Addr → Nat → Unit) (i : Nat), LowersEach (dmfObjective rate users items norm f a b) n fun lr k =>
      fitEpochs (sgd lr) (dmfNet f.1.length f.2.length a) (fun _ => dmfObjective rate users items norm f a b) k ⟨w, slots, i⟩ :=
  ⟨dmf_epochs adam follows_adam (fun lr => St.init (adam lr) w) w 0 (fun _ => rfl) (fun _ _ _ => rfl) (fun _ => rfl)
      (fun t lr k _ => still_adam t lr k) rate users items norm f h1 h2 a b hy hf hg n,
    fun mu hmu => dmf_epochs _ (follows_momentum hmu) (fun lr => St.init (momentum lr mu) w) w 0 (fun _ => rfl) (fun _ _ _ => rfl) (fun _ => rfl)
      (fun t lr k _ => still_momentum mu t lr k) rate users items norm f h1 h2 a b hy hf hg n,
    fun slots i => dmf_epochs sgd follows_sgd (fun _ => ⟨w, slots, i⟩) w i (fun _ => rfl) (fun _ _ _ => rfl) (fun _ => rfl)
      (fun t lr k _ => still_sgd t lr k) rate users items norm f h1 h2 a b hy hf hg n⟩

/-- **C151** (Caser). -/
theorem C151_caser (rate : ℝ) (c : Caser) (users items : Nat) (actH actMlp : ℝ → ℝ) (a : Nat) (ex : List (Nat × List Nat × List Nat))
    (labels : List (List ℝ)) (noise : ℝ × (Nat → Nat → ℝ)) (hx : GoodExamples c users items ex) (w : Weights)
    (hf : CaserSmoothAround (caserOf c users items actH actMlp a w) ex noise)
    (hg : ∃ x i, deriv (fun v => lossOr0 (caserObjective rate c users items actH actMlp a (caserBatch ex labels noise) (put w x i v))) (w x i) ≠ 0) (n : Nat) :
    (LowersEach (caserObjective rate c users items actH actMlp a (caserBatch ex labels noise)) n fun lr k => fitEpochs (adam lr) (caserNet c.L a)
      (fun _ => caserObjective rate c users items actH actMlp a (caserBatch ex labels noise)) k (St.init (adam lr) w)) ∧
    (∀ mu, 0 ≤ mu → LowersEach (caserObjective rate c users items actH actMlp a (caserBatch ex labels noise)) n fun lr k => fitEpochs (momentum lr mu)
      (caserNet c.L a) (fun _ => caserObjective rate c users items actH actMlp a (caserBatch ex labels noise)) k (St.init (momentum lr mu) w)) ∧
    ∀ (slots : Addr → Nat → Unit) (i : Nat), LowersEach (caserObjective rate c users items actH actMlp a (caserBatch ex labels noise)) n fun lr k =>
      fitEpochs (sgd lr) (caserNet c.L a) (fun _ => caserObjective rate c users items actH actMlp a (caserBatch ex labels noise)) k ⟨w, slots, i⟩ :=
  ⟨caser_epochs adam follows_adam (fun lr => St.init (adam lr) w) w 0 (fun _ => rfl) (fun _ _ _ => rfl) (fun _ => rfl)
      (fun t lr k _ => still_adam t lr k) rate c users items actH actMlp a ex labels noise hx hf hg n,
    fun mu hmu => caser_epochs _ (follows_momentum hmu) (fun lr => St.init (momentum lr mu) w) w 0 (fun _ => rfl) (fun _ _ _ => rfl) (fun _ => rfl)
      (fun t lr k _ => still_momentum mu t lr k) rate c users items actH actMlp a ex labels noise hx hf hg n,
    fun slots i => caser_epochs sgd follows_sgd (fun _ => ⟨w, slots, i⟩) w i (fun _ => rfl) (fun _ _ _ => rfl) (fun _ => rfl)
      (fun t lr k _ => still_sgd t lr k) rate c users items actH actMlp a ex labels noise hx hf hg n⟩

/-- **C151** (the default activations of Caser): `relu` has a continuous derivative around every number but 0. -/
theorem C151_relu {x : ℝ} (h : x ≠ 0) : ContDiffAt ℝ 1 (fun y : ℝ => max 0 y) x := Cont.diff_max_left 0 contDiffAt_id h

/-- One user and one item, all weights 1, layers of one unit: no value is at a bound, and the regularization has derivatives. -/
example : LowersEach (dmfObjective 1 2 2 false ([1], [1]) 0 ⟨[[1, 0]], [[1, 0]], [1]⟩) 10 fun lr k =>
    fitEpochs (adam lr) (dmfNet 1 1 0) (fun _ => dmfObjective 1 2 2 false ([1], [1]) 0 ⟨[[1, 0]], [[1, 0]], [1]⟩) k (St.init (adam lr) fun _ _ => 1) := by
  refine (C151_dmf 1 2 2 false ([1], [1]) (by simp) (by simp) 0 ⟨[[1, 0]], [[1, 0]], [1]⟩ (fun _ _ => 1) _ rfl ?_ ?_ 10).1
  · have hst : ∀ u, Dm.stack [[(1 : ℚ), 0]] = some u → u = [[1, 0]] := by
      intro u hu
      simp [Dm.stack, Cas.tensor] at hu
      rw [← hu]
    have ht : ∀ r, Dm.tower 2 [(⟨1, fun _ _ => 1, fun _ => 1⟩ : Dm.Layer)] [[1, 0]] = some r → r = [[2]] := by
      intro r hr
      simp [Dm.tower, Dm.dense] at hr
      rw [← hr]
      norm_num
    have hk : NoKink 2 [(⟨1, fun _ _ => 1, fun _ => 1⟩ : Dm.Layer)] [[1, 0]] := by
      refine ⟨?_, fun _ _ => trivial⟩
      simp
    have hl : l2Normalize [2] = [1] := by
      have : √(max (2 ^ 2) (1 / 10 ^ 12) : ℝ) = 2 := by
        rw [max_eq_left (by norm_num), Real.sqrt_sq (by norm_num)]
      simp only [l2Normalize, List.map_cons, List.map_nil, List.sum_cons, List.sum_nil, add_zero, this]
      norm_num
    refine ⟨fun u hu => ?_, fun u hu => ?_, fun u r hu hr => ?_, fun u r hu hr => ?_, fun u i ur ir p hu hi hur hir hp => ?_⟩
    · rw [hst u hu]; exact hk
    · rw [hst u hu]; exact hk
    · rw [hst u hu] at hr
      rw [ht r hr]
      norm_num
    · rw [hst u hu] at hr
      rw [ht r hr]
      norm_num
    · rw [hst u hu] at hur
      rw [hst i hi] at hir
      rw [ht ur hur, ht ir hir] at hp
      simp [Dm.multiply, hl] at hp
      rw [← hp]
      norm_num [kEps]
  · obtain ⟨y, hy⟩ : ∃ y, dmfObjective 1 2 2 false ([1], [1]) 0 ⟨[[1, 0]], [[1, 0]], [1]⟩ (fun _ _ => 1) = .ok y := ⟨_, rfl⟩
    obtain ⟨g, h1, h2⟩ := gradient_outside (dmf_item_outside 1 2 2 false 1 [] [1] 0 ⟨[[1, 0]], [[1, 0]], [1]⟩ (i := 1) (k := 0) (by omega) (by omega)
      (by simp)) hy
    refine ⟨0, 1 * 1 + 0, ?_⟩
    cases h1
    refine ne_of_eq_of_ne h2 ?_
    norm_num

/-- Sequences of one item, all weights 1, relu: no value is at a bound, and the vector of user 1, who is not in the batch, is regularized. -/
example : LowersEach (caserObjective 1 ⟨1, 1, 1, 1, 1⟩ 2 2 (fun y => max 0 y) (fun y => max 0 y) 0 (caserBatch [(0, [0], [1])] [[1]] (0, fun _ _ => 1))) 10
    fun lr k => fitEpochs (adam lr) (caserNet 1 0) (fun _ => caserObjective 1 ⟨1, 1, 1, 1, 1⟩ 2 2 (fun y => max 0 y) (fun y => max 0 y) 0
      (caserBatch [(0, [0], [1])] [[1]] (0, fun _ _ => 1))) k (St.init (adam lr) fun _ _ => 1) := by
  have hx : GoodExamples ⟨1, 1, 1, 1, 1⟩ 2 2 [(0, [0], [1])] := ⟨by simp, by simp, by simp, ⟨1, by simp⟩, le_rfl, le_rfl⟩
  have hb : ∀ t, beforeAct (caserOf ⟨1, 1, 1, 1, 1⟩ 2 2 (fun y => max 0 y) (fun y => max 0 y) 0 fun _ _ => 1) [0] (0 + 1) 0 t = 2 := by
    intro t
    simp [beforeAct, caserOf]
    norm_num
  have hF : Cas.noisy (some (0, fun _ _ => 1)) 0 (Cas.feat (caserOf ⟨1, 1, 1, 1, 1⟩ 2 2 (fun y => max 0 y) (fun y => max 0 y) 0 fun _ _ => 1) [0]) = [2, 2] := by
    simp [Cas.noisy, Cas.feat, Cas.hfeat, weighted, horizontalAt, caserOf, Cas.maxOf, Cas.dropout]
    norm_num
  refine (C151_caser 1 ⟨1, 1, 1, 1, 1⟩ 2 2 (fun y => max 0 y) (fun y => max 0 y) 0 [(0, [0], [1])] [[1]] (0, fun _ _ => 1) hx (fun _ _ => 1) ⟨⟨?_, ?_, ?_, ?_⟩, ?_, ?_⟩ ?_ 10).1
  · intro e he i hi f hf t ht
    obtain rfl : e = (0, [0], [1]) := by simpa using he
    obtain rfl : i = 0 := Nat.lt_one_iff.1 hi
    obtain rfl : f = 0 := Nat.lt_one_iff.1 hf
    rw [hb]
    exact (C145_relu 2).1 (by norm_num)
  · intro e he i hi f hf
    obtain rfl : i = 0 := Nat.lt_one_iff.1 hi
    refine Or.inl ⟨0, Nat.one_pos, fun t ht hne => absurd (Nat.lt_one_iff.1 ht) hne⟩
  · intro p hp k hk
    obtain rfl : p = ((0, [0], [1]), 0) := by simpa using hp
    rw [hF]
    refine (C145_relu _).1 ?_
    simp [caserOf, Finset.sum_range_succ]
    norm_num
  · intro p hp i hi
    obtain rfl : p = ((0, [0], [1]), 0) := by simpa using hp
    rw [hF]
    simp [caserScore, caserOf, Finset.sum_range_succ]
    norm_num [kEps]
  · intro e he i hi f hf t ht
    obtain rfl : e = (0, [0], [1]) := by simpa using he
    obtain rfl : i = 0 := Nat.lt_one_iff.1 hi
    obtain rfl : f = 0 := Nat.lt_one_iff.1 hf
    rw [hb]
    exact C151_relu (by norm_num)
  · intro p hp k hk
    obtain rfl : p = ((0, [0], [1]), 0) := by simpa using hp
    rw [hF]
    refine C151_relu ?_
    simp [caserOf, Finset.sum_range_succ]
    norm_num
  · obtain ⟨g, h1, h2⟩ := gradient_outside (caser_user_outside 1 ⟨1, 1, 1, 1, 1⟩ 2 2 (fun y => max 0 y) (fun y => max 0 y) 0
      (caserBatch [(0, [0], [1])] [[1]] (0, fun _ _ => 1)) (u := 1) (k := 0) (by omega) (by simp) (by simp [caserBatch])) (w := fun _ _ => 1)
      (caser_formula 1 _ _ 0 hx [[1]] (0, fun _ _ => 1) _)
    refine ⟨0, 1 * 1 + 0, ?_⟩
    cases h1
    refine ne_of_eq_of_ne h2 ?_
    norm_num

end DRec.Trn
