import Verif.Lemmas.Epochs
import Verif.Props.Descent
import Mathlib.Analysis.SpecialFunctions.Log.Deriv
import Mathlib.Analysis.SpecialFunctions.ExpDeriv

/-!
# C151: training makes progress in each of several epochs

For every number of epochs there are learning rates with which each of them lowers the loss of a batch that is used again and again.
-/

namespace DRec.Trn

open DRec.Spec DRec.Opt Filter Topology

variable {S : Type}

/-! ## Any model -/

/-- One epoch more. -/
theorem next_epoch (R : Algo S) (net : DRec.Net) (hn : net.all.Nodup) (L : Weights → Except Err ℝ) (hL : ∀ w, ∃ y, L w = .ok y) {s t t' : St S} {k : Nat}
    (h : fitEpochs R net (fun _ => L) k s = .ok t) (h' : fitEpochs R net (fun _ => L) (k + 1) s = .ok t') :
    t'.iterations = t.iterations + (groups net).length ∧ (∀ a i, a ∉ net.all → t'.w a i = t.w a i) ∧
    ∀ a i, a ∈ net.all → t'.w a i = t.w a i - (R.step (t.iterations + place net a) (t.slots a i) (partials L t.w a i)).2 ∧
      t'.slots a i = (R.step (t.iterations + place net a) (t.slots a i) (partials L t.w a i)).1 := by
  obtain ⟨y, hy⟩ := hL t.w
  rw [fitEpochs_succ, h] at h'
  simp only [hy] at h'
  rw [updateWeights_ok] at h'
  obtain ⟨c1, c2, c3⟩ := chain_groups R _ (groups net) t t' (fun _ => groups_nonempty) (by rw [groups_flatten]; exact hn) h'
  rw [groups_flatten] at c1 c2
  refine ⟨c3, fun a i ha => ?_, fun a i ha => ⟨?_, ?_⟩⟩
  · rw [c1]
    exact if_neg ha
  · rw [c1]
    exact if_pos ha
  · rw [c2]
    exact if_pos ha

theorem epochs_descent (R : ℝ → Algo S) (hR : Follows R) (net : DRec.Net) (hn : net.all.Nodup) (L : Weights → Except Err ℝ) (s : ℝ → St S) (w : Weights)
    (i0 : Nat) (hw : ∀ lr, (s lr).w = w) (hs : ∀ lr a i, (s lr).slots a i = (R lr).start) (hi : ∀ lr, (s lr).iterations = i0)
    (hL : ∀ w, ∃ y, L w = .ok y) (P : Finset (Addr × Nat)) (hP : ∀ p ∈ P, p.1 ∈ net.all)
    (h0 : ∀ w a i, (a, i) ∉ P → partials L w a i = 0)
    (hz : ∀ t lr k, (∀ k, 1 ≤ t k) → ((R lr).step (t k) (stored R t (fun _ _ => 0) lr k) 0).2 = 0)
    (hd : ContDiffAt ℝ 1 (fun v : P → ℝ => lossOr0 (L (embed P w v))) fun q => w q.1.1 q.1.2) (hg : ∃ a i, partials L w a i ≠ 0) (n : Nat) :
    ∃ ε > 0, ∀ lr, 0 < lr → lr < ε → ∀ k, k < n → ∃ s1 s2 y1 y2, fitEpochs (R lr) net (fun _ => L) k (s lr) = .ok s1 ∧
      fitEpochs (R lr) net (fun _ => L) (k + 1) (s lr) = .ok s2 ∧ L s1.w = .ok y1 ∧ L s2.w = .ok y2 ∧ y2 < y1 := by
  choose T hT using fun (k : Nat) (lr : ℝ) => fitEpochs_ok (R lr) net (loss := fun _ => L) (fun _ w => hL w) k (s lr)
  have hT0 : ∀ lr, T 0 lr = s lr := fun lr => by
    have h := hT 0 lr
    simp only [fitEpochs, List.range'_zero, chain, Except.ok.injEq] at h
    exact h.symm
  have hnext := fun k lr => next_epoch (R lr) net hn L hL (hT k lr) (hT (k + 1) lr)
  have hit : ∀ k lr, (T k lr).iterations = i0 + k * (groups net).length := by
    intro k lr
    induction k with
    | zero => rw [hT0, hi]; simp
    | succ k ih => rw [(hnext k lr).1, ih]; ring
  have hslot : ∀ k lr a i, a ∈ net.all → (T k lr).slots a i =
      stored R (fun k => i0 + k * (groups net).length + place net a) (fun k lr => partials L (T k lr).w a i) lr k := by
    intro k lr a i ha
    induction k with
    | zero => rw [hT0, hs]; rfl
    | succ k ih => rw [((hnext k lr).2.2 a i ha).2, ih, hit]; rfl
  have ht : ∀ a k, 1 ≤ i0 + k * (groups net).length + place net a := fun a k => by unfold place; omega
  obtain ⟨ε, he, h⟩ := weights_decrease R hR L w P hd (h0 w) hg (fun a k => i0 + k * (groups net).length + place net a) ht
    (fun k lr => (T k lr).w) (fun lr => by rw [hT0, hw])
    (fun k lr a i hai => by
      induction k with
      | zero => rw [hT0, hw]
      | succ k ih =>
        by_cases ha : a ∈ net.all
        · have hz' : (fun (k : Nat) (lr : ℝ) => partials L (T k lr).w a i) = fun _ _ => 0 := by
            funext k lr
            exact h0 _ a i hai
          rw [((hnext k lr).2.2 a i ha).1, hslot k lr a i ha, hit, hz', h0 _ a i hai,
            hz (fun k => i0 + k * (groups net).length + place net a) lr k (ht a), sub_zero, ih]
        · rw [(hnext k lr).2.1 a i ha, ih])
    (fun k lr a i hai => by rw [((hnext k lr).2.2 a i (hP _ hai)).1, hslot k lr a i (hP _ hai), hit]) n
  refine ⟨ε, he, fun lr h1 h2 k hk => ?_⟩
  obtain ⟨y1, hy1⟩ := hL (T k lr).w
  obtain ⟨y2, hy2⟩ := hL (T (k + 1) lr).w
  refine ⟨_, _, y1, y2, hT k lr, hT (k + 1) lr, hy1, hy2, ?_⟩
  have := h lr h1 h2 k hk
  simpa [hy1, hy2, lossOr0] using this

/-- Numbers whose derivative is always 0 stay as they are. -/
theorem still_sgd (t : Nat → Nat) (lr : ℝ) (k : Nat) : ((sgd lr).step (t k) (stored sgd t (fun _ _ => 0) lr k) 0).2 = 0 := by
  simp [sgd]

theorem still_momentum (mu : ℝ) (t : Nat → Nat) (lr : ℝ) (k : Nat) :
    ((momentum lr mu).step (t k) (stored (fun lr => momentum lr mu) t (fun _ _ => 0) lr k) 0).2 = 0 := by
  have h : ∀ k, stored (fun lr => momentum lr mu) t (fun _ _ => 0) lr k = 0 := by
    intro k
    induction k with
    | zero => rfl
    | succ k ih => simp only [stored, ih]; simp [momentum]
  rw [h]
  simp [momentum]

theorem still_adam (t : Nat → Nat) (lr : ℝ) (k : Nat) : ((adam lr).step (t k) (stored adam t (fun _ _ => 0) lr k) 0).2 = 0 := by
  have h : ∀ k, stored adam t (fun _ _ => 0) lr k = (0, 0) := by
    intro k
    induction k with
    | zero => rfl
    | succ k ih => simp only [stored, ih]; simp [adam]
  rw [h]
  simp [adam]

/-! ## CDAE -/

theorem cont_sum {E α : Type} [NormedAddCommGroup E] [NormedSpace ℝ E] (l : List α) {φ : α → E → ℝ} {v : E}
    (h : ∀ x ∈ l, ContDiffAt ℝ 1 (φ x) v) : ContDiffAt ℝ 1 (fun v => (l.map fun x => φ x v).sum) v := by
  induction l with
  | nil => simpa using contDiffAt_const
  | cons x l ih =>
    simp only [List.map_cons, List.sum_cons]
    exact (h x (by simp)).add (ih fun y hy => h y (by simp [hy]))

theorem cont_sigmoid (x : ℝ) : ContDiffAt ℝ 1 sigmoid x := by
  unfold sigmoid
  have h : (1 + Real.exp (-x)) ≠ 0 := by positivity
  exact contDiffAt_const.div (contDiffAt_const.add (contDiffAt_id.neg.exp)) h

theorem cdae_cont {E : Type} [NormedAddCommGroup E] [NormedSpace ℝ E] (f : ℝ → ℝ → ℝ) (rate : ℝ) {users items hidden a : Nat}
    {batch : List CdaeSample} (W : E → Weights) (v : E) (hW : ∀ x i, ContDiffAt ℝ 1 (fun v => W v x i) v)
    (hf : ∀ s ∈ batch, ∀ j, j < items → ∀ t ∈ batch, ∀ d ∈ t.wanted, ContDiffAt ℝ 1 (f d) (cdaePred items hidden a s (W v) j)) :
    ContDiffAt ℝ 1 (fun v => cdaeFormula f rate users items hidden a batch (W v)) v := by
  have hH : ∀ s k, ContDiffAt ℝ 1 (fun v => cdaeHidden hidden a s (W v) k) v := by
    intro s k
    unfold cdaeHidden
    exact (cont_sigmoid _).comp v (((cont_sum _ fun p _ => contDiffAt_const.mul (hW _ _)).add (hW _ _)).add (hW _ _))
  have hP : ∀ s j, ContDiffAt ℝ 1 (fun v => cdaePred items hidden a s (W v) j) v := by
    intro s j
    unfold cdaePred
    exact (cont_sigmoid _).comp v ((cont_sum _ fun k _ => (hH s k).mul (hW _ _)).add (hW _ _))
  have sq : ∀ x n, ContDiffAt ℝ 1 (fun v => ((List.range n).map fun i => W v x i ^ 2).sum) v :=
    fun x n => cont_sum _ fun i _ => (hW x i).pow 2
  unfold cdaeFormula
  simp only [div_eq_mul_inv]
  refine ContDiffAt.add (ContDiffAt.mul (cont_sum _ fun s hs => cont_sum _ fun d hd => ContDiffAt.mul
    (cont_sum _ fun p hp => ?_) contDiffAt_const) contDiffAt_const) ?_
  · obtain ⟨t, ht, rfl⟩ := List.mem_map.1 hd
    have hm := List.of_mem_zip hp
    exact (hf s hs p.2 (List.mem_range.1 hm.2) t ht p.1 hm.1).comp v (hP s p.2)
  · exact (((((sq _ _).mul contDiffAt_const).add (((sq _ _).mul contDiffAt_const).add ((sq _ _).mul contDiffAt_const)))).mul contDiffAt_const).mul
      contDiffAt_const

/-- The loss between a desired and a predicted number has a continuous derivative around all predictions of the batch. -/
def SmoothAround (f : ℝ → ℝ → ℝ) (m : Cdae) (batch : List CdaeSample) : Prop :=
  ∀ s ∈ batch, ∀ ps, m.reconstruct s.uid s.input = .ok ps → ∀ p ∈ ps, ∀ t ∈ batch, ∀ d ∈ t.wanted, ContDiffAt ℝ 1 (f d) p

theorem cdae_epochs (R : ℝ → Algo S) (hR : Follows R) (s : ℝ → St S) (w : Weights) (i0 : Nat) (hw : ∀ lr, (s lr).w = w)
    (hs : ∀ lr a i, (s lr).slots a i = (R lr).start) (hi : ∀ lr, (s lr).iterations = i0)
    (hz : ∀ t lr k, (∀ k, 1 ≤ t k) → ((R lr).step (t k) (stored R t (fun _ _ => 0) lr k) 0).2 = 0)
    (f : ℝ → ℝ → ℝ) (rate : ℝ) (users items hidden a : Nat) (batch : List CdaeSample) {y0 : ℝ}
    (hy : cdaeObjective f rate users items hidden a batch w = .ok y0) (hf : SmoothAround f (cdaeOf users items hidden a w) batch)
    (hg : ∃ x i, deriv (fun v => lossOr0 (cdaeObjective f rate users items hidden a batch (put w x i v))) (w x i) ≠ 0) (n : Nat) :
    ∃ ε > 0, ∀ lr, 0 < lr → lr < ε → ∀ k, k < n → ∃ s1 s2 y1 y2,
      fitEpochs (R lr) (cdaeNet a) (fun _ => cdaeObjective f rate users items hidden a batch) k (s lr) = .ok s1 ∧
      fitEpochs (R lr) (cdaeNet a) (fun _ => cdaeObjective f rate users items hidden a batch) (k + 1) (s lr) = .ok s2 ∧
      cdaeObjective f rate users items hidden a batch s1.w = .ok y1 ∧ cdaeObjective f rate users items hidden a batch s2.w = .ok y2 ∧ y2 < y1 := by
  have hb := cdae_valid hy
  have hform := cdae_formula (hidden := hidden) (a := a) f rate hb
  refine epochs_descent R hR (cdaeNet a) (cdae_nodup a) _ s w i0 hw hs hi (fun w' => ⟨_, hform w'⟩) (cdaeElements users items hidden a) ?_ ?_ hz ?_ hg n
  · rintro ⟨x, i⟩ hp
    rcases mem_cdaeElements.1 hp with ⟨rfl, -⟩ | ⟨rfl, -⟩ | ⟨rfl, -⟩ | ⟨rfl, -⟩ | ⟨rfl, -⟩
    · exact cdae_mem x 0 (by omega)
    · exact cdae_mem a 1 (by omega)
    · exact cdae_mem a 2 (by omega)
    · exact cdae_mem a 3 (by omega)
    · exact cdae_mem a 4 (by omega)
  · intro w x i hx
    unfold partials
    have : (fun v => lossOr0 (cdaeObjective f rate users items hidden a batch (put w x i v))) =
        fun _ => cdaeFormula f rate users items hidden a batch w := by
      funext v
      rw [hform]
      refine cdae_agree f rate hb fun z j hz => if_neg ?_
      rintro ⟨rfl, rfl⟩
      exact hx hz
    rw [this, deriv_const]
  · have he : (fun v : cdaeElements users items hidden a → ℝ => lossOr0 (cdaeObjective f rate users items hidden a batch
        (embed (cdaeElements users items hidden a) w v))) =
        fun v => cdaeFormula f rate users items hidden a batch (embed (cdaeElements users items hidden a) w v) := by
      funext v
      rw [hform]
      rfl
    rw [he]
    have hself : embed (cdaeElements users items hidden a) w (fun q => w q.1.1 q.1.2) = w := by
      funext x i
      unfold embed
      split <;> rfl
    refine cdae_cont f rate _ _ (fun x i => ?_) (fun s hs j hj t ht d hd => ?_)
    · unfold embed
      split
      · exact contDiffAt_pi.1 contDiffAt_id _
      · exact contDiffAt_const
    · rw [hself]
      exact hf s hs _ (reconstruct_pred s (hb s hs).1 (hb s hs).2 w) _ (List.mem_map.2 ⟨j, List.mem_range.2 hj, rfl⟩) t ht d hd

/-! ## The property -/

/-- **C151** (any model, Adam): wherever the loss has continuous derivatives in the numbers that it depends on, and these belong to registered
variables. -/
theorem C151_any (net : DRec.Net) (hn : net.all.Nodup) (L : Weights → Except Err ℝ) (w : Weights) (hL : ∀ w, ∃ y, L w = .ok y)
    (P : Finset (Addr × Nat)) (hP : ∀ p ∈ P, p.1 ∈ net.all) (hdep : ∀ w w', (∀ p ∈ P, w' p.1 p.2 = w p.1 p.2) → L w' = L w)
    (hd : ContDiffAt ℝ 1 (fun v : P → ℝ => lossOr0 (L fun a i => if h : (a, i) ∈ P then v ⟨(a, i), h⟩ else w a i)) fun q => w q.1.1 q.1.2)
    (hg : ∃ a i, deriv (fun v => lossOr0 (L (put w a i v))) (w a i) ≠ 0) (n : Nat) :
    ∃ ε > 0, ∀ lr, 0 < lr → lr < ε → ∀ k, k < n → ∃ s1 s2 y1 y2, fitEpochs (adam lr) net (fun _ => L) k (St.init (adam lr) w) = .ok s1 ∧
      fitEpochs (adam lr) net (fun _ => L) (k + 1) (St.init (adam lr) w) = .ok s2 ∧ L s1.w = .ok y1 ∧ L s2.w = .ok y2 ∧ y2 < y1 := by
  refine epochs_descent adam follows_adam net hn L (fun lr => St.init (adam lr) w) w 0 (fun _ => rfl) (fun _ _ _ => rfl) (fun _ => rfl) hL P hP
    (fun w a i h => ?_) (fun t lr k _ => still_adam t lr k) hd hg n
  unfold partials
  have : (fun v => lossOr0 (L (put w a i v))) = fun _ => lossOr0 (L w) := by
    funext v
    refine congrArg lossOr0 (hdep w _ fun p hp => if_neg ?_)
    rintro ⟨h1, h2⟩
    exact h (by rw [← h1, ← h2]; exact hp)
  rw [this, deriv_const]

/-- **C151** (CDAE, Adam): from all weights with a derivative other than 0 and for every `n`, there are learning rates with which each of the
first `n` epochs with a new optimizer lowers the loss of a batch that is used in all of them. -/
theorem C151_adam (f : ℝ → ℝ → ℝ) (rate : ℝ) (users items hidden a : Nat) (batch : List CdaeSample) (w : Weights) (y : ℝ)
    (hy : cdaeObjective f rate users items hidden a batch w = .ok y) (hf : SmoothAround f (cdaeOf users items hidden a w) batch)
    (hg : ∃ x i, deriv (fun v => lossOr0 (cdaeObjective f rate users items hidden a batch (put w x i v))) (w x i) ≠ 0) (n : Nat) :
    ∃ ε > 0, ∀ lr, 0 < lr → lr < ε → ∀ k, k < n → ∃ s1 s2 y1 y2,
      fitEpochs (adam lr) (cdaeNet a) (fun _ => cdaeObjective f rate users items hidden a batch) k (St.init (adam lr) w) = .ok s1 ∧
      fitEpochs (adam lr) (cdaeNet a) (fun _ => cdaeObjective f rate users items hidden a batch) (k + 1) (St.init (adam lr) w) = .ok s2 ∧
      cdaeObjective f rate users items hidden a batch s1.w = .ok y1 ∧ cdaeObjective f rate users items hidden a batch s2.w = .ok y2 ∧ y2 < y1 :=
  cdae_epochs adam follows_adam (fun lr => St.init (adam lr) w) w 0 (fun _ => rfl) (fun _ _ _ => rfl) (fun _ => rfl)
    (fun t lr k _ => still_adam t lr k) f rate users items hidden a batch hy hf hg n

/-- **C151** (CDAE, gradient descent with momentum). -/
theorem C151_momentum (mu : ℝ) (hmu : 0 ≤ mu) (f : ℝ → ℝ → ℝ) (rate : ℝ) (users items hidden a : Nat) (batch : List CdaeSample) (w : Weights) (y : ℝ)
    (hy : cdaeObjective f rate users items hidden a batch w = .ok y) (hf : SmoothAround f (cdaeOf users items hidden a w) batch)
    (hg : ∃ x i, deriv (fun v => lossOr0 (cdaeObjective f rate users items hidden a batch (put w x i v))) (w x i) ≠ 0) (n : Nat) :
    ∃ ε > 0, ∀ lr, 0 < lr → lr < ε → ∀ k, k < n → ∃ s1 s2 y1 y2,
      fitEpochs (momentum lr mu) (cdaeNet a) (fun _ => cdaeObjective f rate users items hidden a batch) k (St.init (momentum lr mu) w) = .ok s1 ∧
      fitEpochs (momentum lr mu) (cdaeNet a) (fun _ => cdaeObjective f rate users items hidden a batch) (k + 1) (St.init (momentum lr mu) w) = .ok s2 ∧
      cdaeObjective f rate users items hidden a batch s1.w = .ok y1 ∧ cdaeObjective f rate users items hidden a batch s2.w = .ok y2 ∧ y2 < y1 :=
  cdae_epochs _ (follows_momentum hmu) (fun lr => St.init (momentum lr mu) w) w 0 (fun _ => rfl) (fun _ _ _ => rfl) (fun _ => rfl)
    (fun t lr k _ => still_momentum mu t lr k) f rate users items hidden a batch hy hf hg n

/-- **C151** (CDAE, gradient descent): from every state. -/
theorem C151_sgd (f : ℝ → ℝ → ℝ) (rate : ℝ) (users items hidden a : Nat) (batch : List CdaeSample) (s : St Unit) (y : ℝ)
    (hy : cdaeObjective f rate users items hidden a batch s.w = .ok y) (hf : SmoothAround f (cdaeOf users items hidden a s.w) batch)
    (hg : ∃ x i, deriv (fun v => lossOr0 (cdaeObjective f rate users items hidden a batch (put s.w x i v))) (s.w x i) ≠ 0) (n : Nat) :
    ∃ ε > 0, ∀ lr, 0 < lr → lr < ε → ∀ k, k < n → ∃ s1 s2 y1 y2,
      fitEpochs (sgd lr) (cdaeNet a) (fun _ => cdaeObjective f rate users items hidden a batch) k s = .ok s1 ∧
      fitEpochs (sgd lr) (cdaeNet a) (fun _ => cdaeObjective f rate users items hidden a batch) (k + 1) s = .ok s2 ∧
      cdaeObjective f rate users items hidden a batch s1.w = .ok y1 ∧ cdaeObjective f rate users items hidden a batch s2.w = .ok y2 ∧ y2 < y1 :=
  cdae_epochs sgd follows_sgd (fun _ => s) s.w s.iterations (fun _ => rfl) (fun _ _ _ => rfl) (fun _ => rfl)
    (fun t lr k _ => still_sgd t lr k) f rate users items hidden a batch hy hf hg n

/-- **C151** (the two losses of CDAE): mean squared error qualifies everywhere, binary crossentropy between the two clipping bounds. -/
theorem C151_smooth (m : Cdae) (batch : List CdaeSample) : SmoothAround mse m batch ∧
    ((∀ s ∈ batch, ∀ ps, m.reconstruct s.uid s.input = .ok ps → ∀ p ∈ ps, kEps < p ∧ p < 1 - kEps) → SmoothAround bce m batch) := by
  have hk : (0 : ℝ) < kEps := by norm_num [kEps]
  refine ⟨fun s _ ps _ p _ t _ d _ => ?_, fun h s hs ps hps p hp t _ d _ => ?_⟩
  · unfold mse
    fun_prop
  · obtain ⟨h1, h2⟩ := h s hs ps hps p hp
    have hev : (bce d) =ᶠ[nhds p] fun q => -(d * Real.log (q + kEps) + (1 - d) * Real.log (1 - q + kEps)) := by
      filter_upwards [Ioo_mem_nhds h1 h2] with q hq
      have : clipProb q = q := by
        unfold clipProb
        rw [min_eq_left hq.2.le, max_eq_right hq.1.le]
      simp only [bce, this]
    refine ContDiffAt.congr_of_eventuallyEq ?_ hev
    have a1 : p + kEps ≠ 0 := by linarith
    have a2 : 1 - p + kEps ≠ 0 := by linarith
    have d1 : ContDiffAt ℝ 1 (fun q : ℝ => Real.log (q + kEps)) p := (contDiffAt_id.add contDiffAt_const).log a1
    have d2 : ContDiffAt ℝ 1 (fun q : ℝ => Real.log (1 - q + kEps)) p := ((contDiffAt_const.sub contDiffAt_id).add contDiffAt_const).log a2
    exact ((contDiffAt_const.mul d1).add (contDiffAt_const.mul d2)).neg

/-! ## Examples -/

/-- A network with two users and one item, whose weights are all 1: 100 epochs of Adam, and 100 epochs of gradient descent. -/
example : (∃ ε > 0, ∀ lr, 0 < lr → lr < ε → ∀ k : Nat, k < 100 → ∃ s1 s2 y1 y2,
      fitEpochs (adam lr) (cdaeNet 0) (fun _ => cdaeObjective mse 1 2 1 1 0 [⟨0, [1], [1]⟩]) k (St.init (adam lr) fun _ _ => 1) = .ok s1 ∧
      fitEpochs (adam lr) (cdaeNet 0) (fun _ => cdaeObjective mse 1 2 1 1 0 [⟨0, [1], [1]⟩]) (k + 1) (St.init (adam lr) fun _ _ => 1) = .ok s2 ∧
      cdaeObjective mse 1 2 1 1 0 [⟨0, [1], [1]⟩] s1.w = .ok y1 ∧ cdaeObjective mse 1 2 1 1 0 [⟨0, [1], [1]⟩] s2.w = .ok y2 ∧ y2 < y1) ∧
    ∃ ε > 0, ∀ lr, 0 < lr → lr < ε → ∀ k : Nat, k < 100 → ∃ s1 s2 y1 y2,
      fitEpochs (sgd lr) (cdaeNet 0) (fun _ => cdaeObjective mse 1 2 1 1 0 [⟨0, [1], [1]⟩]) k ⟨fun _ _ => 1, fun _ _ => (), 7⟩ = .ok s1 ∧
      fitEpochs (sgd lr) (cdaeNet 0) (fun _ => cdaeObjective mse 1 2 1 1 0 [⟨0, [1], [1]⟩]) (k + 1) ⟨fun _ _ => 1, fun _ _ => (), 7⟩ = .ok s2 ∧
      cdaeObjective mse 1 2 1 1 0 [⟨0, [1], [1]⟩] s1.w = .ok y1 ∧ cdaeObjective mse 1 2 1 1 0 [⟨0, [1], [1]⟩] s2.w = .ok y2 ∧ y2 < y1 := by
  have hb : ∀ s ∈ [(⟨0, [1], [1]⟩ : CdaeSample)], s.uid < 2 ∧ s.input.length = 1 := by simp
  exact ⟨C151_adam mse 1 2 1 1 0 _ _ _ (cdae_formula mse 1 hb _) (C151_smooth _ _).1 (example_deriv mse) 100,
    C151_sgd mse 1 2 1 1 0 _ ⟨fun _ _ => 1, fun _ _ => (), 7⟩ _ (cdae_formula mse 1 hb _) (C151_smooth _ _).1 (example_deriv mse) 100⟩

/-- A loss that depends on one number only: `x²`, with the number at 3. -/
example : ∃ ε > 0, ∀ lr, 0 < lr → lr < ε → ∀ k : Nat, k < 5 → ∃ s1 s2 y1 y2,
    fitEpochs (adam lr) ⟨[0], [], []⟩ (fun _ w => .ok (w 0 0 ^ 2)) k (St.init (adam lr) fun _ _ => 3) = .ok s1 ∧
    fitEpochs (adam lr) ⟨[0], [], []⟩ (fun _ w => .ok (w 0 0 ^ 2)) (k + 1) (St.init (adam lr) fun _ _ => 3) = .ok s2 ∧
    (.ok (s1.w 0 0 ^ 2) : Except Err ℝ) = .ok y1 ∧ (.ok (s2.w 0 0 ^ 2) : Except Err ℝ) = .ok y2 ∧ y2 < y1 := by
  refine C151_any ⟨[0], [], []⟩ (by decide) (fun w => .ok (w 0 0 ^ 2)) (fun _ _ => 3) (fun w => ⟨_, rfl⟩) {(0, 0)} ?_ ?_ ?_ ?_ 5
  · simp [DRec.Net.all]
  · intro w w' h
    rw [h (0, 0) (by simp)]
  · simp only [lossOr0, Finset.mem_singleton, dite_true]
    fun_prop
  · refine ⟨0, 0, ?_⟩
    simp [lossOr0, put]

/-- Momentum 0.9 for the same network. -/
example : ∃ ε > 0, ∀ lr, 0 < lr → lr < ε → ∀ k : Nat, k < 3 → ∃ s1 s2 y1 y2,
    fitEpochs (momentum lr 0.9) (cdaeNet 0) (fun _ => cdaeObjective mse 1 2 1 1 0 [⟨0, [1], [1]⟩]) k (St.init (momentum lr 0.9) fun _ _ => 1) = .ok s1 ∧
    fitEpochs (momentum lr 0.9) (cdaeNet 0) (fun _ => cdaeObjective mse 1 2 1 1 0 [⟨0, [1], [1]⟩]) (k + 1) (St.init (momentum lr 0.9) fun _ _ => 1) = .ok s2 ∧
    cdaeObjective mse 1 2 1 1 0 [⟨0, [1], [1]⟩] s1.w = .ok y1 ∧ cdaeObjective mse 1 2 1 1 0 [⟨0, [1], [1]⟩] s2.w = .ok y2 ∧ y2 < y1 := by
  have hb : ∀ s ∈ [(⟨0, [1], [1]⟩ : CdaeSample)], s.uid < 2 ∧ s.input.length = 1 := by simp
  exact C151_momentum 0.9 (by norm_num) mse 1 2 1 1 0 _ _ _ (cdae_formula mse 1 hb _) (C151_smooth _ _).1 (example_deriv mse) 3

end DRec.Trn
