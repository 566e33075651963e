import Verif.Model.CustomDeep
import Verif.Lemmas.DescentCdae
import Verif.Lemmas.CdaeFloat

/-!
# C149: what the targets of a batch teach CDAE

The losses meet every prediction with every wanted vector (C85).  Squared error and cross-entropy are affine in the wanted value up to a term
without the prediction, so the derivatives contain the wanted vectors of a batch only as their sum.
-/

namespace DRec.Trn

open DRec.Opt

/-- A loss whose mixed part is linear in the wanted value. -/
def Affine (f : ℝ → ℝ → ℝ) : Prop := ∃ α β γ : ℝ → ℝ, ∀ d p, f d p = α p + d * β p + γ d

theorem affine_mse : Affine mse := ⟨fun p => p ^ 2, fun p => -2 * p, fun d => d ^ 2, fun d p => by unfold mse; ring⟩

theorem affine_bce : Affine bce :=
  ⟨fun p => -Real.log (1 - clipProb p + kEps), fun p => Real.log (1 - clipProb p + kEps) - Real.log (clipProb p + kEps), fun _ => 0,
    fun d p => by unfold bce; ring⟩

/-- Training does not notice a constant added to the loss. -/
theorem fit_shift {S : Type} (R : Algo S) (net : DRec.Net) (loss loss' : Nat → Weights → Except Err ℝ) (K : Nat → ℝ)
    (h : ∀ e w, ∃ x, loss e w = .ok x ∧ loss' e w = .ok (x + K e)) (n : Nat) (s : St S) :
    fitEpochs R net loss n s = fitEpochs R net loss' n s := by
  unfold fitEpochs
  congr 1
  funext e s
  obtain ⟨x, h1, h2⟩ := h e s.w
  rw [h1, h2]
  simp only
  congr 1
  funext a
  unfold gradient
  congr 1
  funext i
  have : (fun x => lossOr0 (loss' e (put s.w a i x))) = fun x => lossOr0 (loss e (put s.w a i x)) + K e := by
    funext y
    obtain ⟨z, h3, h4⟩ := h e (put s.w a i y)
    rw [h3, h4]
    rfl
  rw [this, deriv_add_const]

theorem zip_sum (f : ℝ → ℝ → ℝ) (P : Nat → ℝ) {I : Nat} (d : List ℝ) (hd : d.length = I) :
    ((d.zip (List.range I)).map fun p => f p.1 (P p.2)).sum = ∑ j ∈ Finset.range I, f (d.getD j 0) (P j) := by
  have : (d.zip (List.range I)).map (fun p => f p.1 (P p.2)) = (List.range I).map fun j => f (d.getD j 0) (P j) := by
    refine List.ext_getElem (by simp [hd]) fun i h1 h2 => ?_
    have : i < d.length := by simp at h1; omega
    simp [List.getD_eq_getElem?_getD, this]
  rw [this]
  clear this hd
  induction I with
  | zero => simp
  | succ I ih => rw [List.range_succ, List.map_append, List.sum_append, ih, Finset.sum_range_succ]; simp

theorem sum_affine {α β γ : ℝ → ℝ} (P : Nat → ℝ) (I : Nat) (D : List (List ℝ)) :
    (D.map fun d => (∑ j ∈ Finset.range I, (α (P j) + d.getD j 0 * β (P j) + γ (d.getD j 0))) / (I : ℝ)).sum =
      (∑ j ∈ Finset.range I, (D.length * α (P j) + (D.map fun d => d.getD j 0).sum * β (P j))) / (I : ℝ) +
      (∑ j ∈ Finset.range I, (D.map fun d => γ (d.getD j 0)).sum) / (I : ℝ) := by
  induction D with
  | nil => simp
  | cons d D ih =>
    simp only [List.map_cons, List.sum_cons, ih, List.length_cons, ← add_div, ← Finset.sum_add_distrib]
    congr 1
    refine Finset.sum_congr rfl fun j _ => ?_
    push_cast
    ring

/-- The samples of a batch with other wanted vectors. -/
def Alike (items : Nat) (b b' : List CdaeSample) : Prop :=
  (b.map fun s => (s.uid, s.input)) = (b'.map fun s => (s.uid, s.input)) ∧ (∀ s ∈ b, s.wanted.length = items) ∧ (∀ s ∈ b', s.wanted.length = items) ∧
    ∀ j, j < items → (b.map fun s => s.wanted.getD j 0).sum = (b'.map fun s => s.wanted.getD j 0).sum

theorem cdae_targets (f : ℝ → ℝ → ℝ) (hf : Affine f) (rate : ℝ) (users items hidden a : Nat) (b b' : List CdaeSample) (h : Alike items b b')
    (hb : ∀ s ∈ b, s.uid < users ∧ s.input.length = items) :
    ∃ K : ℝ, ∀ w, ∃ x, cdaeObjective f rate users items hidden a b w = .ok x ∧ cdaeObjective f rate users items hidden a b' w = .ok (x + K) := by
  obtain ⟨α, β, γ, hf⟩ := hf
  obtain ⟨h1, h2, h3, h4⟩ := h
  have hlen : b.length = b'.length := by simpa using congrArg List.length h1
  have hb' : ∀ s ∈ b', s.uid < users ∧ s.input.length = items := by
    intro s hs
    have : (s.uid, s.input) ∈ b.map fun s => (s.uid, s.input) := h1 ▸ List.mem_map_of_mem hs
    obtain ⟨t, ht, e⟩ := List.mem_map.1 this
    obtain ⟨e1, e2⟩ := Prod.mk.inj e
    rw [← e1, ← e2]
    exact hb t ht
  -- the sum over the wanted vectors for one prediction
  have inner : ∀ (t : List CdaeSample), (∀ s ∈ t, s.wanted.length = items) → ∀ P : Nat → ℝ,
      ((t.map (·.wanted)).map fun d => ((d.zip (List.range items)).map fun p => f p.1 (P p.2)).sum / (((d.zip (List.range items)).length : Nat) : ℝ)).sum =
      (∑ j ∈ Finset.range items, (t.length * α (P j) + (t.map fun s => s.wanted.getD j 0).sum * β (P j))) / (items : ℝ) +
      (∑ j ∈ Finset.range items, (t.map fun s => γ (s.wanted.getD j 0)).sum) / (items : ℝ) := by
    intro t ht P
    have := sum_affine (α := α) (β := β) (γ := γ) P items (t.map (·.wanted))
    simp only [List.map_map, Function.comp_def, List.length_map] at this
    rw [← this, List.map_map]
    refine congrArg List.sum (List.map_congr_left fun s hs => ?_)
    simp only [Function.comp_apply]
    rw [zip_sum f P _ (ht s hs), List.length_zip, ht s hs, List.length_range, min_self]
    congr 1
    exact Finset.sum_congr rfl fun j _ => hf _ _
  refine ⟨((b'.length : ℝ) * ((∑ j ∈ Finset.range items, (b'.map fun s => γ (s.wanted.getD j 0)).sum) / (items : ℝ)) -
      (b.length : ℝ) * ((∑ j ∈ Finset.range items, (b.map fun s => γ (s.wanted.getD j 0)).sum) / (items : ℝ))) / ((b.length * b.length : Nat) : ℝ), fun w => ?_⟩
  refine ⟨_, cdae_formula f rate hb w, ?_⟩
  rw [cdae_formula f rate hb' w]
  congr 1
  unfold cdaeFormula
  -- the predictions of the two batches
  have hp : ∀ F : (Nat → ℝ) → ℝ, b'.map (fun s => F (cdaePred items hidden a s w)) = b.map fun s => F (cdaePred items hidden a s w) := by
    intro F
    have e : ∀ t : List CdaeSample, t.map (fun s => F (cdaePred items hidden a s w)) =
        (t.map fun s => (s.uid, s.input)).map fun q => F (cdaePred items hidden a ⟨q.1, q.2, []⟩ w) := by
      intro t
      rw [List.map_map]
      rfl
    rw [e, e, h1]
  have sums : ∀ (t : List CdaeSample), (∀ s ∈ t, s.wanted.length = items) →
      (t.map fun s => ((t.map (·.wanted)).map fun d =>
        ((d.zip (List.range items)).map fun p => f p.1 (cdaePred items hidden a s w p.2)).sum / (((d.zip (List.range items)).length : Nat) : ℝ)).sum).sum =
      (t.map fun s => (∑ j ∈ Finset.range items, (t.length * α (cdaePred items hidden a s w j) +
        (t.map fun s => s.wanted.getD j 0).sum * β (cdaePred items hidden a s w j))) / (items : ℝ)).sum +
      t.length * ((∑ j ∈ Finset.range items, (t.map fun s => γ (s.wanted.getD j 0)).sum) / (items : ℝ)) := by
    intro t ht
    have : ∀ s : CdaeSample, _ := fun s => inner t ht (cdaePred items hidden a s w)
    simp only [this]
    rw [List.sum_map_add, List.map_const', List.sum_replicate, nsmul_eq_mul]
  rw [sums b h2, sums b' h3]
  have e1 := hp fun P => (∑ j ∈ Finset.range items, (b.length * α (P j) + (b.map fun s => s.wanted.getD j 0).sum * β (P j))) / (items : ℝ)
  have e2 : ∀ P : Nat → ℝ, (∑ j ∈ Finset.range items, (b'.length * α (P j) + (b'.map fun s => s.wanted.getD j 0).sum * β (P j))) / (items : ℝ) =
      (∑ j ∈ Finset.range items, (b.length * α (P j) + (b.map fun s => s.wanted.getD j 0).sum * β (P j))) / (items : ℝ) := by
    intro P
    rw [hlen]
    congr 1
    exact Finset.sum_congr rfl fun j hj => by rw [h4 j (Finset.mem_range.1 hj)]
  simp only [e2, e1]
  have n1 : (b.map fun _ => b.length).sum = b.length * b.length := by simp
  have n2 : (b'.map fun _ => b'.length).sum = b.length * b.length := by simp [hlen]
  rw [n1, n2, ← hlen]
  ring

/-- CDAE: of the wanted vectors of a batch, training uses the mean only.  Two fits with the same users and inputs whose wanted vectors have the
same sums end with the same weights and the same state of the optimizer. -/
theorem C149_cdae {S : Type} (R : Algo S) (f : ℝ → ℝ → ℝ) (hf : f = mse ∨ f = bce) (rate : ℝ) (users items hidden a : Nat) (b b' : Nat → List CdaeSample)
    (h : ∀ e, Alike items (b e) (b' e)) (hb : ∀ e, ∀ s ∈ b e, s.uid < users ∧ s.input.length = items) (n : Nat) (s : St S) :
    fitEpochs R (cdaeNet a) (fun e => cdaeObjective f rate users items hidden a (b e)) n s =
      fitEpochs R (cdaeNet a) (fun e => cdaeObjective f rate users items hidden a (b' e)) n s := by
  have ha : Affine f := by
    rcases hf with rfl | rfl
    · exact affine_mse
    · exact affine_bce
  choose K hK using fun e => cdae_targets f ha rate users items hidden a (b e) (b' e) (h e) (hb e)
  exact fit_shift R _ _ _ K (fun e w => hK e w) n s

/-- In particular the wanted vectors can be handed out to the users of the batch in any other way. -/
theorem C149_handed_out {S : Type} (R : Algo S) (f : ℝ → ℝ → ℝ) (hf : f = mse ∨ f = bce) (rate : ℝ) (users items hidden a : Nat)
    (samples : Nat → List (Nat × List ℝ)) (wanted wanted' : Nat → List (List ℝ)) (hp : ∀ e, (wanted e).Perm (wanted' e))
    (hl : ∀ e, (wanted e).length = (samples e).length) (hw : ∀ e, ∀ d ∈ wanted e, d.length = items)
    (hb : ∀ e, ∀ s ∈ samples e, s.1 < users ∧ s.2.length = items) (n : Nat) (s : St S) :
    fitEpochs R (cdaeNet a) (fun e => cdaeObjective f rate users items hidden a (((samples e).zip (wanted e)).map fun q => ⟨q.1.1, q.1.2, q.2⟩)) n s =
      fitEpochs R (cdaeNet a) (fun e => cdaeObjective f rate users items hidden a (((samples e).zip (wanted' e)).map fun q => ⟨q.1.1, q.1.2, q.2⟩)) n s := by
  have first : ∀ e, ∀ W : List (List ℝ), W.length = (samples e).length → ((samples e).zip W).map (fun q => (q.1.1, q.1.2)) = samples e := by
    intro e W h
    have := List.map_fst_zip (l₁ := samples e) (l₂ := W) (by omega)
    exact this
  have second : ∀ e, ∀ W : List (List ℝ), W.length = (samples e).length → ∀ j, ((samples e).zip W).map (fun q => q.2.getD j 0) = W.map fun d => d.getD j 0 := by
    intro e W h j
    have := List.map_snd_zip (l₁ := samples e) (l₂ := W) (by omega)
    conv_rhs => rw [← this, List.map_map]
    rfl
  refine C149_cdae R f hf rate users items hidden a _ _ (fun e => ?_) (fun e s hs => ?_) n s
  · have hl' : (wanted' e).length = (samples e).length := by rw [← (hp e).length_eq, hl e]
    refine ⟨?_, ?_, ?_, fun j _ => ?_⟩
    · simp only [List.map_map, Function.comp_def]
      rw [first e _ (hl e), first e _ hl']
    · intro s hs
      obtain ⟨q, hq, rfl⟩ := List.mem_map.1 hs
      exact hw e _ (List.of_mem_zip hq).2
    · intro s hs
      obtain ⟨q, hq, rfl⟩ := List.mem_map.1 hs
      exact hw e _ ((hp e).mem_iff.2 (List.of_mem_zip hq).2)
    · simp only [List.map_map, Function.comp_def]
      rw [second e _ (hl e), second e _ hl']
      exact ((hp e).map _).sum_eq
  · obtain ⟨q, hq, rfl⟩ := List.mem_map.1 hs
    exact hb e _ (List.of_mem_zip hq).1

/-- The example recommender: of the desired values of a batch, training uses the mean only. -/
theorem C149_custom {S : Type} (R : Algo S) (rate : ℝ) (a : Nat) (pairs : Nat → List (Nat × Nat)) (wanted wanted' : Nat → List ℝ)
    (hl : ∀ e, (wanted e).length = (pairs e).length) (hl' : ∀ e, (wanted' e).length = (pairs e).length) (hs : ∀ e, (wanted e).sum = (wanted' e).sum)
    (n : Nat) (s : St S) :
    fitEpochs R (customNet a) (fun e => customObjective rate a (((pairs e).zip (wanted e)).map fun q => (q.1.1, q.1.2, q.2))) n s =
      fitEpochs R (customNet a) (fun e => customObjective rate a (((pairs e).zip (wanted' e)).map fun q => (q.1.1, q.1.2, q.2))) n s := by
  have first : ∀ e, ∀ W : List ℝ, W.length = (pairs e).length → ∀ w : Weights,
      ((pairs e).zip W).map (fun q => [customScore a w q.1.1 q.1.2]) = (pairs e).map fun q => [customScore a w q.1 q.2] := by
    intro e W h w
    have := List.map_fst_zip (l₁ := pairs e) (l₂ := W) (by omega)
    conv_rhs => rw [← this, List.map_map]
    rfl
  have second : ∀ e, ∀ W : List ℝ, W.length = (pairs e).length → ((pairs e).zip W).map (fun q => [q.2]) = W.map fun d => [d] := by
    intro e W h
    have := List.map_snd_zip (l₁ := pairs e) (l₂ := W) (by omega)
    conv_rhs => rw [← this, List.map_map]
    rfl
  have : (fun e => customObjective rate a (((pairs e).zip (wanted e)).map fun q => (q.1.1, q.1.2, q.2))) =
      fun e => customObjective rate a (((pairs e).zip (wanted' e)).map fun q => (q.1.1, q.1.2, q.2)) := by
    funext e w
    unfold customObjective
    simp only [List.map_map, Function.comp_def, List.length_map, List.length_zip, hl, hl']
    rw [first e _ (hl e), first e _ (hl' e), second e _ (hl e), second e _ (hl' e)]
    congr 2
    unfold cdaeLoss average vecLoss average
    simp only [List.map_map, Function.comp_def, List.length_flatMap, sum_flatMap', List.length_map, hl, hl']
    congr 2
    refine List.map_congr_left fun q _ => ?_
    have lin : ∀ (p : ℝ) (W : List ℝ), (W.map fun d => bce d p).sum = W.length * (-Real.log (1 - clipProb p + kEps)) +
        W.sum * (Real.log (1 - clipProb p + kEps) - Real.log (clipProb p + kEps)) := by
      intro p W
      induction W with
      | nil => simp
      | cons d W ih =>
        rw [List.map_cons, List.sum_cons, ih, List.length_cons, List.sum_cons, bce]
        push_cast
        ring
    simp [lin, hl, hl', hs]
  rw [this]

/-- The example recommender ranks the items in the same order for all users: by their internal ids. -/
theorem C149_custom_order (a : Nat) (w : Weights) (u i j : Nat) :
    (customScore a w u i < customScore a w u j ↔ i * w a 1 < j * w a 1) ∧ (0 < w a 1 → (customScore a w u i < customScore a w u j ↔ i < j)) := by
  have h1 : customScore a w u i < customScore a w u j ↔ (i : ℝ) * w a 1 < j * w a 1 := by
    unfold customScore
    rw [Cd.sigmoid_eq, Cd.sigmoid_eq, Real.sigmoid_lt_iff]
    exact add_lt_add_iff_left _
  refine ⟨h1, fun h => h1.trans ?_⟩
  rw [mul_lt_mul_iff_of_pos_right h, Nat.cast_lt]

/-- Two users with swapped interactions, three epochs of Adam. -/
example (s : St (ℝ × ℝ)) : fitEpochs (adam 1) (cdaeNet 0) (fun _ => cdaeObjective mse 1 2 2 1 0 [⟨0, [1, 0], [1, 0]⟩, ⟨1, [0, 1], [0, 1]⟩]) 3 s =
    fitEpochs (adam 1) (cdaeNet 0) (fun _ => cdaeObjective mse 1 2 2 1 0 [⟨0, [1, 0], [0, 1]⟩, ⟨1, [0, 1], [1, 0]⟩]) 3 s :=
  C149_handed_out (adam 1) mse (.inl rfl) 1 2 2 1 0 (fun _ => [(0, [1, 0]), (1, [0, 1])]) (fun _ => [[1, 0], [0, 1]]) (fun _ => [[0, 1], [1, 0]])
    (fun _ => List.Perm.swap _ _ _) (by simp) (by simp) (by simp) 3 s

/-- Wanted vectors that are no permutation of each other, with the same mean. -/
example : Alike 1 [⟨0, [1], [1]⟩, ⟨1, [0], [0]⟩] [⟨0, [1], [1 / 2]⟩, ⟨1, [0], [1 / 2]⟩] := by
  refine ⟨rfl, by simp, by simp, fun j hj => ?_⟩
  obtain rfl : j = 0 := by omega
  norm_num

/-- A rating of 5 and one of 1 in the example, exchanged. -/
example (s : St (ℝ × ℝ)) : fitEpochs (adam 1) (customNet 0) (fun _ => customObjective 1 0 [(3, 4, 5), (7, 2, 1)]) 2 s =
    fitEpochs (adam 1) (customNet 0) (fun _ => customObjective 1 0 [(3, 4, 1), (7, 2, 5)]) 2 s :=
  C149_custom (adam 1) 1 0 (fun _ => [(3, 4), (7, 2)]) (fun _ => [5, 1]) (fun _ => [1, 5]) (by simp) (by simp) (fun _ => by norm_num) 2 s

end DRec.Trn
