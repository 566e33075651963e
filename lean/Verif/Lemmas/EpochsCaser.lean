import Verif.Lemmas.EpochsDmf
import Verif.Lemmas.DescentCaser
import Verif.Spec.Epochs

/-! # The loss of Caser has continuous derivatives wherever no value is at a bound

The lemmas of `Lemmas/DescentCaser` with continuous derivatives. -/

namespace DRec.Trn.Cont

open DRec.Spec DRec.Opt DRec.Cas

variable {E : Type} [NormedAddCommGroup E] [NormedSpace ℝ E]

theorem max_diff (n : Nat) (h : Nat → E → ℝ) {v : E} (hd : ∀ t, t < n → ContDiffAt ℝ 1 (h t) v)
    (hc : (∃ t0, t0 < n ∧ ∀ t, t < n → t ≠ t0 → h t v < h t0 v) ∨ ∃ c, ∀ t, t < n → h t =ᶠ[nhds v] fun _ => c) :
    ContDiffAt ℝ 1 (fun x => maxOf ((List.range n).map fun t => h t x)) v := by
  rcases hc with ⟨t0, h0, hc⟩ | ⟨c, hc⟩
  · refine (hd t0 h0).congr_of_eventuallyEq ?_
    have hev : ∀ᶠ x in nhds v, ∀ t ∈ Finset.range n, t ≠ t0 → h t x < h t0 x := by
      rw [Filter.eventually_all_finset]
      intro t ht
      have ht := Finset.mem_range.1 ht
      by_cases e : t = t0
      · exact Filter.Eventually.of_forall fun x h => absurd e h
      · filter_upwards [(hd t ht).continuousAt.eventually_lt (hd t0 h0).continuousAt (hc t ht e)] with x hx _
        exact hx
    filter_upwards [hev] with x hx
    obtain ⟨g1, g2⟩ := maxOf_greatest ((List.range n).map fun t => h t x) (by
      intro e
      have := congrArg List.length e
      simp at this
      omega)
    refine le_antisymm ?_ (g2 _ (List.mem_map.2 ⟨t0, List.mem_range.2 h0, rfl⟩))
    obtain ⟨t, ht, e⟩ := List.mem_map.1 g1
    rw [← e]
    by_cases e' : t = t0
    · rw [e']
    · exact (hx t (Finset.mem_range.2 (List.mem_range.1 ht)) e').le
  · have hev : ∀ᶠ x in nhds v, ∀ t ∈ Finset.range n, h t x = c := by
      rw [Filter.eventually_all_finset]
      exact fun t ht => hc t (Finset.mem_range.1 ht)
    have : (fun x => maxOf ((List.range n).map fun t => h t x)) =ᶠ[nhds v] fun _ => maxOf ((List.range n).map fun _ => c) := by
      filter_upwards [hev] with x hx
      congr 1
      exact List.map_congr_left fun t ht => hx t (Finset.mem_range.2 (List.mem_range.1 ht))
    exact contDiffAt_const.congr_of_eventuallyEq this

theorem D1.append {F G : E → List ℝ} {v : E} (hF : D1 F v) (hG : D1 G v) : D1 (fun x => F x ++ G x) v := by
  obtain ⟨fs, f1, f2⟩ := hF
  obtain ⟨gs, g1, g2⟩ := hG
  refine ⟨fs ++ gs, fun x => by beta_reduce; rw [f1, g1, List.map_append], fun g hg => ?_⟩
  rcases List.mem_append.1 hg with h | h
  · exact f2 g h
  · exact g2 g h

theorem D1.flatMap {α : Type} (l : List α) {φ : α → E → List ℝ} {v : E} (h : ∀ y ∈ l, D1 (φ y) v) : D1 (fun x => l.flatMap fun y => φ y x) v := by
  induction l with
  | nil => exact ⟨[], fun x => rfl, by simp⟩
  | cons y l ih =>
    simp only [List.flatMap_cons]
    exact (h y (by simp)).append (ih fun z hz => h z (by simp [hz]))

theorem D1.getD {F : E → List ℝ} {v : E} (h : D1 F v) (i : Nat) : ContDiffAt ℝ 1 (fun x => (F x).getD i 0) v := by
  obtain ⟨gs, h1, h2⟩ := h
  have : (fun x => (F x).getD i 0) = gs.getD i fun _ => 0 := by
    funext x
    rw [h1]
    simp only [List.getD_eq_getElem?_getD, List.getElem?_map]
    cases gs[i]? <;> rfl
  rw [this, List.getD_eq_getElem?_getD]
  cases hg : gs[i]? with
  | none => exact contDiffAt_const
  | some g => exact h2 g (List.mem_of_getElem? hg)

theorem noisy_D1 {F : E → List ℝ} {v : E} (h : D1 F v) (noise : Option (ℝ × (Nat → Nat → ℝ))) (b : Nat) : D1 (fun x => noisy noise b (F x)) v := by
  cases noise with
  | none => exact h
  | some r =>
    obtain ⟨gs, h1, h2⟩ := h
    have : (fun x => noisy (some r) b (F x)) = fun x => gs.zipIdx.map fun q => dropout r.1 (r.2 b q.2) (q.1 x) := by
      funext x
      simp only [noisy]
      rw [h1, List.zipIdx_map, List.map_map]
      rfl
    rw [this]
    refine D1.of gs.zipIdx fun q hq => ?_
    have hm : q.1 ∈ gs := List.fst_mem_of_mem_zipIdx hq
    unfold dropout
    split
    · exact contDiffAt_const
    · simp only [div_eq_mul_inv]
      exact contMulConst (h2 _ hm) _

section

variable (c : Caser) (users items : Nat) (actH actMlp : ℝ → ℝ) (a : Nat) {W : E → Weights} {v : E}

theorem feat_D1 (hW : ∀ a i, ContDiffAt ℝ 1 (fun x => W x a i) v) (s : List Nat)
    (h1 : ∀ i, i < c.L → ∀ f, f < c.nh → ∀ t, t < c.L - i → ContDiffAt ℝ 1 actH (beforeAct (caserOf c users items actH actMlp a (W v)) s (i + 1) f t))
    (h2 : ∀ i, i < c.L → ∀ f, f < c.nh →
      (∃ t0, t0 < c.L - i ∧ ∀ t, t < c.L - i → t ≠ t0 → horizontalAt (caserOf c users items actH actMlp a (W v)) s (i + 1) f t <
        horizontalAt (caserOf c users items actH actMlp a (W v)) s (i + 1) f t0) ∨
      ∃ z, ∀ t, t < c.L - i → actH =ᶠ[nhds (beforeAct (caserOf c users items actH actMlp a (W v)) s (i + 1) f t)] fun _ => z) :
    D1 (fun x => feat (caserOf c users items actH actMlp a (W x)) s) v := by
  unfold feat
  refine D1.append ?_ ?_
  · refine D1.of (List.range c.nv) fun f _ => ?_
    simp only [weighted, caserOf]
    refine ContDiffAt.add (ContDiffAt.sum fun j _ => ContDiffAt.sum fun k _ => ContDiffAt.mul ?_ ?_) ?_ <;>
      exact hW _ _
  · refine D1.flatMap (List.range c.L) fun i hi => ?_
    have hi := List.mem_range.1 hi
    unfold hfeat
    refine D1.of (List.range c.nh) fun f hf => ?_
    have hf := List.mem_range.1 hf
    have hb : ∀ t, ContDiffAt ℝ 1 (fun x => beforeAct (caserOf c users items actH actMlp a (W x)) s (i + 1) f t) v := by
      intro t
      simp only [beforeAct, caserOf]
      refine ContDiffAt.add (ContDiffAt.sum fun j _ => ContDiffAt.sum fun k _ => ContDiffAt.mul ?_ ?_) ?_ <;>
        exact hW _ _
    have hh : ∀ t x, horizontalAt (caserOf c users items actH actMlp a (W x)) s (i + 1) f t =
        actH (beforeAct (caserOf c users items actH actMlp a (W x)) s (i + 1) f t) := fun t x => rfl
    refine max_diff (c.L - i) (fun t x => horizontalAt (caserOf c users items actH actMlp a (W x)) s (i + 1) f t) (fun t ht => ?_) ?_
    · simp only [hh]
      exact (h1 i hi f hf t ht).comp v (hb t)
    · rcases h2 i hi f hf with h | ⟨z, h⟩
      · exact Or.inl h
      · refine Or.inr ⟨z, fun t ht => ?_⟩
        simp only [hh]
        exact (hb t).continuousAt.eventually (h t ht)

theorem score_diff (hW : ∀ a i, ContDiffAt ℝ 1 (fun x => W x a i) v) {F : E → List ℝ} (hF : D1 F v) (u i : Nat)
    (h : ∀ k, k < c.d → ContDiffAt ℝ 1 actMlp (∑ i ∈ Finset.range (F v).length, (F v).getD i 0 * (caserOf c users items actH actMlp a (W v)).D i k +
      (caserOf c users items actH actMlp a (W v)).bd k)) :
    ContDiffAt ℝ 1 (fun x => caserScore (caserOf c users items actH actMlp a (W x)) (F x) u i) v := by
  have hl : ∀ x, (F x).length = (F v).length := fun x => hF.length x v
  have hi : ∀ k, ContDiffAt ℝ 1 (fun x => ∑ i ∈ Finset.range (F x).length, (F x).getD i 0 * W x (a + 4) (i * c.d + k) + W x (a + 5) k) v := by
    intro k
    simp only [hl]
    exact ContDiffAt.add (ContDiffAt.sum fun j _ => ContDiffAt.mul (hF.getD j) (hW _ _)) (hW _ _)
  simp only [caserScore, caserOf]
  refine ContDiffAt.add (ContDiffAt.add ?_ ?_) (hW _ _)
  · refine ContDiffAt.sum fun k hk => ContDiffAt.mul ?_ (hW _ _)
    exact ContDiffAt.comp v (h k (Finset.mem_range.1 hk)) (hi k)
  · exact ContDiffAt.sum fun k _ => ContDiffAt.mul (hW _ _) (hW _ _)

end

theorem bce_diff' (d : ℝ) {p : ℝ} (h1 : p ≠ kEps) (h2 : p ≠ 1 - kEps) : ContDiffAt ℝ 1 (bce d) p := by
  rcases lt_or_gt_of_ne h1 with h | h
  · have hk2 : kEps < 1 - kEps := by norm_num [kEps]
    have hev : (bce d) =ᶠ[nhds p] fun _ => bce d p := by
      filter_upwards [gt_mem_nhds h] with q hq
      have : ∀ r, r < kEps → clipProb r = kEps := by
        intro r hr
        unfold clipProb
        rw [min_eq_left (by linarith), max_eq_left hr.le]
      simp only [bce, this q hq, this p h]
    exact contDiffAt_const.congr_of_eventuallyEq hev
  · exact bce_diff d h h2

theorem elements_diff {W : E → Weights} {v : E} (hW : ∀ a i, ContDiffAt ℝ 1 (fun x => W x a i) v) (rate : ℝ) (l : List (Addr × Nat)) :
    ContDiffAt ℝ 1 (fun x => regLoss rate (l.map fun p => elements (W x) p.1 p.2)) v := by
  unfold regLoss elements
  simp only [List.map_map]
  exact cont_sum l fun p _ => by
    simp only [Function.comp_apply, List.map_map]
    exact contDiffAt_const.mul (cont_sum (List.range p.2) fun i _ => (hW p.1 i).pow 2)

theorem caser_diff (rate : ℝ) {c : Caser} {users items : Nat} (actH actMlp : ℝ → ℝ) (a : Nat) {ex : List (Nat × List Nat × List Nat)}
    (labels : List (List ℝ)) (noise : ℝ × (Nat → Nat → ℝ)) {W : E → Weights} {v : E} (hW : ∀ a i, ContDiffAt ℝ 1 (fun x => W x a i) v)
    (hs : CaserSmoothAround (caserOf c users items actH actMlp a (W v)) ex noise) :
    ContDiffAt ℝ 1 (fun x => caserFormula rate c users items actH actMlp a ex labels noise (W x)) v := by
  unfold caserFormula
  refine ContDiffAt.add ?_ ?_
  · unfold caserLoss average
    simp only [List.zip_map_right, List.map_map, List.length_map, div_eq_mul_inv]
    refine contMulConst (cont_sum (labels.zip ex.zipIdx) fun q hq => ?_) _
    have hp : q.2 ∈ ex.zipIdx := (List.of_mem_zip hq).2
    have he : q.2.1 ∈ ex := List.fst_mem_of_mem_zipIdx hp
    simp only [Function.comp_apply, Prod.map, id, vecLoss, average, List.zip_map_right, List.map_map, List.length_map, div_eq_mul_inv]
    refine contMulConst (cont_sum (q.1.zip q.2.1.2.2) fun y hy => ?_) _
    have hi := (List.of_mem_zip hy).2
    obtain ⟨c1, c2⟩ := hs.clip q.2 hp y.2 hi
    have hsc := score_diff c users items actH actMlp a hW
      (noisy_D1 (feat_D1 c users items actH actMlp a hW q.2.1.2.1 (hs.actC q.2.1 he) (hs.pool q.2.1 he)) (some noise) q.2.2) q.2.1.1 y.2 (hs.mlpC q.2 hp)
    have key := ContDiffAt.comp v (g := bce y.1) (bce_diff' y.1 c1 c2) hsc
    exact key
  · have := elements_diff hW rate ([(a, users * c.d), (a + 1, items * c.d), (a + 2, c.L * c.d * c.nv), (a + 4, (c.nv + c.L * c.nh) * c.d),
      (a + 6, items * (2 * c.d))] ++ (List.range c.L).map fun i => (a + 8 + 2 * i, (i + 1) * c.d * c.nh))
    simp only [List.map_append, List.map_cons, List.map_nil, List.map_map] at this
    exact this

end DRec.Trn.Cont
