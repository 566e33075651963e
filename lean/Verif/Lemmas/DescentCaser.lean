import Verif.Lemmas.DescentDmf
import Verif.Spec.DescentCaser

/-! # The loss of Caser is differentiable wherever no value is at a bound, and depends on the registered variables only -/

namespace DRec.Trn

open DRec.Spec DRec.Opt DRec.Cas

variable {E : Type} [NormedAddCommGroup E] [NormedSpace ℝ E]

/-! ## Differentiability -/

theorem max_diff (n : Nat) (h : Nat → E → ℝ) {v : E} (hd : ∀ t, t < n → DifferentiableAt ℝ (h t) v)
    (hc : (∃ t0, t0 < n ∧ ∀ t, t < n → t ≠ t0 → h t v < h t0 v) ∨ ∃ c, ∀ t, t < n → h t =ᶠ[nhds v] fun _ => c) :
    DifferentiableAt ℝ (fun x => maxOf ((List.range n).map fun t => h t x)) v := by
  rcases hc with ⟨t0, h0, hc⟩ | ⟨c, hc⟩
  · refine (hd t0 h0).congr_of_eventuallyEq ?_
    have hev : ∀ᶠ x in nhds v, ∀ t ∈ Finset.range n, t ≠ t0 → h t x < h t0 x := by
      rw [Filter.eventually_all_finset]
      intro t ht
      have ht := Finset.mem_range.1 ht
      by_cases e : t = t0
      · exact Filter.Eventually.of_forall fun x h => absurd e h
      · filter_upwards [(hd t ht).continuousAt.eventually_lt (hd t0 h0).continuousAt (hc t ht e)] with x hx _
        exact hx
    filter_upwards [hev] with x hx
    obtain ⟨g1, g2⟩ := maxOf_greatest ((List.range n).map fun t => h t x) (by
      intro e
      have := congrArg List.length e
      simp at this
      omega)
    refine le_antisymm ?_ (g2 _ (List.mem_map.2 ⟨t0, List.mem_range.2 h0, rfl⟩))
    obtain ⟨t, ht, e⟩ := List.mem_map.1 g1
    rw [← e]
    by_cases e' : t = t0
    · rw [e']
    · exact (hx t (Finset.mem_range.2 (List.mem_range.1 ht)) e').le
  · have hev : ∀ᶠ x in nhds v, ∀ t ∈ Finset.range n, h t x = c := by
      rw [Filter.eventually_all_finset]
      exact fun t ht => hc t (Finset.mem_range.1 ht)
    have : (fun x => maxOf ((List.range n).map fun t => h t x)) =ᶠ[nhds v] fun _ => maxOf ((List.range n).map fun _ => c) := by
      filter_upwards [hev] with x hx
      congr 1
      exact List.map_congr_left fun t ht => hx t (Finset.mem_range.2 (List.mem_range.1 ht))
    exact (differentiableAt_const _).congr_of_eventuallyEq this

theorem D1.append {F G : E → List ℝ} {v : E} (hF : D1 F v) (hG : D1 G v) : D1 (fun x => F x ++ G x) v := by
  obtain ⟨fs, f1, f2⟩ := hF
  obtain ⟨gs, g1, g2⟩ := hG
  refine ⟨fs ++ gs, fun x => by beta_reduce; rw [f1, g1, List.map_append], fun g hg => ?_⟩
  rcases List.mem_append.1 hg with h | h
  · exact f2 g h
  · exact g2 g h

theorem D1.flatMap {α : Type} (l : List α) {φ : α → E → List ℝ} {v : E} (h : ∀ y ∈ l, D1 (φ y) v) : D1 (fun x => l.flatMap fun y => φ y x) v := by
  induction l with
  | nil => exact ⟨[], fun x => rfl, by simp⟩
  | cons y l ih =>
    simp only [List.flatMap_cons]
    exact (h y (by simp)).append (ih fun z hz => h z (by simp [hz]))

theorem D1.getD {F : E → List ℝ} {v : E} (h : D1 F v) (i : Nat) : DifferentiableAt ℝ (fun x => (F x).getD i 0) v := by
  obtain ⟨gs, h1, h2⟩ := h
  have : (fun x => (F x).getD i 0) = gs.getD i fun _ => 0 := by
    funext x
    rw [h1]
    simp only [List.getD_eq_getElem?_getD, List.getElem?_map]
    cases gs[i]? <;> rfl
  rw [this, List.getD_eq_getElem?_getD]
  cases hg : gs[i]? with
  | none => exact differentiableAt_const _
  | some g => exact h2 g (List.mem_of_getElem? hg)

theorem noisy_D1 {F : E → List ℝ} {v : E} (h : D1 F v) (noise : Option (ℝ × (Nat → Nat → ℝ))) (b : Nat) : D1 (fun x => noisy noise b (F x)) v := by
  cases noise with
  | none => exact h
  | some r =>
    obtain ⟨gs, h1, h2⟩ := h
    have : (fun x => noisy (some r) b (F x)) = fun x => gs.zipIdx.map fun q => dropout r.1 (r.2 b q.2) (q.1 x) := by
      funext x
      simp only [noisy]
      rw [h1, List.zipIdx_map, List.map_map]
      rfl
    rw [this]
    refine D1.of gs.zipIdx fun q hq => ?_
    have hm : q.1 ∈ gs := List.fst_mem_of_mem_zipIdx hq
    unfold dropout
    split
    · exact differentiableAt_const _
    · simp only [div_eq_mul_inv]
      exact (h2 _ hm).mul_const _

section

variable (c : Caser) (users items : Nat) (actH actMlp : ℝ → ℝ) (a : Nat) {W : E → Weights} {v : E}

theorem feat_D1 (hW : ∀ a i, DifferentiableAt ℝ (fun x => W x a i) v) (s : List Nat)
    (h1 : ∀ i, i < c.L → ∀ f, f < c.nh → ∀ t, t < c.L - i → DifferentiableAt ℝ actH (beforeAct (caserOf c users items actH actMlp a (W v)) s (i + 1) f t))
    (h2 : ∀ i, i < c.L → ∀ f, f < c.nh →
      (∃ t0, t0 < c.L - i ∧ ∀ t, t < c.L - i → t ≠ t0 → horizontalAt (caserOf c users items actH actMlp a (W v)) s (i + 1) f t <
        horizontalAt (caserOf c users items actH actMlp a (W v)) s (i + 1) f t0) ∨
      ∃ z, ∀ t, t < c.L - i → actH =ᶠ[nhds (beforeAct (caserOf c users items actH actMlp a (W v)) s (i + 1) f t)] fun _ => z) :
    D1 (fun x => feat (caserOf c users items actH actMlp a (W x)) s) v := by
  unfold feat
  refine D1.append ?_ ?_
  · refine D1.of (List.range c.nv) fun f _ => ?_
    simp only [weighted, caserOf]
    refine DifferentiableAt.fun_add (DifferentiableAt.fun_sum fun j _ => DifferentiableAt.fun_sum fun k _ => DifferentiableAt.fun_mul ?_ ?_) ?_ <;>
      exact hW _ _
  · refine D1.flatMap (List.range c.L) fun i hi => ?_
    have hi := List.mem_range.1 hi
    unfold hfeat
    refine D1.of (List.range c.nh) fun f hf => ?_
    have hf := List.mem_range.1 hf
    have hb : ∀ t, DifferentiableAt ℝ (fun x => beforeAct (caserOf c users items actH actMlp a (W x)) s (i + 1) f t) v := by
      intro t
      simp only [beforeAct, caserOf]
      refine DifferentiableAt.fun_add (DifferentiableAt.fun_sum fun j _ => DifferentiableAt.fun_sum fun k _ => DifferentiableAt.fun_mul ?_ ?_) ?_ <;>
        exact hW _ _
    have hh : ∀ t x, horizontalAt (caserOf c users items actH actMlp a (W x)) s (i + 1) f t =
        actH (beforeAct (caserOf c users items actH actMlp a (W x)) s (i + 1) f t) := fun t x => rfl
    refine max_diff (c.L - i) (fun t x => horizontalAt (caserOf c users items actH actMlp a (W x)) s (i + 1) f t) (fun t ht => ?_) ?_
    · simp only [hh]
      exact (h1 i hi f hf t ht).comp v (hb t)
    · rcases h2 i hi f hf with h | ⟨z, h⟩
      · exact Or.inl h
      · refine Or.inr ⟨z, fun t ht => ?_⟩
        simp only [hh]
        exact (hb t).continuousAt.eventually (h t ht)

theorem score_diff (hW : ∀ a i, DifferentiableAt ℝ (fun x => W x a i) v) {F : E → List ℝ} (hF : D1 F v) (u i : Nat)
    (h : ∀ k, k < c.d → DifferentiableAt ℝ actMlp (∑ i ∈ Finset.range (F v).length, (F v).getD i 0 * (caserOf c users items actH actMlp a (W v)).D i k +
      (caserOf c users items actH actMlp a (W v)).bd k)) :
    DifferentiableAt ℝ (fun x => caserScore (caserOf c users items actH actMlp a (W x)) (F x) u i) v := by
  have hl : ∀ x, (F x).length = (F v).length := fun x => hF.length x v
  have hi : ∀ k, DifferentiableAt ℝ (fun x => ∑ i ∈ Finset.range (F x).length, (F x).getD i 0 * W x (a + 4) (i * c.d + k) + W x (a + 5) k) v := by
    intro k
    simp only [hl]
    exact DifferentiableAt.fun_add (DifferentiableAt.fun_sum fun j _ => DifferentiableAt.fun_mul (hF.getD j) (hW _ _)) (hW _ _)
  simp only [caserScore, caserOf]
  refine DifferentiableAt.fun_add (DifferentiableAt.fun_add ?_ ?_) (hW _ _)
  · refine DifferentiableAt.fun_sum fun k hk => DifferentiableAt.fun_mul ?_ (hW _ _)
    exact DifferentiableAt.comp v (h k (Finset.mem_range.1 hk)) (hi k)
  · exact DifferentiableAt.fun_sum fun k _ => DifferentiableAt.fun_mul (hW _ _) (hW _ _)

end

theorem bce_diff' (d : ℝ) {p : ℝ} (h1 : p ≠ kEps) (h2 : p ≠ 1 - kEps) : DifferentiableAt ℝ (bce d) p := by
  rcases lt_or_gt_of_ne h1 with h | h
  · have hk2 : kEps < 1 - kEps := by norm_num [kEps]
    have hev : (bce d) =ᶠ[nhds p] fun _ => bce d p := by
      filter_upwards [gt_mem_nhds h] with q hq
      have : ∀ r, r < kEps → clipProb r = kEps := by
        intro r hr
        unfold clipProb
        rw [min_eq_left (by linarith), max_eq_left hr.le]
      simp only [bce, this q hq, this p h]
    exact (differentiableAt_const _).congr_of_eventuallyEq hev
  · exact bce_diff d h h2

/-- The loss as a formula. -/
noncomputable def caserFormula (rate : ℝ) (c : Caser) (users items : Nat) (actH actMlp : ℝ → ℝ) (a : Nat) (ex : List (Nat × List Nat × List Nat))
    (labels : List (List ℝ)) (noise : ℝ × (Nat → Nat → ℝ)) (w : Weights) : ℝ :=
  caserLoss (ex.zipIdx.map fun p => p.1.2.2.map
    (caserScore (caserOf c users items actH actMlp a w) (noisy (some noise) p.2 (feat (caserOf c users items actH actMlp a w) p.1.2.1)) p.1.1)) labels +
  regLoss rate ([elements w a (users * c.d), elements w (a + 1) (items * c.d), elements w (a + 2) (c.L * c.d * c.nv),
        elements w (a + 4) ((c.nv + c.L * c.nh) * c.d), elements w (a + 6) (items * (2 * c.d))] ++
        (List.range c.L).map fun i => elements w (a + 8 + 2 * i) ((i + 1) * c.d * c.nh))

/-- A batch of examples (user, items before, items after) of sequences of `L` items, all ids known. -/
def caserBatch (ex : List (Nat × List Nat × List Nat)) (labels : List (List ℝ)) (noise : ℝ × (Nat → Nat → ℝ)) : CaserBatch :=
  ⟨ex.map (·.1), ex.map (·.2.1), ex.map (·.2.2), labels, noise⟩

/-- The examples are of the kind that `_sample_batch` gives. -/
structure GoodExamples (c : Caser) (users items : Nat) (ex : List (Nat × List Nat × List Nat)) : Prop where
  nonempty : ex ≠ []
  known : ∀ e ∈ ex, e.1 < users ∧ (∀ i ∈ e.2.1, i < items) ∧ ∀ i ∈ e.2.2, i < items
  before : ∀ e ∈ ex, e.2.1.length = c.L
  after : ∃ n, ∀ e ∈ ex, e.2.2.length = n
  one : 1 ≤ c.L
  filters : c.L ≤ c.nh

theorem caser_formula (rate : ℝ) {c : Caser} {users items : Nat} (actH actMlp : ℝ → ℝ) (a : Nat) {ex : List (Nat × List Nat × List Nat)}
    (h : GoodExamples c users items ex) (labels : List (List ℝ)) (noise : ℝ × (Nat → Nat → ℝ)) (w : Weights) :
    caserObjective rate c users items actH actMlp a (caserBatch ex labels noise) w =
      .ok (caserFormula rate c users items actH actMlp a ex labels noise w) := by
  obtain ⟨n, hn⟩ := h.after
  have := forward_map (caserOf c users items actH actMlp a w) ex h.nonempty h.known h.before n hn h.one h.filters (some noise)
  unfold caserObjective caserBatch
  simp only [this]
  rfl

theorem elements_diff {W : E → Weights} {v : E} (hW : ∀ a i, DifferentiableAt ℝ (fun x => W x a i) v) (rate : ℝ) (l : List (Addr × Nat)) :
    DifferentiableAt ℝ (fun x => regLoss rate (l.map fun p => elements (W x) p.1 p.2)) v := by
  unfold regLoss elements
  simp only [List.map_map]
  exact diff_sum l fun p _ => by
    simp only [Function.comp_apply, List.map_map]
    exact (diff_sum (List.range p.2) fun i _ => (hW p.1 i).pow 2).const_mul rate

theorem caser_diff (rate : ℝ) {c : Caser} {users items : Nat} (actH actMlp : ℝ → ℝ) (a : Nat) {ex : List (Nat × List Nat × List Nat)}
    (labels : List (List ℝ)) (noise : ℝ × (Nat → Nat → ℝ)) {W : E → Weights} {v : E} (hW : ∀ a i, DifferentiableAt ℝ (fun x => W x a i) v)
    (hs : CaserSmooth (caserOf c users items actH actMlp a (W v)) ex noise) :
    DifferentiableAt ℝ (fun x => caserFormula rate c users items actH actMlp a ex labels noise (W x)) v := by
  unfold caserFormula
  refine DifferentiableAt.add ?_ ?_
  · unfold caserLoss average
    simp only [List.zip_map_right, List.map_map, List.length_map, div_eq_mul_inv]
    refine DifferentiableAt.mul_const (diff_sum (labels.zip ex.zipIdx) fun q hq => ?_) _
    have hp : q.2 ∈ ex.zipIdx := (List.of_mem_zip hq).2
    have he : q.2.1 ∈ ex := List.fst_mem_of_mem_zipIdx hp
    simp only [Function.comp_apply, Prod.map, id, vecLoss, average, List.zip_map_right, List.map_map, List.length_map, div_eq_mul_inv]
    refine DifferentiableAt.mul_const (diff_sum (q.1.zip q.2.1.2.2) fun y hy => ?_) _
    have hi := (List.of_mem_zip hy).2
    obtain ⟨c1, c2⟩ := hs.clip q.2 hp y.2 hi
    have hsc := score_diff c users items actH actMlp a hW
      (noisy_D1 (feat_D1 c users items actH actMlp a hW q.2.1.2.1 (hs.act q.2.1 he) (hs.pool q.2.1 he)) (some noise) q.2.2) q.2.1.1 y.2 (hs.mlp q.2 hp)
    have key := DifferentiableAt.comp v (g := bce y.1) (bce_diff' y.1 c1 c2) hsc
    exact key
  · have := elements_diff hW rate ([(a, users * c.d), (a + 1, items * c.d), (a + 2, c.L * c.d * c.nv), (a + 4, (c.nv + c.L * c.nh) * c.d),
      (a + 6, items * (2 * c.d))] ++ (List.range c.L).map fun i => (a + 8 + 2 * i, (i + 1) * c.d * c.nh))
    simp only [List.map_append, List.map_cons, List.map_nil, List.map_map] at this
    exact this

/-! ## The numbers that Caser trains -/

/-- The variables and their sizes (`caser.py:47-70`). -/
def caserSizes (c : Caser) (users items a : Nat) : List (Addr × Nat) :=
  [(a, users * c.d), (a + 1, items * c.d), (a + 2, c.L * c.d * c.nv), (a + 3, c.nv), (a + 4, (c.nv + c.L * c.nh) * c.d), (a + 5, c.d),
    (a + 6, items * (2 * c.d)), (a + 7, items)] ++
    ((List.range c.L).map fun i => (a + 8 + 2 * i, (i + 1) * c.d * c.nh)) ++ (List.range c.L).map fun i => (a + 9 + 2 * i, c.nh)

def caserElements (c : Caser) (users items a : Nat) : Finset (Addr × Nat) :=
  (caserSizes c users items a).toFinset.biUnion fun p => (Finset.range p.2).image fun i => (p.1, i)

theorem mem_caserElements {c : Caser} {users items a : Nat} {x : Addr} {i : Nat} :
    (x, i) ∈ caserElements c users items a ↔ ∃ n, (x, n) ∈ caserSizes c users items a ∧ i < n := by
  simp only [caserElements, Finset.mem_biUnion, List.mem_toFinset, Finset.mem_image, Finset.mem_range, Prod.mk.injEq, Prod.exists]
  constructor
  · rintro ⟨y, n, h, j, hj, rfl, rfl⟩
    exact ⟨n, h, hj⟩
  · rintro ⟨n, h, hi⟩
    exact ⟨x, n, h, i, hi, rfl, rfl⟩

theorem caserSizes_mem {c : Caser} {users items a : Nat} {x : Addr} {n : Nat} (h : (x, n) ∈ caserSizes c users items a) : x ∈ (caserNet c.L a).all := by
  simp only [caserSizes, List.mem_append, List.mem_cons, List.not_mem_nil, or_false, Prod.mk.injEq, List.mem_map, List.mem_range] at h
  simp only [DRec.Net.all, caserNet, List.flatten_append, List.flatten_cons, List.flatten_nil, List.mem_append, List.mem_cons, List.not_mem_nil, or_false,
    List.mem_flatten, List.mem_map, List.mem_range, List.nil_append, List.append_nil]
  rcases h with ((⟨rfl, -⟩ | ⟨rfl, -⟩ | ⟨rfl, -⟩ | ⟨rfl, -⟩ | ⟨rfl, -⟩ | ⟨rfl, -⟩ | ⟨rfl, -⟩ | ⟨rfl, -⟩) | ⟨i, hi, rfl, -⟩) | ⟨i, hi, rfl, -⟩
  · simp
  · simp
  · simp
  · simp
  · simp
  · simp
  · simp
  · simp
  · exact Or.inl (Or.inr ⟨_, ⟨i, hi, rfl⟩, by simp⟩)
  · exact Or.inl (Or.inr ⟨_, ⟨i, hi, rfl⟩, by simp⟩)

theorem caser_agree (rate : ℝ) {c : Caser} {users items : Nat} (actH actMlp : ℝ → ℝ) (a : Nat) {ex : List (Nat × List Nat × List Nat)}
    (hx : GoodExamples c users items ex) (labels : List (List ℝ)) (noise : ℝ × (Nat → Nat → ℝ)) {w w' : Weights}
    (h : ∀ x i, (x, i) ∈ caserElements c users items a → w' x i = w x i) :
    caserFormula rate c users items actH actMlp a ex labels noise w' = caserFormula rate c users items actH actMlp a ex labels noise w := by
  have hw : ∀ {x : Addr} {n : Nat}, (x, n) ∈ caserSizes c users items a → ∀ i, i < n → w' x i = w x i := by
    intro x n hm i hi
    refine h x i ?_
    rw [mem_caserElements]
    exact ⟨n, hm, hi⟩
  have s0 : ∀ i, i < users * c.d → w' (a) i = w (a) i := hw (x := a) (n := users * c.d) (by simp [caserSizes])
  have s1 : ∀ i, i < items * c.d → w' (a + 1) i = w (a + 1) i := hw (x := a + 1) (n := items * c.d) (by simp [caserSizes])
  have s2 : ∀ i, i < c.L * c.d * c.nv → w' (a + 2) i = w (a + 2) i := hw (x := a + 2) (n := c.L * c.d * c.nv) (by simp [caserSizes])
  have s3 : ∀ i, i < c.nv → w' (a + 3) i = w (a + 3) i := hw (x := a + 3) (n := c.nv) (by simp [caserSizes])
  have s4 : ∀ i, i < (c.nv + c.L * c.nh) * c.d → w' (a + 4) i = w (a + 4) i := hw (x := a + 4) (n := (c.nv + c.L * c.nh) * c.d) (by simp [caserSizes])
  have s5 : ∀ i, i < c.d → w' (a + 5) i = w (a + 5) i := hw (x := a + 5) (n := c.d) (by simp [caserSizes])
  have s6 : ∀ i, i < items * (2 * c.d) → w' (a + 6) i = w (a + 6) i := hw (x := a + 6) (n := items * (2 * c.d)) (by simp [caserSizes])
  have s7 : ∀ i, i < items → w' (a + 7) i = w (a + 7) i := hw (x := a + 7) (n := items) (by simp [caserSizes])
  have s8 : ∀ i, i < c.L → ∀ j, j < (i + 1) * c.d * c.nh → w' (a + 8 + 2 * i) j = w (a + 8 + 2 * i) j := fun i hi =>
    hw (show (a + 8 + 2 * i, (i + 1) * c.d * c.nh) ∈ caserSizes c users items a from
      List.mem_append_left _ (List.mem_append_right _ (List.mem_map.2 ⟨i, List.mem_range.2 hi, rfl⟩)))
  have s9 : ∀ i, i < c.L → ∀ j, j < c.nh → w' (a + 9 + 2 * i) j = w (a + 9 + 2 * i) j := fun i hi =>
    hw (show (a + 9 + 2 * i, c.nh) ∈ caserSizes c users items a from List.mem_append_right _ (List.mem_map.2 ⟨i, List.mem_range.2 hi, rfl⟩))
  have hel : ∀ {x : Addr} {n : Nat}, (∀ i, i < n → w' x i = w x i) → elements w' x n = elements w x n :=
    fun hh => List.map_congr_left fun i hi => hh i (List.mem_range.1 hi)
  have hfeat' : ∀ e ∈ ex, feat (caserOf c users items actH actMlp a w') e.2.1 = feat (caserOf c users items actH actMlp a w) e.2.1 := by
    intro e he
    have hlt : ∀ t, t < c.L → e.2.1.getD t 0 < items := by
      intro t ht
      have hl : t < e.2.1.length := by rw [hx.before e he]; exact ht
      have hg : e.2.1.getD t 0 = e.2.1[t] := by rw [List.getD_eq_getElem?_getD, List.getElem?_eq_getElem hl, Option.getD_some]
      rw [hg]
      exact (hx.known e he).2.1 _ (List.getElem_mem hl)
    unfold feat
    refine congrArg₂ (· ++ ·) (List.map_congr_left fun f hf => ?_) ?_
    · have hf : f < c.nv := List.mem_range.1 hf
      unfold weighted
      refine congrArg₂ (· + ·) (Finset.sum_congr rfl fun j hj => Finset.sum_congr rfl fun k hk => ?_) (s3 f hf)
      have hj : j < c.L := Finset.mem_range.1 hj
      have hk : k < c.d := Finset.mem_range.1 hk
      exact congrArg₂ (· * ·) (s1 _ (row_lt (hlt j hj) hk)) (s2 _ (row_lt (row_lt hj hk) hf))
    · rw [List.flatMap_def, List.flatMap_def]
      refine congrArg List.flatten (List.map_congr_left fun i hi => ?_)
      have hi : i < c.L := List.mem_range.1 hi
      unfold hfeat
      refine List.map_congr_left fun f hf => ?_
      have hf : f < c.nh := List.mem_range.1 hf
      refine congrArg maxOf (List.map_congr_left fun t ht => ?_)
      have ht : t < c.L - i := List.mem_range.1 ht
      unfold horizontalAt
      refine congrArg actH (congrArg₂ (· + ·) (Finset.sum_congr rfl fun j hj => Finset.sum_congr rfl fun k hk => ?_) (s9 i hi f hf))
      have hj : j < i + 1 := Finset.mem_range.1 hj
      have hk : k < c.d := Finset.mem_range.1 hk
      exact congrArg₂ (· * ·) (s1 _ (row_lt (hlt (t + j) (by omega)) hk)) (s8 i hi _ (row_lt (row_lt hj hk) hf))
  have hscore : ∀ e ∈ ex, ∀ i ∈ e.2.2, ∀ F : List ℝ, F.length = c.nv + c.L * c.nh →
      caserScore (caserOf c users items actH actMlp a w') F e.1 i = caserScore (caserOf c users items actH actMlp a w) F e.1 i := by
    intro e he i hi F hF
    have hi' : i < items := (hx.known e he).2.2 i hi
    have hu : e.1 < users := (hx.known e he).1
    unfold caserScore
    refine congrArg₂ (· + ·) (congrArg₂ (· + ·) (Finset.sum_congr rfl fun k hk => ?_) (Finset.sum_congr rfl fun k hk => ?_)) (s7 i hi')
    · have hk : k < c.d := Finset.mem_range.1 hk
      refine congrArg₂ (· * ·) (congrArg actMlp (congrArg₂ (· + ·) (Finset.sum_congr rfl fun j hj => ?_) (s5 k hk))) (s6 _ (row_lt hi' (by omega)))
      have hj : j < c.nv + c.L * c.nh := by rw [← hF]; exact Finset.mem_range.1 hj
      exact congrArg (_ * ·) (s4 _ (row_lt hj hk))
    · have hk : k < c.d := Finset.mem_range.1 hk
      exact congrArg₂ (· * ·) (s0 _ (row_lt hu hk)) (s6 _ (row_lt hi' (show c.d + k < 2 * c.d by omega)))
  unfold caserFormula
  refine congrArg₂ (· + ·) (congrArg (caserLoss · labels) (List.map_congr_left fun p hp => List.map_congr_left fun i hi => ?_)) ?_
  · have he : p.1 ∈ ex := List.fst_mem_of_mem_zipIdx hp
    rw [hfeat' p.1 he]
    exact hscore p.1 he i hi _ (by rw [length_noisy]; exact length_feat _ _)
  · rw [hel s0, hel s1, hel s2, hel s4, hel s6]
    congr 2
    exact List.map_congr_left fun i hi => hel (s8 i (List.mem_range.1 hi))

end DRec.Trn
