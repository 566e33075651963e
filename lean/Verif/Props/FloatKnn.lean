import Verif.Lemmas.FloatSim
import Verif.Props.Knn
import Mathlib.Tactic.NormNum

/-!
# C129: nearest neighbour recommenders in floating point
-/

namespace DRec

open DRec.Spec

/-! ## Jaccard similarity, mean aggregation, interactions on a grid -/

/-- C129: with Jaccard similarity the doubles `_compute_similarities` stores are the exact similarities rounded, and every
id has the neighbours of exact arithmetic in the same order, for datasets of fewer than 2^26 records. -/
theorem C129_neighbours (cfg : KnnCfg) (rs : List Rating) (mem : Bool) (hmet : cfg.metric = jaccardSim mem)
    (hsh : cfg.shrinkage = none) (hN : rs.length ^ 2 < 2 ^ 52) :
    let M := fitKnn cfg rs Knn.init
    let F := fitFloat { cfg with metric := jaccardFloat mem } rs Knn.init
    (∀ a b, F.sims (a, b) = (M.sims (a, b)).map toFloat) ∧ (∀ a, F.nbrs a = (M.nbrs a).map rounded) ∧
      ∀ a, (F.nbrs a).map (List.map (·.2)) = (M.nbrs a).map (List.map (·.2)) := by
  intro M F
  have h : F = roundKnn M := fitFloat_jaccard cfg rs mem hmet hsh hN
  rw [h]
  refine ⟨fun _ _ => rfl, fun _ => rfl, fun a => ?_⟩
  show Option.map _ ((M.nbrs a).map rounded) = _
  cases M.nbrs a with
  | none => rfl
  | some nb =>
    simp only [Option.map_some, rounded, List.map_map]
    rfl

/-- C129: with Jaccard similarity, mean aggregation and interactions that are small multiples of a power of two (whole or
half points), every prediction is the exact one rounded to a double (or the same exception), and rankings list the same
items in the same order. -/
theorem C129_exact (cfg : KnnCfg) (rs : List Rating) (mem : Bool) (hmet : cfg.metric = jaccardSim mem)
    (hsh : cfg.shrinkage = none) (hagg : cfg.agg = .mean) (e : ℤ) (B : ℕ) (hB : 0 < B) (hg : OnGrid e B rs)
    (hN : B * rs.length ^ 2 < 2 ^ 52) :
    let M := fitKnn cfg rs Knn.init
    let cfgF := { cfg with metric := jaccardFloat mem }
    let F := fitFloat cfgF rs Knn.init
    (∀ u i, predictFloat cfgF rs F u i = (knnPredict cfg rs M u i).map (Option.map toFloat)) ∧
      (∀ uid iids n novelty, userRankFloat cfgF rs F uid iids n novelty =
        (userRank cfg rs M uid iids n novelty).map rounded) ∧
      ∀ uid iids n novelty, itemRankFloat cfgF rs F uid iids n novelty =
        (itemRank cfg rs M uid iids n novelty).map rounded := by
  intro M cfgF F
  have hN' : rs.length ^ 2 < 2 ^ 52 := lt_of_le_of_lt (Nat.le_mul_of_pos_left _ hB) hN
  have h : F = roundKnn M := fitFloat_jaccard cfg rs mem hmet hsh hN'
  rw [h]
  refine ⟨fun u i => ?_, userRank_grid cfg rs mem hg hN hagg, itemRank_grid cfg rs mem hg hN hagg⟩
  cases u with
  | none => cases i <;> rfl
  | some u =>
    cases i with
    | none => rfl
    | some i =>
      have := predictOwn_grid cfg rs mem hg hN hagg
      unfold predictFloat knnPredict
      simp only
      show (match cfg.kind with
        | .user => _
        | .item => _) = _
      cases cfg.kind with
      | user => exact this u i
      | item => exact this i u

/-- C129: under the same conditions the double that is predicted lies between two interactions of the item (for user
neighbourhoods; of the user for item neighbourhoods). -/
theorem C129_range (cfg : KnnCfg) (rs : List Rating) (mem : Bool) (hmet : cfg.metric = jaccardSim mem)
    (hsh : cfg.shrinkage = none) (hagg : cfg.agg = .mean) (e : ℤ) (B : ℕ) (hB : 0 < B) (hg : OnGrid e B rs)
    (hN : B * rs.length ^ 2 < 2 ^ 52) (u i : Nat) (v : ℚ)
    (h : predictFloat { cfg with metric := jaccardFloat mem } rs
      (fitFloat { cfg with metric := jaccardFloat mem } rs Knn.init) (some u) (some i) = .ok (some v)) :
    ∃ r₁ ∈ rs, ∃ r₂ ∈ rs, r₁.x ≤ v ∧ v ≤ r₂.x ∧
      (cfg.kind = .user → r₁.iid = i ∧ r₂.iid = i) ∧ (cfg.kind = .item → r₁.uid = u ∧ r₂.uid = u) := by
  rw [(C129_exact cfg rs mem hmet hsh hagg e B hB hg hN).1] at h
  cases hp : knnPredict cfg rs (fitKnn cfg rs Knn.init) (some u) (some i) with
  | error er => rw [hp] at h; cases h
  | ok o =>
    cases o with
    | none => rw [hp] at h; cases h
    | some w =>
      rw [hp] at h
      have hv : toFloat w = v := Option.some.inj (Except.ok.inj h)
      obtain ⟨r₁, m1, r₂, m2, h1, h2, h3, h4⟩ := C63_range cfg rs u i w hp
      have dbl : ∀ r ∈ rs, toFloat r.x = r.x := by
        intro r hr
        obtain ⟨z, hz, he⟩ := hg r hr
        apply toFloat_of_isDouble
        refine ⟨z, e, lt_of_le_of_lt hz ?_, he⟩
        have : 0 < rs.length := List.length_pos_of_mem hr
        have : B ≤ B * rs.length ^ 2 := Nat.le_mul_of_pos_right _ (by positivity)
        exact_mod_cast (by omega : B < 2 ^ 53)
      refine ⟨r₁, m1, r₂, m2, ?_, ?_, h3, h4⟩
      · rw [← dbl r₁ m1, ← hv]; exact toFloat_mono h1
      · rw [← dbl r₂ m2, ← hv]; exact toFloat_mono h2

/-! ## Similarities -/

/-- C129: Jaccard similarities in doubles are symmetric, within [0, 1] and 1 on the diagonal. -/
theorem C129_jaccard {K : Type} [Field K] [LinearOrder K] [FloorRing K] [IsStrictOrderedRing K] (mem : Bool)
    (es : List (Nat × Nat × K)) : Symmetric (jaccardFloat mem es) ∧
    ∀ i j s, (i, j, s) ∈ jaccardFloat mem es → 0 ≤ s ∧ s ≤ 1 ∧ (i = j → s = 1) := by
  obtain ⟨⟨h1, h2⟩, h3⟩ := C60_jaccard mem es
  rw [jaccardFloat_eq]
  have key : ∀ i j s, (i, j, s) ∈ (jaccardSim mem es).map (fun e => (e.1, e.2.1, toFloat e.2.2)) →
      ∃ r, (i, j, r) ∈ jaccardSim mem es ∧ s = toFloat r := by
    intro i j s h
    obtain ⟨⟨i', j', r⟩, hr, he⟩ := List.mem_map.1 h
    simp only [Prod.mk.injEq] at he
    obtain ⟨rfl, rfl, rfl⟩ := he
    exact ⟨r, hr, rfl⟩
  refine ⟨⟨?_, ?_⟩, ?_⟩
  · intro i j s h
    obtain ⟨r, hr, rfl⟩ := key i j s h
    exact List.mem_map.2 ⟨_, h1 i j r hr, rfl⟩
  · intro i j s s' h h'
    obtain ⟨r, hr, rfl⟩ := key i j s h
    obtain ⟨r', hr', rfl⟩ := key i j s' h'
    rw [h2 i j r r' hr hr']
  · intro i j s h
    obtain ⟨r, hr, rfl⟩ := key i j s h
    obtain ⟨a, b, c⟩ := h3 i j r hr
    exact ⟨toFloat_nonneg a, toFloat_le_one b, fun e => by rw [c e, toFloat_one]⟩

/-- C129: mean squared difference similarities in doubles are symmetric and within [0, 1]. -/
theorem C129_msd {K : Type} [Field K] [LinearOrder K] [FloorRing K] [IsStrictOrderedRing K] (es : List (Nat × Nat × K))
    (hl : es.length ≤ 2 ^ 53) : Symmetric (msdFloat es) ∧ ∀ i j s, (i, j, s) ∈ msdFloat es → 0 ≤ s ∧ s ≤ 1 := by
  refine ⟨symmetric_upperLoop _ _, fun i j s h => ?_⟩
  have hmem : es ≠ [] := by
    rintro rfl
    simp [msdFloat, upperLoop, csrRows] at h
  obtain ⟨D, hD⟩ := exists_maxDiff es hmem
  unfold msdFloat at h
  rw [maxDiff_eq es hD, mem_upperLoop] at h
  obtain ⟨hi, hj, h⟩ := h
  have hmi : min i j < (csrRows es).length := lt_of_le_of_lt (min_le_left _ _) hi
  have hma : max i j < (csrRows es).length := max_lt hi hj
  obtain ⟨⟨v, w, hv, hw, rfl⟩, hmax⟩ := hD
  have hD0 : 0 ≤ v - w := by have := hmax v v hv hv; rwa [sub_self] at this
  refine msdRow_range hD0 ?_ ((pairs_length es hmi hma).trans hl) h
  intro p hp
  obtain ⟨cs, hcs⟩ := exists_common es (min i j) (max i j)
  obtain ⟨c, hc, rfl⟩ := List.mem_map.1 ((pairsOf_csr es _ _ hmi hma cs hcs).mem_iff.1 hp)
  have hb := (hcs.2 c).1 hc
  have v1 := value_of_hasCell hb.1
  have v2 := value_of_hasCell hb.2
  have a := hmax _ _ v1 v2
  have b := hmax _ _ v2 v1
  exact abs_le.2 ⟨by linarith, a⟩

/-- Two rows that share columns have a similarity in doubles. -/
example : (1, 0, toFloat (1 / 3)) ∈ jaccardFloat false [(0, 0, (3 : ℚ)), (0, 2, 4), (1, 2, 3), (1, 1, 2)] ∧
    (1, 0, toFloat (1 - toFloat (1 / 16))) ∈ msdFloat [(0, 0, (3 : ℚ)), (0, 2, 4), (1, 2, 3), (1, 1, 2)] := by
  decide +kernel

/-- The full claim for cosines: computed in doubles they stay within [-1, 1].  `C129_cosine_refuted` shows it false. -/
def CosineInRange : Prop := ∀ (es : List (Nat × Nat × ℝ)) i j s, (i, j, s) ∈ cosineCfFloat es → |s| ≤ 1

/-- C129 (cosine and Pearson correlation): computed in doubles they are symmetric and exceed 1 at most by
`(n + 1) / 2 ^ 49` with `n` records.  Missing: that they stay within [-1, 1], which is false. -/
theorem C129_cosine_partial (es : List (Nat × Nat × ℝ)) (hl : es.length ≤ 2 ^ 48) :
    ∀ S ∈ [cosineCfFloat es, pearsonFloat es], Symmetric S ∧
      ∀ i j s, (i, j, s) ∈ S → |s| ≤ 1 + (es.length + 1) / 2 ^ 49 := by
  have key : ∀ l : List (ℝ × ℝ), l.length ≤ es.length → |cosFloat l| ≤ 1 + ((es.length : ℝ) + 1) / 2 ^ 49 := by
    intro l h
    refine (abs_cosFloat l (h.trans hl)).trans ?_
    have : (l.length : ℝ) ≤ es.length := by exact_mod_cast h
    have := div_le_div_of_nonneg_right (c := (2 : ℝ) ^ 49) (by linarith : (l.length : ℝ) + 1 ≤ es.length + 1) (by positivity)
    linarith
  intro S hS
  simp only [List.mem_cons, List.not_mem_nil, or_false] at hS
  rcases hS with rfl | rfl
  · refine ⟨symmetric_upperLoop _ _, fun i j s h => ?_⟩
    unfold cosineCfFloat at h
    rw [mem_upperLoop] at h
    obtain ⟨hi, hj, h⟩ := h
    unfold cosineCfRowFloat at h
    split at h
    · cases h
    · rw [← Option.some.inj h]
      exact key _ (pairs_length es (lt_of_le_of_lt (min_le_left _ _) hi) (max_lt hi hj))
  · refine ⟨symmetric_upperLoop _ _, fun i j s h => ?_⟩
    unfold pearsonFloat at h
    rw [mem_upperLoop] at h
    obtain ⟨hi, hj, h⟩ := h
    unfold pearsonRowFloat at h
    split at h
    · cases h
    split at h
    · cases h
    · rw [← Option.some.inj h]
      refine key _ ?_
      rw [centredFloat, List.length_map]
      exact pairs_length es (lt_of_le_of_lt (min_le_left _ _) hi) (max_lt hi hj)

/-! ## Predictions with any metric -/

theorem mean_between (xs : List ℚ) (hx : ∀ x ∈ xs, 0 ≤ x) (hne : xs ≠ []) {n : ℕ} (hl : xs.length ≤ n) (hn : n ≤ 2 ^ 48) :
    ∃ a ∈ xs, ∃ b ∈ xs, a * (1 - (n + 1) / 2 ^ 50) ≤ toFloat (sumFloat xs / xs.length) ∧
      toFloat (sumFloat xs / xs.length) ≤ b * (1 + (n + 1) / 2 ^ 50) := by
  obtain ⟨a, ha, b, hb, h1, h2⟩ := mean_bounds hne
  have e := floatMean_error xs hx hne (by omega)
  refine ⟨a, ha, b, hb, ?_⟩
  change |toFloat (sumFloat xs / xs.length) - _| ≤ _ at e
  have hm : 0 ≤ xs.sum / (xs.length : ℚ) := div_nonneg (List.sum_nonneg hx) (by positivity)
  have hlq : (xs.length : ℚ) ≤ n := by exact_mod_cast hl
  have hnq : (n : ℚ) ≤ 2 ^ 48 := by exact_mod_cast hn
  have e2 : ((xs.length : ℚ) + 1) * (xs.sum / xs.length) / 2 ^ 52 ≤ (n + 1) / 2 ^ 50 * (xs.sum / xs.length) := by
    rw [mul_div_right_comm]
    refine mul_le_mul_of_nonneg_right ?_ hm
    rw [div_le_div_iff₀ (by positivity) (by positivity)]
    nlinarith
  have hd : ((n : ℚ) + 1) / 2 ^ 50 ≤ 1 := by
    rw [div_le_one (by positivity)]
    linarith
  have hd0 : 0 ≤ ((n : ℚ) + 1) / 2 ^ 50 := by positivity
  have := abs_le.1 (e.trans e2)
  constructor
  · have := mul_le_mul_of_nonneg_right h1 (by linarith : 0 ≤ 1 - ((n : ℚ) + 1) / 2 ^ 50)
    linarith
  · have := mul_le_mul_of_nonneg_right h2 (by linarith : 0 ≤ 1 + ((n : ℚ) + 1) / 2 ^ 50)
    linarith

theorem weighted_between (l : List (ℚ × ℚ)) (hx : ∀ p ∈ l, 0 ≤ p.1 ∧ 0 < p.2) {n : ℕ} (hl : l.length ≤ n) (hn : n ≤ 2 ^ 48)
    {v : ℚ} (h : weightedFloat l = some v) :
    ∃ a ∈ l, ∃ b ∈ l, a.1 * (1 - (n + 1) / 2 ^ 50) ≤ v ∧ v ≤ b.1 * (1 + (n + 1) / 2 ^ 50) := by
  unfold weightedFloat at h
  split at h
  · rename_i hpos
    have hne : l ≠ [] := by
      rintro rfl
      exact absurd hpos (lt_irrefl _)
    have hsum : 0 < (l.map (·.2)).sum := sum_pos_of hne fun p hp => (hx p hp).2
    have hex : aggWeighted l = some ((l.map fun p => p.2 * p.1).sum / (l.map (·.2)).sum) := by
      unfold aggWeighted
      rw [if_pos hsum]
    obtain ⟨a, ha, b, hb, h1, h2⟩ := weighted_bounds (fun p hp => (hx p hp).2) hex
    refine ⟨a, ha, b, hb, ?_⟩
    have e1 := sumFloat_rounded_error (l.map fun p => p.2 * p.1) (by
      intro x hx'
      obtain ⟨p, hp, rfl⟩ := List.mem_map.1 hx'
      exact mul_nonneg (hx p hp).2.le (hx p hp).1) (by rw [List.length_map]; omega)
    have e2 := floatSum_error (l.map (·.2)) (by
      intro x hx'
      obtain ⟨p, hp, rfl⟩ := List.mem_map.1 hx'
      exact (hx p hp).2.le) (by rw [List.length_map]; omega)
    rw [List.length_map, List.map_map] at e1
    rw [List.length_map, ← sumFloat_eq] at e2
    have hs : 0 ≤ (l.map fun p : ℚ × ℚ => p.2 * p.1).sum := List.sum_nonneg (by
      intro x hx'
      obtain ⟨p, hp, rfl⟩ := List.mem_map.1 hx'
      exact mul_nonneg (hx p hp).2.le (hx p hp).1)
    have hlq : (l.length : ℚ) ≤ n := by exact_mod_cast hl
    have hnq : (n : ℚ) ≤ 2 ^ 48 := by exact_mod_cast hn
    have q := quotient_error hs hsum (n := (l.length : ℚ)) (by positivity) (hlq.trans hnq) e1 e2
    have hv : toFloat (sumFloat (l.map (toFloat ∘ fun p : ℚ × ℚ => p.2 * p.1)) / sumFloat (l.map (·.2))) = v :=
      Option.some.inj h
    rw [hv] at q
    set w := (l.map fun p : ℚ × ℚ => p.2 * p.1).sum / (l.map (·.2)).sum
    have hm : 0 ≤ w := div_nonneg hs hsum.le
    have e3 : ((l.length : ℚ) + 1) * w / 2 ^ 50 ≤ (n + 1) / 2 ^ 50 * w := by
      rw [mul_div_right_comm]
      refine mul_le_mul_of_nonneg_right ?_ hm
      exact div_le_div_of_nonneg_right (by linarith) (by positivity)
    have hd : ((n : ℚ) + 1) / 2 ^ 50 ≤ 1 := by
      rw [div_le_one (by positivity)]
      linarith
    have hd0 : 0 ≤ ((n : ℚ) + 1) / 2 ^ 50 := by positivity
    have := abs_le.1 (q.trans e3)
    constructor
    · have := mul_le_mul_of_nonneg_right h1 (by linarith : 0 ≤ 1 - ((n : ℚ) + 1) / 2 ^ 50)
      linarith
    · have := mul_le_mul_of_nonneg_right h2 (by linarith : 0 ≤ 1 + ((n : ℚ) + 1) / 2 ^ 50)
      linarith
  · cases h

theorem nbrsFloat_length {cfg : KnnCfg} {rs : List Rating} {own : Nat} {nb : List (ℚ × Nat)}
    (h : (fitFloat cfg rs Knn.init).nbrs own = some nb) : nb.length ≤ rs.length ∧ ∀ p ∈ nb, 0 < p.1 := by
  simp only [fitFloat, Knn.init] at h
  rw [computeNbrs_eq] at h
  split at h
  · rw [← Option.some.inj h]
    refine ⟨?_, fun p hp => (mem_neighboursOf hp).2.2.2⟩
    refine (nlargest_subperm _ _).length_le.trans ((List.length_filter_le _ _).trans ?_)
    rw [List.length_map]
    refine (List.length_filter_le _ _).trans ?_
    rw [List.length_range]
    refine (List.dedup_sublist _).length_le.trans ?_
    rw [List.length_map]
  · cases h

/-- The full claim: every prediction of `UserKNN` in doubles lies between two interactions of the item.
`C129_range_refuted` shows it false. -/
def PredictionInRange : Prop := ∀ (cfg : KnnCfg) (rs : List Rating) (u i : Nat) (v : ℚ), cfg.kind = .user →
  predictFloat cfg rs (fitFloat cfg rs Knn.init) (some u) (some i) = .ok (some v) →
  ∃ r₁ ∈ rs, ∃ r₂ ∈ rs, r₁.iid = i ∧ r₂.iid = i ∧ r₁.x ≤ v ∧ v ≤ r₂.x

/-- C129 (range of predictions): whatever the metric, the shrinkage and the aggregation, with nonnegative interactions a
prediction leaves the range of the interactions by a factor of at most `1 ± (n + 1) / 2 ^ 50` with `n` records.  Missing:
that it stays within the range, which is false. -/
theorem C129_range_partial (cfg : KnnCfg) (rs : List Rating) (hpos : ∀ r ∈ rs, 0 ≤ r.x) (hlen : rs.length ≤ 2 ^ 48)
    (u i : Nat) (v : ℚ) (h : predictFloat cfg rs (fitFloat cfg rs Knn.init) (some u) (some i) = .ok (some v)) :
    ∃ r₁ ∈ rs, ∃ r₂ ∈ rs, r₁.x * (1 - (rs.length + 1) / 2 ^ 50) ≤ v ∧ v ≤ r₂.x * (1 + (rs.length + 1) / 2 ^ 50) ∧
      (cfg.kind = .user → r₁.iid = i ∧ r₂.iid = i) ∧ (cfg.kind = .item → r₁.uid = u ∧ r₂.uid = u) := by
  have key : ∀ own other, predictOwnFloat cfg rs (fitFloat cfg rs Knn.init) own other = .ok (some v) →
      ∃ r₁ ∈ rs, ∃ r₂ ∈ rs, r₁.x * (1 - (rs.length + 1) / 2 ^ 50) ≤ v ∧ v ≤ r₂.x * (1 + (rs.length + 1) / 2 ^ 50) ∧
        cfg.kind.other r₁ = other ∧ cfg.kind.other r₂ = other := by
    intro own other h
    unfold predictOwnFloat at h
    split at h
    · cases h
    rename_i nb hn
    obtain ⟨n1, n2⟩ := nbrsFloat_length hn
    unfold finishFloat at h
    have hpair : ∀ p ∈ usedPairs cfg.kind rs nb other, 0 < p.2 ∧ ∃ r ∈ rs, p.1 = r.x ∧ cfg.kind.other r = other := by
      intro p hp
      obtain ⟨q, hq, e⟩ := List.mem_filterMap.1 hp
      obtain ⟨x, hx, rfl⟩ := Option.map_eq_some_iff.1 e
      obtain ⟨r, hr, rfl⟩ := Option.map_eq_some_iff.1 hx
      have := List.find?_some hr
      simp only [Bool.and_eq_true, decide_eq_true_eq] at this
      exact ⟨n2 q hq, r, List.mem_of_find?_eq_some hr, rfl, this.2⟩
    have hlp : (usedPairs cfg.kind rs nb other).length ≤ rs.length := (List.length_filterMap_le _ _).trans n1
    split at h
    · unfold defaultFloat at h
      simp only at h
      split at h
      · cases h
      · rename_i h0
        obtain ⟨a, ha, b, hb, h1, h2⟩ := mean_between ((rs.filter fun r => cfg.kind.other r = other).map (·.x))
          (by intro x hx; obtain ⟨r, hr, rfl⟩ := List.mem_map.1 hx; exact hpos r (List.mem_filter.1 hr).1)
          (by intro e; exact h0 (by rw [← List.length_map (f := (·.x)), e]; rfl))
          (n := rs.length) (by rw [List.length_map]; exact List.length_filter_le _ _) hlen
        rw [List.length_map, Option.some.inj (Except.ok.inj h)] at h1 h2
        obtain ⟨r₁, m1, rfl⟩ := List.mem_map.1 ha
        obtain ⟨r₂, m2, rfl⟩ := List.mem_map.1 hb
        exact ⟨r₁, (List.mem_filter.1 m1).1, r₂, (List.mem_filter.1 m2).1, h1, h2,
          by simpa using (List.mem_filter.1 m1).2, by simpa using (List.mem_filter.1 m2).2⟩
    · have h' := Except.ok.inj h
      have fin : ∀ a ∈ usedPairs cfg.kind rs nb other, ∀ b ∈ usedPairs cfg.kind rs nb other,
          a.1 * (1 - (rs.length + 1) / 2 ^ 50) ≤ v → v ≤ b.1 * (1 + (rs.length + 1) / 2 ^ 50) →
          ∃ r₁ ∈ rs, ∃ r₂ ∈ rs, r₁.x * (1 - (rs.length + 1) / 2 ^ 50) ≤ v ∧ v ≤ r₂.x * (1 + (rs.length + 1) / 2 ^ 50) ∧
            cfg.kind.other r₁ = other ∧ cfg.kind.other r₂ = other := by
        intro a ha b hb h1 h2
        obtain ⟨_, r₁, m1, e1, o1⟩ := hpair a ha
        obtain ⟨_, r₂, m2, e2, o2⟩ := hpair b hb
        exact ⟨r₁, m1, r₂, m2, by rw [← e1]; exact h1, by rw [← e2]; exact h2, o1, o2⟩
      cases hagg : cfg.agg with
      | mean =>
        rw [hagg] at h'
        simp only [Agg.runFloat, meanFloat] at h'
        split at h'
        · rename_i h0
          obtain ⟨a, ha, b, hb, h1, h2⟩ := mean_between ((usedPairs cfg.kind rs nb other).map (·.1))
            (by
              intro x hx
              obtain ⟨p, hp, rfl⟩ := List.mem_map.1 hx
              obtain ⟨_, r, hr, e, _⟩ := hpair p hp
              rw [e]
              exact hpos r hr)
            (by intro e; rw [← List.length_map (f := (·.1)), e] at h0; exact absurd h0 (lt_irrefl _))
            (n := rs.length) (by rw [List.length_map]; exact hlp) hlen
          rw [List.length_map, Option.some.inj h'] at h1 h2
          obtain ⟨p, hp, rfl⟩ := List.mem_map.1 ha
          obtain ⟨q, hq, rfl⟩ := List.mem_map.1 hb
          exact fin p hp q hq h1 h2
        · cases h'
      | weighted =>
        rw [hagg] at h'
        obtain ⟨a, ha, b, hb, h1, h2⟩ := weighted_between (usedPairs cfg.kind rs nb other) (by
          intro p hp
          obtain ⟨h1, r, hr, e, _⟩ := hpair p hp
          exact ⟨by rw [e]; exact hpos r hr, h1⟩) hlp hlen h'
        exact fin a ha b hb h1 h2
  unfold predictFloat at h
  simp only at h
  split at h
  · rename_i hk
    obtain ⟨r₁, m1, r₂, m2, h1, h2, o1, o2⟩ := key u i h
    rw [hk] at o1 o2
    exact ⟨r₁, m1, r₂, m2, h1, h2, fun _ => ⟨o1, o2⟩, fun e => by rw [hk] at e; cases e⟩
  · rename_i hk
    obtain ⟨r₁, m1, r₂, m2, h1, h2, o1, o2⟩ := key i u h
    rw [hk] at o1 o2
    exact ⟨r₁, m1, r₂, m2, h1, h2, fun e => (by rw [hk] at e; cases e), fun _ => ⟨o1, o2⟩⟩

/-! ## Where doubles and real numbers differ -/

/-- A user with three items and three users sharing one of them; item 6 has interaction `x` with all three, items 3 to 5
interaction 5 with one each. -/
def exStars (x : ℚ) : List Rating :=
  [⟨0, 0, 1⟩, ⟨0, 1, 1⟩, ⟨0, 2, 1⟩, ⟨1, 0, 1⟩, ⟨1, 6, x⟩, ⟨1, 3, 5⟩, ⟨2, 0, 1⟩, ⟨2, 6, x⟩, ⟨2, 4, 5⟩, ⟨3, 0, 1⟩, ⟨3, 6, x⟩,
    ⟨3, 5, 5⟩]

/-- User neighbourhoods with Jaccard similarity, three neighbours, no shrinkage, no averages. -/
def exStarCfg (agg : Agg) : KnnCfg := ⟨.user, 3, 1, none, jaccardSim false, agg, false⟩

/-- The same in doubles. -/
def exStarFloat (agg : Agg) : KnnCfg := { exStarCfg agg with metric := jaccardFloat false }

/-- C129 (negation): with weighted aggregation three neighbours that all give 5 to an item lead to a prediction below 5. -/
theorem C129_weighted_fails : (∃ v < 5, predictFloat (exStarFloat .weighted) (exStars 5)
      (fitFloat (exStarFloat .weighted) (exStars 5) Knn.init) (some 0) (some 6) = .ok (some v)) ∧
    (∀ r ∈ exStars 5, r.iid = 6 → r.x = 5) ∧
    knnPredict (exStarCfg .weighted) (exStars 5) (fitKnn (exStarCfg .weighted) (exStars 5) Knn.init) (some 0) (some 6) =
      .ok (some 5) := by
  refine ⟨⟨toFloat (3 / toFloat (toFloat (2 / 5) + toFloat (1 / 5))), by decide +kernel, by decide +kernel⟩, by decide +kernel,
    by decide +kernel⟩

/-- C129 (negation): predictions in doubles can leave the range of the interactions. -/
theorem C129_range_refuted : ¬ PredictionInRange := by
  intro h
  obtain ⟨⟨v, hv, hp⟩, h5, _⟩ := C129_weighted_fails
  obtain ⟨r₁, m1, _, _, i1, _, h1, _⟩ := h (exStarFloat .weighted) (exStars 5) 0 6 v rfl hp
  rw [h5 r₁ m1 i1] at h1
  exact absurd hv (not_lt.2 h1)

/-- The data of `C129_weighted_fails` satisfy the conditions of `C129_range_partial`. -/
example : (∀ r ∈ exStars 5, 0 ≤ r.x) ∧ (exStars 5).length ≤ 2 ^ 48 ∧ ∃ v, predictFloat (exStarFloat .weighted) (exStars 5)
    (fitFloat (exStarFloat .weighted) (exStars 5) Knn.init) (some 0) (some 6) = .ok (some v) :=
  ⟨by decide +kernel, by decide, C129_weighted_fails.1.imp fun _ h => h.2⟩

/-- C129 (negation): so the item recommended first is not the one recommended with real numbers. -/
theorem C129_order_fails : ((userRankFloat (exStarFloat .weighted) (exStars 5)
      (fitFloat (exStarFloat .weighted) (exStars 5) Knn.init) 0 [3, 4, 5, 6] 1 true).map (List.map (·.2)) = .ok [5]) ∧
    (userRank (exStarCfg .weighted) (exStars 5) (fitKnn (exStarCfg .weighted) (exStars 5) Knn.init) 0 [3, 4, 5, 6] 1
      true).map (List.map (·.2)) = .ok [6] := by
  refine ⟨by decide +kernel, by decide +kernel⟩

/-- C129 (negation): with mean aggregation three neighbours that all give 0.1 lead to a prediction above 0.1. -/
theorem C129_mean_fails : (∃ v > toFloat (1 / 10), predictFloat (exStarFloat .mean) (exStars (toFloat (1 / 10)))
      (fitFloat (exStarFloat .mean) (exStars (toFloat (1 / 10))) Knn.init) (some 0) (some 6) = .ok (some v)) ∧
    ∀ r ∈ exStars (toFloat (1 / 10)), r.iid = 6 → r.x = toFloat (1 / 10) := by
  refine ⟨⟨toFloat (toFloat (toFloat (2 * toFloat (1 / 10)) + toFloat (1 / 10)) / 3), by decide +kernel, by decide +kernel⟩,
    by decide +kernel⟩

/-- Whole points satisfy the conditions of `C129_exact`, with every neighbour in use. -/
example : OnGrid 0 5 (exStars 5) ∧ 5 * (exStars 5).length ^ 2 < 2 ^ 52 ∧
    (userRank (exStarCfg .mean) (exStars 4) (fitKnn (exStarCfg .mean) (exStars 4) Knn.init) 0 [3, 4, 5, 6] 4 true) =
      .ok [(5, 5), (5, 4), (5, 3), (4, 6)] := by
  refine ⟨?_, by decide, by decide +kernel⟩
  intro r hr
  simp only [exStars, List.mem_cons, List.not_mem_nil, or_false] at hr
  rcases hr with rfl | rfl | rfl | rfl | rfl | rfl | rfl | rfl | rfl | rfl | rfl | rfl
  all_goals first
    | exact ⟨1, by decide, by decide +kernel⟩
    | exact ⟨5, by decide, by decide +kernel⟩

/-- A double near enough to a number is what it is rounded to. -/
theorem toFloat_close {x : ℝ} {m k : ℤ} (h2 : m < 2 ^ 53) (hlow : (2 : ℝ) ^ 52 * 2 ^ k ≤ x)
    (hx : |x - m * 2 ^ k| < 2 ^ k / 2) : toFloat x = m * 2 ^ k := by
  have hk : (0 : ℝ) < 2 ^ k := two_zpow_pos k
  have hx0 : 0 < x := lt_of_lt_of_le (by positivity) hlow
  have hb := abs_lt.1 hx
  have hm : (m : ℝ) + 1 ≤ 2 ^ 53 := by exact_mod_cast h2
  have hhigh : x < 2 ^ 53 * 2 ^ k := by nlinarith
  have hlog : Int.log 2 |x| = k + 52 := by
    rw [abs_of_pos hx0]
    apply le_antisymm
    · have : Int.log 2 x < k + 53 := by
        rw [← Int.lt_zpow_iff_log_lt (by norm_num) hx0]
        rw [zpow_add₀ (by norm_num)]
        push_cast
        norm_num at hhigh ⊢
        linarith
      omega
    · rw [← Int.zpow_le_iff_le_log (by norm_num) hx0, zpow_add₀ (by norm_num)]
      push_cast
      norm_num at hlow ⊢
      linarith
  have hp : lastPlace x = k := by unfold lastPlace; rw [hlog]; ring
  unfold toFloat
  rw [hp]
  have hc := abs_le.1 (roundHalfEven_close (x / 2 ^ k))
  have hy : |x / 2 ^ k - m| < 1 / 2 := by
    rw [show x / 2 ^ k - m = (x - m * 2 ^ k) / 2 ^ k by field_simp, abs_div, abs_of_pos hk, div_lt_iff₀ hk]
    linarith
  have hy' := abs_lt.1 hy
  have e1 : ((roundHalfEven (x / 2 ^ k) : ℤ) : ℝ) < (m : ℝ) + 1 := by linarith
  have e2 : (m : ℝ) - 1 < ((roundHalfEven (x / 2 ^ k) : ℤ) : ℝ) := by linarith
  have e3 : roundHalfEven (x / 2 ^ k) < m + 1 := by exact_mod_cast e1
  have e4 : m - 1 < roundHalfEven (x / 2 ^ k) := by exact_mod_cast e2
  rw [show roundHalfEven (x / 2 ^ k) = m by omega]

theorem cosFloat_ones : cosFloat [(1, 1), (1, 1), (1, 1)] = (2 ^ 52 + 1) * 2 ^ (-52 : ℤ) := by
  have hs : sumFloat [(1 : ℝ), 1, 1] = 3 := by
    have := sumFloat_grid (K := ℝ) 0 [1, 1, 1] (by decide)
    norm_num at this
    exact this
  have hsqrt : toFloat √(3 : ℝ) = (7800463371553962 : ℤ) * 2 ^ (-52 : ℤ) := by
    apply toFloat_close (by norm_num)
    · apply Real.le_sqrt_of_sq_le
      norm_num
    · have l1 : (7800463371553962 - 1 / 4 : ℝ) * 2 ^ (-52 : ℤ) ≤ √3 := by
        apply Real.le_sqrt_of_sq_le
        norm_num
      have l2 : √(3 : ℝ) ≤ (7800463371553962 + 49 / 100 : ℝ) * 2 ^ (-52 : ℤ) := by
        apply Real.sqrt_le_iff.2
        constructor <;> norm_num
      rw [abs_lt]
      push_cast
      constructor <;> norm_num at l1 l2 ⊢ <;> linarith
  have hprod : toFloat (((7800463371553962 : ℤ) : ℝ) * 2 ^ (-52 : ℤ) * (((7800463371553962 : ℤ) : ℝ) * 2 ^ (-52 : ℤ))) =
      (6755399441055743 : ℤ) * 2 ^ (-51 : ℤ) := by
    apply toFloat_close (by norm_num)
    · norm_num
    · rw [abs_lt]
      constructor <;> norm_num
  have hquot : toFloat ((3 : ℝ) / ((6755399441055743 : ℤ) * 2 ^ (-51 : ℤ))) = ((2 ^ 52 + 1 : ℤ) : ℝ) * 2 ^ (-52 : ℤ) := by
    apply toFloat_close (by norm_num)
    · norm_num
    · rw [abs_lt]
      constructor <;> norm_num
  unfold cosFloat
  simp only [List.map_cons, List.map_nil, mul_one, one_pow, toFloat_one, hs, hsqrt, hprod, hquot]
  push_cast
  ring

/-- C129 (negation): two users that give 1 to the same three items have a cosine above 1. -/
theorem C129_cosine_refuted : ¬ CosineInRange := by
  intro h
  let es : List (Nat × Nat × ℝ) := [(0, 0, 1), (0, 1, 1), (0, 2, 1), (1, 0, 1), (1, 1, 1), (1, 2, 1)]
  have hc : Common es 0 1 [0, 1, 2] := by
    refine ⟨by decide, fun c => ?_⟩
    simp only [es, HasCell, List.mem_cons, Prod.mk.injEq, List.not_mem_nil, or_false]
    constructor
    · rintro (rfl | rfl | rfl)
      · exact ⟨⟨1, by simp⟩, ⟨1, by simp⟩⟩
      · exact ⟨⟨1, by simp⟩, ⟨1, by simp⟩⟩
      · exact ⟨⟨1, by simp⟩, ⟨1, by simp⟩⟩
    · rintro ⟨⟨v, h1⟩, ⟨w, h2⟩⟩; omega
  have h0 : 0 < (csrRows es).length := csr_length es 0 0 ⟨1, by simp [es]⟩
  have h1 : 1 < (csrRows es).length := csr_length es 1 0 ⟨1, by simp [es]⟩
  have hp := pairsOf_csr es 0 1 h0 h1 _ hc
  have he : ([0, 1, 2].map fun c => (cell es 0 c, cell es 1 c)) = List.replicate 3 ((1 : ℝ), (1 : ℝ)) := by
    simp [cell, es, List.replicate]
  rw [he, List.perm_replicate] at hp
  have hs : sumFloat [(1 : ℝ), 1, 1] = 3 := by
    have := sumFloat_grid (K := ℝ) 0 [1, 1, 1] (by decide)
    norm_num at this
    exact this
  have hm : (0, 1, cosFloat [(1, 1), (1, 1), (1, 1)]) ∈ cosineCfFloat es := by
    unfold cosineCfFloat
    rw [mem_upperLoop]
    refine ⟨h0, h1, ?_⟩
    show cosineCfRowFloat ((csrRows es).getD 0 []) ((csrRows es).getD 1 []) = _
    unfold cosineCfRowFloat
    rw [hp]
    rw [if_neg]
    · rfl
    · simp only [List.replicate, List.map_cons, List.map_nil, mul_one, toFloat_one, hs]
      norm_num
  have := h es 0 1 _ hm
  rw [cosFloat_ones] at this
  have := (abs_le.1 this).2
  norm_num at this

end DRec
