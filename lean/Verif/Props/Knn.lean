import Verif.Lemmas.Knn
import Verif.Props.Similarity

/-!
# C59, C62, C63, C64: nearest neighbour recommenders
-/

namespace DRec

open Spec

/-! ## Example data -/

/-- Four users, five items. -/
def exRatings : List Rating :=
  [⟨0, 0, 5⟩, ⟨0, 1, 3⟩, ⟨1, 0, 4⟩, ⟨1, 1, 2⟩, ⟨1, 2, 1⟩, ⟨2, 1, 4⟩, ⟨2, 3, 2⟩, ⟨3, 4, 3⟩]

/-- Jaccard similarity, two neighbours, one co-rating, shrinkage. -/
def exKnn (K : KKind) (averages : Bool) : KnnCfg :=
  ⟨K, 2, 1, some 1, jaccardSim false, .weighted, averages⟩

theorem ex_oneValue (K : KKind) (averages : Bool) (rs : List Rating) : OneValue (simMatrix (exKnn K averages) rs) :=
  (C60_jaccard (K := ℚ) false _).1.one

theorem ex_dense (K : KKind) : Dense K exRatings := by
  cases K with
  | user =>
    refine ⟨4, fun a => ?_⟩
    simp only [Known, exRatings, List.mem_cons, List.not_mem_nil, or_false, exists_eq_or_imp, exists_eq_left, KKind.own]
    omega
  | item =>
    refine ⟨5, fun a => ?_⟩
    simp only [Known, exRatings, List.mem_cons, List.not_mem_nil, or_false, exists_eq_or_imp, exists_eq_left, KKind.own]
    omega

/-! ## C62: neighbourhoods -/

/-- C62: matrices have one value per cell, as `C62_neighbours` needs: all the similarity functions of the code are one of
the two loops over pairs of rows, whatever is computed for a pair (with real numbers or with floats). -/
theorem C62_one_value : (∀ (f : SRow ℚ → SRow ℚ → Option ℚ) (rows : List (SRow ℚ)),
      OneValue (upperLoop f rows) ∧ OneValue (fullLoop f rows)) ∧
    (∀ es : List (Nat × Nat × ℚ), OneValue (msdSim es) ∧ ∀ b, OneValue (jaccardSim b es)) ∧
    ∀ es : List (Nat × Nat × ℝ), ∀ S ∈ [cosineSim es, cosineSimCf es, adjustedCosineSim es, pearsonCorr es],
      ∀ i j s s', (i, j, s) ∈ S → (i, j, s') ∈ S → s = s' := by
  refine ⟨fun f rows => ⟨(symmetric_upperLoop f rows).one, fun i j s s' h h' => ?_⟩,
    fun es => ⟨(C60_msd es).1.one, fun b => (C60_jaccard b es).1.one⟩, fun es S hS i j s s' h h' => ?_⟩
  · rw [mem_fullLoop] at h h'
    exact Option.some.inj (h.2.2.symm.trans h'.2.2)
  · simp only [List.mem_cons, List.not_mem_nil, or_false] at hS
    rcases hS with rfl | rfl | rfl | rfl
    · exact (C60_cosine es).1.one i j s s' h h'
    · exact (C60_cosine_cf es).1.one i j s s' h h'
    · unfold adjustedCosineSim at h h'
      rw [mem_fullLoop] at h h'
      exact Option.some.inj (h.2.2.symm.trans h'.2.2)
    · exact (C60_pearson es).1.one i j s s' h h'

theorem candidate_iff {cfg : KnnCfg} {rs : List Rating} (hone : OneValue (simMatrix cfg rs)) (hd : Dense cfg.kind rs)
    (a b : Nat) (s : ℚ) : (b < (ownIds cfg.kind rs).length ∧ b ≠ a ∧
      getSim (computeSims cfg rs fun _ => none) a b = s ∧ 0 < s) ↔ Candidate cfg rs a b s := by
  have hsim : b ≠ a → 0 < s → (getSim (computeSims cfg rs fun _ => none) a b = s ↔ ∃ raw c,
      (max a b, min a b, raw) ∈ simMatrix cfg rs ∧ CoRatings cfg.kind rs a b c ∧ cfg.m ≤ c ∧
      Shrunk cfg.shrinkage c raw s) := by
    intro hne hs
    rw [getSim_pos hs, sims_iff hone (by omega : min a b < max a b)]
    rcases le_total a b with h | h
    · rw [Nat.max_eq_right h, Nat.min_eq_left h]
      constructor
      · rintro ⟨raw, c, h1, h2, h3⟩; exact ⟨raw, c, h1, coRatings_symm h2, h3⟩
      · rintro ⟨raw, c, h1, h2, h3⟩; exact ⟨raw, c, h1, coRatings_symm h2, h3⟩
    · rw [Nat.max_eq_left h, Nat.min_eq_right h]
  rw [← dense_lt hd]
  constructor
  · rintro ⟨h1, h2, h3, h4⟩
    exact ⟨h2, h1, h4, (hsim h2 h4).1 h3⟩
  · rintro ⟨h1, h2, h3, h4⟩
    exact ⟨h2, h1, (hsim h1 h3).2 h4, h3⟩

/-- C62: every known id has a neighbour list: at most `k` entries, best first, nobody twice, only candidates (another
known id, positive similarity, at least `m` co-ratings), and a candidate is left out only when the list is full of
candidates at least as similar. -/
theorem C62_neighbours (cfg : KnnCfg) (rs : List Rating) (hone : OneValue (simMatrix cfg rs)) (hd : Dense cfg.kind rs)
    (a : Nat) (ha : Known cfg.kind rs a) : ∃ nb, (fitKnn cfg rs Knn.init).nbrs a = some nb ∧
      nb.length ≤ cfg.k ∧ (nb.Pairwise fun p q => q.1 ≤ p.1) ∧ (nb.map (·.2)).Nodup ∧
      (∀ s b, (s, b) ∈ nb → Candidate cfg rs a b s) ∧
      ∀ s b, Candidate cfg rs a b s → (s, b) ∉ nb → nb.length = cfg.k ∧ ∀ p ∈ nb, s ≤ p.1 := by
  refine ⟨neighboursOf cfg (ownIds cfg.kind rs).length (computeSims cfg rs fun _ => none) a, ?_, ?_, ?_, ?_, ?_, ?_⟩
  · show computeNbrs cfg rs _ _ a = _
    rw [computeNbrs_eq, if_pos (mem_ownIds.2 ha)]
    rfl
  · unfold neighboursOf
    rw [nlargest_length]
    exact Nat.min_le_left _ _
  · exact (nlargest_pairwise _ _).imp pairGe_le
  · exact nodup_map_of_subperm _ (nlargest_subperm _ _) (nodup_pool _ _ _)
  · intro s b h
    exact (candidate_iff hone hd a b s).1 (mem_neighboursOf h)
  · intro s b hc hn
    have hm := mem_pool (p := (s, b)).2 ((candidate_iff hone hd a b s).2 hc)
    obtain ⟨h1, h2⟩ := nlargest_best cfg.k _ (s, b) hm hn
    exact ⟨h1, fun p hp => pairGe_le (h2 p hp)⟩

/-- C62: two ids in each other's lists have the same similarity there. -/
theorem C62_symmetric (cfg : KnnCfg) (rs : List Rating) (a b : Nat) (la lb : List (ℚ × Nat)) (s s' : ℚ)
    (ha : (fitKnn cfg rs Knn.init).nbrs a = some la) (hb : (fitKnn cfg rs Knn.init).nbrs b = some lb)
    (h1 : (s, b) ∈ la) (h2 : (s', a) ∈ lb) : s = s' := by
  have ha' : computeNbrs cfg rs (computeSims cfg rs fun _ => none) (fun _ => none) a = some la := ha
  have hb' : computeNbrs cfg rs (computeSims cfg rs fun _ => none) (fun _ => none) b = some lb := hb
  rw [computeNbrs_eq] at ha' hb'
  split at ha'
  · split at hb'
    · cases ha'; cases hb'
      have e1 := (mem_neighboursOf h1).2.2.1
      have e2 := (mem_neighboursOf h2).2.2.1
      simp only at e1 e2
      rw [← e1, ← e2]
      exact getSim_symm _ _ _
    · cases hb'
  · cases ha'

/-- C62: ids that do not occur have no list. -/
theorem C62_unknown (cfg : KnnCfg) (rs : List Rating) (a : Nat) (ha : ¬ Known cfg.kind rs a) :
    (fitKnn cfg rs Knn.init).nbrs a = none := by
  show computeNbrs cfg rs _ _ a = none
  rw [computeNbrs_eq, if_neg (mt mem_ownIds.1 ha)]
  rfl

/-- The lists of the example, for users and for items. -/
example : (fitKnn (exKnn .user false) exRatings Knn.init).nbrs 1 =
      some [((2 / 3) * (2 / (2 + 1 + 1 / 1000000)), 0), ((1 / 4) * (1 / (1 + 1 + 1 / 1000000)), 2)] ∧
    (fitKnn (exKnn .user false) exRatings Knn.init).nbrs 3 = some [] ∧
    OneValue (simMatrix (exKnn .user false) exRatings) ∧ Dense (exKnn .user false).kind exRatings ∧
    Known (exKnn .user false).kind exRatings 1 := by
  refine ⟨by decide +kernel, by decide +kernel, ex_oneValue _ _ _, ex_dense _, (ex_dense .user).choose_spec 1 |>.2 ?_⟩
  have h := (ex_dense .user).choose_spec 3
  have : Known KKind.user exRatings 3 := ⟨⟨3, 4, 3⟩, by decide, rfl⟩
  have := h.1 this
  omega

/-! ## C63: predictions -/

theorem fit_nbrs {cfg : KnnCfg} {rs : List Rating} {a : Nat} {nb : List (ℚ × Nat)}
    (h : (fitKnn cfg rs Knn.init).nbrs a = some nb) : ∀ p ∈ nb, 0 < p.1 := by
  have h' : computeNbrs cfg rs (computeSims cfg rs fun _ => none) (fun _ => none) a = some nb := h
  rw [computeNbrs_eq] at h'
  split at h'
  · cases h'
    exact fun p hp => (mem_neighboursOf hp).2.2.2
  · cases h'

/-- The id whose neighbours are used. -/
theorem knnPredict_own (cfg : KnnCfg) (rs : List Rating) (M : Knn) (u i : Nat) :
    knnPredict cfg rs M (some u) (some i) =
      predictOwn cfg rs M (cfg.kind.own ⟨u, i, 0⟩) (cfg.kind.other ⟨u, i, 0⟩) := by
  unfold knnPredict
  cases cfg.kind <;> rfl

theorem predictOwn_range {cfg : KnnCfg} {rs : List Rating} {own other : Nat} {v : ℚ}
    (h : predictOwn cfg rs (fitKnn cfg rs Knn.init) own other = .ok (some v)) :
    ∃ r₁ ∈ rs, ∃ r₂ ∈ rs, cfg.kind.other r₁ = other ∧ cfg.kind.other r₂ = other ∧ r₁.x ≤ v ∧ v ≤ r₂.x := by
  unfold predictOwn at h
  cases hnb : (fitKnn cfg rs Knn.init).nbrs own with
  | none => rw [hnb] at h; cases h
  | some nb =>
    rw [hnb] at h
    simp only [finishPred] at h
    split at h
    · unfold predictDefault at h
      simp only at h
      split at h
      · cases h
      · rename_i hne
        have hv := Option.some.inj (Except.ok.inj h)
        have hne' : ((rs.filter fun r => cfg.kind.other r = other).map (·.x)) ≠ [] := by
          intro e
          rw [List.map_eq_nil_iff] at e
          exact hne (by rw [e]; rfl)
        obtain ⟨p, hp, q, hq, h1, h2⟩ := mean_bounds hne'
        rw [List.length_map, hv] at h1 h2
        obtain ⟨r₁, m1, rfl⟩ := List.mem_map.1 hp
        obtain ⟨r₂, m2, rfl⟩ := List.mem_map.1 hq
        rw [List.mem_filter, decide_eq_true_eq] at m1 m2
        exact ⟨r₁, m1.1, r₂, m2.1, m1.2, m2.2, h1, h2⟩
    · have hv := Except.ok.inj h
      obtain ⟨p, hp, q, hq, h1, h2⟩ := agg_bounds (usedPairs_pos (fit_nbrs hnb)) hv
      have get : ∀ p ∈ usedPairs cfg.kind rs nb other, ∃ r ∈ rs, cfg.kind.other r = other ∧ r.x = p.1 := by
        intro p hp
        obtain ⟨q, _, hq⟩ := List.mem_filterMap.1 hp
        rw [Option.map_eq_some_iff] at hq
        obtain ⟨x, hx, rfl⟩ := hq
        obtain ⟨r, hr, _, h2, h3⟩ := interactionOf_some hx
        exact ⟨r, hr, h2, h3⟩
      obtain ⟨r₁, m1, o1, x1⟩ := get p hp
      obtain ⟨r₂, m2, o2, x2⟩ := get q hq
      exact ⟨r₁, m1, r₂, m2, o1, o2, by rw [x1]; exact h1, by rw [x2]; exact h2⟩

/-- C63: a prediction lies between two observed interactions: of the item for user neighbourhoods, of the user for
item neighbourhoods. -/
theorem C63_range (cfg : KnnCfg) (rs : List Rating) (u i : Nat) (v : ℚ)
    (h : knnPredict cfg rs (fitKnn cfg rs Knn.init) (some u) (some i) = .ok (some v)) :
    ∃ r₁ ∈ rs, ∃ r₂ ∈ rs, r₁.x ≤ v ∧ v ≤ r₂.x ∧
      (cfg.kind = .user → r₁.iid = i ∧ r₂.iid = i) ∧ (cfg.kind = .item → r₁.uid = u ∧ r₂.uid = u) := by
  rw [knnPredict_own] at h
  obtain ⟨r₁, m1, r₂, m2, o1, o2, h1, h2⟩ := predictOwn_range h
  refine ⟨r₁, m1, r₂, m2, h1, h2, ?_, ?_⟩
  · intro hk; rw [hk] at o1 o2; exact ⟨o1, o2⟩
  · intro hk; rw [hk] at o1 o2; exact ⟨o1, o2⟩

/-- C63: without averages a prediction lies between two interactions of neighbours. -/
theorem C63_neighbour_range (cfg : KnnCfg) (rs : List Rating) (hav : cfg.useAverages = false) (u i : Nat) (v : ℚ)
    (h : knnPredict cfg rs (fitKnn cfg rs Knn.init) (some u) (some i) = .ok (some v)) :
    ∃ nb, (fitKnn cfg rs Knn.init).nbrs (cfg.kind.own ⟨u, i, 0⟩) = some nb ∧
      ∃ r₁ ∈ rs, ∃ r₂ ∈ rs, cfg.kind.own r₁ ∈ nb.map (·.2) ∧ cfg.kind.own r₂ ∈ nb.map (·.2) ∧
      cfg.kind.other r₁ = cfg.kind.other ⟨u, i, 0⟩ ∧ cfg.kind.other r₂ = cfg.kind.other ⟨u, i, 0⟩ ∧
      r₁.x ≤ v ∧ v ≤ r₂.x := by
  rw [knnPredict_own] at h
  unfold predictOwn at h
  cases hnb : (fitKnn cfg rs Knn.init).nbrs (cfg.kind.own ⟨u, i, 0⟩) with
  | none => rw [hnb] at h; cases h
  | some nb =>
    rw [hnb] at h
    simp only [finishPred, hav, Bool.false_eq_true, and_false, if_false] at h
    have hv := Except.ok.inj h
    obtain ⟨p, hp, q, hq, h1, h2⟩ := agg_bounds (usedPairs_pos (fit_nbrs hnb)) hv
    have get : ∀ p ∈ usedPairs cfg.kind rs nb (cfg.kind.other ⟨u, i, 0⟩), ∃ r ∈ rs,
        cfg.kind.own r ∈ nb.map (·.2) ∧ cfg.kind.other r = cfg.kind.other ⟨u, i, 0⟩ ∧ r.x = p.1 := by
      intro p hp
      obtain ⟨q, hqm, hq⟩ := List.mem_filterMap.1 hp
      rw [Option.map_eq_some_iff] at hq
      obtain ⟨x, hx, rfl⟩ := hq
      obtain ⟨r, hr, h1, h2, h3⟩ := interactionOf_some hx
      exact ⟨r, hr, by rw [h1]; exact List.mem_map.2 ⟨q, hqm, rfl⟩, h2, h3⟩
    obtain ⟨r₁, m1, n1, o1, x1⟩ := get p hp
    obtain ⟨r₂, m2, n2, o2, x2⟩ := get q hq
    exact ⟨nb, rfl, r₁, m1, r₂, m2, n1, n2, o1, o2, by rw [x1]; exact h1, by rw [x2]; exact h2⟩

/-- C63: for a known user and item there is a prediction or None, and it is None exactly when averages are off and no
neighbour has a record. -/
theorem C63_none (cfg : KnnCfg) (rs : List Rating) (u i : Nat) (hu : ∃ r ∈ rs, r.uid = u) (hi : ∃ r ∈ rs, r.iid = i) :
    ∃ nb o, (fitKnn cfg rs Knn.init).nbrs (cfg.kind.own ⟨u, i, 0⟩) = some nb ∧
      knnPredict cfg rs (fitKnn cfg rs Knn.init) (some u) (some i) = .ok o ∧
      (o = none ↔ cfg.useAverages = false ∧ ∀ p ∈ nb, ¬ Rated cfg.kind rs p.2 (cfg.kind.other ⟨u, i, 0⟩)) := by
  have hown : Known cfg.kind rs (cfg.kind.own ⟨u, i, 0⟩) := by
    cases cfg.kind with
    | user => exact hu
    | item => exact hi
  have hother : ∃ r ∈ rs, cfg.kind.other r = cfg.kind.other ⟨u, i, 0⟩ := by
    cases cfg.kind with
    | user => exact hi
    | item => exact hu
  rw [knnPredict_own]
  generalize cfg.kind.own ⟨u, i, 0⟩ = own at *
  generalize cfg.kind.other ⟨u, i, 0⟩ = other at *
  have hnb : ∃ nb, (fitKnn cfg rs Knn.init).nbrs own = some nb := by
    refine ⟨neighboursOf cfg (ownIds cfg.kind rs).length (computeSims cfg rs fun _ => none) own, ?_⟩
    show computeNbrs cfg rs _ _ own = _
    rw [computeNbrs_eq, if_pos (mem_ownIds.2 hown)]
    rfl
  obtain ⟨nb, hnb⟩ := hnb
  have hused : usedPairs cfg.kind rs nb other = [] ↔ ∀ p ∈ nb, ¬ Rated cfg.kind rs p.2 other := by
    unfold usedPairs
    rw [List.filterMap_eq_nil_iff]
    simp only [Option.map_eq_none_iff, interactionOf_none]
  have hred : predictOwn cfg rs (fitKnn cfg rs Knn.init) own other =
      finishPred cfg rs (usedPairs cfg.kind rs nb other) other := by unfold predictOwn; rw [hnb]
  rw [hred]
  unfold finishPred
  by_cases hav : cfg.useAverages = true
  · by_cases hl : (usedPairs cfg.kind rs nb other).length = 0
    · rw [if_pos ⟨hl, hav⟩]
      unfold predictDefault
      have hne : ¬ (rs.filter fun r => cfg.kind.other r = other).length = 0 := by
        obtain ⟨r, hr, ho⟩ := hother
        rw [List.length_eq_zero_iff]
        exact List.ne_nil_of_mem (List.mem_filter.2 ⟨hr, by simpa using ho⟩)
      simp only
      rw [if_neg hne]
      exact ⟨nb, _, hnb, rfl, by simp [hav]⟩
    · rw [if_neg (fun h => hl h.1)]
      refine ⟨nb, _, hnb, rfl, ?_⟩
      rw [agg_none (usedPairs_pos (fit_nbrs hnb))]
      simp only [hav, Bool.true_eq_false, false_and, iff_false]
      intro h
      exact hl (by rw [h]; rfl)
  · rw [if_neg (fun h => hav h.2)]
    refine ⟨nb, _, hnb, rfl, ?_⟩
    rw [agg_none (usedPairs_pos (fit_nbrs hnb)), hused]
    simp [Bool.eq_false_iff.2 hav]

/-- Predictions of the example: a value, None, and an average. -/
example : (knnPredict (exKnn .user false) exRatings (fitKnn (exKnn .user false) exRatings Knn.init) (some 0)
      (some 2)).toOption = some (some 1) ∧
    (knnPredict (exKnn .user false) exRatings (fitKnn (exKnn .user false) exRatings Knn.init) (some 3)
      (some 0)).toOption = some none ∧
    (knnPredict (exKnn .user true) exRatings (fitKnn (exKnn .user true) exRatings Knn.init) (some 3)
      (some 0)).toOption = some (some (9 / 2)) := by
  decide +kernel

/-! ## C59: fitting again -/

theorem paired_iff {cfg : KnnCfg} {rs : List Rating} (hone : OneValue (simMatrix cfg rs)) {a b : Nat} (hab : b < a) :
    Paired cfg rs a b ↔ computeSims cfg rs (fun _ => none) (a, b) ≠ none := by
  constructor
  · rintro ⟨raw, c, h1, h2, h3⟩
    rw [(sims_iff hone hab (shrink cfg.shrinkage c raw)).2 ⟨raw, c, h1, h2, h3, (shrunk_iff _ _ _ _).2 rfl⟩]
    simp
  · intro h
    obtain ⟨s, hs⟩ := Option.ne_none_iff_exists'.1 h
    obtain ⟨raw, c, h1, h2, h3, _⟩ := (sims_iff hone hab s).1 hs
    exact ⟨raw, c, h1, h2, h3⟩

theorem sims_upper {cfg : KnnCfg} {rs : List Rating} {a b : Nat} (h : a ≤ b) :
    computeSims cfg rs (fun _ => none) (a, b) = none := foldl_addSim_few cfg rs _ _ a b (.inl h)

/-- C59 holds only in part: fitting a fitted model again gives the model of a new fit exactly when every pair of ids
that had a similarity in the first dataset has one in the second, and every id of the first occurs in the second.
The full claim is this equation for every pair of datasets; it fails, see `C59_fails`. -/
theorem C59_refit_partial (cfg : KnnCfg) (rs₁ rs₂ : List Rating) (h₁ : OneValue (simMatrix cfg rs₁))
    (h₂ : OneValue (simMatrix cfg rs₂)) :
    fitKnn cfg rs₂ (fitKnn cfg rs₁ Knn.init) = fitKnn cfg rs₂ Knn.init ↔
      (∀ a b, b < a → Paired cfg rs₁ a b → Paired cfg rs₂ a b) ∧
      ∀ a, Known cfg.kind rs₁ a → Known cfg.kind rs₂ a := by
  have hs : ∀ p, computeSims cfg rs₂ (computeSims cfg rs₁ fun _ => none) p =
      (computeSims cfg rs₂ (fun _ => none) p).or (computeSims cfg rs₁ (fun _ => none) p) :=
    fun p => foldl_addSim_or cfg rs₂ _ _ p
  have e1 : fitKnn cfg rs₂ (fitKnn cfg rs₁ Knn.init) = ⟨computeSims cfg rs₂ (computeSims cfg rs₁ fun _ => none),
      computeNbrs cfg rs₂ (computeSims cfg rs₂ (computeSims cfg rs₁ fun _ => none))
        (computeNbrs cfg rs₁ (computeSims cfg rs₁ fun _ => none) fun _ => none)⟩ := rfl
  have e2 : fitKnn cfg rs₂ Knn.init = ⟨computeSims cfg rs₂ (fun _ => none),
      computeNbrs cfg rs₂ (computeSims cfg rs₂ fun _ => none) fun _ => none⟩ := rfl
  have hsims : computeSims cfg rs₂ (computeSims cfg rs₁ fun _ => none) = computeSims cfg rs₂ (fun _ => none) ↔
      ∀ a b, b < a → Paired cfg rs₁ a b → Paired cfg rs₂ a b := by
    constructor
    · intro h a b hab hp
      rw [paired_iff h₂ hab]
      intro h0
      have := hs (a, b)
      rw [h, h0, Option.none_or] at this
      exact (paired_iff h₁ hab).1 hp this.symm
    · intro h
      funext p
      rw [hs]
      obtain ⟨a, b⟩ := p
      rcases Nat.lt_or_ge b a with hab | hab
      · cases h2 : computeSims cfg rs₂ (fun _ => none) (a, b) with
        | some s => rfl
        | none =>
          rw [Option.none_or]
          by_contra hne
          exact (paired_iff h₂ hab).1 (h a b hab ((paired_iff h₁ hab).2 hne)) h2
      · rw [sims_upper hab, sims_upper hab]
        rfl
  rw [e1, e2, Knn.mk.injEq, hsims]
  constructor
  · rintro ⟨h, hn⟩
    refine ⟨h, fun a ha => ?_⟩
    by_contra hno
    have := congrFun hn a
    rw [computeNbrs_eq cfg rs₂, computeNbrs_eq cfg rs₂, if_neg (mt mem_ownIds.1 hno), if_neg (mt mem_ownIds.1 hno),
      computeNbrs_eq, if_pos (mem_ownIds.2 ha)] at this
    cases this
  · rintro ⟨h, hk⟩
    refine ⟨h, ?_⟩
    rw [hsims.2 h]
    funext a
    rw [computeNbrs_eq cfg rs₂, computeNbrs_eq cfg rs₂]
    split
    · rfl
    · rename_i hno
      rw [computeNbrs_eq, if_neg (fun h1 => hno (mem_ownIds.2 (hk a (mem_ownIds.1 h1))))]

/-- C59 in part: fitting again on the same data changes nothing. -/
theorem C59_same_data_partial (cfg : KnnCfg) (rs : List Rating) (h : OneValue (simMatrix cfg rs)) :
    fitKnn cfg rs (fitKnn cfg rs Knn.init) = fitKnn cfg rs Knn.init :=
  (C59_refit_partial cfg rs rs h h).2 ⟨fun _ _ _ h => h, fun _ h => h⟩

/-- The negation of C59: after a fit on data where users 0 and 1 share an item, a fit on data where they share nothing
keeps their similarity, and predictions use it. -/
theorem C59_fails : ∃ (cfg : KnnCfg) (rs₁ rs₂ : List Rating) (u i : Nat),
    OneValue (simMatrix cfg rs₁) ∧ OneValue (simMatrix cfg rs₂) ∧
    knnPredict cfg rs₂ (fitKnn cfg rs₂ Knn.init) (some u) (some i) = .ok none ∧
    knnPredict cfg rs₂ (fitKnn cfg rs₂ (fitKnn cfg rs₁ Knn.init)) (some u) (some i) = .ok (some 4) := by
  refine ⟨exKnn .user false, [⟨0, 0, 5⟩, ⟨1, 0, 4⟩], [⟨0, 0, 5⟩, ⟨1, 1, 4⟩], 0, 1, ex_oneValue _ _ _, ex_oneValue _ _ _,
    ?_, ?_⟩
  · exact of_toOption (by decide +kernel)
  · exact of_toOption (by decide +kernel)

/-- A refit that forgets everything: the second dataset has all pairs and ids of the first. -/
example : ∀ a b, b < a → Paired (exKnn .user false) [⟨0, 0, 5⟩, ⟨1, 0, 4⟩] a b →
    Paired (exKnn .user false) exRatings a b := by
  intro a b hab h
  rw [paired_iff (ex_oneValue _ _ _) hab] at h ⊢
  obtain ⟨s, hs⟩ := Option.ne_none_iff_exists'.1 h
  obtain ⟨raw, c, h1, _⟩ := (sims_iff (ex_oneValue _ _ _) hab s).1 hs
  have h2 : simMatrix (exKnn .user false) [⟨0, 0, 5⟩, ⟨1, 0, 4⟩] = [(0, 0, 1), (0, 1, 1), (1, 0, 1), (1, 1, 1)] := by
    decide +kernel
  rw [h2] at h1
  simp only [List.mem_cons, Prod.mk.injEq, List.not_mem_nil, or_false] at h1
  have : a = 1 ∧ b = 0 := by omega
  obtain ⟨rfl, rfl⟩ := this
  decide +kernel

/-! ## C64: ranking and predicting -/

theorem mem_knnItems {rs : List Rating} {uid : Nat} {iids : List Nat} {novelty : Bool} {i : Nat} :
    i ∈ knnItems rs uid iids novelty ↔ Wanted rs uid iids novelty i := by
  unfold knnItems Wanted
  cases novelty with
  | false => simp
  | true =>
    simp only [if_true, List.mem_filter, List.mem_dedup, decide_eq_true_eq, List.mem_map, true_implies]
    constructor
    · rintro ⟨h1, h2⟩
      exact ⟨h1, fun ⟨r, hr, hu, hi⟩ => h2 ⟨r, ⟨hr, hu⟩, hi⟩⟩
    · rintro ⟨h1, h2⟩
      exact ⟨h1, fun ⟨r, hr, hi⟩ => h2 ⟨r, hr.1, hr.2, hi⟩⟩

theorem nodup_knnItems (rs : List Rating) (uid : Nat) (iids : List Nat) (novelty : Bool) :
    (knnItems rs uid iids novelty).Nodup := by
  unfold knnItems
  split
  · exact (List.nodup_dedup _).filter _
  · exact List.nodup_dedup _

/-- The best of the items with a score. -/
theorem agrees_of {rs : List Rating} {f : PredictFn ℚ} {uid : Nat} {iids : List Nat} {novelty : Bool} {items : List Nat}
    {sc : Nat → Option ℚ} (n : Nat) (hn : items.Nodup) (hw : ∀ i ∈ items, Wanted rs uid iids novelty i)
    (hs : ∀ i ∈ items, f (some uid) (some i) = .ok (sc i))
    (hc : ∀ i s, Wanted rs uid iids novelty i → f (some uid) (some i) = .ok (some s) → i ∈ items) :
    Agrees rs f uid iids n novelty (nlargest n (items.filterMap fun i => (sc i).map fun s => (s, i))) := by
  have hmem : ∀ p : ℚ × Nat, p ∈ (items.filterMap fun i => (sc i).map fun s => (s, i)) ↔
      p.2 ∈ items ∧ sc p.2 = some p.1 := by
    rintro ⟨s, i⟩
    rw [List.mem_filterMap]
    simp only [Option.map_eq_some_iff, Prod.mk.injEq]
    constructor
    · rintro ⟨j, hj, s', h1, rfl, rfl⟩; exact ⟨hj, h1⟩
    · rintro ⟨h1, h2⟩; exact ⟨i, h1, s, h2, rfl, rfl⟩
  refine ⟨(nlargest_pairwise _ _).imp pairGe_le, nodup_map_of_subperm _ (nlargest_subperm _ _) ?_, ?_, ?_⟩
  · rw [List.map_filterMap]
    have e : (fun i => Option.map (fun x : ℚ × Nat => x.2) ((sc i).map fun s => (s, i))) =
        fun i => if (sc i).isSome then some i else none := by
      funext i
      cases sc i <;> rfl
    rw [e]
    have hsub : ∀ l : List Nat, (l.filterMap fun i => if (sc i).isSome then some i else none).Sublist l := by
      intro l
      induction l with
      | nil => simp
      | cons a l ih =>
        rw [List.filterMap_cons]
        split
        · exact ih.cons _
        · rename_i b hb
          split at hb
          · cases hb; exact ih.cons_cons _
          · cases hb
    exact hn.sublist (hsub items)
  · intro p hp
    obtain ⟨h1, h2⟩ := (hmem p).1 ((nlargest_subperm _ _).subset hp)
    exact ⟨by rw [hs _ h1, h2], hw _ h1⟩
  · intro i s hwi hf hno
    have hi := hc i s hwi hf
    have hsc : sc i = some s := Except.ok.inj ((hs i hi).symm.trans hf)
    obtain ⟨h1, h2⟩ := nlargest_best n _ (s, i) ((hmem (s, i)).2 ⟨hi, hsc⟩) hno
    exact ⟨h1, fun p hp => pairGe_le (h2 p hp)⟩

theorem itemScored_eq {cfg : KnnCfg} (hk : cfg.kind = .item) (rs : List Rating) (M : Knn) (uid i : Nat) :
    itemScored cfg rs M uid i = (knnPredict cfg rs M (some uid) (some i)).map fun p => p.map fun s => (s, i) := by
  unfold itemScored knnPredict
  simp only [hk, predictOwn]
  cases M.nbrs i with
  | none => rfl
  | some nb =>
    simp only [knnScored]
    congr 2
    unfold usedPairs
    congr 1
    funext p
    unfold interactionOf
    rw [List.find?_filter]
    split
    · rw [Option.map_map]
      congr 2
      funext r
      rw [Bool.eq_iff_iff]
      simp only [Bool.and_eq_true, decide_eq_true_eq]
      exact And.comm
    · rename_i h
      have : (rs.find? fun r => decide (KKind.own .item r = p.2) && decide (KKind.other .item r = uid)) = none := by
        rw [List.find?_eq_none]
        intro r hr hrr
        simp only [Bool.and_eq_true, decide_eq_true_eq] at hrr
        exact h (List.mem_map.2 ⟨r, List.mem_filter.2 ⟨hr, decide_eq_true hrr.2⟩, hrr.1⟩)
      rw [this]
      rfl

/-- C64 for item neighbourhoods: a ranking agrees with the predictions. -/
theorem C64_item (cfg : KnnCfg) (hk : cfg.kind = .item) (rs : List Rating) (M : Knn) (uid : Nat) (iids : List Nat)
    (n : Nat) (novelty : Bool) (out : List (ℚ × Nat)) (h : itemRank cfg rs M uid iids n novelty = .ok out) :
    Agrees rs (knnPredict cfg rs M) uid iids n novelty out := by
  unfold itemRank at h
  cases hm : (knnItems rs uid iids novelty).mapM (itemScored cfg rs M uid) with
  | error e => rw [hm] at h; cases h
  | ok preds =>
    rw [hm] at h
    rw [← Except.ok.inj h]
    rw [mapM_ok_iff] at hm
    have hp : ∀ i ∈ knnItems rs uid iids novelty, ∃ o, knnPredict cfg rs M (some uid) (some i) = .ok o := by
      intro i hi
      have : itemScored cfg rs M uid i ∈ preds.map Except.ok := by rw [← hm]; exact List.mem_map.2 ⟨i, hi, rfl⟩
      obtain ⟨o, _, ho⟩ := List.mem_map.1 this
      rw [itemScored_eq hk] at ho
      cases hpred : knnPredict cfg rs M (some uid) (some i) with
      | error e => rw [hpred] at ho; cases ho
      | ok o' => exact ⟨o', rfl⟩
    let sc : Nat → Option ℚ := fun i => ((knnPredict cfg rs M (some uid) (some i)).toOption).getD none
    have hsc : ∀ i ∈ knnItems rs uid iids novelty, knnPredict cfg rs M (some uid) (some i) = .ok (sc i) := by
      intro i hi
      obtain ⟨o, ho⟩ := hp i hi
      simp only [sc, ho]
      rfl
    have hpreds : preds = (knnItems rs uid iids novelty).map fun i => (sc i).map fun s => (s, i) := by
      have hinj : Function.Injective (Except.ok : Option (ℚ × Nat) → Except Err (Option (ℚ × Nat))) :=
        fun a b h => Except.ok.inj h
      apply hinj.list_map
      rw [← hm, List.map_map]
      apply List.map_congr_left
      intro i hi
      rw [itemScored_eq hk, hsc i hi]
      rfl
    simp only [hpreds, List.filterMap_map]
    exact agrees_of n (nodup_knnItems _ _ _ _) (fun i hi => mem_knnItems.1 hi) hsc
      fun i s hw _ => mem_knnItems.2 hw

/-- C64 for item neighbourhoods: there is a ranking whenever the predictions of the wanted items do not fail. -/
theorem C64_item_ok (cfg : KnnCfg) (hk : cfg.kind = .item) (rs : List Rating) (M : Knn) (uid : Nat) (iids : List Nat)
    (n : Nat) (novelty : Bool)
    (h : ∀ i, Wanted rs uid iids novelty i → ∃ o, knnPredict cfg rs M (some uid) (some i) = .ok o) :
    ∃ out, itemRank cfg rs M uid iids n novelty = .ok out := by
  let sc : Nat → Option ℚ := fun i => ((knnPredict cfg rs M (some uid) (some i)).toOption).getD none
  unfold itemRank
  rw [mapM_except_ok _ fun i => (sc i).map fun s => (s, i)]
  · exact ⟨_, rfl⟩
  · intro i hi
    obtain ⟨o, ho⟩ := h i (mem_knnItems.1 hi)
    rw [itemScored_eq hk, ho]
    simp only [sc, ho]
    rfl

/-- Rankings of the example by item neighbourhoods: item 2 is predicted, items 0 and 1 are not new. -/
example : (itemRank (exKnn .item false) exRatings (fitKnn (exKnn .item false) exRatings Knn.init) 0 [0, 1, 2, 4] 5
    true).toOption = some [(21 / 5, 2)] := by decide +kernel

theorem filter_key {β : Type} (g : Rating → β) (q : Rating → Bool) (hq : ∀ r r', q r = true → q r' = true →
    (r.uid, r.iid) = (r'.uid, r'.iid)) : ∀ rs : List Rating, (rs.map fun r => (r.uid, r.iid)).Nodup →
    (rs.filter q).map g = ((rs.find? q).map g).toList
  | [], _ => rfl
  | r :: rs, h => by
    rw [List.map_cons, List.nodup_cons] at h
    by_cases hr : q r = true
    · rw [List.filter_cons_of_pos hr, List.find?_cons_of_pos hr]
      have : rs.filter q = [] := by
        rw [List.filter_eq_nil_iff]
        intro r' hr' hh
        exact h.1 (List.mem_map.2 ⟨r', hr', hq _ _ hh hr⟩)
      rw [this]
      rfl
    · rw [List.filter_cons_of_neg hr, List.find?_cons_of_neg hr]
      exact filter_key g q hq rs h.2

theorem filterMap_eq_flatMap {α β : Type} (f : α → Option β) (l : List α) :
    l.filterMap f = l.flatMap fun a => (f a).toList := by
  induction l with
  | nil => rfl
  | cons a l ih =>
    rw [List.filterMap_cons, List.flatMap_cons, ih]
    cases f a <;> rfl

/-- The collected values of a kept item, when no user has two records with the same item. -/
theorem triples_item {rs : List Rating} (hn : (rs.map fun r => (r.uid, r.iid)).Nodup) (nb : List (ℚ × Nat))
    (keep : List Nat) (i : Nat) (hi : i ∈ keep) :
    ((neighbourTriples rs nb keep).filter fun t => t.1 = i).map (·.2) = usedPairs .user rs nb i := by
  unfold neighbourTriples usedPairs
  rw [filterMap_eq_flatMap, List.filter_flatMap, List.map_flatMap]
  congr 1
  funext p
  rw [List.filter_map, List.map_map, List.filter_filter]
  have e : (fun r => ((fun t : Nat × ℚ × ℚ => decide (t.1 = i)) ∘ fun r : Rating => (r.iid, r.x, p.1)) r &&
      (decide (r.uid = p.2) && decide (r.iid ∈ keep))) = fun r => decide (r.uid = p.2) && decide (r.iid = i) := by
    funext r
    rw [Bool.eq_iff_iff]
    simp only [Function.comp_apply, Bool.and_eq_true, decide_eq_true_eq]
    constructor
    · rintro ⟨h1, h2, h3⟩; exact ⟨h2, h1⟩
    · rintro ⟨h1, h2⟩; exact ⟨h2, h1, h2 ▸ hi⟩
  rw [e, filter_key _ _ (by
    intro r r' h h'
    simp only [Bool.and_eq_true, decide_eq_true_eq] at h h'
    rw [h.1, h.2, h'.1, h'.2]) rs hn]
  unfold interactionOf
  rw [Option.map_map]
  rfl

theorem mem_triples {rs : List Rating} {nb : List (ℚ × Nat)} {keep : List Nat} {i : Nat} :
    i ∈ (neighbourTriples rs nb keep).map (·.1) ↔ i ∈ keep ∧ ∃ p ∈ nb, Rated .user rs p.2 i := by
  unfold neighbourTriples Rated
  simp only [List.mem_map, List.mem_flatMap, List.mem_filter, Bool.and_eq_true, decide_eq_true_eq, KKind.own,
    KKind.other]
  constructor
  · rintro ⟨_, ⟨p, hp, r, ⟨hr, h1, h2⟩, rfl⟩, rfl⟩
    exact ⟨h2, p, hp, r, hr, h1, rfl⟩
  · rintro ⟨hk, p, hp, r, hr, h1, rfl⟩
    exact ⟨_, ⟨p, hp, r, ⟨hr, h1, hk⟩, rfl⟩, rfl⟩

theorem userRank_eq {cfg : KnnCfg} {rs : List Rating} {M : Knn} {uid : Nat} {iids : List Nat}
    {n : Nat} {novelty : Bool} {out : List (ℚ × Nat)} (hn : (rs.map fun r => (r.uid, r.iid)).Nodup)
    (h : userRank cfg rs M uid iids n novelty = .ok out) : ∃ nb, M.nbrs uid = some nb ∧
      out = nlargest n ((((neighbourTriples rs nb (knnItems rs uid iids novelty)).map (·.1)).dedup).filterMap
        fun i => (cfg.agg.run (usedPairs .user rs nb i)).map fun s => (s, i)) := by
  unfold userRank at h
  cases hnb : M.nbrs uid with
  | none => rw [hnb] at h; cases h
  | some nb =>
    rw [hnb] at h
    refine ⟨nb, rfl, ?_⟩
    simp only at h
    rw [mapM_except_ok _ fun i => (cfg.agg.run (usedPairs .user rs nb i)).map fun s => (s, i)] at h
    · rw [← Except.ok.inj h]
      simp only [List.filterMap_map]
      rfl
    · intro i hi
      rw [List.mem_dedup, mem_triples] at hi
      rw [triples_item hn nb _ i hi.1]
      unfold knnScored finishPred
      rw [if_neg]
      · rfl
      · rintro ⟨h0, _⟩
        rw [List.length_eq_zero_iff] at h0
        obtain ⟨_, p, hp, hr⟩ := hi
        unfold usedPairs at h0
        rw [List.filterMap_eq_nil_iff] at h0
        have := h0 p hp
        rw [Option.map_eq_none_iff, interactionOf_none] at this
        exact this hr

theorem userPredict_eq {cfg : KnnCfg} (hk : cfg.kind = .user) (rs : List Rating) (M : Knn) {uid : Nat}
    {nb : List (ℚ × Nat)} (hnb : M.nbrs uid = some nb) (i : Nat) :
    knnPredict cfg rs M (some uid) (some i) = finishPred cfg rs (usedPairs .user rs nb i) i := by
  unfold knnPredict
  simp only [hk, predictOwn, hnb]

/-- C64 for user neighbourhoods holds only in part: when no user has two records with the same item and averages are
off, a ranking agrees with the predictions.  The full claim is the same without the two conditions; it fails, see
`C64_fails_averages` and `C64_fails_duplicates`. -/
theorem C64_user_partial (cfg : KnnCfg) (hk : cfg.kind = .user) (hav : cfg.useAverages = false) (rs : List Rating)
    (hn : (rs.map fun r => (r.uid, r.iid)).Nodup) (M : Knn) (uid : Nat) (iids : List Nat) (n : Nat) (novelty : Bool)
    (out : List (ℚ × Nat)) (h : userRank cfg rs M uid iids n novelty = .ok out) :
    Agrees rs (knnPredict cfg rs M) uid iids n novelty out := by
  obtain ⟨nb, hnb, rfl⟩ := userRank_eq hn h
  refine agrees_of n (List.nodup_dedup _) ?_ ?_ ?_
  · intro i hi
    rw [List.mem_dedup, mem_triples] at hi
    exact mem_knnItems.1 hi.1
  · intro i _
    rw [userPredict_eq hk rs M hnb]
    unfold finishPred
    rw [if_neg (by rw [hav]; simp)]
  · intro i s hw hp
    rw [List.mem_dedup, mem_triples]
    refine ⟨mem_knnItems.2 hw, ?_⟩
    rw [userPredict_eq hk rs M hnb] at hp
    unfold finishPred at hp
    rw [if_neg (by rw [hav]; simp)] at hp
    by_contra hno
    have h0 : usedPairs .user rs nb i = [] := by
      unfold usedPairs
      rw [List.filterMap_eq_nil_iff]
      intro p hp
      rw [Option.map_eq_none_iff, interactionOf_none]
      exact fun hr => hno ⟨p, hp, hr⟩
    rw [h0] at hp
    cases hagg : cfg.agg <;> rw [hagg] at hp <;> simp [Agg.run, aggMean, aggWeighted] at hp

/-- C64 for user neighbourhoods, with averages on: the items that are ranked have the predicted score. -/
theorem C64_user_scores_partial (cfg : KnnCfg) (hk : cfg.kind = .user) (rs : List Rating)
    (hn : (rs.map fun r => (r.uid, r.iid)).Nodup) (M : Knn) (uid : Nat) (iids : List Nat) (n : Nat) (novelty : Bool)
    (out : List (ℚ × Nat)) (h : userRank cfg rs M uid iids n novelty = .ok out) :
    ∀ p ∈ out, knnPredict cfg rs M (some uid) (some p.2) = .ok (some p.1) ∧ Wanted rs uid iids novelty p.2 := by
  obtain ⟨nb, hnb, rfl⟩ := userRank_eq hn h
  intro p hp
  have hm := (nlargest_subperm _ _).subset hp
  rw [List.mem_filterMap] at hm
  obtain ⟨i, hi, he⟩ := hm
  rw [Option.map_eq_some_iff] at he
  obtain ⟨s, hs, rfl⟩ := he
  rw [List.mem_dedup, mem_triples] at hi
  refine ⟨?_, mem_knnItems.1 hi.1⟩
  simp only
  rw [userPredict_eq hk rs M hnb]
  unfold finishPred
  rw [if_neg, hs]
  rintro ⟨h0, _⟩
  rw [List.length_eq_zero_iff] at h0
  obtain ⟨_, q, hq, hr⟩ := hi
  unfold usedPairs at h0
  rw [List.filterMap_eq_nil_iff] at h0
  have := h0 q hq
  rw [Option.map_eq_none_iff, interactionOf_none] at this
  exact this hr

/-- The negation of C64 with averages on: `predict` has a value for an item no neighbour has, `rank` omits it. -/
theorem C64_fails_averages : ∃ (cfg : KnnCfg) (rs : List Rating) (uid i : Nat) (s : ℚ),
    cfg.kind = .user ∧ (rs.map fun r => (r.uid, r.iid)).Nodup ∧
    knnPredict cfg rs (fitKnn cfg rs Knn.init) (some uid) (some i) = .ok (some s) ∧
    userRank cfg rs (fitKnn cfg rs Knn.init) uid [i] 10 true = .ok [] := by
  refine ⟨exKnn .user true, exRatings, 3, 0, 9 / 2, rfl, by decide, of_toOption (by decide +kernel),
    of_toOption (by decide +kernel)⟩

/-- The negation of C64 with two records of a user and an item: `predict` uses the first, `rank` both. -/
theorem C64_fails_duplicates : ∃ (cfg : KnnCfg) (rs : List Rating) (uid i : Nat), cfg.kind = .user ∧
    knnPredict cfg rs (fitKnn cfg rs Knn.init) (some uid) (some i) = .ok (some 2) ∧
    userRank cfg rs (fitKnn cfg rs Knn.init) uid [i] 10 true = .ok [(3, i)] := by
  refine ⟨exKnn .user false, [⟨0, 0, 5⟩, ⟨1, 0, 4⟩, ⟨1, 1, 2⟩, ⟨1, 1, 4⟩], 0, 1, rfl, of_toOption (by decide +kernel),
    of_toOption (by decide +kernel)⟩

/-- A ranking of the example by user neighbourhoods. -/
example : (userRank (exKnn .user false) exRatings (fitKnn (exKnn .user false) exRatings Knn.init) 0 [0, 1, 2, 3] 5
    true).toOption = some [(2, 3), (1, 2)] ∧ (exRatings.map fun r => (r.uid, r.iid)).Nodup := by
  decide +kernel

end DRec
