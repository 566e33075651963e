import Verif.Spec.MetricCall
import Verif.Props.Evaluation
import Verif.Props.Metrics
import Verif.Props.Ndcg

/-!
# C92, C93: metrics get the arguments they declare, and every evaluated user counts
-/

namespace DRec

open Spec

/-! ## C92 -/

theorem put_recs (d : EvalData) (k : Nat) (l : List String) (a : MArgs) :
    (l.foldl (MArgs.put d k) a).recommendations =
      (if "recommendations" ∈ l then some d.recs else a.recommendations) ∧
    (l.foldl (MArgs.put d k) a).relevantRecs =
      (if "relevant_recommendations" ∈ l then some d.relevant else a.relevantRecs) ∧
    (l.foldl (MArgs.put d k) a).relevantRec =
      (if "relevant_recommendation" ∈ l then some d.best else a.relevantRec) ∧
    (l.foldl (MArgs.put d k) a).relevancies =
      (if "relevancies" ∈ l then some d.relevancies else a.relevancies) ∧
    (l.foldl (MArgs.put d k) a).k = (if "k" ∈ l then some k else a.k) := by
  induction l generalizing a with
  | nil => simp
  | cons x l ih =>
    rw [List.foldl_cons]
    obtain ⟨h1, h2, h3, h4, h5⟩ := ih (MArgs.put d k a x)
    rw [h1, h2, h3, h4, h5]
    unfold MArgs.put
    simp only [List.mem_cons]
    by_cases e1 : x = "recommendations"
    · subst e1; simp
    by_cases e2 : x = "relevant_recommendations"
    · subst e2; simp
    by_cases e3 : x = "relevant_recommendation"
    · subst e3; simp
    by_cases e4 : x = "relevancies"
    · subst e4; simp
    by_cases e5 : x = "k"
    · subst e5; simp
    simp [e1, e2, e3, e4, e5, Ne.symm e1, Ne.symm e2, Ne.symm e3, Ne.symm e4, Ne.symm e5]

theorem mem_varnames {K : Type} (m : PyMetric K) (hl : ∀ x ∈ m.locals, x ∈ knownParams → x ∈ m.params)
    (x : String) (hx : x ∈ knownParams) : x ∈ m.varnames ↔ x ∈ m.params := by
  have hs : x ≠ "self" := by
    rintro rfl
    exact absurd hx (by decide)
  unfold PyMetric.varnames
  simp only [List.cons_append, List.mem_cons, List.mem_append, hs, false_or]
  exact ⟨fun h => h.elim id fun h => hl x h hx, Or.inl⟩

/-- **C92** (partial: no local variable of the method that is not a parameter has the name of one of the
five arguments; the full property is for every metric and fails, see `C92_fails`).  A metric is called
with exactly the arguments it declares. -/
theorem C92_declared_partial {K : Type} (m : PyMetric K)
    (hl : ∀ x ∈ m.locals, x ∈ knownParams → x ∈ m.params) (d : EvalData) (k : Nat) :
    m.toEval.call d k = m.body (declaredArgs m.params d k) := by
  have hc : ∀ x ∈ m.varnames, x ∈ knownParams → x ∈ m.params :=
    fun x h1 h2 => (mem_varnames m hl x h2).1 h1
  have hm := mem_varnames m hl
  show m.call d k = _
  unfold PyMetric.call
  rw [if_pos hc]
  congr 1
  obtain ⟨h1, h2, h3, h4, h5⟩ := put_recs d k m.varnames MArgs.none
  have : ∀ a b : MArgs, a.recommendations = b.recommendations → a.relevantRecs = b.relevantRecs →
      a.relevantRec = b.relevantRec → a.relevancies = b.relevancies → a.k = b.k → a = b := by
    rintro ⟨⟩ ⟨⟩ h1 h2 h3 h4 h5
    simp only at h1 h2 h3 h4 h5
    subst h1 h2 h3 h4 h5
    rfl
  apply this
  · rw [h1]; simp [declaredArgs, MArgs.none, hm "recommendations" (by decide)]
  · rw [h2]; simp [declaredArgs, MArgs.none, hm "relevant_recommendations" (by decide)]
  · rw [h3]; simp [declaredArgs, MArgs.none, hm "relevant_recommendation" (by decide)]
  · rw [h4]; simp [declaredArgs, MArgs.none, hm "relevancies" (by decide)]
  · rw [h5]; simp [declaredArgs, MArgs.none, hm "k" (by decide)]

/-- **C92.** The metrics of the library are called with the ranked list, the relevant items, the best
item, the relevancies and `k` as they declare. -/
theorem C92_library (d : EvalData) (k : Nat) (beta : ℚ) (strong : Bool) :
    precisionPy.toEval.call d k = Metrics.precision d.recs (some k) (some d.relevant) ∧
    recallPy.toEval.call d k = Metrics.recall d.recs (some k) (some d.relevant) ∧
    hitRatioPy.toEval.call d k = Metrics.hitRatio cellText d.recs (some k) (some d.relevant) ∧
    reciprocalRankPy.toEval.call d k = .ok (Metrics.reciprocalRank d.recs (some k) d.best) ∧
    (fscorePy beta).toEval.call d k = Metrics.fscore beta d.recs (some k) (some d.relevant) ∧
    averagePrecisionPy.toEval.call d k = Metrics.averagePrecision d.recs (some k) (some d.relevant) ∧
    (dcgPy strong).toEval.call d k = Metrics.dcg strong d.recs (some k) (realRels d.relevancies) ∧
    (ndcgPy strong).toEval.call d k = Metrics.ndcg strong d.recs (some k) (some (realRels d.relevancies)) := by
  have h1 : ∀ x ∈ precisionPy.locals, x ∈ knownParams → x ∈ precisionPy.params := by decide
  have h2 : ∀ x ∈ recallPy.locals, x ∈ knownParams → x ∈ recallPy.params := by decide
  have h3 : ∀ x ∈ hitRatioPy.locals, x ∈ knownParams → x ∈ hitRatioPy.params := by decide
  have h4 : ∀ x ∈ reciprocalRankPy.locals, x ∈ knownParams → x ∈ reciprocalRankPy.params := by decide
  have h5 : ∀ x ∈ (fscorePy beta).locals, x ∈ knownParams → x ∈ (fscorePy beta).params := by
    simp [fscorePy, knownParams]
  have h6 : ∀ x ∈ averagePrecisionPy.locals, x ∈ knownParams → x ∈ averagePrecisionPy.params := by decide
  have h7 : ∀ x ∈ (dcgPy strong).locals, x ∈ knownParams → x ∈ (dcgPy strong).params := by
    simp [dcgPy, knownParams]
  have h8 : ∀ x ∈ (ndcgPy strong).locals, x ∈ knownParams → x ∈ (ndcgPy strong).params := by
    simp [ndcgPy, knownParams]
  refine ⟨?_, ?_, ?_, ?_, ?_, ?_, ?_, ?_⟩
  · rw [C92_declared_partial _ h1]; rfl
  · rw [C92_declared_partial _ h2]; rfl
  · rw [C92_declared_partial _ h3]; rfl
  · rw [C92_declared_partial _ h4]; rfl
  · rw [C92_declared_partial _ h5]
    simp [fscorePy, declaredArgs, required]
  · rw [C92_declared_partial _ h6]; rfl
  · rw [C92_declared_partial _ h7]
    simp [dcgPy, declaredArgs, required]
  · rw [C92_declared_partial _ h8]
    simp [ndcgPy, declaredArgs, required]

/-- A metric that returns 1 and uses a local variable called `k`. -/
def ownK : PyMetric ℚ := ⟨"OwnK", ["recommendations"], ["k"], fun _ => .ok 1⟩

/-- **C92 fails**: a metric with a local variable called `k` that it does not declare is 1 for all
arguments, but every call raises, and the evaluation reports 0 however many users there are. -/
theorem C92_fails : (∀ a, ownK.body a = .ok 1) ∧ (∀ d k, ownK.toEval.call d k = .error .typeError) ∧
    ∀ (users : List EvalData) (k : Nat) (m : (v : EVar) → v.Ty ℚ),
      EvalRun [ownK.toEval] [k] (users.map fun d => [.metrics d, .count]) m →
      evalResults [ownK.toEval] [k] (m .sums) = [(("OwnK", k), 0)] := by
  have h : ∀ d k, ownK.toEval.call d k = .error .typeError := by
    intro d k
    show ownK.call d k = _
    unfold PyMetric.call
    rw [if_neg (by decide)]
  refine ⟨fun _ => rfl, h, ?_⟩
  intro users k m hm
  have he : (users.map fun d => [EAct.metrics d, EAct.count]).flatten.filterMap evalOf = users := by
    clear hm
    induction users with
    | nil => rfl
    | cons d ds ih =>
      simp only [List.map_cons, List.flatten_cons, List.filterMap_append, ih]
      rfl
  obtain ⟨h1, h2⟩ := results_of_run (metrics := [ownK.toEval]) (by simp) hm he
  have hx : evalResults [ownK.toEval] [k] (m .sums) = [(("OwnK", k), resultOf (m .sums ("OwnK", k)))] := by
    simp [evalResults, metricPairs, PyMetric.toEval, ownK]
  rw [hx]
  have h3 := (h1 ("OwnK", k) (resultOf (m .sums ("OwnK", k)))).1 (by rw [hx]; simp)
  obtain ⟨mt, hmt, k', hk', e, e2⟩ := h3
  rw [List.mem_singleton] at hmt
  subst hmt
  have hcomp : computed ownK.toEval k' users = [] := by
    unfold computed
    rw [List.filterMap_eq_nil_iff]
    intro d _
    rw [h]
    rfl
  rw [e2, hcomp]
  simp [reported]

/-! ## C93 -/

variable {K : Type} [Field K] [LinearOrder K] [FloorRing K]

theorem computed_all {m : EvalMetric K} {k : Nat} {users : List EvalData}
    (h : ∀ d ∈ users, ∃ v, m.call d k = .ok v) : reported (computed m k users) = fullMean m k users := by
  have hc : computed m k users = users.map (valueOrZero m k) := by
    unfold computed
    induction users with
    | nil => rfl
    | cons d ds ih =>
      obtain ⟨v, hv⟩ := h d (by simp)
      rw [List.filterMap_cons, ih fun d' hd' => h d' (by simp [hd'])]
      simp [hv, Except.toOption, valueOrZero]
  rw [hc]
  unfold reported fullMean
  simp

/-- **C93** (partial: users with at least one relevant item, `k > 0`; for precision also at least one
recommendation; the full property covers F-scores and users without recommendations too and fails, see
`C93_fails_fscore` and `C93_fails_precision`).  Every evaluated user counts in the mean. -/
theorem C93_all_count_partial (k : Nat) (hk : 0 < k) (users : List EvalData)
    (hr : ∀ d ∈ users, d.relevant ≠ []) :
    reported (computed recallPy.toEval k users) = fullMean recallPy.toEval k users ∧
    reported (computed hitRatioPy.toEval k users) = fullMean hitRatioPy.toEval k users ∧
    reported (computed averagePrecisionPy.toEval k users) = fullMean averagePrecisionPy.toEval k users ∧
    reported (computed reciprocalRankPy.toEval k users) = fullMean reciprocalRankPy.toEval k users ∧
    ((∀ d ∈ users, d.recs ≠ []) →
      reported (computed precisionPy.toEval k users) = fullMean precisionPy.toEval k users) := by
  refine ⟨computed_all ?_, computed_all ?_, computed_all ?_, computed_all ?_, fun hrec => computed_all ?_⟩
  · intro d hd
    rw [(C92_library d k 0 true).2.1]
    obtain ⟨p, hp, _⟩ := (C39_recall d.recs d.relevant (some k)).2 (hr d hd)
    exact ⟨p, hp⟩
  · intro d hd
    rw [(C92_library d k 0 true).2.2.1]
    obtain ⟨p, hp, _⟩ := (C39_hit_ratio cellText d.recs d.relevant (some k)).2 (hr d hd)
    exact ⟨p, hp⟩
  · intro d hd
    rw [(C92_library d k 0 true).2.2.2.2.2.1]
    obtain ⟨p, hp, _⟩ := (C41_average_precision d.recs d.relevant (some k)).2 (hr d hd)
      (by simpa using hk.ne')
    exact ⟨p, hp⟩
  · intro d _
    rw [(C92_library d k 0 true).2.2.2.1]
    exact ⟨_, rfl⟩
  · intro d hd
    rw [(C92_library d k 0 true).1]
    obtain ⟨p, hp, _⟩ := (C39_precision d.recs d.relevant (some k)).2 (by
      obtain ⟨x, l, e⟩ := List.exists_cons_of_ne_nil (hrec d hd)
      obtain ⟨n, rfl⟩ := Nat.exists_eq_add_of_lt hk
      simp [firstK, e])
    exact ⟨p, hp⟩

/-- **C93** for NDCG (partial: relevancies that are not negative, with a positive one among them, and
recommendations that all have a relevancy). -/
theorem C93_ndcg_partial (strong : Bool) (k : Nat) (hk : 0 < k) (users : List EvalData)
    (hkeys : ∀ d ∈ users, (d.relevancies.map (·.1)).Nodup) (h0 : ∀ d ∈ users, ∀ p ∈ d.relevancies, 0 ≤ p.2)
    (hpos : ∀ d ∈ users, ∃ p ∈ d.relevancies, 0 < p.2)
    (hin : ∀ d ∈ users, ∀ r ∈ d.recs, r ∈ d.relevancies.map (·.1)) :
    reported (computed (ndcgPy strong).toEval k users) = fullMean (ndcgPy strong).toEval k users := by
  apply computed_all
  intro d hd
  rw [(C92_library d k 0 strong).2.2.2.2.2.2.2]
  have hm : (realRels d.relevancies).map (·.1) = d.relevancies.map (·.1) := by
    simp [realRels, Function.comp_def]
  have hn : ((realRels d.relevancies).map (·.1)).Nodup := by rw [hm]; exact hkeys d hd
  have h0' : ∀ p ∈ realRels d.relevancies, 0 ≤ p.2 := by
    intro p hp
    obtain ⟨q, hq, rfl⟩ := List.mem_map.1 hp
    show (0 : ℝ) ≤ (q.2 : ℝ)
    exact_mod_cast h0 d hd q hq
  have hp' : ∃ p ∈ realRels d.relevancies, 0 < p.2 := by
    obtain ⟨q, hq, h⟩ := hpos d hd
    exact ⟨_, List.mem_map_of_mem hq, (by exact_mod_cast h : (0 : ℝ) < (q.2 : ℝ))⟩
  have hb := best_pos strong hn h0' hp' (k := some k) (by simpa using hk.ne')
  unfold Metrics.ndcg
  simp only [dcg_eq strong _ (some k) d.recs (fun r hr => by rw [hm]; exact hin d hd r hr),
    dcg_eq strong _ (some k) _ (fun r hr => (ideal_sorted strong hn).1.subset hr), hb.ne', if_false]
  exact ⟨_, rfl⟩

/-- **C92**, what is left out: a metric that is given the recommendations only gives 0, and one that is not given the
recommendations raises. -/
theorem C92_left_out (recs : List Val) (k : Option Nat) (beta : ℚ) (strong : Bool) :
    (∀ m ∈ [precisionPy, recallPy, hitRatioPy, reciprocalRankPy, fscorePy beta, averagePrecisionPy],
      m.body { MArgs.none with recommendations := some recs, k := k } = .ok 0 ∧
      ∀ a : MArgs, a.recommendations = none → m.body a = .error .typeError) ∧
    (∀ m ∈ [dcgPy strong, ndcgPy strong],
      m.body { MArgs.none with recommendations := some recs, k := k } = .ok 0 ∧
      ∀ a : MArgs, a.recommendations = none → m.body a = .error .typeError) := by
  constructor
  · intro m hm
    simp only [List.mem_cons, List.not_mem_nil, or_false] at hm
    rcases hm with rfl | rfl | rfl | rfl | rfl | rfl
    all_goals
      refine ⟨rfl, fun a ha => ?_⟩
      first
        | simp only [precisionPy, ha, required]
        | simp only [recallPy, ha, required]
        | simp only [hitRatioPy, ha, required]
        | simp only [reciprocalRankPy, ha, required]
        | simp only [fscorePy, ha, required]
        | simp only [averagePrecisionPy, ha, required]
  · intro m hm
    simp only [List.mem_cons, List.not_mem_nil, or_false] at hm
    rcases hm with rfl | rfl
    all_goals
      refine ⟨rfl, fun a ha => ?_⟩
      first
        | simp only [dcgPy, ha, required]
        | simp only [ndcgPy, ha, required]

/-- A user who got item 2 recommended and likes item 1. -/
def noHitUser : EvalData := ⟨[.num 2], [.num 1], some (.num 1), []⟩

/-- A user who got item 1 recommended and likes it. -/
def hitUser : EvalData := ⟨[.num 1], [.num 1], some (.num 1), []⟩

/-- A user without recommendations who likes item 1. -/
def noRecsUser : EvalData := ⟨[], [.num 1], some (.num 1), []⟩

/-- **C93 fails** for the F-score: a user none of whose recommendations is relevant is left out, so that
one user with F-score 1 and any number of users without a hit give a reported value of 1. -/
theorem C93_fails_fscore (n : Nat) (beta : ℚ) :
    reported (computed (fscorePy beta).toEval 1 (hitUser :: List.replicate n noHitUser)) = 1 ∧
    fullMean (fscorePy 1).toEval 1 [hitUser, noHitUser] = 1 / 2 := by
  have hno : (fscorePy beta).toEval.call noHitUser 1 = .error .zeroDiv := by
    rw [(C92_library noHitUser 1 beta true).2.2.2.2.1]
    exact (C42_between beta _ _ _).1 (Or.inr (Or.inr (by decide)))
  have hyes : (fscorePy beta).toEval.call hitUser 1 = .ok 1 := by
    rw [(C92_library hitUser 1 beta true).2.2.2.2.1]
    have hp : Metrics.precision hitUser.recs (some 1) (some hitUser.relevant) = .ok 1 := by decide +kernel
    have hr : Metrics.recall hitUser.recs (some 1) (some hitUser.relevant) = .ok 1 := by decide +kernel
    rw [fscore_eq beta _ _ _ 1 1 hp hr]
    have : beta ^ 2 * 1 + 1 ≠ 0 := by positivity
    rw [pyDiv_ok _ _ this]
    congr 1
    field_simp
    ring
  constructor
  · have hc : computed (fscorePy beta).toEval 1 (hitUser :: List.replicate n noHitUser) = [1] := by
      unfold computed
      rw [List.filterMap_cons, hyes]
      simp only [Except.toOption, List.cons.injEq, true_and]
      rw [List.filterMap_eq_nil_iff]
      intro d hd
      rw [List.eq_of_mem_replicate hd, hno]
    rw [hc]
    decide +kernel
  · decide +kernel

/-- **C93 fails** for precision: users without recommendations are left out. -/
theorem C93_fails_precision :
    reported (computed precisionPy.toEval 1 [hitUser, noRecsUser]) = 1 ∧
    fullMean precisionPy.toEval 1 [hitUser, noRecsUser] = 1 / 2 := by
  constructor <;> decide +kernel

omit [LinearOrder K] [FloorRing K] in
theorem recommendation_relevant {model : EvalModel} {ds : Mem} {a : EvalArgs} {n : Option Nat} {low : Option ℚ}
    {user : Val} {rng : EvalRng} {d : EvalData}
    (h : recommendationUser model ds a n low user rng = .ok (.done d)) : d.relevant ≠ [] := by
  unfold recommendationUser at h
  split at h
  · cases h
  split at h
  · cases h
  split at h
  · cases h
  rename_i hs
  split at h
  · cases h
  split at h
  · cases h
  split at h
  · cases h
  cases h
  simpa [List.length_eq_zero_iff] using hs

/-- **C93** (partial as above), from start to end: `recommendation_evaluation` with recall, hit ratio,
average precision and reciprocal rank reports, after every complete interleaving, their means over all
users whose evaluation reached the metrics. -/
theorem C93_recommendation_partial (model : EvalModel) (ds : Mem) (a : EvalArgs) (n : Option Nat)
    (rngs : Nat → EvalRng) (low : Option ℚ) (ks : List Nat) (hks : ∀ k ∈ ks, 0 < k) (users : List Val)
    (hu : evalUsers ds n = .ok users) (tasks : List (List EAct))
    (ht : recommendationTasks model ds a ks low n rngs = .ok tasks) (m : (v : EVar) → v.Ty ℚ)
    (hm : EvalRun [recallPy.toEval, hitRatioPy.toEval, averagePrecisionPy.toEval, reciprocalRankPy.toEval]
      ks tasks m) (mt : EvalMetric ℚ) (k : Nat) (x : ℚ)
    (hmt : mt ∈ [recallPy.toEval, hitRatioPy.toEval, averagePrecisionPy.toEval, reciprocalRankPy.toEval])
    (hk : k ∈ ks) :
    ((mt.name, k), x) ∈ evalResults
        [recallPy.toEval, hitRatioPy.toEval, averagePrecisionPy.toEval, reciprocalRankPy.toEval] ks (m .sums) ↔
      x = fullMean mt k (evaluated (recommendationOutcomes model ds a ks low users rngs)) := by
  have hn : ([recallPy.toEval, hitRatioPy.toEval, averagePrecisionPy.toEval,
      reciprocalRankPy.toEval].map (·.name)).Nodup := by decide
  rw [(C44_recommendation model ds a n rngs low _ hn ks users hu tasks ht m hm).1]
  have hall : reported (computed mt k (evaluated (recommendationOutcomes model ds a ks low users rngs))) =
      fullMean mt k (evaluated (recommendationOutcomes model ds a ks low users rngs)) := by
    obtain ⟨h1, h2, h3, h4, _⟩ := C93_all_count_partial k (hks k hk)
      (evaluated (recommendationOutcomes model ds a ks low users rngs)) (by
        intro d hd
        unfold evaluated at hd
        obtain ⟨o, ho, hd⟩ := List.mem_filterMap.1 hd
        obtain ⟨p, _, rfl⟩ := List.mem_map.1 ho
        split at hd
        · rename_i d' e
          cases hd
          exact recommendation_relevant e
        · cases hd)
    simp only [List.mem_cons, List.not_mem_nil, or_false] at hmt
    rcases hmt with rfl | rfl | rfl | rfl
    · exact h1
    · exact h2
    · exact h3
    · exact h4
  constructor
  · rintro ⟨mt', hmt', k', _, e, rfl⟩
    have : mt' = mt := List.inj_on_of_nodup_map hn hmt' hmt (Prod.mk.inj e).1.symm
    subst this
    rw [← (Prod.mk.inj e).2, hall]
  · rintro rfl
    exact ⟨mt, hmt, k, hk, rfl, hall.symm⟩

/-! ## Examples -/

example : (∀ x ∈ (fscorePy 1).locals, x ∈ knownParams → x ∈ (fscorePy 1).params) ∧
    (fscorePy 1).toEval.call exUserData 2 = .ok (2 / 3) := by
  refine ⟨by decide, by decide +kernel⟩

example : (∀ d ∈ [exUserData, noHitUser], d.relevant ≠ []) ∧ (∀ d ∈ [exUserData, noHitUser], d.recs ≠ []) ∧
    fullMean precisionPy.toEval 2 [exUserData, noHitUser] = 1 / 4 := by
  refine ⟨?_, ?_, by decide +kernel⟩ <;>
  · intro d hd
    simp only [List.mem_cons, List.not_mem_nil, or_false] at hd
    rcases hd with rfl | rfl <;> simp [exUserData, noHitUser]

example : ∃ d : EvalData, (d.relevancies.map (·.1)).Nodup ∧ (∀ p ∈ d.relevancies, 0 ≤ p.2) ∧
    (∃ p ∈ d.relevancies, 0 < p.2) ∧ (∀ r ∈ d.recs, r ∈ d.relevancies.map (·.1)) ∧ d.recs ≠ [] :=
  ⟨⟨[.num 1, .num 2], [.num 1], some (.num 1), [(.num 1, 4), (.num 2, 0)]⟩, by decide, by
    simp, by simp, by simp, by simp⟩

example : ∃ users tasks m, evalUsers exSplit none = .ok users ∧
    recommendationTasks exEvalModel exSplit exEvalArgs [1, 2] none none (fun _ => exEvalRng) = .ok tasks ∧
    EvalRun [recallPy.toEval, hitRatioPy.toEval, averagePrecisionPy.toEval, reciprocalRankPy.toEval]
      [1, 2] tasks m := by
  obtain ⟨all, users, hu, -⟩ := C44_users exSplit (by decide) none
  obtain ⟨m, hm⟩ := evalRun_exists
    [recallPy.toEval, hitRatioPy.toEval, averagePrecisionPy.toEval, reciprocalRankPy.toEval] [1, 2] _
  exact ⟨users, _, m, hu, recommendationTasks_eq hu, hm⟩

end DRec
