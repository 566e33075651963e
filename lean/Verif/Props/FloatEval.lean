import Verif.Lemmas.FloatEval
import Verif.Model.MetricCall
import Verif.Spec.Mem

/-!
# C122: evaluation results when sums are floating point numbers

C44 is about exact sums.  The code adds doubles, so the order in which the worker threads get the lock matters.
-/

namespace DRec

open DRec.Spec

variable {K : Type} [Field K] [LinearOrder K] [FloorRing K]

theorem rankingTask_evals (o : Except Err (Outcome EvalData)) : (rankingTask o).filterMap evalOf = evaluated [o] := by
  have := ranking_evals [o]
  simpa using this

theorem recommendationTask_evals (o : Except Err (Outcome EvalData)) :
    (recommendationTask o).filterMap evalOf = evaluated [o] := by
  have := recommendation_evals [o]
  simpa using this

/-- **C122.** After every complete interleaving of the tasks of `ranking_evaluation`, with sums and means rounded to
doubles, all entries are the means of the metric values added up in one common order of the users. -/
theorem C122_ranking_every_run (model : EvalModel) (ds : Mem) (a : EvalArgs) (n : Option Nat) (rngs : Nat → EvalRng)
    (metrics : List (EvalMetric K)) (hn : (metrics.map (·.name)).Nodup) (ks : List Nat) (hk : ks.Nodup)
    (users : List Val) (hu : evalUsers ds n = .ok users) (tasks : List (List EAct))
    (ht : rankingTasks model ds a n rngs = .ok tasks) (m : (v : EVar) → v.Ty K)
    (hm : FloatRun metrics ks tasks m) :
    ∃ order, order.Perm (evaluated (rankingOutcomes model ds a users rngs)) ∧
      ∀ key x, (key, x) ∈ evalResultsFloat metrics ks (m .sums) ↔
        ∃ mt ∈ metrics, ∃ k ∈ ks, key = (mt.name, k) ∧ x = floatReported (computed mt k order) := by
  rw [rankingTasks_eq hu] at ht
  cases ht
  have := float_run hn hk hm
  rwa [ranking_evals] at this

/-- **C122** for `recommendation_evaluation`. -/
theorem C122_recommendation_every_run (model : EvalModel) (ds : Mem) (a : EvalArgs) (n : Option Nat)
    (rngs : Nat → EvalRng) (low : Option ℚ)
    (metrics : List (EvalMetric K)) (hn : (metrics.map (·.name)).Nodup) (ks : List Nat) (hk : ks.Nodup)
    (users : List Val) (hu : evalUsers ds n = .ok users) (tasks : List (List EAct))
    (ht : recommendationTasks model ds a ks low n rngs = .ok tasks) (m : (v : EVar) → v.Ty K)
    (hm : FloatRun metrics ks tasks m) :
    ∃ order, order.Perm (evaluated (recommendationOutcomes model ds a ks low users rngs)) ∧
      ∀ key x, (key, x) ∈ evalResultsFloat metrics ks (m .sums) ↔
        ∃ mt ∈ metrics, ∃ k ∈ ks, key = (mt.name, k) ∧ x = floatReported (computed mt k order) := by
  rw [recommendationTasks_eq hu] at ht
  cases ht
  have := float_run hn hk hm
  rwa [recommendation_evals] at this

/-- **C122.** Every order of the users is the order of some interleaving, with as many worker threads as users
(`max_concurrent_threads`). -/
theorem C122_every_order (model : EvalModel) (ds : Mem) (a : EvalArgs) (n : Option Nat) (rngs : Nat → EvalRng)
    (low : Option ℚ) (metrics : List (EvalMetric K)) (hn : (metrics.map (·.name)).Nodup) (ks : List Nat) (hk : ks.Nodup)
    (users : List Val) (hu : evalUsers ds n = .ok users) (order : List EvalData) :
    (order.Perm (evaluated (rankingOutcomes model ds a users rngs)) →
      ∃ tasks m, rankingTasks model ds a n rngs = .ok tasks ∧ FloatRun metrics ks tasks m ∧
        ∀ key x, (key, x) ∈ evalResultsFloat metrics ks (m .sums) ↔
          ∃ mt ∈ metrics, ∃ k ∈ ks, key = (mt.name, k) ∧ x = floatReported (computed mt k order)) ∧
    (order.Perm (evaluated (recommendationOutcomes model ds a ks low users rngs)) →
      ∃ tasks m, recommendationTasks model ds a ks low n rngs = .ok tasks ∧ FloatRun metrics ks tasks m ∧
        ∀ key x, (key, x) ∈ evalResultsFloat metrics ks (m .sums) ↔
          ∃ mt ∈ metrics, ∃ k ∈ ks, key = (mt.name, k) ∧ x = floatReported (computed mt k order)) := by
  constructor
  · intro h
    obtain ⟨m, h1, h2⟩ := float_order hn hk rankingTask rankingTask_evals _ _ h
    exact ⟨_, m, rankingTasks_eq hu, h1, h2⟩
  · intro h
    obtain ⟨m, h1, h2⟩ := float_order hn hk recommendationTask recommendationTask_evals _ _ h
    exact ⟨_, m, recommendationTasks_eq hu, h1, h2⟩

/-- **C122** (partial: equal results only when the mean is not too close to a number halfway between two four-digit
decimal numbers; the full property, equal results in every case, fails, see `C122_order_fails`).  Values that are not
negative, in whatever order they are added: the reported double is that of the mean with four decimals, or of one of
its two neighbours; it is that of the mean if the mean is at least a relative `(n + 1) / 2 ^ 52` away from the halfway
points. -/
theorem C122_close_partial [IsStrictOrderedRing K] (xs order : List K) (hp : order.Perm xs) (hx : ∀ x ∈ xs, 0 ≤ x)
    (hne : xs ≠ []) (hl : xs.length ≤ 2 ^ 52) (hb : (xs.length + 1) * (xs.sum / xs.length) ≤ 2 ^ 37) :
    (∃ a b : Int, floatReported order = toFloat ((a : K) / 10000) ∧ reported xs = b / 10000 ∧ |a - b| ≤ 1) ∧
    (NoTie ((xs.length + 1) * (xs.sum / xs.length) / 2 ^ 52) (xs.sum / xs.length) →
      floatReported order = toFloat (reported xs)) := by
  have hne' : order ≠ [] := fun e => hne (by rw [e] at hp; exact hp.nil_eq.symm)
  have h := floatMean_error order (fun x hxo => hx x (hp.subset hxo)) hne' (by rw [hp.length_eq]; exact hl)
  rw [hp.sum_eq, hp.length_eq] at h
  simp only [floatReported, reported, if_neg hne, if_neg hne', hp.length_eq]
  constructor
  · refine ⟨_, _, rfl, rfl, roundHalfEven_diff ?_⟩
    rw [← sub_mul, abs_mul, abs_of_pos (by norm_num : (0 : K) < 10000)]
    have h2 : (xs.length + 1) * (xs.sum / xs.length) / 2 ^ 52 ≤ (1 : K) / 2 ^ 15 := by
      rw [div_le_div_iff₀ (by positivity) (by positivity)]
      calc _ ≤ (2 : K) ^ 37 * 2 ^ 15 := mul_le_mul_of_nonneg_right hb (by positivity)
        _ = _ := by norm_num
    calc _ ≤ (1 : K) / 2 ^ 15 * 10000 := mul_le_mul_of_nonneg_right (h.trans h2) (by norm_num)
      _ < 1 := by norm_num
  · intro ht
    rw [round4_same h ht]

/-! ## Two results -/

/-- Four users with one, five, five and eight items. -/
def exTieDs : Mem := mkMem .int
  [(.num 1, .num 9, 1),
   (.num 2, .num 3, 1), (.num 2, .num 4, 1), (.num 2, .num 5, 1), (.num 2, .num 6, 1), (.num 2, .num 7, 1),
   (.num 3, .num 3, 1), (.num 3, .num 4, 1), (.num 3, .num 5, 1), (.num 3, .num 6, 1), (.num 3, .num 7, 1),
   (.num 4, .num 1, 1), (.num 4, .num 2, 1), (.num 4, .num 3, 1), (.num 4, .num 4, 1), (.num 4, .num 5, 1),
   (.num 4, .num 6, 1), (.num 4, .num 7, 1), (.num 4, .num 8, 1)]

/-- A recommender that always recommends the items 1, 2 and 3. -/
def exTieModel : EvalModel where
  train := exTieDs
  nItems := 9
  rank _ items _ := .ok (items.map fun i => (1, i))
  recommend _ _ _ _ := .ok [(3, .num 1), (2, .num 2), (1, .num 3)]

def exTieArgs : EvalArgs := ⟨1, none, none, false, true, false⟩
def exTieRng : EvalRng := ⟨fun i => i, fun i => i, [], fun i => i⟩

/-- The numbers that the users contribute. -/
theorem exTie_values : ∃ users, evalUsers exTieDs none = .ok users ∧
    computed recallPy.toEval.rounded 3
      (evaluated (recommendationOutcomes exTieModel exTieDs exTieArgs [3] none users fun _ => exTieRng)) =
      [0, toFloat (1 / 5), toFloat (1 / 5), toFloat (3 / 8)] := by
  refine ⟨[.num 1, .num 2, .num 3, .num 4], by decide +kernel, by decide +kernel⟩

/-- **C122 fails**: the same recommender, test set, arguments and random draws, the metric `Recall`, and two
interleavings of the four tasks.  One run reports 0.1938 and the other 0.1937. -/
theorem C122_order_fails :
    ∃ tasks m m', recommendationTasks exTieModel exTieDs exTieArgs [3] none none (fun _ => exTieRng) = .ok tasks ∧
      FloatRun [recallPy.toEval.rounded] [3] tasks m ∧ FloatRun [recallPy.toEval.rounded] [3] tasks m' ∧
      (("Recall", 3), toFloat (1938 / 10000 : ℚ)) ∈ evalResultsFloat [recallPy.toEval.rounded] [3] (m .sums) ∧
      (("Recall", 3), toFloat (1937 / 10000 : ℚ)) ∈ evalResultsFloat [recallPy.toEval.rounded] [3] (m' .sums) ∧
      toFloat (1938 / 10000 : ℚ) ≠ toFloat (1937 / 10000) := by
  obtain ⟨users, hu, hv⟩ := exTie_values
  set os := recommendationOutcomes exTieModel exTieDs exTieArgs [3] none users fun _ => exTieRng with hos
  have hn : ([recallPy.toEval.rounded].map (·.name)).Nodup := by simp
  have hperm : [toFloat (3 / 8), 0, toFloat (1 / 5), toFloat (1 / 5)].Perm
      (computed recallPy.toEval.rounded 3 (evaluated os)) := by
    rw [hv]
    decide +kernel
  obtain ⟨order, ho, e⟩ := perm_filterMap_lift _ _ _ hperm
  obtain ⟨tasks, m, h1, h2, h3⟩ := (C122_every_order exTieModel exTieDs exTieArgs none (fun _ => exTieRng) none
    [recallPy.toEval.rounded] hn [3] (by simp) users hu (evaluated os)).2 (.refl _)
  obtain ⟨tasks', m', h1', h2', h3'⟩ := (C122_every_order exTieModel exTieDs exTieArgs none (fun _ => exTieRng) none
    [recallPy.toEval.rounded] hn [3] (by simp) users hu order).2 ho
  rw [h1] at h1'
  cases h1'
  refine ⟨tasks, m, m', h1, h2, h2', (h3 _ _).2 ⟨recallPy.toEval.rounded, by simp, 3, by simp, rfl, ?_⟩,
    (h3' _ _).2 ⟨recallPy.toEval.rounded, by simp, 3, by simp, rfl, ?_⟩, by decide +kernel⟩
  · rw [hv]
    decide +kernel
  · rw [computed, e]
    decide +kernel

/-! ## Examples -/

/-- Values and an order for which the hypotheses of `C122_close_partial` hold. -/
example : ([1 / 2, 1 / 4, 1] : List ℚ).Perm [1, 1 / 2, 1 / 4] ∧ (∀ x ∈ ([1, 1 / 2, 1 / 4] : List ℚ), 0 ≤ x) ∧
    ((([1, 1 / 2, 1 / 4] : List ℚ).length + 1) * (([1, 1 / 2, 1 / 4] : List ℚ).sum / 3) ≤ (2 : ℚ) ^ 37) ∧
    floatReported ([1 / 2, 1 / 4, 1] : List ℚ) = toFloat (5833 / 10000) ∧
    reported ([1, 1 / 2, 1 / 4] : List ℚ) = 5833 / 10000 := by
  decide +kernel

/-- A mean away from the halfway points. -/
example : NoTie (1 / 100000 : ℚ) (1 / 2) := by
  intro j
  have : (1 : ℚ) / 20000 ≤ |(1 / 2 : ℚ) - (2 * (j : ℚ) + 1) / 20000| := by
    have e : (1 / 2 : ℚ) - (2 * j + 1) / 20000 = ((10000 - (2 * j + 1) : Int) : ℚ) / 20000 := by push_cast; ring
    rw [e, abs_div, abs_of_pos (by norm_num : (0 : ℚ) < 20000)]
    have h : (1 : Int) ≤ |10000 - (2 * j + 1)| := Int.one_le_abs (by omega)
    have h' : ((1 : Int) : ℚ) ≤ ((|10000 - (2 * j + 1)| : Int) : ℚ) := Int.cast_le.2 h
    rw [Int.cast_abs] at h'
    exact div_le_div_of_nonneg_right (by simpa using h') (by norm_num)
  exact lt_of_lt_of_le (by norm_num) this

/-- A run of an evaluation of users with results. -/
example : ∃ tasks m, recommendationTasks exTieModel exTieDs exTieArgs [3] none none (fun _ => exTieRng) = .ok tasks ∧
    FloatRun [recallPy.toEval.rounded] [3] tasks m := by
  obtain ⟨t, m, _, h, h', _⟩ := C122_order_fails
  exact ⟨t, m, h, h'⟩

end DRec
