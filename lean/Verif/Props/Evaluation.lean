import Verif.Lemmas.Evaluation
import Verif.Props.MatrixSplit
import Verif.Model.Metrics

/-!
# C44, C45, C49: evaluation processes under all interleavings
-/

namespace DRec

open Spec

variable {K : Type} [Field K] [LinearOrder K] [FloorRing K]

/-! ## C44 -/

theorem ranking_evals (os : List (Except Err (Outcome EvalData))) :
    (os.map rankingTask).flatten.filterMap evalOf = evaluated os := by
  induction os with
  | nil => rfl
  | cons o os ih =>
    simp only [List.map_cons, List.flatten_cons, List.filterMap_append, ih, evaluated, List.filterMap_cons]
    rcases o with e | (_ | _ | d) <;> simp [rankingTask, evalOf]

theorem recommendation_evals (os : List (Except Err (Outcome EvalData))) :
    (os.map recommendationTask).flatten.filterMap evalOf = evaluated os := by
  induction os with
  | nil => rfl
  | cons o os ih =>
    simp only [List.map_cons, List.flatten_cons, List.filterMap_append, ih, evaluated, List.filterMap_cons]
    rcases o with e | (_ | _ | d) <;> simp [recommendationTask, evalOf]

theorem rankingTasks_eq {model : EvalModel} {ds : Mem} {a : EvalArgs} {n : Option Nat}
    {rngs : Nat → EvalRng} {users : List Val} (hu : evalUsers ds n = .ok users) :
    rankingTasks model ds a n rngs = .ok ((rankingOutcomes model ds a users rngs).map rankingTask) := by
  simp [rankingTasks, hu, Except.map, rankingOutcomes, Function.comp_def]

theorem recommendationTasks_eq {model : EvalModel} {ds : Mem} {a : EvalArgs} {ks : List Nat}
    {low : Option ℚ} {n : Option Nat} {rngs : Nat → EvalRng} {users : List Val}
    (hu : evalUsers ds n = .ok users) :
    recommendationTasks model ds a ks low n rngs =
      .ok ((recommendationOutcomes model ds a ks low users rngs).map recommendationTask) := by
  simp [recommendationTasks, hu, Except.map, recommendationOutcomes, Function.comp_def]

/-- The results of a complete run, for any tasks. -/
theorem results_of_run {metrics : List (EvalMetric K)} (hn : (metrics.map (·.name)).Nodup) {ks : List Nat}
    {tasks : List (List EAct)} {m : (v : EVar) → v.Ty K} (hm : EvalRun metrics ks tasks m)
    {users : List EvalData} (he : tasks.flatten.filterMap evalOf = users) :
    (∀ key x, (key, x) ∈ evalResults metrics ks (m .sums) ↔
      ∃ mt ∈ metrics, ∃ k ∈ ks, key = (mt.name, k) ∧ x = reported (computed mt k users)) ∧
    ((evalResults metrics ks (m .sums)).map (·.1)).Nodup := by
  obtain ⟨hsum, _⟩ := evalRun_mem hm
  constructor
  · intro key x
    simp only [evalResults, List.mem_map, List.mem_dedup, metricPairs, List.mem_flatMap, Prod.mk.injEq]
    constructor
    · rintro ⟨key', ⟨p, ⟨mt, hmt, k, hk, rfl⟩, rfl⟩, rfl, rfl⟩
      refine ⟨mt, hmt, k, hk, rfl, ?_⟩
      rw [hsum, he]
      exact result_distinct hn hmt hk users
    · rintro ⟨mt, hmt, k, hk, rfl, rfl⟩
      refine ⟨(mt.name, k), ⟨(mt, k), ⟨mt, hmt, k, hk, rfl⟩, rfl⟩, rfl, ?_⟩
      rw [hsum, he]
      exact result_distinct hn hmt hk users
  · simp only [evalResults, List.map_map]
    have : ((fun x : (String × Nat) × K => x.1) ∘ fun key : String × Nat =>
        (key, resultOf (m .sums key))) = id := rfl
    rw [this, List.map_id]
    exact List.nodup_dedup _

/-- **C44.** For metrics with different names: after every complete interleaving of the tasks of
`ranking_evaluation` the returned dictionary has exactly one entry for every metric and `k`, holding the
(rounded) mean over the users for whom the metric could be computed, 0 when there is none. -/
theorem C44_ranking (model : EvalModel) (ds : Mem) (a : EvalArgs) (n : Option Nat) (rngs : Nat → EvalRng)
    (metrics : List (EvalMetric K)) (hn : (metrics.map (·.name)).Nodup) (ks : List Nat)
    (users : List Val) (hu : evalUsers ds n = .ok users) (tasks : List (List EAct))
    (ht : rankingTasks model ds a n rngs = .ok tasks) (m : (v : EVar) → v.Ty K)
    (hm : EvalRun metrics ks tasks m) :
    (∀ key x, (key, x) ∈ evalResults metrics ks (m .sums) ↔
      ∃ mt ∈ metrics, ∃ k ∈ ks, key = (mt.name, k) ∧
        x = reported (computed mt k (evaluated (rankingOutcomes model ds a users rngs)))) ∧
    ((evalResults metrics ks (m .sums)).map (·.1)).Nodup := by
  rw [rankingTasks_eq hu] at ht
  cases ht
  exact results_of_run hn hm (ranking_evals _)

/-- **C44** for `recommendation_evaluation`. -/
theorem C44_recommendation (model : EvalModel) (ds : Mem) (a : EvalArgs) (n : Option Nat)
    (rngs : Nat → EvalRng) (low : Option ℚ)
    (metrics : List (EvalMetric K)) (hn : (metrics.map (·.name)).Nodup) (ks : List Nat)
    (users : List Val) (hu : evalUsers ds n = .ok users) (tasks : List (List EAct))
    (ht : recommendationTasks model ds a ks low n rngs = .ok tasks) (m : (v : EVar) → v.Ty K)
    (hm : EvalRun metrics ks tasks m) :
    (∀ key x, (key, x) ∈ evalResults metrics ks (m .sums) ↔
      ∃ mt ∈ metrics, ∃ k ∈ ks, key = (mt.name, k) ∧
        x = reported (computed mt k (evaluated (recommendationOutcomes model ds a ks low users rngs)))) ∧
    ((evalResults metrics ks (m .sums)).map (·.1)).Nodup := by
  rw [recommendationTasks_eq hu] at ht
  cases ht
  exact results_of_run hn hm (recommendation_evals _)

/-- **C44.** The reported number is the mean to four decimals. -/
theorem C44_rounding [IsStrictOrderedRing K] (xs : List K) (h : xs ≠ []) :
    (∃ n : Int, reported xs = n / 10000) ∧
    |reported xs - xs.sum / (xs.length : K)| ≤ 1 / 20000 := by
  unfold reported
  rw [if_neg h]
  exact round4_spec _

/-- **C44.** The evaluated users are the first distinct ones, as many as asked for. -/
theorem C44_users (ds : Mem) (h : "user" ∈ ds.cols) (n : Option Nat) :
    ∃ (all users : List Val), evalUsers ds n = .ok users ∧ all.Nodup ∧ (∀ v, v ∈ all ↔ ∃ r ∈ ds.rows, r.get "user" = v) ∧
      users = all.take (n.getD all.length) := by
  obtain ⟨us, hus, hnd, hmem⟩ := uniqueVals_user h (by decide)
  exact ⟨us, _, by simp [evalUsers, hus, Except.map], hnd, hmem, rfl⟩

/-! ## C49 -/

/-- **C49** (partial: metric instances with different names; the full property is for every list of
instances and fails for two instances of one class, see `C49_shared_name`).  Whatever the interleavings,
the value reported for an instance is the one reported when it is evaluated alone. -/
theorem C49_own_result_partial (model : EvalModel) (ds : Mem) (a : EvalArgs) (n : Option Nat)
    (rngs : Nat → EvalRng) (metrics : List (EvalMetric K)) (hn : (metrics.map (·.name)).Nodup)
    (ks : List Nat) (tasks : List (List EAct)) (ht : rankingTasks model ds a n rngs = .ok tasks)
    (m : (v : EVar) → v.Ty K) (hm : EvalRun metrics ks tasks m) (mt : EvalMetric K) (hmt : mt ∈ metrics)
    (m1 : (v : EVar) → v.Ty K) (hm1 : EvalRun [mt] ks tasks m1) (k : Nat) (x : K) :
    ((mt.name, k), x) ∈ evalResults metrics ks (m .sums) ↔
      ((mt.name, k), x) ∈ evalResults [mt] ks (m1 .sums) := by
  have hu : ∃ users, evalUsers ds n = .ok users := by
    unfold rankingTasks at ht
    cases he : evalUsers ds n with
    | error e => rw [he] at ht; cases ht
    | ok us => exact ⟨us, rfl⟩
  obtain ⟨users, hu⟩ := hu
  rw [(C44_ranking model ds a n rngs metrics hn ks users hu tasks ht m hm).1,
    (C44_ranking model ds a n rngs [mt] (by simp) ks users hu tasks ht m1 hm1).1]
  constructor
  · rintro ⟨mt', hmt', k', hk', e, rfl⟩
    have : mt' = mt := List.inj_on_of_nodup_map hn hmt' hmt (Prod.mk.inj e).1.symm
    subst this
    exact ⟨mt', by simp, k', hk', e, rfl⟩
  · rintro ⟨mt', hmt', k', hk', e, rfl⟩
    rw [List.mem_singleton] at hmt'
    subst hmt'
    exact ⟨mt', hmt, k', hk', e, rfl⟩

/-- The F-score metric as an instance; its name is the class name (`metric_abc.py:14`). -/
def fscoreMetric (beta : ℚ) : EvalMetric ℚ :=
  ⟨"FScore", fun d k => Metrics.fscore beta d.recs (some k) (some d.relevant)⟩

/-- A user with recommendations 1, 2 of which 1 is relevant. -/
def exUserData : EvalData := ⟨[.num 1, .num 2], [.num 1], some (.num 1), []⟩

/-- **C49 fails**: two F-scores with different beta share one entry, which holds neither value. -/
theorem C49_shared_name : ∃ (b1 b2 : ℚ) (m : (v : EVar) → v.Ty ℚ) (x y : ℚ),
    EvalRun [fscoreMetric b1, fscoreMetric b2] [2] [[.metrics exUserData, .count]] m ∧
    computed (fscoreMetric b1) 2 [exUserData] = [x] ∧ computed (fscoreMetric b2) 2 [exUserData] = [y] ∧
    evalResults [fscoreMetric b1, fscoreMetric b2] [2] (m .sums) = [(("FScore", 2), 3 / 4)] ∧
    round4 x ≠ 3 / 4 ∧ round4 y ≠ 3 / 4 := by
  obtain ⟨m, hm⟩ := evalRun_exists [fscoreMetric 1, fscoreMetric 2] [2] [[.metrics exUserData, .count]]
  have hf1 : (fscoreMetric 1).call exUserData 2 = .ok (2 / 3) := by decide +kernel
  have hf2 : (fscoreMetric 2).call exUserData 2 = .ok (5 / 6) := by decide +kernel
  refine ⟨1, 2, m, 2 / 3, 5 / 6, hm, ?_, ?_, ?_, by decide +kernel, by decide +kernel⟩
  · simp [computed, hf1, Except.toOption]
  · simp [computed, hf2, Except.toOption]
  · have hk : ((metricPairs [fscoreMetric 1, fscoreMetric 2] [2]).map fun p => (p.1.name, p.2)).dedup =
        [("FScore", 2)] := by decide
    unfold evalResults
    rw [hk]
    simp only [List.map_cons, List.map_nil, List.cons.injEq, Prod.mk.injEq, true_and, and_true]
    rw [(evalRun_mem hm).1]
    have hc : contrib [fscoreMetric 1, fscoreMetric 2] [2] ("FScore", 2) exUserData = [2 / 3, 5 / 6] := by
      simp only [contrib, metricPairs, List.flatMap_cons, List.map_cons, List.map_nil, List.flatMap_nil,
        List.append_nil, List.cons_append, List.nil_append, List.filterMap_cons, List.filterMap_nil, hf1, hf2,
        Except.toOption]
      rfl
    simp only [List.flatten_cons, List.flatten_nil, List.append_nil, List.filterMap_cons, evalOf,
      List.filterMap_nil, List.flatMap_cons, List.flatMap_nil, hc]
    decide +kernel

/-! ## C45 -/

theorem flatten_countE (tasks : List (List EAct)) :
    tasks.flatten.countP countsE = (tasks.map (List.countP countsE)).sum := by
  induction tasks with
  | nil => rfl
  | cons t ts ih => simp [List.countP_append, ih]

omit [LinearOrder K] [FloorRing K] in
theorem eval_size (metrics : List (EvalMetric K)) (ks : List Nat) (tasks : List (List EAct)) :
    (evalStart metrics ks tasks).size = 4 * tasks.flatten.length := by
  simp only [evalStart, Cfg.size, Cfg.init, List.map_map]
  induction tasks with
  | nil => rfl
  | cons t ts ih =>
    simp only [List.map_cons, List.sum_cons, ih, Function.comp, Th.size, List.length_map,
      List.flatten_cons, List.length_append]
    omega

omit [LinearOrder K] [FloorRing K] in
/-- The tasks of an evaluation never block each other: an unfinished run can be continued, and no run is
longer than four steps per section. -/
theorem C45_no_deadlock (metrics : List (EvalMetric K)) (ks : List Nat) (tasks : List (List EAct)) (n : Nat)
    (c : Cfg (EVar.Ty K)) (h : Steps n (evalStart metrics ks tasks) c) :
    (¬ c.Complete → ∃ i d, c.step i = some d) ∧ n ≤ 4 * tasks.flatten.length := by
  refine ⟨steps_progress (steps_inv (init_inv _ _) h), ?_⟩
  have := steps_bounded h
  rw [eval_size] at this
  omega

omit [LinearOrder K] [FloorRing K] in
/-- **C45** for `ranking_evaluation`: whatever happens in the evaluation of the users, when all tasks
have finished the counter equals the number of tasks, so the waiting loop ends. -/
theorem C45_ranking_ends (model : EvalModel) (ds : Mem) (a : EvalArgs) (n : Option Nat)
    (rngs : Nat → EvalRng) (metrics : List (EvalMetric K)) (ks : List Nat) (tasks : List (List EAct))
    (ht : rankingTasks model ds a n rngs = .ok tasks) :
    (∃ m, EvalRun metrics ks tasks m) ∧ ∀ m, EvalRun metrics ks tasks m → m .done = tasks.length := by
  refine ⟨evalRun_exists _ _ _, fun m hm => ?_⟩
  rw [(evalRun_mem hm).2, flatten_countE, sum_ones]
  · simp
  · intro x hx
    unfold rankingTasks at ht
    cases he : evalUsers ds n with
    | error e => rw [he] at ht; cases ht
    | ok us =>
      rw [he] at ht
      simp only [Except.map, Except.ok.injEq] at ht
      subst ht
      simp only [List.map_map, List.mem_map] at hx
      obtain ⟨p, _, rfl⟩ := hx
      simp only [Function.comp]
      rcases rankingUser model ds a p.1 (rngs p.2) with e | (_ | _ | d) <;> simp [rankingTask, countsE]

/-- No user of a recommendation evaluation fails. -/
def NoFailure (os : List (Except Err (Outcome EvalData))) : Prop := ∀ o ∈ os, ∃ x, o = .ok x

omit [LinearOrder K] [FloorRing K] in
/-- **C45** (partial: no user's evaluation raises; the full property is for every input and fails, see
`C45_recommendation_hangs`).  The waiting loop of `recommendation_evaluation` ends. -/
theorem C45_recommendation_ends_partial (os : List (Except Err (Outcome EvalData))) (h : NoFailure os)
    (metrics : List (EvalMetric K)) (ks : List Nat) (m : (v : EVar) → v.Ty K)
    (hm : EvalRun metrics ks (os.map recommendationTask) m) :
    m .done = (os.map recommendationTask).length := by
  rw [(evalRun_mem hm).2, flatten_countE, sum_ones]
  · simp
  · intro x hx
    simp only [List.map_map, List.mem_map] at hx
    obtain ⟨o, ho, rfl⟩ := hx
    obtain ⟨y, rfl⟩ := h o ho
    rcases y with _ | _ | d <;> simp [recommendationTask, countsE]

omit [LinearOrder K] [FloorRing K] in
theorem eval_done_le {metrics : List (EvalMetric K)} {ks : List Nat} {tasks : List (List EAct)} {n : Nat}
    {c : Cfg (EVar.Ty K)} (h : Steps n (evalStart metrics ks tasks) c) :
    c.mem .done ≤ tasks.flatten.countP countsE := by
  obtain ⟨log, h1, h2⟩ := (steps_inv (init_inv evalInit (tasks.map (List.map (EAct.sec metrics ks)))) h).log
  rw [← List.map_flatten] at h2
  obtain ⟨l', h3, h4⟩ := perm_map_inv (EAct.sec metrics ks) h2
  obtain ⟨l1, l2, rfl, rfl, -⟩ := List.append_eq_map_iff.1 h4
  rw [h1, (applyLog_eval metrics ks l1 evalInit ("", 0)).2, ← h3.countP_eq, List.countP_append]
  simp [evalInit]

omit [LinearOrder K] [FloorRing K] in
/-- **C45 fails** for `recommendation_evaluation`: as soon as the evaluation of one user raises, in no
state of any execution does the counter reach the number of tasks; the waiting loop runs for ever. -/
theorem C45_recommendation_hangs (os : List (Except Err (Outcome EvalData))) (e : Err)
    (h : .error e ∈ os) (metrics : List (EvalMetric K)) (ks : List Nat) (n : Nat) (c : Cfg (EVar.Ty K))
    (hs : Steps n (evalStart metrics ks (os.map recommendationTask)) c) :
    c.mem .done < (os.map recommendationTask).length := by
  refine lt_of_le_of_lt (eval_done_le hs) ?_
  rw [flatten_countE]
  have := sum_lt ((os.map recommendationTask).map (List.countP countsE)) ?_ ?_
  · simpa using this
  · intro x hx
    simp only [List.map_map, List.mem_map] at hx
    obtain ⟨o, _, rfl⟩ := hx
    rcases o with e | (_ | _ | d) <;> simp [recommendationTask, countsE]
  · simp only [List.map_map, List.mem_map]
    exact ⟨_, h, by simp [recommendationTask]⟩

/-- **C45 fails**: a test set with a text user id, a plain word, always makes a user's evaluation
raise. -/
theorem C45_text_ids_fail (model : EvalModel) (ds : Mem) (hc : "user" ∈ ds.cols)
    (hd : ds.dtype "user" = .obj) (r : Row) (hr : r ∈ ds.rows) (s : String) (hs : PlainWord s)
    (hrs : r.get "user" = .str s) (a : EvalArgs) (ks : List Nat) (low : Option ℚ) (rngs : Nat → EvalRng)
    (users : List Val) (hu : evalUsers ds none = .ok users) :
    ∃ e, .error e ∈ recommendationOutcomes model ds a ks low users rngs := by
  obtain ⟨us, hus, hnd, hmem⟩ := uniqueVals_user hc (by decide)
  simp only [evalUsers, hus, Except.map, Option.getD_none, List.take_length, Except.ok.injEq] at hu
  subst hu
  obtain ⟨e, he⟩ := userRows_word hc hd hs
  have he2 : ∃ e, userDs ds (.str s) = .error e := by
    unfold userRows at he
    unfold userDs
    cases h : ds.select ("user == ".toList ++ cellText (Val.str s)) with
    | error e => exact ⟨e, rfl⟩
    | ok x => rw [h] at he; cases he
  obtain ⟨e2, he2⟩ := he2
  have hv := (hmem (.str s)).2 ⟨r, hr, hrs⟩
  obtain ⟨i, hi, e'⟩ := List.getElem_of_mem hv
  refine ⟨e2, List.mem_map.2 ⟨(.str s, i), ?_, ?_⟩⟩
  · rw [List.mem_zipIdx_iff_getElem?]
    simpa [hi] using e'
  · simp [recommendationUser, he2]

/-! ## Examples -/

/-- A model that ranks items as given and recommends item 1. -/
def exEvalModel : EvalModel where
  train := exSplit
  nItems := 3
  rank _ items _ := .ok (items.map fun i => (1, i))
  recommend _ _ _ _ := .ok [(1, .num 1)]

def exEvalArgs : EvalArgs := ⟨1, none, none, false, true, false⟩
def exEvalRng : EvalRng := ⟨fun i => i, fun i => i, [0, 1, 2], fun i => i⟩

example : ([fscoreMetric 1].map (·.name)).Nodup ∧
    (∃ users, evalUsers exSplit none = .ok users ∧ .num 7 ∈ users) ∧
    (∃ tasks m, rankingTasks exEvalModel exSplit exEvalArgs none (fun _ => exEvalRng) = .ok tasks ∧
      EvalRun [fscoreMetric 1] [1, 2] tasks m) ∧
    ∃ x, rankingUser exEvalModel exSplit exEvalArgs (.num 7) exEvalRng = .ok (.done x) ∧
      x.recs.length = 3 := by
  obtain ⟨all, users, hu, hnd, hmem, rfl⟩ := C44_users exSplit (by decide) none
  refine ⟨by simp, ⟨_, hu, ?_⟩, ?_, ?_⟩
  · simp only [Option.getD_none, List.take_length]
    rw [hmem]
    have : Val.num 7 ∈ exSplit.rows.map (·.get "user") := by decide +kernel
    simpa using this
  · obtain ⟨m, hm⟩ := evalRun_exists [fscoreMetric 1] [1, 2] _
    exact ⟨_, m, rankingTasks_eq hu, hm⟩
  · have : ∃ x, (match rankingUser exEvalModel exSplit exEvalArgs (.num 7) exEvalRng with
        | .ok (.done x) => some x
        | _ => none) = some x ∧ x.recs.length = 3 := ⟨_, rfl, by decide +kernel⟩
    obtain ⟨x, h1, h2⟩ := this
    refine ⟨x, ?_, h2⟩
    revert h1
    rcases rankingUser exEvalModel exSplit exEvalArgs (.num 7) exEvalRng with e | (_ | _ | d) <;> simp

example : NoFailure [.ok (.done exUserData), .ok .skip] ∧
    Except.error Err.badValue ∈ ([.ok .skip, .error .badValue] : List (Except Err (Outcome EvalData))) := by
  refine ⟨?_, by simp⟩
  intro o ho
  simp only [List.mem_cons, List.not_mem_nil, or_false] at ho
  rcases ho with rfl | rfl <;> exact ⟨_, rfl⟩

example : "user" ∈ exWords.cols ∧ exWords.dtype "user" = .obj ∧
    ∃ r ∈ exWords.rows, ∃ s, PlainWord s ∧ r.get "user" = .str s := by
  refine ⟨by decide, by decide, ?_⟩
  cases h : exWords.rows with
  | nil => exact absurd h (by decide +kernel)
  | cons r rs => exact ⟨r, by simp, exWords_plain r (by rw [h]; simp)⟩

end DRec
