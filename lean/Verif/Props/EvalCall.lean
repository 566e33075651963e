import Verif.Spec.EvalCall
import Verif.Props.EvalTask

/-!
# C99: arguments of the evaluation processes
-/

namespace DRec

open Spec

theorem noneOrPos_iff (o : Option Int) : noneOrPos o = true ↔ ∀ n, o = some n → 0 < n := by
  cases o <;> simp [noneOrPos]

theorem checkRecommendation_iff (c : EvalCall) : c.checkRecommendation = .ok () ↔ Sensible c := by
  unfold EvalCall.checkRecommendation Sensible
  rw [← noneOrPos_iff, ← noneOrPos_iff]
  cases noneOrPos c.nUsers <;> cases noneOrPos c.nPos <;> simp

theorem checkRanking_iff (c : EvalCall) : c.checkRanking = .ok () ↔ Sensible c ∧ SensibleNeg c := by
  unfold EvalCall.checkRanking Sensible SensibleNeg
  rw [← noneOrPos_iff, ← noneOrPos_iff]
  cases noneOrPos c.nUsers <;> cases noneOrPos c.nPos <;> simp
  rcases c.nNeg with _ | (n | q) <;> cases c.generate <;> simp [NegIn.positive, and_comm]
  all_goals
    split
    · simp; intro h; linarith
    · simp; intro h; linarith

/-! ## Checks -/

/-- A call of `ranking_evaluation` with numbers that make no sense is rejected, whatever the model and the data
are. -/
theorem C99_ranking_rejects_partial (model : EvalModel) (thr : ℚ) (c : EvalCall) (rngs : Nat → EvalRng)
    (h : ¬ (Sensible c ∧ SensibleNeg c)) : ∃ e, rankingCall model thr c rngs = .error e := by
  cases hc : c.checkRanking with
  | error e => exact ⟨e, by simp [rankingCall, hc, Except.bind]⟩
  | ok u => exact absurd ((checkRanking_iff c).1 (by rw [hc])) h

/-- A call of `recommendation_evaluation` with numbers that make no sense is rejected. -/
theorem C99_recommendation_rejects_partial (model : EvalModel) (thr : ℚ) (c : EvalCall) (rngs : Nat → EvalRng)
    (h : ¬ Sensible c) : ∃ e, recommendationCall model thr c rngs = .error e := by
  cases hc : c.checkRecommendation with
  | error e => exact ⟨e, by simp [recommendationCall, hc, Except.bind]⟩
  | ok u => exact absurd ((checkRecommendation_iff c).1 (by rw [hc])) h

/-- Zero users, a negative cut-off, and negatives to be generated without a number. -/
example (c : EvalCall) : ¬ Sensible { c with nUsers := some 0 } ∧ ¬ Sensible { c with ks := [5, -1] } ∧
    ¬ (Sensible { c with nNeg := none, generate := true } ∧ SensibleNeg { c with nNeg := none, generate := true }) := by
  refine ⟨fun h => ?_, fun h => ?_, fun h => ?_⟩
  · have := h.1 0 rfl; omega
  · have := h.2.2 (-1) (by simp); omega
  · exact h.2.2.2 rfl rfl

theorem passes_args (c : EvalCall) (thr : ℚ) : Passes c thr (c.args thr) where
  given t h := by simp [EvalCall.args, h]
  default h := by simp [EvalCall.args, h]
  allPos h := by simp [EvalCall.args, h]
  pos n h := by simp [EvalCall.args, h]
  allNeg h := by simp [EvalCall.args, h]
  neg n h := by simp [EvalCall.args, h, NegIn.toArg]
  ratio q h := by simp [EvalCall.args, h, NegIn.toArg]
  generate := rfl
  novelty := rfl

/-- Every other call on a test set with a user column starts one task for each of the first users, as many as
asked for or as there are, with the numbers of the call. -/
theorem C99_ranking_accepts (model : EvalModel) (thr : ℚ) (c : EvalCall) (rngs : Nat → EvalRng) (hs : Sensible c)
    (hn : SensibleNeg c) (hu : "user" ∈ (c.test.dataset model).cols) :
    ∃ (all : List Val) (a : EvalArgs) (users : List Val) (tasks : List (List EAct)),
      rankingCall model thr c rngs = .ok tasks ∧ Passes c thr a ∧ users <+: all ∧
      tasks = (rankingOutcomes model (c.test.dataset model) a users rngs).map rankingTask ∧ all.Nodup ∧
      (∀ v, v ∈ all ↔ ∃ r ∈ (c.test.dataset model).rows, r.get "user" = v) ∧
      (c.nUsers = none → tasks.length = all.length) ∧
      ∀ n, c.nUsers = some n → (tasks.length : Int) = min n all.length := by
  obtain ⟨all, users, h1, h2, h3, h4⟩ := C44_users (c.test.dataset model) hu (c.nUsers.map Int.toNat)
  have he := (checkRanking_iff c).2 ⟨hs, hn⟩
  have ht := rankingTasks_eq (model := model) (a := c.args thr) (rngs := rngs) h1
  refine ⟨all, _, _, _, (by simp only [rankingCall, he, Except.bind]; exact ht), passes_args c thr,
    h4 ▸ List.take_prefix _ _, rfl, h2, h3, ?_, ?_⟩
  · intro h
    simp [rankingOutcomes, h4, h]
  · intro n h
    have := hs.1 n h
    simp only [rankingOutcomes, h4, h, List.length_map, List.length_zipIdx, List.length_take, Option.map_some,
      Option.getD_some]
    omega

theorem C99_recommendation_accepts (model : EvalModel) (thr : ℚ) (c : EvalCall) (rngs : Nat → EvalRng)
    (hs : Sensible c) (hu : "user" ∈ (c.test.dataset model).cols) :
    ∃ (all : List Val) (a : EvalArgs) (users : List Val) (tasks : List (List EAct)),
      recommendationCall model thr c rngs = .ok tasks ∧ Passes c thr a ∧ users <+: all ∧
      tasks = (recommendationOutcomes model (c.test.dataset model) a (c.ks.map Int.toNat) c.low users rngs).map
        recommendationTask ∧ all.Nodup ∧
      (∀ v, v ∈ all ↔ ∃ r ∈ (c.test.dataset model).rows, r.get "user" = v) ∧
      (c.nUsers = none → tasks.length = all.length) ∧
      ∀ n, c.nUsers = some n → (tasks.length : Int) = min n all.length := by
  obtain ⟨all, users, h1, h2, h3, h4⟩ := C44_users (c.test.dataset model) hu (c.nUsers.map Int.toNat)
  have he := (checkRecommendation_iff c).2 hs
  have ht := recommendationTasks_eq (model := model) (a := c.args thr) (ks := c.ks.map Int.toNat) (low := c.low)
    (rngs := rngs) h1
  refine ⟨all, _, _, _, (by simp only [recommendationCall, he, Except.bind]; exact ht), passes_args c thr,
    h4 ▸ List.take_prefix _ _, rfl, h2, h3, ?_, ?_⟩
  · intro h
    simp [recommendationOutcomes, h4, h]
  · intro n h
    have := hs.1 n h
    simp only [recommendationOutcomes, h4, h, List.length_map, List.length_zipIdx, List.length_take, Option.map_some,
      Option.getD_some]
    omega

/-- Two cut-offs, at most 3 users, half as many negatives as positives. -/
example : let c : EvalCall := ⟨.other exTaskDs, some 3, [1, 5], none, some (.float (1 / 2)), true, false, none, none⟩
    Sensible c ∧ SensibleNeg c ∧ "user" ∈ (c.test.dataset exTaskModel).cols := by
  refine ⟨⟨?_, ?_, ?_⟩, ⟨?_, ?_, ?_⟩, by decide⟩ <;> simp

/-! ## The training set as test set -/

theorem distinctVals_twice (l : List Val) : distinctVals (l ++ l) = distinctVals l := by
  rw [distinctVals_append, List.filter_eq_nil_iff.2, List.append_nil]
  intro v hv
  simpa using (mem_distinctVals _ _).1 hv

/-- The evaluation of a user does not depend on whether the test set is recognised as the training set. -/
theorem rankingUser_train (model : EvalModel) (a : EvalArgs) (user : Val) (rng : EvalRng) :
    rankingUser model model.train { a with trainEval := false } user rng =
      rankingUser model model.train { a with trainEval := true } user rng := by
  unfold rankingUser
  cases hd : userDs model.train user with
  | error e => rfl
  | ok uds =>
    simp only
    cases hs : samplePos (thresholdRows (some a.threshold) uds.rows) a.nPos rng.pos with
    | none => rfl
    | some sampled =>
      simp only
      have hb : blacklist model { a with trainEval := false } user (thresholdRows (some a.threshold) uds.rows) =
          blacklist model { a with trainEval := true } user (thresholdRows (some a.threshold) uds.rows) := by
        have ht : trainPositives model user a.threshold =
            .ok ((thresholdRows (some a.threshold) uds.rows).map (·.get "item")) := by
          have hr : userRows model.train user = .ok uds.rows := by
            have : userRows model.train user = (userDs model.train user).map (·.rows) := rfl
            rw [this, hd]; rfl
          rw [trainPositives, hr]; rfl
        simp [blacklist, ht, Except.map, distinctVals_twice]
      have hn : ∀ neg, negativesOf model { a with trainEval := false } user (thresholdRows (some a.threshold) uds.rows)
          sampled.length neg rng = negativesOf model { a with trainEval := true } user
            (thresholdRows (some a.threshold) uds.rows) sampled.length neg rng := by
        intro neg
        simp only [negativesOf, hb]
      rw [hn]
      rfl

/-- A copy of a dataset is evaluated like the dataset. -/
theorem rankingTasks_copy (model : EvalModel) (ds : Mem) (a : EvalArgs) (n : Option Nat) (rngs : Nat → EvalRng) :
    rankingTasks model ds.copy a n rngs = rankingTasks model ds a n rngs := rfl

/-- Leaving out the test set, passing the training set, and passing a copy of it start the same tasks; so the
results are the same (`C44_ranking`). -/
theorem C99_train_set (model : EvalModel) (thr : ℚ) (c : EvalCall) (rngs : Nat → EvalRng) :
    rankingCall model thr { c with test := .omitted } rngs = rankingCall model thr { c with test := .train } rngs ∧
    rankingCall model thr { c with test := .other model.train.copy } rngs =
      rankingCall model thr { c with test := .omitted } rngs ∧
    recommendationCall model thr { c with test := .omitted } rngs =
      recommendationCall model thr { c with test := .train } rngs ∧
    recommendationCall model thr { c with test := .other model.train.copy } rngs =
      recommendationCall model thr { c with test := .omitted } rngs := by
  refine ⟨rfl, ?_, rfl, rfl⟩
  have h : rankingTasks model model.train (({ c with test := .other model.train.copy } : EvalCall).args thr)
        (c.nUsers.map Int.toNat) rngs =
      rankingTasks model model.train (({ c with test := .omitted } : EvalCall).args thr)
        (c.nUsers.map Int.toNat) rngs := by
    unfold rankingTasks
    have := rankingUser_train model (({ c with test := .omitted } : EvalCall).args thr)
    simp only [EvalCall.args, TestSet.isTrain] at this ⊢
    simp only [this]
  unfold rankingCall
  show Except.bind _ _ = Except.bind _ _
  have hc : ({ c with test := .other model.train.copy } : EvalCall).checkRanking =
      ({ c with test := .omitted } : EvalCall).checkRanking := rfl
  rw [hc]
  congr 1
  funext _
  exact (rankingTasks_copy _ _ _ _ _).trans h

/-- A training set on which negatives are generated. -/
example : (match rankingCall exTaskModel 3 ⟨.other exTaskModel.train.copy, none, [2], none, some (.int 2), true, false, none,
      none⟩ (fun _ => { exEvalRng with items := [0, 1, 2, 3, 4, 5] }) with
    | .ok tasks => some (tasks.map List.length)
    | .error _ => none) = some [2, 2] := by decide +kernel

/-- An empty list of cut-offs passes the checks of `recommendation_evaluation`, but makes the evaluation of every
user with a liked item raise. -/
theorem C99_fails_no_cutoffs (model : EvalModel) (ds : Mem) (hu : IntUsers ds) (a : EvalArgs) (low : Option ℚ) (u : Int)
    (rng : EvalRng) (h1 : ¬ TooFewPositives ds a (.num u)) (h2 : usedPositives ds a (.num u) ≠ 0) :
    (∀ c : EvalCall, Sensible c → ({ c with ks := [] } : EvalCall).checkRecommendation = .ok ()) ∧
      ∃ e, recommendationUser model ds a ([] : List Nat).max? low (.num u) rng = .error e := by
  refine ⟨fun c hc => (checkRecommendation_iff _).2 ⟨hc.1, hc.2.1, by simp⟩, ?_⟩
  obtain ⟨d, hd, hrows, hcols, hdt⟩ := userDs_int hu u
  unfold recommendationUser
  simp only [hd, hrows, thresholdRows_eq]
  cases hs : samplePos (positivesOf a.threshold ds (.num u)) a.nPos rng.pos with
  | none => exact absurd (samplePos_none.1 hs) h1
  | some sampled =>
    have hlen : usedPositives ds a (.num u) = sampled.length := (samplePos_some hs).2.symm
    rw [hlen] at h2
    simp only [h2, if_false]
    exact ⟨_, rfl⟩

example : IntUsers exTaskDs ∧ ¬ TooFewPositives exTaskDs exTaskArgs (.num ((1 : Int) : ℚ)) ∧
    usedPositives exTaskDs exTaskArgs (.num ((1 : Int) : ℚ)) ≠ 0 := by
  refine ⟨exTaskDs_users, ?_, by decide +kernel⟩
  rintro ⟨n, hn, h⟩
  cases hn
  rw [← thresholdRows_eq] at h
  revert h
  simp only [recordsOf]
  decide +kernel

end DRec
