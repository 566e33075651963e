import Verif.Spec.DbNets
import Verif.Lemmas.DbNets
import Verif.Props.DbList

/-!
# C127: CDAE and DMF on a database dataset

Interaction vectors, training batches, predictions, rankings, recommendations and evaluations are those of the same data
in memory, whatever the interleaving of the calls.
-/

namespace DRec.Conc

open Spec

/-- **C127**, vectors: the first vector asked for in memory is the vector of totals, so the following claims are about
right vectors; unknown ids are refused. -/
theorem C127_vectors (m : Mem) (h : Fresh m) (q : VecReq) :
    (q.Known m → memVec m q = .ok (vecSpec m q)) ∧ (¬ q.Known m → memVec m q = .error .notFound) := by
  rw [memVec_eq h]
  cases q with
  | user u => exact ⟨fun hq => if_pos hq, fun hq => if_neg hq⟩
  | item i => exact ⟨fun hq => if_pos hq, fun hq => if_neg hq⟩

/-- **C127**, training: for every database dataset with assigned ids, any number of threads that ask for the vectors of
the users and items of a batch, interleaved in any way, get the vectors that the same data in memory gives (or the
exception for an unknown id). -/
theorem C127_training (names : List String) (w : World) (hw : Reached names w) (i : Nat) (x : Inst) (m : Mem)
    (h : Ready w i x m) (hnm : Named m) (jobs : List (List Nat × List Nat)) (w' : World)
    (outs : List (Except Err (List (List ℚ) × List (List ℚ))))
    (hrun : ProgRuns w (jobs.map fun p => dbBatch i p.1 p.2) w' (outs.map .ret)) :
    outs = jobs.map fun p => memBatch m p.1 p.2 := by
  obtain ⟨hn, hg⟩ := reached_good hw
  have hS : ∀ k ∈ [i], (w.insts k).isSome := by simp [h.same.object]
  refine (pool_results (S := [i]) hg hS (by simp) ?_ hrun).1
  intro t p hp
  rw [List.getElem?_map] at hp ⊢
  obtain ⟨q, hq, rfl⟩ := Option.map_eq_some_iff.1 hp
  refine ⟨_, by rw [hq]; rfl, ?_⟩
  have := delivers_task hg (delivers_batch (β := List (List ℚ) × List (List ℚ)) hn (by simp) hS (ready_fitted h) hnm q.1 q.2) id
  have e : ∀ r : Except Err (List (List ℚ) × List (List ℚ)), r.map id = r := fun r => by cases r <;> rfl
  rw [e] at this
  exact this

theorem served_by {names : List String} {w : World} (hg : Good names w) {S : List Nat} {i : Nat} (hi : i ∈ S) {m : Mem}
    {T : Option (String → DType)} {B : Nat} (hf : FittedOn w i m T B)
    {f : Option Nat → Option Nat → (Option ℚ → DbProg Reply) → DbProg Reply} {f' : PredictFn ℚ} {rk : DbRankFn Reply}
    {rk' : RankFn} (h : ∀ u j, DeliversIn names S (sharedInv w S) (f u j) (f' u j)) (hrk : RankAlike names S w rk rk')
    (q : Request) : Gives names S (dbServeBy i (nItemsOf m) f rk q) [] w (memServeBy m f' rk' q) := by
  cases q with
  | predict user item =>
    have := delivers_task hg (delivers_predictRaw (β := Reply) hi hf h user item) Reply.score
    have e : (predicted m f' user item).map Reply.score = memServeBy m f' rk' (.predict user item) := by
      simp only [predicted, memServeBy]
      cases predict m true f' user item false with
      | error e => rfl
      | ok o => cases o <;> rfl
    rw [e] at this
    exact this
  | rank user items novelty skip n => exact delivers_task hg (delivers_rankRaw hi hf hrk user items novelty skip n) Reply.ranking
  | recommend user n novelty threshold =>
    exact delivers_task hg (delivers_recommendRaw hi hf hrk user n novelty threshold) Reply.ranking

/-- **C127**, answers: any number of calls of `predict`, `rank` and `recommend` of a CDAE (a DMF), interleaved in any way,
return (or raise) what the recommender with the same network returns (or raises) in memory. -/
theorem C127_answers (names : List String) (w : World) (hw : Reached names w) (i : Nat) (x : Inst) (m : Mem)
    (h : Ready w i x m) (hnm : Named m) (qs : List Request) (w' : World) (outs : List (Except Err Reply)) :
    (∀ (t : ℚ) (net : Nat → List ℚ → Except Err (List ℚ)),
      ProgRuns w (qs.map (dbCdaeServe t net i (nItemsOf m))) w' (outs.map .ret) →
      outs = qs.map (memServeBy m (memCdaePredict t net m) (memCdaeRank t net m))) ∧
    ∀ net : List ℚ → List ℚ → Except Err ℚ, ProgRuns w (qs.map (dbDmfServe net i (nItemsOf m))) w' (outs.map .ret) →
      outs = qs.map (memServeBy m (memDmfPredict net m) (baseRank m (memDmfPredict net m))) := by
  obtain ⟨hn, hg⟩ := reached_good hw
  have hS : ∀ k ∈ [i], (w.insts k).isSome := by simp [h.same.object]
  have hf := ready_fitted h
  refine ⟨fun t net hrun => (pool_results hg hS (by simp) ?_ hrun).1, fun net hrun => (pool_results hg hS (by simp) ?_ hrun).1⟩
  · intro k p hp
    rw [List.getElem?_map] at hp ⊢
    obtain ⟨q, hq, rfl⟩ := Option.map_eq_some_iff.1 hp
    exact ⟨_, by rw [hq]; rfl, served_by hg (by simp) hf (delivers_cdaePredict hn (by simp) hS hf hnm t net)
      (delivers_cdaeRank hn (by simp) hS hf hnm t net) q⟩
  · intro k p hp
    rw [List.getElem?_map] at hp ⊢
    obtain ⟨q, hq, rfl⟩ := Option.map_eq_some_iff.1 hp
    exact ⟨_, by rw [hq]; rfl, served_by hg (by simp) hf (delivers_dmfPredict hn (by simp) hS hf hnm net)
      (delivers_baseRankBy hn (by simp) hS hf (delivers_dmfPredict hn (by simp) hS hf hnm net)) q⟩

theorem within_cdae (m : Mem) (t : ℚ) (net : Nat → List ℚ → Except Err (List ℚ)) : Within (memCdaeRank t net m) := by
  intro uid iids n novelty l h p hp
  unfold memCdaeRank at h
  split at h
  · cases h
  · split at h
    · cases h
    · unfold cdaeRank at h
      cases hk : cdaeItems m uid iids novelty with
      | error e => rw [hk] at h; cases h
      | ok keep =>
        rw [hk] at h
        cases h
        have := (List.mem_filter.1 ((nlargest_subperm n _).subset hp)).2
        exact cdaeItems_subset hk (by simpa using this)

/-- **C127**, evaluation: an evaluation with a CDAE or a DMF on a database dataset gives what it gives in memory. -/
theorem C127_evaluation (names : List String) (w : World) (hw : Reached names w) (test train : Nat) (x y : Inst)
    (m tm : Mem) (hm : Ready w train y m) (hnm : Named m) (hint : Evaluable m) (ht : SameData w test x tm) (he : Evaluable tm)
    (hx : EvalTypes x) (a : EvalArgs) (thr : List Char) (hthr : Prints thr a.threshold) (ks : List Nat) (low : Option ℚ)
    (n : Option Nat) (rngs : Nat → EvalRng) (outs : List (Except Err (Outcome EvalData)))
    (rk : DbRankFn (Outcome EvalData)) (rk' : RankFn)
    (hrk : (∃ t net, rk = dbCdaeRank t net train ∧ rk' = memCdaeRank t net m) ∨
      ∃ net, rk = dbBaseRankBy train (dbDmfPredict net train) ∧ rk' = baseRank m (memDmfPredict net m)) :
    ((NoGeneration a ∨ (x.nBefore < 5000 ∧ y.nBefore < 5000)) →
      DbEvaluation w test n (fun u k => dbRankingUser (dbFitted train (nItemsOf m) rk) test train thr a u (rngs k)) outs →
      rankingTasks (rankedModel m rk') tm a n rngs = .ok (outs.map rankingTask)) ∧
    (DbEvaluation w test n
        (fun u k => dbRecommendationUser (dbFitted train (nItemsOf m) rk) test thr a ks.max? low u (rngs k)) outs →
      recommendationTasks (rankedModel m rk') tm a ks low n rngs = .ok (outs.map recommendationTask)) := by
  obtain ⟨hn, hg⟩ := reached_good hw
  have hS : ∀ k ∈ [test, train], (w.insts k).isSome := by simp [ht.object, hm.same.object]
  have hf := ready_fitted hm
  have hal : ∀ v, (∀ k ∈ [test, train], Keeps w v k) → RankAlike names [test, train] v rk rk' := by
    intro v hv
    have hS' : ∀ k ∈ [test, train], (v.insts k).isSome := fun k hk => (hv k hk).alive (hS k hk)
    have hf' := hf.keep (hv train (by simp))
    rcases hrk with ⟨t, net, rfl, rfl⟩ | ⟨net, rfl, rfl⟩
    · exact delivers_cdaeRank hn (by simp) hS' hf' hnm t net
    · exact delivers_baseRankBy hn (by simp) hS' hf' (delivers_dmfPredict hn (by simp) hS' hf' hnm net)
  have hin : Within rk' := by
    rcases hrk with ⟨t, net, rfl, rfl⟩ | ⟨net, rfl, rfl⟩
    · exact within_cdae m t net
    · exact within_base hm.fresh.ids _
  refine ⟨fun hgen h => ?_, fun h => ?_⟩
  · refine (ranking_evaluated hn hg (sameData_test ht he hx) ⟨hf.shows, hm.same.full, hf.ok, hint, ?_⟩ hf hal a hthr hgen n
      rngs h).1
    intro ty hty
    obtain ⟨a1, a2, _, _, a5⟩ := hm.types ty hty
    exact ⟨a1.trans hint.users.int, a2.trans hint.items.int, a5⟩
  · exact (recommendation_evaluated hn hg (sameData_test ht he hx) hint.items hf (hin.items _) hal a hthr ks low n rngs h).1

/-- **C127**, termination: any pool of batches and calls has a complete run. -/
theorem C127_returns (w : World) (i : Nat) :
    (∀ jobs : List (List Nat × List Nat), ∃ (w' : World) (outs : List (Except Err (List (List ℚ) × List (List ℚ)))),
      ProgRuns w (jobs.map fun p => dbBatch i p.1 p.2) w' (outs.map .ret)) ∧
    (∀ (t : ℚ) (net : Nat → List ℚ → Except Err (List ℚ)) (k : Nat) (qs : List Request),
      ∃ (w' : World) (outs : List (Except Err Reply)), ProgRuns w (qs.map (dbCdaeServe t net i k)) w' (outs.map .ret)) ∧
    ∀ (net : List ℚ → List ℚ → Except Err ℚ) (k : Nat) (qs : List Request),
      ∃ (w' : World) (outs : List (Except Err Reply)), ProgRuns w (qs.map (dbDmfServe net i k)) w' (outs.map .ret) :=
  ⟨fun _ => progRuns_exists w _, fun _ _ _ _ => progRuns_exists w _, fun _ _ _ => progRuns_exists w _⟩

/-! ## A concrete dataset -/

theorem exAssigned_named : Named exBothMem.assignIds.1 := by
  unfold Named
  decide +kernel

/-- A request for the vectors of both users and one item, and one with an unknown item. -/
example : ∃ w1 y w2, ∃ outs : List (Except Err (List (List ℚ) × List (List ℚ))), Reached exDbNames w1 ∧
    Ready w1 0 y exBothMem.assignIds.1 ∧ Named exBothMem.assignIds.1 ∧
    ProgRuns w1 ([([0, 1], [0]), ([1], [0, 7])].map fun p => dbBatch 0 p.1 p.2) w2 (outs.map .ret) ∧
    outs = [.ok ([[5, 3], [4, 0]], [[5, 4]]), .error .notFound] := by
  obtain ⟨x, hx⟩ := exWorld_trainable
  have hw : Reached exDbNames exWorld := ⟨exDbCols, _, _, [], by decide, by decide, by decide, by decide, trivial, rfl⟩
  obtain ⟨w1, y, h1, h2, h3⟩ := C116_ready exDbNames exWorld hw 0 x exBothMem hx
  obtain ⟨w2, outs, hrun⟩ := (C127_returns w1 0).1 [([0, 1], [0]), ([1], [0, 7])]
  refine ⟨w1, y, w2, outs, h2, h3, exAssigned_named, hrun, ?_⟩
  rw [C127_training exDbNames w1 h2 0 y _ h3 exAssigned_named _ w2 outs hrun]
  decide +kernel

/-- A network that gives back half of its input plus the id of the user. -/
def exCdaeNet (u : Nat) (v : List ℚ) : Except Err (List ℚ) := .ok (v.map fun x => x / 2 + u)

/-- The product of two vectors. -/
def exDmfNet (a b : List ℚ) : Except Err ℚ := .ok ((a.zipWith (· * ·) b).sum)

/-- The records meet the hypotheses of the claims about CDAE and DMF. -/
example : ∃ w1 y, ∃ (w2 w3 : World) (outs outs' : List (Except Err Reply)), Reached exDbNames w1 ∧
    Ready w1 0 y exBothMem.assignIds.1 ∧ Named exBothMem.assignIds.1 ∧ Evaluable exBothMem.assignIds.1 ∧
    ProgRuns w1 ([Request.predict (.int 2) (.int 20), .rank (.int 1) [.int 10, .int 20] false true none,
      .recommend (.int 2) (some 1) true none].map (dbCdaeServe 4 exCdaeNet 0 (nItemsOf exBothMem.assignIds.1))) w2
      (outs.map .ret) ∧
    outs = [.ok (.score 1), .ok (.ranking [(1 / 2, some (.num 10)), (0, some (.num 20))]),
      .ok (.ranking [(1, some (.num 20))])] ∧
    ProgRuns w1 ([Request.predict (.int 2) (.int 20), .rank (.int 1) [.int 10, .int 20] false true none,
      .recommend (.int 2) (some 1) true none].map (dbDmfServe exDmfNet 0 (nItemsOf exBothMem.assignIds.1))) w3
      (outs'.map .ret) ∧
    outs' = [.ok (.score 12), .ok (.ranking [(37, some (.num 10)), (15, some (.num 20))]),
      .ok (.ranking [(12, some (.num 20))])] := by
  obtain ⟨x, hx⟩ := exWorld_trainable
  have hw : Reached exDbNames exWorld := ⟨exDbCols, _, _, [], by decide, by decide, by decide, by decide, trivial, rfl⟩
  obtain ⟨w1, y, h1, h2, h3⟩ := C116_ready exDbNames exWorld hw 0 x exBothMem hx
  obtain ⟨w2, outs, hrun⟩ := (C127_returns w1 0).2.1 4 exCdaeNet (nItemsOf exBothMem.assignIds.1)
    [Request.predict (.int 2) (.int 20), .rank (.int 1) [.int 10, .int 20] false true none, .recommend (.int 2) (some 1) true none]
  obtain ⟨w3, outs', hrun'⟩ := (C127_returns w1 0).2.2 exDmfNet (nItemsOf exBothMem.assignIds.1)
    [Request.predict (.int 2) (.int 20), .rank (.int 1) [.int 10, .int 20] false true none, .recommend (.int 2) (some 1) true none]
  refine ⟨w1, y, w2, w3, outs, outs', h2, h3, exAssigned_named, exAssigned_evaluable, hrun, ?_, hrun', ?_⟩
  · rw [(C127_answers exDbNames w1 h2 0 y _ h3 exAssigned_named _ w2 outs).1 4 exCdaeNet hrun]
    decide +kernel
  · rw [(C127_answers exDbNames w1 h2 0 y _ h3 exAssigned_named _ w3 outs').2 exDmfNet hrun']
    decide +kernel

end DRec.Conc
