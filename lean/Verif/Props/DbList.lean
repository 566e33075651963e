import Verif.Spec.DbList
import Verif.Lemmas.DbList
import Verif.Props.DbKnn

/-!
# C126: ListSampler and Caser on a database dataset

Sampled sequences, training batches, rankings, recommendations and evaluations are those of the same data in memory,
whatever the interleaving of the calls.
-/

namespace DRec.Conc

open Spec

theorem mapM_mapped {α γ δ : Type} (g : α → Except Err γ) (h : γ → δ) (l : List α) :
    (l.mapM fun a => (g a).map h) = (l.mapM g).map fun r => r.map h := by
  induction l with
  | nil => rfl
  | cons a l ih =>
    rw [List.mapM_cons, List.mapM_cons, ih]
    cases g a with
    | error e => rfl
    | ok b => cases l.mapM g <;> rfl

/-- What the user sees does not depend on where the records were read. -/
theorem seen_same (cfg : ListCfg) (m : Mem) (calls : List (Nat × List LDraw)) :
    answersSeen m.cols ((cfg.check m.hasIds m.cols).bind fun _ => calls.mapM (madeOf m.cols .ok (memSampler cfg m))) =
      answersSeen m.cols (memSampling cfg m calls) := by
  unfold memSampling
  cases cfg.check m.hasIds m.cols with
  | error e => rfl
  | ok u =>
    simp only [Except.bind]
    have e : madeOf m.cols .ok (memSampler cfg m) = fun c => ((memSampler cfg m).sample c.1 c.2).map
        fun o => o.map fun l => l.map (readSampled m.cols) := by
      funext c
      unfold madeOf
      cases (memSampler cfg m).sample c.1 c.2 <;> rfl
    rw [e, mapM_mapped]
    unfold answersSeen
    cases calls.mapM fun c => (memSampler cfg m).sample c.1 c.2 with
    | error e => rfl
    | ok l =>
      simp only [Except.map, List.map_map]
      congr 1
      apply List.map_congr_left
      intro o _
      cases o with
      | none => rfl
      | some s =>
        simp only [Function.comp_apply, Option.map_some, List.map_map]
        congr 1
        apply List.map_congr_left
        intro t _
        exact dicts_read m.cols t

theorem ready_attributes {w : World} {i : Nat} {x : Inst} {m : Mem} (h : Ready w i x m) :
    x.hasIds = m.hasIds ∧ x.columns = m.cols := by
  have := h.same.shows
  unfold plainOf at this
  rw [h.same.object] at this
  split at this
  · rename_i y recs hy hv
    cases hy
    simp only [memPlain, Option.some.injEq, Plain.mk.injEq] at this
    exact ⟨this.2.2, this.1⟩
  · cases this

/-- **C126**, sampling: for every database dataset with assigned ids, any number of samplers (grouping by user or item
id, with all their other parameters) with any number of calls each, interleaved in any way, return the sequences, targets
and negative ids, or raise the exceptions, that they return or raise on the same data in memory with the same draws. -/
theorem C126_samples (names : List String) (w : World) (hw : Reached names w) (i : Nat) (x : Inst) (m : Mem)
    (h : Ready w i x m) (jobs : List (ListCfg × List (Nat × List LDraw)))
    (hjobs : ∀ p ∈ jobs, p.1.groupCol ∈ ["uid", "iid"] ∧ p.1.negCol ∈ ["uid", "iid"] ∧ ∀ t ∈ p.1.threshold, PrintedNum t)
    (w' : World) (outs : List (Except Err (List (Option (List Sampled)))))
    (hrun : ProgRuns w (jobs.map fun p => dbSampling p.1 i x p.2) w' (outs.map .ret)) :
    outs.map (answersSeen m.cols) = jobs.map fun p => answersSeen m.cols (memSampling p.1 m p.2) := by
  obtain ⟨hn, hg⟩ := reached_good hw
  obtain ⟨h1, h2⟩ := ready_attributes h
  have hS : ∀ k ∈ [i], (w.insts k).isSome := by simp [h.same.object]
  have := (pool_results (S := [i]) (rs := jobs.map fun p => (p.1.check m.hasIds m.cols).bind fun _ =>
    p.2.mapM (madeOf m.cols .ok (memSampler p.1 m))) hg hS (by simp) (by
      intro t p hp
      rw [List.getElem?_map] at hp ⊢
      obtain ⟨q, hq, rfl⟩ := Option.map_eq_some_iff.1 hp
      obtain ⟨c1, c2, c3⟩ := hjobs q (List.mem_of_getElem? hq)
      refine ⟨_, by rw [hq]; rfl, ?_⟩
      have := delivers_task hg (delivers_training (β := List (Option (List Sampled))) hn (by simp) hS (ready_fitted h)
        ⟨c1, c2, c3⟩ h1 h2 .ok q.2) id
      have e : ∀ r : Except Err (List (Option (List Sampled))), r.map id = r := fun r => by cases r <;> rfl
      rw [e] at this
      exact this) hrun).1
  rw [this, List.map_map]
  apply List.map_congr_left
  intro p _
  exact seen_same p.1 m p.2

theorem caser_check (c : Caser) (m : Mem) (negRatio : Nat) (threshold : PyNum) (sortCol : Option String) :
    c.sampler m negRatio threshold.value sortCol = ((caserList c negRatio threshold sortCol).check m.hasIds m.cols).map
      fun _ => memSampler (caserList c negRatio threshold sortCol) m := by
  have e : (caserList c negRatio threshold sortCol).check m.hasIds m.cols =
      if m.hasIds = false then .error .assertion else if c.T = 0 then .error .assertion
      else if "iid" ∉ m.cols then .error .assertion else if ∃ s ∈ sortCol, s ∉ m.cols then .error .assertion
      else .ok () := by
    unfold ListCfg.check
    simp [caserList]
  rw [e]
  unfold Caser.sampler
  split_ifs <;> rfl

theorem example_read {cols : List String} (hu : "uid" ∈ cols) (hi : "iid" ∈ cols) (c : Caser) (negRatio : Nat) (s : Sampled) :
    c.example negRatio (readSampled cols s) = c.example negRatio s := by
  have e : ∀ l : List Row, (l.map (asRead cols)).map (·.get "iid") = l.map (·.get "iid") := by
    intro l
    rw [List.map_map]
    apply List.map_congr_left
    intro r _
    exact asRead_get hi r
  unfold Caser.example
  cases hp : s.positives with
  | nil => simp [readSampled, hp]
  | cons r rs =>
    have h1 := e (r :: rs)
    have h2 := e s.targets
    simp only [List.map_cons] at h1
    simp only [readSampled, hp, List.map_cons, h1, h2, asRead_get hu]

theorem batch_read {cols : List String} (hu : "uid" ∈ cols) (hi : "iid" ∈ cols) (c : Caser) (negRatio : Nat)
    (o : Option (List Sampled)) :
    caserBatch c negRatio (o.map fun l => l.map (readSampled cols)) = caserBatch c negRatio o := by
  cases o with
  | none => rfl
  | some l =>
    simp only [Option.map_some, caserBatch]
    congr 1
    induction l with
    | nil => rfl
    | cons s l ih =>
      rw [List.map_cons, List.mapM_cons, List.mapM_cons, ih, example_read hu hi]

/-- **C126**, training: any number of Casers being trained on the dataset at the same time get the batches of training
examples they get in memory with the same draws. -/
theorem C126_training (names : List String) (w : World) (hw : Reached names w) (i : Nat) (x : Inst) (m : Mem)
    (h : Ready w i x m) (jobs : List (Caser × Nat × PyNum × Option String × List (Nat × List LDraw)))
    (hjobs : ∀ p ∈ jobs, PrintedNum p.2.2.1) (w' : World) (outs : List (Except Err (List (Option (List CaserExample)))))
    (hrun : ProgRuns w (jobs.map fun p => dbCaserTraining p.1 p.2.1 p.2.2.1 p.2.2.2.1 i x p.2.2.2.2) w' (outs.map .ret)) :
    outs = jobs.map fun p => memTraining p.1 p.2.1 p.2.2.1 p.2.2.2.1 m p.2.2.2.2 := by
  obtain ⟨hn, hg⟩ := reached_good hw
  obtain ⟨h1, h2⟩ := ready_attributes h
  have hS : ∀ k ∈ [i], (w.insts k).isSome := by simp [h.same.object]
  have hf := ready_fitted h
  refine (pool_results (S := [i]) hg hS (by simp) ?_ hrun).1
  intro t p hp
  rw [List.getElem?_map] at hp ⊢
  obtain ⟨q, hq, rfl⟩ := Option.map_eq_some_iff.1 hp
  refine ⟨_, by rw [hq]; rfl, ?_⟩
  have := delivers_task hg (delivers_training (β := List (Option (List CaserExample))) hn (by simp) hS hf
    (cfg := caserList q.1 q.2.1 q.2.2.1 q.2.2.2.1) ⟨by simp [caserList], by simp [caserList], by
      intro t ht
      simp only [caserList, Option.mem_def, Option.some.injEq] at ht
      subst ht
      exact hjobs q (List.mem_of_getElem? hq)⟩ h1 h2 (caserBatch q.1 q.2.1) q.2.2.2.2) id
  have e : ∀ r : Except Err (List (Option (List CaserExample))), r.map id = r := fun r => by cases r <;> rfl
  rw [e] at this
  have e2 : memTraining q.1 q.2.1 q.2.2.1 q.2.2.2.1 m q.2.2.2.2 =
      ((caserList q.1 q.2.1 q.2.2.1 q.2.2.2.1).check m.hasIds m.cols).bind fun _ =>
        q.2.2.2.2.mapM (madeOf m.cols (caserBatch q.1 q.2.1) (memSampler (caserList q.1 q.2.1 q.2.2.1 q.2.2.2.1) m)) := by
    unfold memTraining
    rw [caser_check]
    cases (caserList q.1 q.2.1 q.2.2.1 q.2.2.2.1).check m.hasIds m.cols with
    | error e => rfl
    | ok u =>
      simp only [Except.map, Except.bind]
      congr 1
      funext b
      unfold madeOf
      cases (memSampler (caserList q.1 q.2.1 q.2.2.1 q.2.2.2.1) m).sample b.1 b.2 with
      | error e => rfl
      | ok o =>
        simp only [Except.bind]
        exact (batch_read (hf.nums.cols _ (by simp)) (hf.nums.cols _ (by simp)) q.1 q.2.1 o).symm
  rw [← e2] at this
  exact this

theorem caser_serves {names : List String} (hn : NamesOk names) {w : World} (hg : Good names w) {S : List Nat} {i : Nat}
    (hi : i ∈ S) (hS : ∀ k ∈ S, (w.insts k).isSome) {m : Mem} {T : Option (String → DType)} {B : Nat}
    (hf : FittedOn w i m T B) (c : Caser) (sortCol : Option String) (net : Nat → List Val → Except Err (List ℚ)) (q : Request) :
    Gives names S (dbCaserServe c i (nItemsOf m) m.cols sortCol net q) [] w (memCaserServe c m sortCol net q) := by
  have hrk := delivers_caserRank (β := Reply) hn hi hS hf c sortCol net
  cases q with
  | predict user item =>
    have := delivers_task hg (delivers_predictRaw (β := Reply) hi hf (f := fun _ _ _ => .ret (.error .crash))
      (f' := fun _ _ => .error .crash) (fun u j => deliversIn_error _) user item) Reply.score
    have e : (predicted m (fun _ _ => .error .crash) user item).map Reply.score =
        memCaserServe c m sortCol net (.predict user item) := by
      simp only [predicted, memCaserServe]
      cases predict m true (fun _ _ => .error .crash : PredictFn ℚ) user item false with
      | error e => rfl
      | ok o => cases o <;> rfl
    rw [e] at this
    exact this
  | rank user items novelty skip n => exact delivers_task hg (delivers_rankRaw hi hf hrk user items novelty skip n) Reply.ranking
  | recommend user n novelty threshold =>
    exact delivers_task hg (delivers_recommendRaw hi hf hrk user n novelty threshold) Reply.ranking

/-- **C126**, answers: any number of calls of `predict`, `rank` and `recommend` of a Caser, interleaved in any way, return
(or raise) what the Caser with the same network returns (or raises) in memory. -/
theorem C126_answers (names : List String) (w : World) (hw : Reached names w) (i : Nat) (x : Inst) (m : Mem)
    (h : Ready w i x m) (c : Caser) (sortCol : Option String) (net : Nat → List Val → Except Err (List ℚ))
    (qs : List Request) (w' : World) (outs : List (Except Err Reply))
    (hrun : ProgRuns w (qs.map (dbCaserServe c i (nItemsOf m) x.columns sortCol net)) w' (outs.map .ret)) :
    outs = qs.map (memCaserServe c m sortCol net) := by
  obtain ⟨hn, hg⟩ := reached_good hw
  have hS : ∀ k ∈ [i], (w.insts k).isSome := by simp [h.same.object]
  rw [(ready_attributes h).2] at hrun
  refine (pool_results hg hS (by simp) ?_ hrun).1
  intro t p hp
  rw [List.getElem?_map] at hp ⊢
  obtain ⟨q, hq, rfl⟩ := Option.map_eq_some_iff.1 hp
  exact ⟨_, by rw [hq]; rfl, caser_serves hn hg (by simp) hS (ready_fitted h) c sortCol net q⟩

theorem within_caser {m : Mem} (hm : Fresh m) (c : Caser) (sortCol : Option String)
    {net : Nat → List Val → Except Err (List ℚ)} (hnet : ∀ u l p, net u l = .ok p → p.length = nItemsOf m) :
    WithinItems (nItemsOf m) (memCaserRank c m sortCol net) := by
  intro uid n novelty l hl p hp
  unfold memCaserRank at hl
  rw [sequence_rows hm.ids] at hl
  simp only at hl
  split at hl
  · cases hl
  · rename_i preds hpreds
    have hlen := hnet _ _ _ hpreds
    have hz : ∀ q ∈ preds.zipIdx, q.2 < nItemsOf m := by
      intro q hq
      have := List.snd_lt_of_mem_zipIdx hq
      omega
    unfold caserRank at hl
    rw [ratedIids_ok hm.ids] at hl
    simp only at hl
    split at hl
    · cases hl
      exact hz p (List.mem_filter.1 ((nlargest_subperm n _).subset hp)).1
    · cases hl
      exact hz p ((nlargest_subperm n _).subset hp)

/-- **C126**, evaluation: an evaluation with a Caser on a database dataset gives what it gives in memory; the network
scores every item. -/
theorem C126_evaluation (names : List String) (w : World) (hw : Reached names w) (test train : Nat) (x y : Inst)
    (m tm : Mem) (hm : Ready w train y m) (hint : Evaluable m) (ht : SameData w test x tm) (he : Evaluable tm)
    (hx : EvalTypes x) (c : Caser) (sortCol : Option String) (net : Nat → List Val → Except Err (List ℚ))
    (hnet : ∀ u l p, net u l = .ok p → p.length = nItemsOf m) (a : EvalArgs) (thr : List Char)
    (hthr : Prints thr a.threshold) (ks : List Nat) (low : Option ℚ) (n : Option Nat) (rngs : Nat → EvalRng)
    (outs : List (Except Err (Outcome EvalData))) :
    ((NoGeneration a ∨ (x.nBefore < 5000 ∧ y.nBefore < 5000)) →
      DbEvaluation w test n
        (fun u k => dbRankingUser (dbFitted train (nItemsOf m) (dbCaserRank c train y.columns sortCol net)) test train thr a u
          (rngs k)) outs →
      rankingTasks (rankedModel m (memCaserRank c m sortCol net)) tm a n rngs = .ok (outs.map rankingTask)) ∧
    (DbEvaluation w test n
        (fun u k => dbRecommendationUser (dbFitted train (nItemsOf m) (dbCaserRank c train y.columns sortCol net)) test thr a
          ks.max? low u (rngs k)) outs →
      recommendationTasks (rankedModel m (memCaserRank c m sortCol net)) tm a ks low n rngs =
        .ok (outs.map recommendationTask)) := by
  obtain ⟨hn, hg⟩ := reached_good hw
  have hS : ∀ k ∈ [test, train], (w.insts k).isSome := by simp [ht.object, hm.same.object]
  have hf := ready_fitted hm
  rw [(ready_attributes hm).2]
  have hrk : ∀ v, (∀ k ∈ [test, train], Keeps w v k) → RankAlike (β := Outcome EvalData) names [test, train] v
      (dbCaserRank c train m.cols sortCol net) (memCaserRank c m sortCol net) :=
    fun v hv => delivers_caserRank hn (by simp) (fun k hk => (hv k hk).alive (hS k hk))
      (hf.keep (hv train (by simp))) c sortCol net
  refine ⟨fun hgen h => ?_, fun h => ?_⟩
  · refine (ranking_evaluated hn hg (sameData_test ht he hx) ⟨hf.shows, hm.same.full, hf.ok, hint, ?_⟩ hf hrk a hthr hgen n
      rngs h).1
    intro ty hty
    obtain ⟨a1, a2, _, _, a5⟩ := hm.types ty hty
    exact ⟨a1.trans hint.users.int, a2.trans hint.items.int, a5⟩
  · exact (recommendation_evaluated hn hg (sameData_test ht he hx) hint.items hf (within_caser hm.fresh c sortCol hnet) hrk a
      hthr ks low n rngs h).1

/-- **C126**, termination: any pool of samplers, trainings and calls has a complete run. -/
theorem C126_returns (w : World) (i : Nat) (x : Inst) :
    (∀ jobs : List (ListCfg × List (Nat × List LDraw)), ∃ (w' : World) (outs : List (Except Err (List (Option (List Sampled))))),
      ProgRuns w (jobs.map fun p => dbSampling p.1 i x p.2) w' (outs.map .ret)) ∧
    (∀ jobs : List (Caser × Nat × PyNum × Option String × List (Nat × List LDraw)),
      ∃ (w' : World) (outs : List (Except Err (List (Option (List CaserExample))))),
      ProgRuns w (jobs.map fun p => dbCaserTraining p.1 p.2.1 p.2.2.1 p.2.2.2.1 i x p.2.2.2.2) w' (outs.map .ret)) ∧
    ∀ (c : Caser) (nItems : Nat) (sortCol : Option String) (net : Nat → List Val → Except Err (List ℚ)) (qs : List Request),
      ∃ (w' : World) (outs : List (Except Err Reply)),
      ProgRuns w (qs.map (dbCaserServe c i nItems x.columns sortCol net)) w' (outs.map .ret) :=
  ⟨fun _ => progRuns_exists w _, fun _ => progRuns_exists w _, fun _ _ _ _ _ => progRuns_exists w _⟩

/-! ## A concrete dataset -/

/-- One record of a user and the next one as target, in the order of the ratings. -/
def exListCfg : ListCfg := ⟨"uid", 0, some 1, "iid", some (.int 3), some "interaction", 1, some 1⟩

/-- One target and one item the user did not rate with at least 4. -/
def exNegCfg : ListCfg := ⟨"uid", 1, some 1, "iid", some (.int 4), none, 0, some 0⟩

/-- The draws of four passes. -/
def exLDraws : List LDraw := [⟨1, 0, fun _ => 0⟩, ⟨0, 0, fun _ => 0⟩, ⟨1, 0, fun _ => 0⟩, ⟨1, 0, fun _ => 0⟩]

/-- A record of the dataset with its ids. -/
def exListRec (user item inter rid uid iid : Nat) : Rec :=
  [("user", .num user), ("item", .num item), ("interaction", .num inter), ("rid", .num rid), ("uid", .num uid), ("iid", .num iid)]

/-- The records of a csv file with assigned ids meet the hypotheses.  The first pass of the first sampler draws a user with
too few records and the second one succeeds; the second sampler returns two targets with a negative id each. -/
example : ∃ w1 y w2, ∃ outs : List (Except Err (List (Option (List Sampled)))), Reached exDbNames w1 ∧ Ready w1 0 y exBothMem.assignIds.1 ∧
    (∀ p ∈ [(exListCfg, [(1, exLDraws)]), (exNegCfg, [(2, exLDraws)])],
      p.1.groupCol ∈ ["uid", "iid"] ∧ p.1.negCol ∈ ["uid", "iid"] ∧ ∀ t ∈ p.1.threshold, PrintedNum t) ∧
    ProgRuns w1 ([(exListCfg, [(1, exLDraws)]), (exNegCfg, [(2, exLDraws)])].map fun p => dbSampling p.1 0 y p.2) w2
      (outs.map .ret) ∧
    outs.map (answersSeen exBothMem.assignIds.1.cols) =
      [.ok [some [⟨[.num 0], [exListRec 1 20 3 1 0 1], [exListRec 1 10 5 0 0 0], []⟩]],
        .ok [some [⟨[.num 1], [], [exListRec 2 10 4 2 1 0], [.num 1]⟩, ⟨[.num 0], [], [exListRec 1 10 5 0 0 0], [.num 1]⟩]]] := by
  obtain ⟨x, hx⟩ := exWorld_trainable
  have hw : Reached exDbNames exWorld := ⟨exDbCols, _, _, [], by decide, by decide, by decide, by decide, trivial, rfl⟩
  obtain ⟨w1, y, h1, h2, h3⟩ := C116_ready exDbNames exWorld hw 0 x exBothMem hx
  have hj : ∀ p ∈ [(exListCfg, [(1, exLDraws)]), (exNegCfg, [(2, exLDraws)])],
      p.1.groupCol ∈ ["uid", "iid"] ∧ p.1.negCol ∈ ["uid", "iid"] ∧ ∀ t ∈ p.1.threshold, PrintedNum t := by
    intro p hp
    simp only [List.mem_cons, List.not_mem_nil, or_false] at hp
    rcases hp with rfl | rfl
    · exact ⟨by decide, by decide, fun t ht => by cases ht; exact trivial⟩
    · exact ⟨by decide, by decide, fun t ht => by cases ht; exact trivial⟩
  obtain ⟨w2, outs, hrun⟩ := (C126_returns w1 0 y).1 [(exListCfg, [(1, exLDraws)]), (exNegCfg, [(2, exLDraws)])]
  refine ⟨w1, y, w2, outs, h2, h3, hj, hrun, ?_⟩
  rw [C126_samples exDbNames w1 h2 0 y _ h3 _ hj w2 outs hrun]
  decide +kernel

/-- Caser with sequences of one item and one target. -/
def exCaser : Caser := ⟨1, 1, 2, 1, 1⟩

/-- A network that favours the item after the last one. -/
def exCaserNet (_ : Nat) (l : List Val) : Except Err (List ℚ) := .ok [if .num 0 ∈ l then 1 else 3, if .num 0 ∈ l then 2 else 1]

/-- The records meet the hypotheses of the claims about Caser: the second user is recommended the item of the first one. -/
example : ∃ w1 y, ∃ (w2 : World) (outs : List (Except Err Reply)), Reached exDbNames w1 ∧ Ready w1 0 y exBothMem.assignIds.1 ∧
    Evaluable exBothMem.assignIds.1 ∧ (∀ u l p, exCaserNet u l = .ok p → p.length = nItemsOf exBothMem.assignIds.1) ∧
    ProgRuns w1 ([Request.predict (.int 2) (.int 20), .rank (.int 2) [.int 10, .int 20] false true none,
      .recommend (.int 2) none true none].map (dbCaserServe exCaser 0 (nItemsOf exBothMem.assignIds.1) y.columns
        (some "interaction") exCaserNet)) w2 (outs.map .ret) ∧
    outs = [.error .crash, .ok (.ranking [(2, some (.num 20)), (1, some (.num 10))]), .ok (.ranking [(2, some (.num 20))])] := by
  obtain ⟨x, hx⟩ := exWorld_trainable
  have hw : Reached exDbNames exWorld := ⟨exDbCols, _, _, [], by decide, by decide, by decide, by decide, trivial, rfl⟩
  obtain ⟨w1, y, h1, h2, h3⟩ := C116_ready exDbNames exWorld hw 0 x exBothMem hx
  obtain ⟨w2, outs, hrun⟩ := (C126_returns w1 0 y).2.2 exCaser (nItemsOf exBothMem.assignIds.1) (some "interaction") exCaserNet
    [Request.predict (.int 2) (.int 20), .rank (.int 2) [.int 10, .int 20] false true none, .recommend (.int 2) none true none]
  refine ⟨w1, y, w2, outs, h2, h3, exAssigned_evaluable, fun u l p hp => ?_, hrun, ?_⟩
  · have : (2 : Nat) = nItemsOf exBothMem.assignIds.1 := by decide +kernel
    cases hp
    exact this
  · rw [C126_answers exDbNames w1 h2 0 y _ h3 exCaser _ exCaserNet _ w2 outs hrun]
    decide +kernel

/-- Its training examples: the target is the item that the first user rated best, and there is no negative item. -/
example : ∃ e, memTraining exCaser 0 (.int 3) (some "interaction") exBothMem.assignIds.1 [(1, exLDraws)] = .ok [some [e]] ∧
    e.uid = .num 0 ∧ e.before = [.num 1] ∧ e.after = [.num 0] ∧ e.labels = [1] := by
  refine ⟨⟨.num 0, [.num 1], [.num 0], [1]⟩, ?_, rfl, rfl, rfl, rfl⟩
  decide +kernel

end DRec.Conc
