import Verif.Lemmas.DbEvalNets
import Verif.Props.DbCache

/-!
# C127: evaluations with CDAE and DMF when all tasks share the dictionaries of vectors

The tasks of an evaluation run as threads; every call of the recommender looks for interaction vectors in the
dictionaries, which all tasks share, and keeps computed vectors there.
-/

namespace DRec.Conc

open Spec

/-- Both recommenders answer every request, from any state of the dictionaries and after any steps of other tasks. -/
theorem nets_serve {names : List String} (hn : NamesOk names) {w : World} {S : List Nat} {ds : Nat} (hds : ds ∈ S)
    (hS : ∀ k ∈ S, (w.insts k).isSome) {m : Mem} {T : Option (String → DType)} {B : Nat} (hf : FittedOn w ds m T B)
    (hnm : Named m) {lim : KKind → Nat} {serve : Request → CProg Reply} {f' : PredictFn ℚ} {rk' : RankFn}
    (hserve : (∃ t net, serve = cCdaeServe t net ds (nItemsOf m) ∧ f' = memCdaePredict t net m ∧ rk' = memCdaeRank t net m) ∨
      ∃ net, serve = cDmfServe net ds (nItemsOf m) ∧ f' = memDmfPredict net m ∧ rk' = baseRank m (memDmfPredict net m)) :
    Serves names S m lim (Roomy m lim) (memServeBy m f' rk') serve w := by
  intro q v D hv hD
  have hS' : ∀ k ∈ S, (v.insts k).isSome := fun k hk => (hv.2 k hk).alive (hS k hk)
  have hf' := hf.keep (hv.2 ds hds)
  rcases hserve with ⟨t, net, rfl, rfl, rfl⟩ | ⟨net, rfl, rfl, rfl⟩
  · exact cd_serve hds hf' (cd_cdaePredict hn hds hS' hf' hnm id t net) (cd_cdaeRank hn hds hS' hf' hnm id t net) hv.1 hD q
  · exact cd_serve hds hf' (cd_dmfPredict hn hds hS' hf' hnm id net)
      (cd_baseRank hn hds hS' hf' (cd_dmfPredict hn hds hS' hf' hnm id net)) hv.1 hD q

/-- **C127**, evaluations with the dictionaries: an evaluation with a CDAE or a DMF on a database dataset, whose tasks run
as threads that share the dictionaries of vectors, gives what it gives in memory, if there are no more users and items than
the limits of the dictionaries say; otherwise the tasks of some users may raise `KeyError` instead. -/
theorem C127_evaluation_dictionaries (names : List String) (w : World) (hw : Reached names w) (test train : Nat) (x y : Inst)
    (m tm : Mem) (hm : Ready w train y m) (hnm : Named m) (hint : Evaluable m) (ht : SameData w test x tm) (he : Evaluable tm)
    (hx : EvalTypes x) (a : EvalArgs) (thr : List Char) (hthr : Prints thr a.threshold) (ks : List Nat) (low : Option ℚ)
    (n : Option Nat) (rngs : Nat → EvalRng) (lim : KKind → Nat) (D : VecStore) (hD : StoreOk m D)
    (outs : List (Except Err (Outcome EvalData))) (serve : Request → CProg Reply) (rk' : RankFn)
    (hserve : (∃ t net, serve = cCdaeServe t net train (nItemsOf m) ∧ rk' = memCdaeRank t net m) ∨
      ∃ net, serve = cDmfServe net train (nItemsOf m) ∧ rk' = baseRank m (memDmfPredict net m)) :
    ((NoGeneration a ∨ (x.nBefore < 5000 ∧ y.nBefore < 5000)) →
      HEvaluation lim w D test n (fun u k => hRankingUser serve (nItemsOf m) test train thr a u (rngs k)) outs →
      (Roomy m lim → rankingTasks (rankedModel m rk') tm a n rngs = .ok (outs.map rankingTask)) ∧
      ∃ users, evalUsers tm n = .ok users ∧ RightOrMissing outs (rankingOutcomes (rankedModel m rk') tm a users rngs)) ∧
    (HEvaluation lim w D test n (fun u k => hRecommendationUser serve test thr a ks.max? low u (rngs k)) outs →
      (Roomy m lim → recommendationTasks (rankedModel m rk') tm a ks low n rngs = .ok (outs.map recommendationTask)) ∧
      ∃ users, evalUsers tm n = .ok users ∧
        RightOrMissing outs (recommendationOutcomes (rankedModel m rk') tm a ks low users rngs)) := by
  obtain ⟨hn, hg⟩ := reached_good hw
  have hS : ∀ k ∈ [test, train], (w.insts k).isSome := by simp [ht.object, hm.same.object]
  have hf := ready_fitted hm
  have T1 := sameData_test ht he hx
  have T2 : Test w train m y.types y.nBefore := ⟨hf.shows, hm.same.full, hf.ok, hint, by
    intro ty hty
    obtain ⟨a1, a2, _, _, a5⟩ := hm.types ty hty
    exact ⟨a1.trans hint.users.int, a2.trans hint.items.int, a5⟩⟩
  have hin : Within rk' := by
    rcases hserve with ⟨t, net, _, rfl⟩ | ⟨net, _, rfl⟩
    · exact within_cdae m t net
    · exact within_base hm.fresh.ids _
  obtain ⟨f', hserve'⟩ : ∃ f' : PredictFn ℚ,
      (∃ t net, serve = cCdaeServe t net train (nItemsOf m) ∧ f' = memCdaePredict t net m ∧ rk' = memCdaeRank t net m) ∨
      ∃ net, serve = cDmfServe net train (nItemsOf m) ∧ f' = memDmfPredict net m ∧ rk' = baseRank m (memDmfPredict net m) := by
    rcases hserve with ⟨t, net, h1, h2⟩ | ⟨net, h1, h2⟩
    · exact ⟨_, Or.inl ⟨t, net, h1, rfl, h2⟩⟩
    · exact ⟨_, Or.inr ⟨net, h1, rfl, h2⟩⟩
  have first : ∀ {w1 : World} {j : Nat} {us : List Val}, dbUnique w test "user" = (w1, .ok (j, us)) →
      Good names w1 ∧ uniqueVals tm "user" = .ok us ∧ (∀ k ∈ [test, train], Keeps w w1 k) := by
    intro w1 j us e
    obtain ⟨g1, hus, _⟩ := dbUnique_good hn hg T1.ok T1.shows.plain ht.object he.users.hasUser (by decide) e
    exact ⟨g1, hus, fun k hk => dbUnique_keeps hn hg T1.shows.plain ht.object he.users.hasUser e (hS k hk)⟩
  have whole : ∀ {us : List Val}, uniqueVals tm "user" = .ok us → ∀ u ∈ us, ∃ i : Int, u = .num i := by
    intro us hus u hu
    obtain ⟨vs, hvs, _, hmem⟩ := uniqueVals_user he.users.hasUser (c := "user") (by decide)
    rw [hus] at hvs; cases hvs
    obtain ⟨r, hr, rfl⟩ := (hmem u).1 hu
    exact he.users.whole r hr
  have mem : ∀ {us : List Val} {p : Val × Nat}, p ∈ (us.take (n.getD us.length)).zipIdx → p.1 ∈ us := by
    intro us p hp
    exact List.mem_of_mem_take (List.fst_mem_of_mem_zipIdx hp)
  constructor
  · rintro hgen ⟨w1, j, us, w', D', e, hrun⟩
    obtain ⟨g1, hus, hk⟩ := first e
    have hS1 : ∀ k ∈ [test, train], (w1.insts k).isSome := fun k h => (hk k h).alive (hS k h)
    have hu : evalUsers tm n = .ok (us.take (n.getD us.length)) := by simp [evalUsers, hus, Except.map]
    obtain ⟨h1, _, h3⟩ := hpool_map (S := [test, train]) (calm := Roomy m lim)
      (task := fun p : Val × Nat => hRankingUser serve (nItemsOf m) test train thr a p.1 (rngs p.2))
      (res := fun p : Val × Nat => rankingUser (rankedModel m rk') tm a p.1 (rngs p.2)) g1 hD hS1
      (nets_serve hn (by simp) hS1 (hf.keep (hk train (by simp))) hnm hserve') (fun p _ => asks_ranking _ _ _ _ _ _ _) (by
        intro p hp
        obtain ⟨i, hi⟩ := whole hus p.1 (mem hp)
        rw [erase_ranking, hi]
        exact gives_ranking hn (keeps_test T1 (hk test (by simp))) (fun _ _ => Keeps.refl _ _)
          (keeps_test T2 (hk train (by simp))) a hthr i (rngs p.2) hgen (answers_asDb ..)) hrun
    refine ⟨fun hr => ?_, _, hu, h1⟩
    rw [rankingTasks_eq hu, h3 hr]; rfl
  · rintro ⟨w1, j, us, w', D', e, hrun⟩
    obtain ⟨g1, hus, hk⟩ := first e
    have hS1 : ∀ k ∈ [test, train], (w1.insts k).isSome := fun k h => (hk k h).alive (hS k h)
    have hu : evalUsers tm n = .ok (us.take (n.getD us.length)) := by simp [evalUsers, hus, Except.map]
    obtain ⟨h1, _, h3⟩ := hpool_map (S := [test, train]) (calm := Roomy m lim)
      (task := fun p : Val × Nat => hRecommendationUser serve test thr a ks.max? low p.1 (rngs p.2))
      (res := fun p : Val × Nat => recommendationUser (rankedModel m rk') tm a ks.max? low p.1 (rngs p.2)) g1 hD hS1
      (nets_serve hn (by simp) hS1 (hf.keep (hk train (by simp))) hnm hserve') (fun p _ => asks_recommendation _ _ _ _ _ _ _) (by
        intro p hp
        obtain ⟨i, hi⟩ := whole hus p.1 (mem hp)
        rw [erase_recommendation, hi]
        refine gives_recommendation hn (by simp) hS1 (keeps_test T1 (hk test (by simp))) (fun _ _ => Keeps.refl _ _) a hthr _
          low i (rngs p.2) ?_ (answers_asDb ..)
        intro k recs hrecs p hp
        simp only [rankedModel] at hrecs
        obtain ⟨l, hl, rfl⟩ := except_map_ok hrecs
        obtain ⟨q, hq, rfl⟩ := List.mem_map.1 hp
        obtain ⟨r', hr', e'⟩ := recommended_items hf.fresh (hin.items _) hl hq
        obtain ⟨z, hz⟩ := hint.items.whole r' hr'
        exact ⟨z, by simp [e', hz]⟩) hrun
    refine ⟨fun hr => ?_, _, hu, h1⟩
    rw [recommendationTasks_eq hu, h3 hr]; rfl

/-- **C127**, termination with the dictionaries: any pool of calls has a complete run, and with less than 5000 records in the
test set there are such evaluations. -/
theorem C127_dictionaries_return (names : List String) (w : World) (lim : KKind → Nat) (D : VecStore) :
    (∀ (task : Request → CProg Reply) (qs : List Request), ∃ (w' : World) (D' : VecStore) (outs : List (Except Err Reply)),
      CRuns lim w D (qs.map task) w' D' (outs.map .ret)) ∧
    ∀ (_ : Reached names w) (test : Nat) (x : Inst) (tm : Mem) (_ : SameData w test x tm) (_ : x.nBefore < 5000)
      (n : Option Nat) (task : Val → Nat → HProg (Outcome EvalData)), ∃ outs, HEvaluation lim w D test n task outs := by
  refine ⟨fun _ _ => cruns_exists lim w D _, fun hw test x tm ht hlt n task => ?_⟩
  obtain ⟨hn, hg⟩ := reached_good hw
  have hc : "user" ∈ tm.cols := ht.full.1 (by simp)
  obtain ⟨vs, hvs, hlen, hin⟩ := unique_length hc (by decide)
  obtain ⟨w2, j, e1⟩ := dbUnique_returns hn hg (sameData_mem ht) ht.shows ht.object ht.full hc (by decide) hvs (by
    rintro ⟨_, _, _, h⟩
    omega)
  obtain ⟨w', D', outs, h⟩ := hruns_exists lim w2 D ((vs.take (n.getD vs.length)).zipIdx.map fun p => task p.1 p.2)
  exact ⟨outs, w2, j, vs, w', D', e1, h⟩

/-! ## A concrete dataset -/

/-- The records of a csv file as training and test set of a DMF: the evaluation exists, and its tasks give what they give in
memory. -/
example : ∃ w1 y, ∃ outs : List (Except Err (Outcome EvalData)), Reached exDbNames w1 ∧
    Ready w1 0 y exBothMem.assignIds.1 ∧ Named exBothMem.assignIds.1 ∧ Evaluable exBothMem.assignIds.1 ∧ EvalTypes y ∧
    y.nBefore < 5000 ∧ Prints "4".toList exDbArgs.threshold ∧ Roomy exBothMem.assignIds.1 (fun _ => 2) ∧
    HEvaluation (fun _ => 2) w1 oneVec 0 none (fun u k => hRankingUser
      (cDmfServe exDmfNet 0 (nItemsOf exBothMem.assignIds.1)) (nItemsOf exBothMem.assignIds.1) 0 0 "4".toList exDbArgs u
      (exDbRng k)) outs ∧
    rankingTasks (rankedModel exBothMem.assignIds.1 (baseRank exBothMem.assignIds.1
      (memDmfPredict exDmfNet exBothMem.assignIds.1))) exBothMem.assignIds.1 exDbArgs none exDbRng =
        .ok (outs.map rankingTask) ∧ outs.length = 2 := by
  obtain ⟨x, hx⟩ := exWorld_trainable
  have hw : Reached exDbNames exWorld := ⟨exDbCols, _, _, [], by decide, by decide, by decide, by decide, trivial, rfl⟩
  obtain ⟨w1, y, h1, h2, h3⟩ := C116_ready exDbNames exWorld hw 0 x exBothMem hx
  have hroom : Roomy exBothMem.assignIds.1 fun _ => 2 := fun s => by cases s <;> decide +kernel
  have hy : y.nBefore < 5000 := by
    have e : ((exWorld.assign 0).1.insts 0).map (·.nBefore) = some 3 := by decide +kernel
    rw [h1] at e
    simp only [h3.same.object, Option.map_some, Option.some.injEq] at e
    omega
  have hty : EvalTypes y := by
    intro ty hty
    obtain ⟨a1, a2, _, _, a5⟩ := h3.types ty hty
    exact ⟨a1.trans exAssigned_evaluable.users.int, a2.trans exAssigned_evaluable.items.int, a5⟩
  have hthr : Prints "4".toList exDbArgs.threshold := ⟨.int 4, trivial, by decide, by simp [SLit.value, exDbArgs]⟩
  obtain ⟨outs, ho⟩ := (C127_dictionaries_return exDbNames w1 (fun _ => 2) oneVec).2 h2 0 y _ h3.same hy none
    (fun u k => hRankingUser (cDmfServe exDmfNet 0 (nItemsOf exBothMem.assignIds.1)) (nItemsOf exBothMem.assignIds.1) 0 0
      "4".toList exDbArgs u (exDbRng k))
  obtain ⟨hr, users, hu, hl⟩ := (C127_evaluation_dictionaries exDbNames w1 h2 0 0 y y _ _ h3 exAssigned_named
    exAssigned_evaluable h3.same exAssigned_evaluable hty exDbArgs _ hthr [] none none exDbRng (fun _ => 2) oneVec oneVec_ok
    outs _ _ (Or.inr ⟨exDmfNet, rfl, rfl⟩)).1 (Or.inr ⟨hy, hy⟩) ho
  refine ⟨w1, y, outs, h2, h3, exAssigned_named, exAssigned_evaluable, hty, hy, hthr, hroom, ho, hr hroom, ?_⟩
  have e : evalUsers exBothMem.assignIds.1 none = .ok [.num 1, .num 2] := by decide +kernel
  rw [e] at hu
  cases hu
  rw [hl.1]; rfl

end DRec.Conc
