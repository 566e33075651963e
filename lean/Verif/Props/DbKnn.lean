import Verif.Spec.DbKnn
import Verif.Lemmas.DbKnnFit
import Verif.Props.DbEval
import Verif.Props.Transpose
import Verif.Props.KnnMem

/-!
# C116: nearest neighbour recommenders on a database dataset

Fitting, predictions, rankings, recommendations and evaluations are those of the recommender fitted on the same data in
memory, whatever the interleaving of the calls.
-/

namespace DRec.Conc

open Spec

/-! ## Assigning the ids -/

theorem optimize_reset {w : World} {i : Nat} {x : Inst} (hx : w.insts i = some x) (hg : w.gens = 0)
    (he : (w.optimize i true).2 = none) :
    ∃ y, (w.optimize i true).1.insts i = some y ∧ y.state = .table ∧ y.queries = 0 := by
  unfold World.optimize at he ⊢
  simp only [hx] at he ⊢
  by_cases hs : x.state = .table ∧ True
  · rw [if_pos hs]
    exact ⟨_, put_self _ _ _, hs.1, rfl⟩
  · rw [if_neg hs, if_neg (by omega)] at he ⊢
    split at he
    · rename_i us t h1 h2
      split at he
      · rename_i hl
        simp only [hl, if_true]
        unfold World.shrink at he ⊢
        rw [if_neg (fun h : x.reset.state = .table => hs ⟨h, trivial⟩)] at he ⊢
        split at he
        · cases he
        · rename_i scols rows hev
          split at he
          · rename_i hr
            simp only [hr, if_true]
            exact ⟨_, put_self _ _ _, rfl, rfl⟩
          · cases he
      · rename_i hl
        simp only [hl, if_false]
        unfold World.split at he ⊢
        split at he
        · cases he
        · split at he
          · cases he
          · rename_i hr
            split at he
            · rename_i hr2
              simp only [hr2, if_true]
              exact ⟨_, put_self _ _ _, rfl, rfl⟩
            · cases he
    · cases he

theorem assign_object {names : List String} (hn : NamesOk names) {w : World} (hg : Good names w) {i : Nat} {x : Inst}
    (hx : w.insts i = some x) (he : (w.assign i).2 = none) :
    ∃ y ty, (w.assign i).1.insts i = some y ∧ y.state = .table ∧ y.queries = 0 ∧ x.types = some ty ∧
      y.types = some fun c => if c = "uid" ∨ c = "iid" then .int else ty c := by
  obtain ⟨_, _, _, k4, _⟩ := optimize_good hn hg hx true
  cases ho : w.optimize i true with
  | mk w1 o =>
    cases o with
    | some e =>
      have : (w.assign i).2 = some e := by unfold World.assign; rw [ho]
      rw [this] at he
      cases he
    | none =>
      have ho2 : (w.optimize i true).2 = none := by rw [ho]
      obtain ⟨y, hy, h1, h2⟩ := optimize_reset hx hg.gens ho2
      obtain ⟨y', t, rows, hy', ht, _, _, _, hty, _⟩ := (k4 ho2).now
      rw [hy] at hy'; cases hy'
      rw [ho] at hy ht
      simp only at hy ht
      cases e1 : y.types with
      | none =>
        have : (w.assign i).2 = some .typeError := by
          unfold World.assign
          rw [ho]
          simp only [hy, e1]
        rw [this] at he
        cases he
      | some ty =>
        have : (w.assign i).1 = (w1.putT y.table (some ⟨t.cols, numberBy "item" "iid" (numberBy "user" "uid" t.rows)⟩)).put i
            { y with columns := addCol (addCol y.columns "uid") "iid", hasIds := true,
                     types := some fun c => if c = "uid" ∨ c = "iid" then .int else ty c } := by
          unfold World.assign
          rw [ho]
          simp only [hy, e1, ht]
        rw [this]
        exact ⟨_, ty, put_self _ _ _, h1, h2, by rw [← hty]; exact e1, rfl⟩

theorem runOps_append (w : World) (a b : List DbOp) : runOps w (a ++ b) = runOps (runOps w a) b := by
  induction a generalizing w with
  | nil => rfl
  | cons op a ih => exact ih _

theorem admissible_append {names : List String} (w : World) (a b : List DbOp) (ha : AdmissibleAll names w a)
    (hb : AdmissibleAll names (runOps w a) b) : AdmissibleAll names w (a ++ b) := by
  induction a generalizing w with
  | nil => exact hb
  | cons op a ih => exact ⟨ha.1, ih _ ha.2 hb⟩

theorem nodup_addCol {cs : List String} (h : cs.Nodup) (c : String) : (addCol cs c).Nodup := by
  unfold addCol
  split
  · exact h
  · rename_i hc
    rw [List.nodup_append]
    exact ⟨h, by simp, by
      intro a ha b hb
      simp only [List.mem_singleton] at hb
      rintro rfl
      exact hc (hb ▸ ha)⟩

/-- **C116**, preparation: assigning the internal ids to a dataset that can be trained on succeeds, whatever happened to
the datasets before, and gives it the ids that are assigned in memory. -/
theorem C116_ready (names : List String) (w : World) (hw : Reached names w) (i : Nat) (x : Inst) (m : Mem)
    (h : Trainable w i x m) :
    ∃ w1 y, w.assign i = (w1, none) ∧ Reached names w1 ∧ Ready w1 i y m.assignIds.1 := by
  obtain ⟨hn, hg⟩ := reached_good hw
  have hu : "user" ∈ m.cols := h.same.full.1 (by simp)
  have hi : "item" ∈ m.cols := h.same.full.1 (by simp)
  have hxc : "interaction" ∈ m.cols := h.same.full.1 (by simp)
  have hnn : ∀ r ∈ (memPlain m).recs, cellOf r "user" ≠ .null ∧ cellOf r "item" ≠ .null := by
    intro r hr
    obtain ⟨r', hr', rfl⟩ := List.mem_map.1 hr
    rw [cellOf_toRec _ _ _ hu, cellOf_toRec _ _ _ hi]
    exact h.raw r' hr'
  obtain ⟨g1, g2, _, g4⟩ := assign_good hn hg h.same.shows hu hi hnn h.safe
  have he := g4 h.same.full
  obtain ⟨y, ty, hy, s1, s2, t1, t2⟩ := assign_object hn hg h.same.object he
  obtain ⟨m', e', hok', hp'⟩ := mem_assign_plain (sameData_mem h.same) hu hi hnn
  have hm' : m' = m.assignIds.1 := by
    simp only [BothOp.onMem, memOutcome] at e'
    rw [assignIds_eq m hu hi] at e' ⊢
    simp only [Except.ok.injEq] at e'
    exact e'.symm
  subst hm'
  obtain ⟨a1, a2, a3, a4, a5⟩ := h.types ty t1
  have d := assigned_dtype (m := m) ⟨hu, hi, hxc, h.numbers⟩
  have hfull : FullCols m.assignIds.1.cols := by
    rw [assignIds_eq m hu hi]
    refine ⟨fun c hc => ?_, nodup_addCol (nodup_addCol h.same.full.2 _) _⟩
    simp only [mem_addCol]
    exact Or.inr (Or.inr (h.same.full.1 hc))
  refine ⟨(w.assign i).1, y, by rw [← he], ?_, ⟨?_, hy, hfull, hok'.sorted, hok'.cache⟩,
    assigned_fresh ⟨hu, hi, hxc, h.numbers⟩, ?_, ⟨_, t2, rfl, rfl⟩, s1, by omega⟩
  · obtain ⟨cols, types, rows, ops, b1, b2, b3, b4, b5, rfl⟩ := hw
    refine ⟨cols, types, rows, ops ++ [.assign i], b1, b2, b3, b4, admissible_append _ _ _ b5 ⟨?_, trivial⟩, ?_⟩
    · intro p hp
      rw [h.same.shows] at hp; cases hp
      exact ⟨hu, hi, hnn, h.safe⟩
    · rw [runOps_append]
      rfl
  · rw [g2 he, hp']
    simp [setAt]
  · intro ty' hty'
    rw [t2] at hty'
    cases hty'
    simp only [d.1, d.2]
    exact ⟨a1, a2, a3, a4, a5⟩

theorem ready_fitted {w : World} {i : Nat} {x : Inst} {m : Mem} (h : Ready w i x m) :
    FittedOn w i m x.types x.nBefore := by
  obtain ⟨ty, t1, t2, t3⟩ := h.typed
  obtain ⟨a1, a2, a3, a4, a5⟩ := h.types ty t1
  refine ⟨⟨h.same.shows, x, h.same.object, rfl, le_refl _⟩, sameData_mem h.same, h.fresh, ⟨h.same.full, ?_, ?_, ?_⟩,
    ⟨ty, t1, a1, a2, a3, a4⟩, x, h.same.object, h.few, h.table⟩
  · intro c hc
    simp only [List.mem_cons, List.not_mem_nil, or_false] at hc
    rcases hc with rfl | rfl | rfl
    · exact h.fresh.ids.user.hasCol
    · exact h.fresh.ids.item.hasCol
    · exact h.fresh.hasInter
  · intro c hc r hr
    simp only [List.mem_cons, List.not_mem_nil, or_false] at hc
    rcases hc with rfl | rfl | rfl
    · exact ⟨_, (h.fresh.ids.user.code r hr).2⟩
    · exact ⟨_, (h.fresh.ids.item.code r hr).2⟩
    · exact h.fresh.numeric r hr
  · intro ty' hty' c hc
    rw [t1] at hty'; cases hty'
    simp only [List.mem_cons, List.not_mem_nil, or_false] at hc
    rcases hc with rfl | rfl | rfl
    · rw [t2]; decide
    · rw [t3]; decide
    · exact a5

/-! ## Programs -/

/-- A task that computes something and returns it. -/
theorem delivers_task {α β : Type} {names : List String} {S : List Nat} {w : World} (hg : Good names w)
    {P : (α → DbProg β) → DbProg β} {res : Except Err α} (h : DeliversIn names S (sharedInv w S) P res) (f : α → β) :
    Gives names S (P fun x => .ret (.ok (f x))) [] w (res.map f) := by
  refine h [] w _ _ hg (fun i _ => Keeps.refl _ i) ?_ ?_
  · rintro e rfl
    rfl
  · rintro x w'' rfl _
    rfl

theorem fit_run {names : List String} (hn : NamesOk names) {w w' : World} (hg : Good names w) {S : List Nat} {i : Nat}
    (hi : i ∈ S) (hS : ∀ k ∈ S, (w.insts k).isSome) {m : Mem} {T : Option (String → DType)} {B : Nat}
    (hf : FittedOn w i m T B) {cfg : KnnCfg} {M : Knn} {r : Except Err (Knn × Nat)} (h : FitReturns w cfg i M w' r) :
    r = .ok (fitKnn cfg (ratingsOf m) M, nItemsOf m) ∧ Good names w' ∧ ∀ k ∈ S, Keeps w w' k := by
  obtain ⟨h1, h2, h3⟩ := pool_results (outs := [r]) (rs := [.ok (fitKnn cfg (ratingsOf m) M, nItemsOf m)]) hg hS rfl (by
    intro t p hp
    cases t with
    | zero =>
      simp only [List.getElem?_cons_zero, Option.some.injEq] at hp
      subst hp
      exact ⟨_, rfl, delivers_task hg (delivers_fit hn hi hS hf cfg M) id⟩
    | succ t => simp at hp) h
  exact ⟨by simpa using h1, h2, h3⟩

/-- **C116**, fitting: for both nearest neighbour recommenders, all their parameters and any earlier model, the program
that fits on the database computes the neighbours and the number of items that are computed in memory. -/
theorem C116_fit (names : List String) (w : World) (hw : Reached names w) (i : Nat) (x : Inst) (m : Mem)
    (h : Ready w i x m) (cfg : KnnCfg) (M : Knn) (w' : World) (r : Except Err (Knn × Nat))
    (hr : FitReturns w cfg i M w' r) : r = .ok (fitKnn cfg (ratingsOf m) M, nItemsOf m) := by
  obtain ⟨hn, hg⟩ := reached_good hw
  exact (fit_run hn hg (S := [i]) (by simp) (by simp [h.same.object]) (ready_fitted h) hr).1

theorem serve_gives {names : List String} (hn : NamesOk names) {w : World} (hg : Good names w) {S : List Nat} {i : Nat}
    (hi : i ∈ S) (hS : ∀ k ∈ S, (w.insts k).isSome) {m : Mem} {T : Option (String → DType)} {B : Nat}
    (hf : FittedOn w i m T B) (cfg : KnnCfg) (M : Knn) (q : Request) :
    Gives names S (dbServe cfg i (M, nItemsOf m) q) [] w (memServe cfg m M q) := by
  have hrk : RankAlike (β := Reply) names S w (dbKnnRank cfg i M) (knnRank cfg (ratingsOf m) M) :=
    fun uid iids n novelty => delivers_knnRank hn hi hS hf cfg M uid iids n novelty
  cases q with
  | predict user item =>
    have := delivers_task hg (delivers_predictRaw hi hf (f := dbKnnPredict cfg i M) (f' := knnPredict cfg (ratingsOf m) M)
      (fun u j => delivers_predict hn hi hS hf cfg M u j) user item) Reply.score
    have e : (predicted m (knnPredict cfg (ratingsOf m) M) user item).map Reply.score =
        memServe cfg m M (.predict user item) := by
      simp only [predicted, memServe]
      cases predict m true (knnPredict cfg (ratingsOf m) M) user item false with
      | error e => rfl
      | ok o => cases o <;> rfl
    rw [e] at this
    exact this
  | rank user items novelty skip n => exact delivers_task hg (delivers_rankRaw hi hf hrk user items novelty skip n) Reply.ranking
  | recommend user n novelty threshold =>
    exact delivers_task hg (delivers_recommendRaw hi hf hrk user n novelty threshold) Reply.ranking

/-- **C116**, answers: after fitting on the database, any number of calls of `predict`, `rank` and `recommend`,
interleaved in any way, return (or raise) what the recommender fitted in memory returns (or raises). -/
theorem C116_answers (names : List String) (w : World) (hw : Reached names w) (i : Nat) (x : Inst) (m : Mem)
    (h : Ready w i x m) (cfg : KnnCfg) (M : Knn) (w1 : World) (p : Knn × Nat) (hr : FitReturns w cfg i M w1 (.ok p))
    (qs : List Request) (w2 : World) (outs : List (Except Err Reply))
    (hrun : ProgRuns w1 (qs.map (dbServe cfg i p)) w2 (outs.map .ret)) :
    outs = qs.map (memServe cfg m (fitKnn cfg (ratingsOf m) M)) := by
  obtain ⟨hn, hg⟩ := reached_good hw
  obtain ⟨e, g1, k1⟩ := fit_run hn hg (S := [i]) (by simp) (by simp [h.same.object]) (ready_fitted h) hr
  cases e
  have hS : ∀ k ∈ [i], (w1.insts k).isSome := by
    intro k hk
    refine (k1 k hk).alive ?_
    simp only [List.mem_singleton] at hk
    subst hk
    simp [h.same.object]
  refine (pool_results g1 hS (by simp) ?_ hrun).1
  intro t p hp
  rw [List.getElem?_map] at hp ⊢
  obtain ⟨q, hq, rfl⟩ := Option.map_eq_some_iff.1 hp
  exact ⟨_, by rw [hq]; rfl, serve_gives hn g1 (by simp) hS ((ready_fitted h).keep (k1 i (by simp))) cfg _ q⟩

/-- **C116**, termination: fitting and any pool of calls have a complete run. -/
theorem C116_returns (w : World) (cfg : KnnCfg) (i : Nat) (M : Knn) :
    (∃ w1 r, FitReturns w cfg i M w1 r) ∧
    ∀ (p : Knn × Nat) (qs : List Request), ∃ (w2 : World) (outs : List (Except Err Reply)),
      ProgRuns w (qs.map (dbServe cfg i p)) w2 (outs.map .ret) := by
  refine ⟨?_, fun p qs => progRuns_exists w _⟩
  obtain ⟨w1, r, h⟩ := progRuns_finish (dbFit cfg i M fun p => .ret (.ok p)) w [dbFit cfg i M fun p => .ret (.ok p)] 0 rfl
  exact ⟨w1, r, h⟩

/-! ## Evaluations -/

/-- A `_rank` method ranks the items it is given. -/
def Within (rk : RankFn) : Prop := ∀ uid iids n novelty l, rk uid iids n novelty = .ok l → ∀ p ∈ l, p.2 ∈ iids

/-- Recommendations of a `_rank` method are items. -/
def WithinItems (k : Nat) (rk : RankFn) : Prop :=
  ∀ uid n novelty l, rk uid (List.range k) n novelty = .ok l → ∀ p ∈ l, p.2 < k

theorem Within.items {rk : RankFn} (h : Within rk) (k : Nat) : WithinItems k rk :=
  fun uid n novelty l hl p hp => List.mem_range.1 (h uid _ n novelty l hl p hp)

theorem scores_within {g : Nat → Except Err (Option (ℚ × Nat))} (hg : ∀ i s, g i = .ok (some s) → s.2 = i) {is : List Nat}
    {n : Nat} {preds : List (Option (ℚ × Nat))} (h : is.mapM g = .ok preds) {p : ℚ × Nat}
    (hp : p ∈ nlargest n (preds.filterMap id)) : p.2 ∈ is := by
  rw [mapM_ok_iff] at h
  have h1 := (nlargest_subperm n _).subset hp
  rw [List.mem_filterMap] at h1
  obtain ⟨o, ho, e⟩ := h1
  simp only [id] at e
  subst e
  have h2 : (Except.ok (some p) : Except Err (Option (ℚ × Nat))) ∈ is.map g := by
    rw [h]
    exact List.mem_map_of_mem ho
  obtain ⟨i, hi, e⟩ := List.mem_map.1 h2
  rw [hg i p e]
  exact hi

theorem knnScored_item {cfg : KnnCfg} {rs : List Rating} {l : List (ℚ × ℚ)} {other i : Nat} {s : ℚ × Nat}
    (h : knnScored cfg rs l other i = .ok (some s)) : s.2 = i := by
  unfold knnScored at h
  cases hf : finishPred cfg rs l other with
  | error e => rw [hf] at h; cases h
  | ok o =>
    rw [hf] at h
    cases o with
    | none => cases h
    | some q => cases h; rfl

theorem knnItems_subset {rs : List Rating} {uid : Nat} {iids : List Nat} {novelty : Bool} {i : Nat}
    (h : i ∈ knnItems rs uid iids novelty) : i ∈ iids := by
  unfold knnItems at h
  split at h
  · exact List.mem_dedup.1 (List.mem_filter.1 h).1
  · exact List.mem_dedup.1 h

theorem itemScored_item {cfg : KnnCfg} {rs : List Rating} {M : Knn} {uid i : Nat} {s : ℚ × Nat}
    (h : itemScored cfg rs M uid i = .ok (some s)) : s.2 = i := by
  unfold itemScored at h
  cases hnb : M.nbrs i with
  | none => rw [hnb] at h; cases h
  | some nb =>
    rw [hnb] at h
    exact knnScored_item h

theorem except_map_ok {α β : Type} {r : Except Err α} {f : α → β} {b : β} (h : r.map f = .ok b) : ∃ a, r = .ok a ∧ f a = b := by
  cases r with
  | error e => cases h
  | ok a => exact ⟨a, rfl, by simpa [Except.map] using h⟩

theorem within_knn (cfg : KnnCfg) (rs : List Rating) (M : Knn) : Within (knnRank cfg rs M) := by
  intro uid iids n novelty l h p hp
  unfold knnRank at h
  cases hk : cfg.kind with
  | user =>
    rw [hk] at h
    simp only [userRank] at h
    cases hnb : M.nbrs uid with
    | none => rw [hnb] at h; cases h
    | some nb =>
      rw [hnb] at h
      obtain ⟨preds, h1, rfl⟩ := except_map_ok h
      have h2 := List.mem_dedup.1 (scores_within (fun i s hs => knnScored_item hs) h1 hp)
      obtain ⟨t, ht, e⟩ := List.mem_map.1 h2
      simp only [neighbourTriples, List.mem_flatMap, List.mem_map, List.mem_filter, Bool.and_eq_true,
        decide_eq_true_eq] at ht
      obtain ⟨_, _, r, ⟨_, _, hr⟩, rfl⟩ := ht
      rw [← e]
      exact knnItems_subset hr
  | item =>
    rw [hk] at h
    simp only [itemRank] at h
    obtain ⟨preds, h1, rfl⟩ := except_map_ok h
    exact knnItems_subset (scores_within (fun i s hs => itemScored_item hs) h1 hp)

theorem within_base {m : Mem} (hm : IdsOk m) (f : PredictFn ℚ) : Within (baseRank m f) := by
  intro uid iids n novelty l h p hp
  unfold baseRank at h
  obtain ⟨cand, hc, _, _, hin⟩ := candidates_ok hm uid iids novelty
  rw [hc] at h
  simp only at h
  cases hp' : cand.mapM (scored f uid) with
  | error e => rw [hp'] at h; cases h
  | ok preds =>
    rw [hp'] at h
    cases h
    refine ((hin _).1 (scores_within (g := scored f uid) (fun i s hs => ?_) hp' hp)).1
    unfold scored at hs
    obtain ⟨o, _, e⟩ := except_map_ok hs
    cases o with
    | none => cases e
    | some q => cases e; rfl

theorem items_count {m : Mem} (h : Fresh m) : nItemsOf m = m.itemMap.length :=
  countDistinct_eq m "item" "iid" m.itemMap h.ids.item h.items

/-- Recommended items are items of the records. -/
theorem recommended_items {m : Mem} (hm : Fresh m) {rk : RankFn} (hrk : WithinItems (nItemsOf m) rk) {u : Lit} {n : Option Nat}
    {novelty : Bool} {low : Option ℚ} {l : List (ℚ × Option Val)} (h : recommend m rk u n novelty low = .ok l)
    {p : ℚ × Option Val} (hp : p ∈ l) : ∃ r ∈ m.rows, p.2 = some (r.get "item") := by
  unfold recommend at h
  cases hu : m.userToUid u with
  | error e => rw [hu] at h; cases h
  | ok o =>
    rw [hu] at h
    cases o with
    | none => cases h
    | some uid =>
      simp only at h
      cases hl : recommendIids (nItemsOf m) rk uid (n.getD (nItemsOf m)) novelty low with
      | error e => rw [hl] at h; cases h
      | ok ids =>
        rw [hl] at h
        simp only at h
        rw [toRaw_ok hm.ids.has] at h
        cases h
        obtain ⟨q, hq, rfl⟩ := List.mem_map.1 hp
        obtain ⟨l0, h0, rfl⟩ := except_map_ok hl
        have hq0 : q ∈ l0 := by
          cases low with
          | none => exact hq
          | some t => exact (List.mem_filter.1 hq).1
        have hlt : q.2 < m.itemMap.length := by
          have := hrk _ _ _ _ h0 q hq0
          rwa [items_count hm] at this
        obtain ⟨r, hr, e⟩ := hm.items m.itemMap[q.2] (List.getElem_mem hlt)
        exact ⟨r, hr, by simp [e, List.getElem?_eq_getElem hlt]⟩

theorem answers_ranked {names : List String} {S : List Nat} {w0 : World} {train : Nat} (hi : train ∈ S) {m : Mem}
    {T : Option (String → DType)} {B : Nat} (hf : FittedOn w0 train m T B) {rk : DbRankFn (Outcome EvalData)} {rk' : RankFn}
    (hrk : RankAlike names S w0 rk rk') (u : Int) :
    Answers names S w0 (dbFitted train (nItemsOf m) rk) (rankedModel m rk') u := by
  refine ⟨rfl, ?_, ?_⟩
  · intro items novelty _ O w k r hg hk he hgo
    refine delivers_rankRaw hi hf hrk (idLit (.num u)) (items.map idLit) novelty true none O w _ r hg hk ?_ ?_
    · intro e h
      exact he e (by simp only [rankedModel, h, Except.map])
    · intro l w'' h c
      exact hgo _ w'' (by simp only [rankedModel, h, Except.map]) c
  · intro n novelty low O w k r hg hk he hgo
    refine delivers_recommendRaw hi hf hrk (idLit (.num u)) (some n) novelty low O w _ r hg hk ?_ ?_
    · intro e h
      exact he e (by simp only [rankedModel, h, Except.map])
    · intro l w'' h c
      exact hgo _ w'' (by simp only [rankedModel, h, Except.map]) c

theorem keeps_test {w w1 : World} {i : Nat} {m : Mem} {T : Option (String → DType)} {B : Nat} (h : Test w i m T B)
    (hk : Keeps w w1 i) : Test w1 i m T B := ⟨h.shows.keep hk, h.full, h.ok, h.rows, h.types⟩

/-- Ranking evaluations with a recommender fitted on a database dataset. -/
theorem ranking_evaluated {names : List String} (hn : NamesOk names) {w : World} (hg : Good names w) {test train : Nat}
    {m tm : Mem} {T T' : Option (String → DType)} {B B' : Nat} (ht : Test w test tm T B) (htr : Test w train m T' B')
    (hf : FittedOn w train m T' B') {rk : DbRankFn (Outcome EvalData)} {rk' : RankFn}
    (hrk : ∀ v, (∀ k ∈ [test, train], Keeps w v k) → RankAlike names [test, train] v rk rk') (a : EvalArgs) {thr : List Char}
    (hthr : Prints thr a.threshold) (hgen : NoGeneration a ∨ (B < 5000 ∧ B' < 5000)) (n : Option Nat) (rngs : Nat → EvalRng)
    {outs : List (Except Err (Outcome EvalData))}
    (h : DbEvaluation w test n (fun u k => dbRankingUser (dbFitted train (nItemsOf m) rk) test train thr a u (rngs k)) outs) :
    rankingTasks (rankedModel m rk') tm a n rngs = .ok (outs.map rankingTask) ∧
    ∃ users, evalUsers tm n = .ok users ∧ outs = rankingOutcomes (rankedModel m rk') tm a users rngs := by
  refine and_of_right (fun ⟨users, h1, h2⟩ => by rw [rankingTasks_eq h1, h2]) ?_
  obtain ⟨w1, j, us, w', e, hrun⟩ := h
  obtain ⟨x, hx, _⟩ := ht.shows.inst
  obtain ⟨y, hy, _⟩ := htr.shows.inst
  obtain ⟨g1, hus, _⟩ := dbUnique_good hn hg ht.ok ht.shows.plain hx ht.rows.users.hasUser (by decide) e
  have keep : ∀ k, (w.insts k).isSome → Keeps w w1 k := fun k hk =>
    dbUnique_keeps hn hg ht.shows.plain hx ht.rows.users.hasUser e hk
  have k1 := keep test (by rw [hx]; rfl)
  have k2 := keep train (by rw [hy]; rfl)
  have hk : ∀ k ∈ [test, train], Keeps w w1 k := by
    intro k hk
    simp only [List.mem_cons, List.not_mem_nil, or_false] at hk
    rcases hk with rfl | rfl
    · exact k1
    · exact k2
  refine ⟨us.take (n.getD us.length), by simp [evalUsers, hus, Except.map], ?_⟩
  refine pool_outcomes (S := [test, train])
    (task := fun u k => dbRankingUser (dbFitted train (nItemsOf m) rk) test train thr a u (rngs k))
    (res := fun u k => rankingUser (rankedModel m rk') tm a u (rngs k)) g1 ?_ ?_ hrun
  · intro k hk'
    refine (hk k hk').alive ?_
    simp only [List.mem_cons, List.not_mem_nil, or_false] at hk'
    rcases hk' with rfl | rfl
    · rw [hx]; rfl
    · rw [hy]; rfl
  · intro u hu k
    obtain ⟨vs, hvs, _, hin⟩ := uniqueVals_user ht.rows.users.hasUser (c := "user") (by decide)
    rw [hus] at hvs; cases hvs
    obtain ⟨r, hr, rfl⟩ := (hin u).1 (List.mem_of_mem_take hu)
    obtain ⟨i, hi⟩ := ht.rows.users.whole r hr
    rw [hi]
    exact gives_ranking hn (keeps_test ht k1) (fun _ _ => Keeps.refl _ _) (keeps_test htr k2) a hthr i (rngs k) hgen
      (answers_ranked (by simp) (hf.keep k2) (hrk w1 hk) i)

/-- Recommendation evaluations with a recommender fitted on a database dataset. -/
theorem recommendation_evaluated {names : List String} (hn : NamesOk names) {w : World} (hg : Good names w) {test train : Nat}
    {m tm : Mem} {T T' : Option (String → DType)} {B B' : Nat} (ht : Test w test tm T B) (hint : IntItems m)
    (hf : FittedOn w train m T' B') {rk : DbRankFn (Outcome EvalData)} {rk' : RankFn} (hin' : WithinItems (nItemsOf m) rk')
    (hrk : ∀ v, (∀ k ∈ [test, train], Keeps w v k) → RankAlike names [test, train] v rk rk') (a : EvalArgs) {thr : List Char}
    (hthr : Prints thr a.threshold) (ks : List Nat) (low : Option ℚ) (n : Option Nat) (rngs : Nat → EvalRng)
    {outs : List (Except Err (Outcome EvalData))}
    (h : DbEvaluation w test n
      (fun u k => dbRecommendationUser (dbFitted train (nItemsOf m) rk) test thr a ks.max? low u (rngs k)) outs) :
    recommendationTasks (rankedModel m rk') tm a ks low n rngs = .ok (outs.map recommendationTask) ∧
    ∃ users, evalUsers tm n = .ok users ∧ outs = recommendationOutcomes (rankedModel m rk') tm a ks low users rngs := by
  refine and_of_right (fun ⟨users, h1, h2⟩ => by rw [recommendationTasks_eq h1, h2]) ?_
  obtain ⟨w1, j, us, w', e, hrun⟩ := h
  obtain ⟨x, hx, _⟩ := ht.shows.inst
  obtain ⟨y, hy, _⟩ := hf.shows.inst
  obtain ⟨g1, hus, _⟩ := dbUnique_good hn hg ht.ok ht.shows.plain hx ht.rows.users.hasUser (by decide) e
  have keep : ∀ k, (w.insts k).isSome → Keeps w w1 k := fun k hk =>
    dbUnique_keeps hn hg ht.shows.plain hx ht.rows.users.hasUser e hk
  have k1 := keep test (by rw [hx]; rfl)
  have k2 := keep train (by rw [hy]; rfl)
  have hk : ∀ k ∈ [test, train], Keeps w w1 k := by
    intro k hk
    simp only [List.mem_cons, List.not_mem_nil, or_false] at hk
    rcases hk with rfl | rfl
    · exact k1
    · exact k2
  have hS : ∀ k ∈ [test, train], (w1.insts k).isSome := by
    intro k hk'
    refine (hk k hk').alive ?_
    simp only [List.mem_cons, List.not_mem_nil, or_false] at hk'
    rcases hk' with rfl | rfl
    · rw [hx]; rfl
    · rw [hy]; rfl
  refine ⟨us.take (n.getD us.length), by simp [evalUsers, hus, Except.map], ?_⟩
  refine pool_outcomes (S := [test, train])
    (task := fun u k => dbRecommendationUser (dbFitted train (nItemsOf m) rk) test thr a ks.max? low u (rngs k))
    (res := fun u k => recommendationUser (rankedModel m rk') tm a ks.max? low u (rngs k)) g1 hS ?_ hrun
  intro u hu k
  obtain ⟨vs, hvs, _, hin⟩ := uniqueVals_user ht.rows.users.hasUser (c := "user") (by decide)
  rw [hus] at hvs; cases hvs
  obtain ⟨r, hr, rfl⟩ := (hin u).1 (List.mem_of_mem_take hu)
  obtain ⟨i, hi⟩ := ht.rows.users.whole r hr
  rw [hi]
  refine gives_recommendation hn (by simp) hS (keeps_test ht k1) (fun _ _ => Keeps.refl _ _) a hthr _ low i (rngs k) ?_
      (answers_ranked (by simp) (hf.keep k2) (hrk w1 hk) i)
  intro k recs hrecs p hp
  simp only [rankedModel] at hrecs
  obtain ⟨l, hl, rfl⟩ := except_map_ok hrecs
  obtain ⟨q, hq, rfl⟩ := List.mem_map.1 hp
  obtain ⟨r', hr', e'⟩ := recommended_items hf.fresh hin' hl hq
  obtain ⟨z, hz⟩ := hint.whole r' hr'
  exact ⟨z, by simp [e', hz]⟩

/-- **C116**, ranking evaluation: after fitting on a database dataset, a ranking evaluation of a database test set gives
for every user what the evaluation of the recommender fitted in memory gives, and so reports the same results (C44). -/
theorem C116_ranking_evaluation (names : List String) (w : World) (hw : Reached names w) (test train : Nat) (x y : Inst)
    (m tm : Mem) (hm : Ready w train y m) (hint : Evaluable m) (ht : SameData w test x tm) (he : Evaluable tm)
    (hx : EvalTypes x) (cfg : KnnCfg) (M : Knn) (w1 : World) (p : Knn × Nat) (hr : FitReturns w cfg train M w1 (.ok p))
    (a : EvalArgs) (thr : List Char) (hthr : Prints thr a.threshold)
    (hgen : NoGeneration a ∨ (x.nBefore < 5000 ∧ y.nBefore < 5000)) (n : Option Nat) (rngs : Nat → EvalRng)
    (outs : List (Except Err (Outcome EvalData)))
    (h : DbEvaluation w1 test n
      (fun u k => dbRankingUser (dbFitted train p.2 (dbKnnRank cfg train p.1)) test train thr a u (rngs k)) outs) :
    rankingTasks (rankedModel m (knnRank cfg (ratingsOf m) (fitKnn cfg (ratingsOf m) M))) tm a n rngs =
        .ok (outs.map rankingTask) ∧
    ∃ users, evalUsers tm n = .ok users ∧ outs =
      rankingOutcomes (rankedModel m (knnRank cfg (ratingsOf m) (fitKnn cfg (ratingsOf m) M))) tm a users rngs := by
  obtain ⟨hn, hg⟩ := reached_good hw
  have hS : ∀ k ∈ [test, train], (w.insts k).isSome := by simp [ht.object, hm.same.object]
  have hf := ready_fitted hm
  obtain ⟨e, g1, k1⟩ := fit_run hn hg (S := [test, train]) (by simp) hS hf hr
  cases e
  refine ranking_evaluated hn g1 (keeps_test (sameData_test ht he hx) (k1 test (by simp)))
    (keeps_test ⟨hf.shows, hm.same.full, hf.ok, hint, ?_⟩ (k1 train (by simp))) (hf.keep (k1 train (by simp))) ?_ a hthr hgen
    n rngs h
  · intro ty hty
    obtain ⟨a1, a2, _, _, a5⟩ := hm.types ty hty
    exact ⟨a1.trans hint.users.int, a2.trans hint.items.int, a5⟩
  · intro v hv uid iids n novelty
    refine delivers_knnRank hn (by simp) (fun k hk => (hv k hk).alive ((k1 k hk).alive (hS k hk))) 
      ((hf.keep (k1 train (by simp))).keep (hv train (by simp))) cfg _ uid iids n novelty

/-- **C116**, recommendation evaluation: the same; the tables may have any size. -/
theorem C116_recommendation_evaluation (names : List String) (w : World) (hw : Reached names w) (test train : Nat)
    (x y : Inst) (m tm : Mem) (hm : Ready w train y m) (hint : IntItems m) (ht : SameData w test x tm) (he : Evaluable tm)
    (hx : EvalTypes x) (cfg : KnnCfg) (M : Knn) (w1 : World) (p : Knn × Nat) (hr : FitReturns w cfg train M w1 (.ok p))
    (a : EvalArgs) (thr : List Char) (hthr : Prints thr a.threshold) (ks : List Nat) (low : Option ℚ) (n : Option Nat)
    (rngs : Nat → EvalRng) (outs : List (Except Err (Outcome EvalData)))
    (h : DbEvaluation w1 test n
      (fun u k => dbRecommendationUser (dbFitted train p.2 (dbKnnRank cfg train p.1)) test thr a ks.max? low u (rngs k)) outs) :
    recommendationTasks (rankedModel m (knnRank cfg (ratingsOf m) (fitKnn cfg (ratingsOf m) M))) tm a ks low n rngs =
        .ok (outs.map recommendationTask) ∧
    ∃ users, evalUsers tm n = .ok users ∧ outs =
      recommendationOutcomes (rankedModel m (knnRank cfg (ratingsOf m) (fitKnn cfg (ratingsOf m) M))) tm a ks low users rngs := by
  obtain ⟨hn, hg⟩ := reached_good hw
  have hS : ∀ k ∈ [test, train], (w.insts k).isSome := by simp [ht.object, hm.same.object]
  have hf := ready_fitted hm
  obtain ⟨e, g1, k1⟩ := fit_run hn hg (S := [test, train]) (by simp) hS hf hr
  cases e
  refine recommendation_evaluated hn g1 (keeps_test (sameData_test ht he hx) (k1 test (by simp))) hint
    (hf.keep (k1 train (by simp))) ((within_knn _ _ _).items _) ?_ a hthr ks low n rngs h
  intro v hv uid iids n novelty
  refine delivers_knnRank hn (by simp) (fun k hk => (hv k hk).alive ((k1 k hk).alive (hS k hk)))
    ((hf.keep (k1 train (by simp))).keep (hv train (by simp))) cfg _ uid iids n novelty

/-- **C116**, termination: with less than 5000 records in the test set, there are such evaluations. -/
theorem C116_evaluation_returns (names : List String) (w : World) (hw : Reached names w) (test train : Nat) (x y : Inst)
    (m tm : Mem) (hm : Ready w train y m) (ht : SameData w test x tm) (hlt : x.nBefore < 5000) (cfg : KnnCfg) (M : Knn)
    (w1 : World) (p : Knn × Nat) (hr : FitReturns w cfg train M w1 (.ok p)) (n : Option Nat)
    (task : Val → Nat → DbProg (Outcome EvalData)) : ∃ outs, DbEvaluation w1 test n task outs := by
  obtain ⟨hn, hg⟩ := reached_good hw
  obtain ⟨_, g1, k1⟩ := fit_run hn hg (S := [test, train]) (by simp) (by simp [ht.object, hm.same.object]) (ready_fitted hm) hr
  have hs : ShowsMem w1 test tm x.types x.nBefore :=
    ShowsMem.keep ⟨ht.shows, x, ht.object, rfl, le_refl _⟩ (k1 test (by simp))
  obtain ⟨z, hz, _, hzn⟩ := hs.inst
  have hc : "user" ∈ tm.cols := ht.full.1 (by simp)
  obtain ⟨vs, hvs, hlen, hin⟩ := unique_length hc (by decide)
  obtain ⟨w2, j, e1⟩ := dbUnique_returns hn g1 (sameData_mem ht) hs.plain hz ht.full hc (by decide) hvs (by
    rintro ⟨_, _, _, h⟩
    omega)
  obtain ⟨w', outs, h⟩ := progRuns_exists w2 ((vs.take (n.getD vs.length)).zipIdx.map fun p => task p.1 p.2)
  exact ⟨outs, w2, j, vs, w', e1, h⟩

/-- **C116**, other recommenders: an evaluation with a recommender that has the `_rank` of the base class, fitted on a
database dataset, gives what it gives when the recommender with the same predictions is fitted in memory. -/
theorem C116_base_evaluation (names : List String) (w : World) (hw : Reached names w) (test train : Nat) (x y : Inst)
    (m tm : Mem) (hm : Ready w train y m) (hint : Evaluable m) (ht : SameData w test x tm) (he : Evaluable tm)
    (hx : EvalTypes x) (f : PredictFn ℚ) (a : EvalArgs) (thr : List Char) (hthr : Prints thr a.threshold) (ks : List Nat)
    (low : Option ℚ) (n : Option Nat) (rngs : Nat → EvalRng) (outs : List (Except Err (Outcome EvalData))) :
    ((NoGeneration a ∨ (x.nBefore < 5000 ∧ y.nBefore < 5000)) →
      DbEvaluation w test n
        (fun u k => dbRankingUser (dbFitted train (nItemsOf m) (dbBaseRank train f)) test train thr a u (rngs k)) outs →
      rankingTasks (fittedModel m f) tm a n rngs = .ok (outs.map rankingTask)) ∧
    (DbEvaluation w test n
        (fun u k => dbRecommendationUser (dbFitted train (nItemsOf m) (dbBaseRank train f)) test thr a ks.max? low u (rngs k))
        outs →
      recommendationTasks (fittedModel m f) tm a ks low n rngs = .ok (outs.map recommendationTask)) := by
  obtain ⟨hn, hg⟩ := reached_good hw
  have hS : ∀ k ∈ [test, train], (w.insts k).isSome := by simp [ht.object, hm.same.object]
  have hf := ready_fitted hm
  have hrk : ∀ v, (∀ k ∈ [test, train], Keeps w v k) →
      RankAlike (β := Outcome EvalData) names [test, train] v (dbBaseRank train f) (baseRank m f) :=
    fun v hv uid iids n novelty => delivers_baseRank hn (by simp) (fun k hk => (hv k hk).alive (hS k hk))
      (hf.keep (hv train (by simp))) f uid iids n novelty
  refine ⟨fun hgen h => ?_, fun h => ?_⟩
  · refine (ranking_evaluated hn hg (sameData_test ht he hx) ⟨hf.shows, hm.same.full, hf.ok, hint, ?_⟩ hf hrk a hthr hgen n
      rngs h).1
    intro ty hty
    obtain ⟨a1, a2, _, _, a5⟩ := hm.types ty hty
    exact ⟨a1.trans hint.users.int, a2.trans hint.items.int, a5⟩
  · exact (recommendation_evaluated hn hg (sameData_test ht he hx) hint.items hf ((within_base hm.fresh.ids f).items _) hrk a hthr ks
      low n rngs h).1

/-! ## A concrete dataset -/

theorem exWorld_trainable : ∃ x, Trainable exWorld 0 x exBothMem := by
  refine ⟨_, ⟨by decide +kernel, rfl, by unfold FullCols; decide, by decide, rfl⟩, by decide, ?_, ?_, ?_⟩
  · exact fun r hr => exBothMem_evaluable.numbers r hr
  · intro ty h
    cases h
    exact ⟨rfl, rfl, by decide, by decide, by decide⟩
  · intro x t hx _ _
    refine Or.inr fun k y hk hy => ?_
    simp [exWorld, World.ofCsv, hk] at hy

/-- `UserKNN` with Jaccard similarities. -/
def exDbCfg : KnnCfg := ⟨.user, 2, 1, none, jaccardSim false, .weighted, false⟩

theorem exAssigned_evaluable : Evaluable exBothMem.assignIds.1 := by
  have h : ∀ r ∈ exBothMem.assignIds.1.rows,
      ∃ u ∈ [1, 2], ∃ i ∈ [10, 20], ∃ q ∈ [3, 4, 5], r.get "user" = .num (u : ℕ) ∧ r.get "item" = .num (i : ℕ) ∧
        r.get "interaction" = .num (q : ℕ) := by decide +kernel
  refine ⟨⟨by decide +kernel, by decide +kernel, fun r hr => ?_⟩, ⟨by decide +kernel, by decide +kernel, fun r hr => ?_⟩, fun r hr => ?_⟩
  · obtain ⟨u, _, i, _, q, _, h1, _⟩ := h r hr
    exact ⟨u, by rw [h1]; simp⟩
  · obtain ⟨u, _, i, _, q, _, _, h2, _⟩ := h r hr
    exact ⟨i, by rw [h2]; simp⟩
  · obtain ⟨u, _, i, _, q, _, _, _, h3⟩ := h r hr
    exact ⟨q, h3⟩

/-- The three records of a csv file meet the hypotheses; after assigning the ids the model is fitted, and the second user
gets the item of the first one. -/
example : ∃ x w1 y w2 p, Reached exDbNames exWorld ∧ Trainable exWorld 0 x exBothMem ∧ exWorld.assign 0 = (w1, none) ∧
    Reached exDbNames w1 ∧ Ready w1 0 y exBothMem.assignIds.1 ∧ Evaluable exBothMem.assignIds.1 ∧
    FitReturns w1 exDbCfg 0 Knn.init w2 (.ok p) ∧
    [Request.predict (.int 2) (.int 20), .predict (.int 2) (.int 30), .rank (.int 2) [.int 10, .int 20] false true none,
      .recommend (.int 2) none true none].map (memServe exDbCfg exBothMem.assignIds.1
        (fitKnn exDbCfg (ratingsOf exBothMem.assignIds.1) Knn.init)) =
      [.ok (.score 3), .error .notFound, .ok (.ranking [(5, some (.num 10)), (3, some (.num 20))]),
        .ok (.ranking [(3, some (.num 20))])] := by
  obtain ⟨x, hx⟩ := exWorld_trainable
  have hw : Reached exDbNames exWorld := ⟨exDbCols, _, _, [], by decide, by decide, by decide, by decide, trivial, rfl⟩
  obtain ⟨w1, y, h1, h2, h3⟩ := C116_ready exDbNames exWorld hw 0 x exBothMem hx
  obtain ⟨⟨w2, r, h4⟩, _⟩ := C116_returns w1 exDbCfg 0 Knn.init
  have h5 := C116_fit exDbNames w1 h2 0 y _ h3 exDbCfg Knn.init w2 r h4
  subst h5
  exact ⟨x, w1, y, w2, _, hw, hx, h1, h2, h3, exAssigned_evaluable, h4, by decide +kernel⟩

end DRec.Conc
