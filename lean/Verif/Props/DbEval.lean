import Verif.Lemmas.DbEvalTask
import Verif.Props.Evaluation
import Verif.Props.DbSplits

/-!
# C109: evaluating a database test set

The outcomes of the users' tasks, and with them the reported results (C44), are those of the same evaluation in memory.
-/

namespace DRec.Conc

open Spec

/-! ## The pool -/

/-- What holds between the steps of the pool: every task has its own datasets and will return its result. -/
structure PoolOk {α : Type} (names : List String) (S : List Nat) (w : World) (ps : List (DbProg α))
    (rs : List (Except Err α)) (Os : Nat → List Nat) : Prop where
  good : Good names w
  shared : ∀ k ∈ S, (w.insts k).isSome
  alive : ∀ t, ∀ k ∈ Os t, (w.insts k).isSome
  apart : ∀ t, ∀ k ∈ Os t, k ∉ S
  disjoint : ∀ t t', t ≠ t' → ∀ k ∈ Os t, k ∉ Os t'
  gives : ∀ (t : Nat) (p : DbProg α), ps[t]? = some p → ∃ r, rs[t]? = some r ∧ Gives names S p (Os t) w r

theorem PoolOk.step {α : Type} {names : List String} {S : List Nat} {w : World} {ps : List (DbProg α)}
    {rs : List (Except Err α)} {Os : Nat → List Nat} (h : PoolOk names S w ps rs Os) {t : Nat} {p : DbProg α}
    (hp : ps[t]? = some p) :
    (∃ Os', PoolOk names S (p.step w).1 (ps.set t (p.step w).2) rs Os') ∧ ∀ k ∈ S, Keeps w (p.step w).1 k := by
  obtain ⟨r, hr, hgv⟩ := h.gives t p hp
  obtain ⟨O', hm, hgv'⟩ := DbProg.step_gives h.good hgv (h.alive t)
  have hother : ∀ t', t' ≠ t → Quiet names S (Os t') w (p.step w).1 := fun t' ht =>
    hm.quiet (fun k hk => ⟨h.apart t' k hk, h.disjoint t' t ht k hk⟩) (h.alive t')
  have hnew : ∀ k ∈ O', k ∉ S ∧ ∀ t', t' ≠ t → k ∉ Os t' := by
    intro k hk
    rcases hm.own k hk with h1 | h1
    · exact ⟨h.apart t k h1, fun t' ht => h.disjoint t t' (Ne.symm ht) k h1⟩
    · constructor
      · intro h2
        have := h.shared k h2
        rw [h1] at this; cases this
      · intro t' _ h2
        have := h.alive t' k h2
        rw [h1] at this; cases this
  refine ⟨⟨fun t' => if t' = t then O' else Os t', ?_⟩, hm.shared⟩
  refine ⟨hm.good, fun k hk => (hm.shared k hk).alive (h.shared k hk), ?_, ?_, ?_, ?_⟩
  · intro t' k hk
    by_cases e : t' = t
    · simp only [e, if_true] at hk
      exact hm.alive k hk
    · simp only [e, if_false] at hk
      exact (hother t' e).alive k hk
  · intro t' k hk
    by_cases e : t' = t
    · simp only [e, if_true] at hk
      exact (hnew k hk).1
    · simp only [e, if_false] at hk
      exact h.apart t' k hk
  · intro t1 t2 hne k hk
    by_cases e1 : t1 = t
    · have e2 : t2 ≠ t := fun e2 => hne (e1.trans e2.symm)
      simp only [e1, if_true] at hk
      simp only [e2, if_false]
      exact (hnew k hk).2 t2 e2
    · simp only [e1, if_false] at hk
      by_cases e2 : t2 = t
      · simp only [e2, if_true]
        intro h2
        exact (hnew k h2).2 t1 e1 hk
      · simp only [e2, if_false]
        exact h.disjoint t1 t2 hne k hk
  · intro t' p' hp'
    by_cases e : t' = t
    · subst e
      have hlt : t' < ps.length := (List.getElem?_eq_some_iff.1 hp).1
      rw [List.getElem?_set_self hlt] at hp'
      cases hp'
      exact ⟨r, hr, by simpa using hgv'⟩
    · rw [List.getElem?_set_ne (Ne.symm e)] at hp'
      obtain ⟨r', hr', hg'⟩ := h.gives t' p' hp'
      exact ⟨r', hr', by simpa [e] using hg'.mono (hother t' e)⟩

theorem PoolOk.run {α : Type} {names : List String} {S : List Nat} {w w' : World} {ps ps' : List (DbProg α)}
    {rs : List (Except Err α)} (hrun : ProgRuns w ps w' ps') :
    ∀ {Os : Nat → List Nat}, PoolOk names S w ps rs Os →
      (∃ Os', PoolOk names S w' ps' rs Os') ∧ ∀ k ∈ S, Keeps w w' k := by
  induction hrun with
  | refl => exact fun h => ⟨⟨_, h⟩, fun k _ => Keeps.refl _ k⟩
  | step hp _ ih =>
    intro Os h
    obtain ⟨⟨Os', h'⟩, hk⟩ := h.step hp
    obtain ⟨h1, h2⟩ := ih h'
    exact ⟨h1, fun k hS => (hk k hS).trans (h2 k hS)⟩

theorem progRuns_length {α : Type} {w w' : World} {ps ps' : List (DbProg α)} (h : ProgRuns w ps w' ps') :
    ps'.length = ps.length := by
  induction h with
  | refl => rfl
  | step _ _ ih => simpa using ih

/-- Whatever the interleaving, the tasks return their results and leave the shared datasets as they are. -/
theorem pool_results {α : Type} {names : List String} {S : List Nat} {w w' : World} {ps : List (DbProg α)}
    {rs outs : List (Except Err α)} (hg : Good names w) (hS : ∀ k ∈ S, (w.insts k).isSome)
    (hl : ps.length = rs.length)
    (h : ∀ (t : Nat) p, ps[t]? = some p → ∃ r, rs[t]? = some r ∧ Gives names S p [] w r)
    (hrun : ProgRuns w ps w' (outs.map .ret)) : outs = rs ∧ Good names w' ∧ ∀ k ∈ S, Keeps w w' k := by
  have h0 : PoolOk names S w ps rs fun _ => [] := ⟨hg, hS, by simp, by simp, by simp, h⟩
  obtain ⟨⟨Os, hf⟩, hk⟩ := h0.run hrun
  have hlen := progRuns_length hrun
  simp only [List.length_map] at hlen
  refine ⟨?_, hf.good, hk⟩
  apply List.ext_getElem?
  intro t
  cases ho : outs[t]? with
  | none =>
    symm
    rw [List.getElem?_eq_none_iff] at ho ⊢
    omega
  | some o =>
    obtain ⟨r, hr, hgv⟩ := hf.gives t (.ret o) (by rw [List.getElem?_map, ho]; rfl)
    rw [hr]
    exact congrArg some hgv

theorem pool_outcomes {α : Type} {names : List String} {S : List Nat} {w w' : World} {us : List Val}
    {task : Val → Nat → DbProg α} {res : Val → Nat → Except Err α} {outs : List (Except Err α)} (hg : Good names w)
    (hS : ∀ k ∈ S, (w.insts k).isSome) (h : ∀ u ∈ us, ∀ k, Gives names S (task u k) [] w (res u k))
    (hrun : ProgRuns w (us.zipIdx.map fun p => task p.1 p.2) w' (outs.map .ret)) :
    outs = us.zipIdx.map fun p => res p.1 p.2 := by
  refine (pool_results hg hS (by simp) ?_ hrun).1
  intro t p hp
  rw [List.getElem?_map] at hp ⊢
  obtain ⟨q, hq, rfl⟩ := Option.map_eq_some_iff.1 hp
  refine ⟨_, by rw [hq]; rfl, h _ ?_ _⟩
  have := List.mem_of_getElem? hq
  rw [List.mem_zipIdx_iff_getElem?] at this
  exact List.mem_of_getElem? this

/-! ## A run exists -/

theorem progRuns_trans {α : Type} {a b c : World} {ps qs rs : List (DbProg α)} (h1 : ProgRuns a ps b qs)
    (h2 : ProgRuns b qs c rs) : ProgRuns a ps c rs := by
  induction h1 with
  | refl => exact h2
  | step hp _ ih => exact .step hp (ih h2)

theorem progRuns_finish {α : Type} (p : DbProg α) : ∀ (w : World) (ps : List (DbProg α)) (t : Nat), ps[t]? = some p →
    ∃ w' r, ProgRuns w ps w' (ps.set t (.ret r)) := by
  have go : ∀ (q : DbProg α), (∀ (w : World) (ps : List (DbProg α)) (t : Nat), ps[t]? = some q →
      ∃ w' r, ProgRuns w ps w' (ps.set t (.ret r))) → ∀ (w w1 : World) (ps : List (DbProg α)) (t : Nat) (p : DbProg α),
      ps[t]? = some p → p.step w = (w1, q) → ∃ w' r, ProgRuns w ps w' (ps.set t (.ret r)) := by
    intro q hq w w1 ps t p hp he
    have hlt : t < ps.length := (List.getElem?_eq_some_iff.1 hp).1
    obtain ⟨w', r, hr⟩ := hq w1 (ps.set t q) t (by rw [List.getElem?_set_self hlt])
    refine ⟨w', r, .step hp ?_⟩
    rw [he]
    simpa using hr
  have hret : ∀ (x : Except Err α) (w : World) (ps : List (DbProg α)) (t : Nat), ps[t]? = some (.ret x) →
      ∃ w' r, ProgRuns w ps w' (ps.set t (.ret r)) := by
    intro x w ps t hp
    refine ⟨w, x, ?_⟩
    have : ps.set t (.ret x) = ps := by
      obtain ⟨hlt, he⟩ := List.getElem?_eq_some_iff.1 hp
      rw [← he]
      exact List.set_getElem_self hlt
    rw [this]
    exact .refl _ _
  induction p with
  | ret x => exact hret x
  | select i q k ih =>
    intro w ps t hp
    cases he : w.select i q true with
    | mk w1 res =>
      cases res with
      | ok j => exact go _ (ih j) w w1 ps t _ hp (by simp only [DbProg.step, he])
      | error e => exact go _ (hret (.error e)) w w1 ps t _ hp (by simp only [DbProg.step, he])
  | unique i c k ih =>
    intro w ps t hp
    cases he : w.unique i (some [c]) true with
    | mk w1 res =>
      cases res with
      | ok j => exact go _ (ih j) w w1 ps t _ hp (by simp only [DbProg.step, he])
      | error e => exact go _ (hret (.error e)) w w1 ps t _ hp (by simp only [DbProg.step, he])
  | read i op k ih =>
    intro w ps t hp
    cases he : w.read i op with
    | mk w1 res =>
      cases res with
      | ok j => exact go _ (ih j) w w1 ps t _ hp (by simp only [DbProg.step, he])
      | error e => exact go _ (hret (.error e)) w w1 ps t _ hp (by simp only [DbProg.step, he])
  | len i k ih =>
    intro w ps t hp
    cases he : w.len i with
    | some n => exact go _ (ih n) w w ps t _ hp (by simp only [DbProg.step, he])
    | none => exact go _ (hret (.error .crash)) w w ps t _ hp (by simp only [DbProg.step, he])
  | toId i raw idc a k ih =>
    intro w ps t hp
    cases he : w.toId i raw idc a with
    | ok v => exact go _ (ih v) w w ps t _ hp (by simp only [DbProg.step, he])
    | error e => exact go _ (hret (.error e)) w w ps t _ hp (by simp only [DbProg.step, he])
  | toRaw i raw idc n k ih =>
    intro w ps t hp
    cases he : w.toRaw i raw idc n with
    | ok v => exact go _ (ih v) w w ps t _ hp (by simp only [DbProg.step, he])
    | error e => exact go _ (hret (.error e)) w w ps t _ hp (by simp only [DbProg.step, he])
  | close i k ih =>
    intro w ps t hp
    exact go _ ih w (w.close i).1 ps t _ hp rfl

theorem progRuns_exists {α : Type} (w : World) (ps : List (DbProg α)) :
    ∃ (w' : World) (outs : List (Except Err α)), ProgRuns w ps w' (outs.map .ret) := by
  have : ∀ n, n ≤ ps.length → ∃ (w' : World) (outs : List (Except Err α)), outs.length = n ∧ ProgRuns w ps w' (outs.map .ret ++ ps.drop n) := by
    intro n
    induction n with
    | zero => exact fun _ => ⟨w, [], rfl, by simpa using .refl _ _⟩
    | succ n ih =>
      intro hn
      obtain ⟨w1, outs, hl, h1⟩ := ih (by omega)
      have hd : ps.drop n = ps[n] :: ps.drop (n + 1) := List.drop_eq_getElem_cons (by omega)
      rw [hd] at h1
      obtain ⟨w2, r, h2⟩ := progRuns_finish ps[n] w1 (outs.map .ret ++ ps[n] :: ps.drop (n + 1)) n
        (by rw [List.getElem?_append_right (by simp [hl])]; simp [hl])
      refine ⟨w2, outs ++ [r], by simp [hl], progRuns_trans h1 ?_⟩
      have e : (outs.map DbProg.ret ++ ps[n] :: ps.drop (n + 1)).set n (.ret r) = (outs ++ [r]).map .ret ++ ps.drop (n + 1) := by
        rw [List.set_append_right _ _ (by simp [hl])]
        simp only [List.length_map, hl, Nat.sub_self, List.set_cons_zero, List.map_append, List.map_cons, List.map_nil,
          List.append_assoc, List.singleton_append]
      rwa [e] at h2
  obtain ⟨w', outs, _, h⟩ := this ps.length (le_refl _)
  exact ⟨w', outs, by simpa using h⟩

/-! ## Listing the users -/

theorem dbUnique_keeps {names : List String} (hn : NamesOk names) {w w1 : World} (hg : Good names w) {i j : Nat}
    {m : Mem} (hp : plainOf w i = some (memPlain m)) {x : Inst} (hx : w.insts i = some x) {c : String}
    (hc : c ∈ m.cols) {vs : List Val} (h : dbUnique w i c = (w1, .ok (j, vs))) {k : Nat}
    (hk : (w.insts k).isSome) : Keeps w w1 k := by
  have hxc : x.columns = m.cols := by
    obtain ⟨x', _, _, hx', _, _, hpe⟩ := plain_inv hg hp
    rw [hx] at hx'; cases hx'
    exact (congrArg Plain.cols hpe).symm
  have hh : handleColumns x.columns (some [c]) = .ok [c] := by simp [handleColumns, hxc, hc]
  unfold dbUnique at h
  obtain ⟨g1, g2⟩ := step_good hn hg (op := .unique i (some [c]) true) (by simp [Admissible])
  simp only [runOp] at g1 g2
  cases hu : w.unique i (some [c]) true with
  | mk w0 res =>
    rw [hu] at h g1 g2
    cases res with
    | error e => cases h
    | ok j' =>
      simp only at h g1 g2
      obtain ⟨_, p, s3, s4⟩ := g2
      simp only [DbOp.inst, DbOp.effect] at s3 s4
      have e' := hu
      simp only [World.unique, hx, hh, World.inPlaceOrCopy, if_true] at e'
      obtain ⟨_, t2, _, t4, ⟨xi, a1, a2, a3, a4, _⟩, ⟨y, b1, b2, b3⟩, _⟩ := onCopy_touch hn hg hx
        (fun v j y hy => uniqueOn_touch hy [c]) e'
      have hkj : k ≠ j' := by
        rintro rfl
        rw [t2] at hk; cases hk
      have hk0 : Keeps w w0 k := by
        refine ⟨by rw [s4]; simp [setAt, hkj], fun z hz => ?_⟩
        by_cases hki : k = i
        · subst hki
          rw [hx] at hz; cases hz
          exact ⟨xi, a1, a2, a3, a4⟩
        · exact ⟨z, by rw [t4 k hki hkj]; exact hz, rfl, le_refl _, Steady.refl z⟩
      have hrw := read_world w0 j' (.values (some [c]))
      cases hrd : w0.read j' (.values (some [c])) with
      | mk w2 rr =>
        rw [hrd] at h hrw
        cases rr with
        | error e => cases h
        | ok r =>
          simp only [Prod.mk.injEq, Except.ok.injEq] at h
          obtain ⟨rfl, rfl, _⟩ := h
          simp only at hrw
          obtain ⟨_, r2, _⟩ := record_good hn g1 b1
          obtain ⟨t1, _⟩ := record_touch b1
          rw [hrw]
          exact hk0.trans (Keeps.same (t1.1 k hkj) (by rw [r2]))

/-! ## The claims -/

theorem and_of_right {p q : Prop} (h : q → p) (hq : q) : p ∧ q := ⟨h hq, hq⟩

theorem sameData_test {w : World} {i : Nat} {x : Inst} {m : Mem} (h : SameData w i x m) (he : Evaluable m) (ht : EvalTypes x) :
    Test w i m x.types x.nBefore :=
  ⟨⟨h.shows, x, h.object, rfl, le_refl _⟩, h.full, sameData_mem h, he, ht⟩

/-- **C109** (partial: users and items are integers and interactions numbers, the threshold is printed without
exponent, and either no negative items have to be generated or both tables have less than 5000 records; without the
last condition it is false, see `C109_fails`).  Whatever the interleaving of the tasks and whatever happened to the
datasets before, a ranking evaluation of a database test set gives for every user what the evaluation of the same
data in memory gives, and so reports the same results (C44). -/
theorem C109_ranking_partial (names : List String) (w : World) (hw : Reached names w) (test train : Nat) (x y : Inst)
    (m : Mem) (model : EvalModel) (hm : SameData w test x m) (ht : SameData w train y model.train) (he : Evaluable m)
    (het : Evaluable model.train) (hx : EvalTypes x) (hy : EvalTypes y) (a : EvalArgs) (thr : List Char)
    (hthr : Prints thr a.threshold) (hgen : NoGeneration a ∨ (x.nBefore < 5000 ∧ y.nBefore < 5000)) (n : Option Nat)
    (rngs : Nat → EvalRng) (outs : List (Except Err (Outcome EvalData)))
    (h : DbEvaluation w test n (fun u k => dbRankingUser model.asDb test train thr a u (rngs k)) outs) :
    rankingTasks model m a n rngs = .ok (outs.map rankingTask) ∧
    ∃ users, evalUsers m n = .ok users ∧ outs = rankingOutcomes model m a users rngs := by
  refine and_of_right (fun ⟨users, h1, h2⟩ => by rw [rankingTasks_eq h1, h2]) ?_
  obtain ⟨hn, hg⟩ := reached_good hw
  obtain ⟨w1, j, us, w', e, hrun⟩ := h
  obtain ⟨g1, hus, _⟩ := dbUnique_good hn hg (sameData_mem hm) hm.shows hm.object he.users.hasUser (by decide) e
  have keep : ∀ k, (w.insts k).isSome → Keeps w w1 k := fun k hk =>
    dbUnique_keeps hn hg hm.shows hm.object he.users.hasUser e hk
  have k1 := keep test (by rw [hm.object]; rfl)
  have k2 := keep train (by rw [ht.object]; rfl)
  have T1 := sameData_test hm he hx
  have T2 := sameData_test ht het hy
  have T1' : Test w1 test m x.types x.nBefore := ⟨T1.shows.keep k1, T1.full, T1.ok, T1.rows, T1.types⟩
  have T2' : Test w1 train model.train y.types y.nBefore := ⟨T2.shows.keep k2, T2.full, T2.ok, T2.rows, T2.types⟩
  refine ⟨us.take (n.getD us.length), by simp [evalUsers, hus, Except.map], ?_⟩
  refine pool_outcomes (S := [test, train]) (task := fun u k => dbRankingUser model.asDb test train thr a u (rngs k))
    (res := fun u k => rankingUser model m a u (rngs k)) g1 ?_ ?_ hrun
  · intro k hk
    simp only [List.mem_cons, List.not_mem_nil, or_false] at hk
    rcases hk with rfl | rfl
    · exact k1.alive (by rw [hm.object]; rfl)
    · exact k2.alive (by rw [ht.object]; rfl)
  · intro u hu k
    obtain ⟨vs, hvs, _, hin⟩ := uniqueVals_user he.users.hasUser (c := "user") (by decide)
    rw [hus] at hvs; cases hvs
    obtain ⟨r, hr, rfl⟩ := (hin u).1 (List.mem_of_mem_take hu)
    obtain ⟨i, hi⟩ := he.users.whole r hr
    rw [hi]
    exact gives_ranking hn T1' (fun _ _ => Keeps.refl _ _) T2' a hthr i (rngs k) hgen (answers_asDb _ _ _ _ _)

/-- **C109.** The same for recommendation evaluations: there the tables may have any size.  The recommended items are
integers, as those of a model whose items are integers. -/
theorem C109_recommendation_partial (names : List String) (w : World) (hw : Reached names w) (test : Nat) (x : Inst)
    (m : Mem) (model : EvalModel) (hm : SameData w test x m) (he : Evaluable m) (hx : EvalTypes x) (a : EvalArgs)
    (thr : List Char) (hthr : Prints thr a.threshold) (ks : List Nat) (low : Option ℚ)
    (hrec : ∀ u k recs, model.recommend u k a.novelty low = .ok recs → ∀ p ∈ recs, ∃ i : Int, p.2 = .num i)
    (n : Option Nat) (rngs : Nat → EvalRng) (outs : List (Except Err (Outcome EvalData)))
    (h : DbEvaluation w test n (fun u k => dbRecommendationUser model.asDb test thr a ks.max? low u (rngs k)) outs) :
    recommendationTasks model m a ks low n rngs = .ok (outs.map recommendationTask) ∧
    ∃ users, evalUsers m n = .ok users ∧ outs = recommendationOutcomes model m a ks low users rngs := by
  refine and_of_right (fun ⟨users, h1, h2⟩ => by rw [recommendationTasks_eq h1, h2]) ?_
  obtain ⟨hn, hg⟩ := reached_good hw
  obtain ⟨w1, j, us, w', e, hrun⟩ := h
  obtain ⟨g1, hus, _⟩ := dbUnique_good hn hg (sameData_mem hm) hm.shows hm.object he.users.hasUser (by decide) e
  have k1 := dbUnique_keeps hn hg hm.shows hm.object he.users.hasUser e (k := test)
    (by rw [hm.object]; rfl)
  have T1 := sameData_test hm he hx
  have T1' : Test w1 test m x.types x.nBefore := ⟨T1.shows.keep k1, T1.full, T1.ok, T1.rows, T1.types⟩
  refine ⟨us.take (n.getD us.length), by simp [evalUsers, hus, Except.map], ?_⟩
  have hS1 : ∀ k ∈ [test], (w1.insts k).isSome := by
    intro k hk
    simp only [List.mem_cons, List.not_mem_nil, or_false] at hk
    subst hk
    exact k1.alive (by rw [hm.object]; rfl)
  refine pool_outcomes (S := [test])
    (task := fun u k => dbRecommendationUser model.asDb test thr a ks.max? low u (rngs k))
    (res := fun u k => recommendationUser model m a ks.max? low u (rngs k)) g1 hS1 ?_ hrun
  · intro u hu k
    obtain ⟨vs, hvs, _, hin⟩ := uniqueVals_user he.users.hasUser (c := "user") (by decide)
    rw [hus] at hvs; cases hvs
    obtain ⟨r, hr, rfl⟩ := (hin u).1 (List.mem_of_mem_take hu)
    obtain ⟨i, hi⟩ := he.users.whole r hr
    rw [hi]
    exact gives_recommendation hn (by simp) hS1 T1' (fun _ _ => Keeps.refl _ _) a hthr _ low i (rngs k) (hrec _)
      (answers_asDb _ _ _ _ _)

/-- **C109.** There is such an evaluation, unless the list of users cannot be read (C102). -/
theorem C109_returns_partial (names : List String) (w : World) (hw : Reached names w) (test : Nat) (x : Inst)
    (m : Mem) (hm : SameData w test x m) (hred : ¬ UniqueReduces x (distinct m "user")) (n : Option Nat)
    (task : Val → Nat → DbProg (Outcome EvalData)) : ∃ outs, DbEvaluation w test n task outs := by
  obtain ⟨hn, hg⟩ := reached_good hw
  have hc : "user" ∈ m.cols := hm.full.1 (by simp)
  obtain ⟨vs, hvs, hlen, hin⟩ := unique_length hc (by decide)
  obtain ⟨w1, j, e1⟩ := dbUnique_returns hn hg (sameData_mem hm) hm.shows hm.object hm.full hc (by decide) hvs
    (by rw [hlen]; exact hred)
  obtain ⟨w', outs, h⟩ := progRuns_exists w1 ((vs.take (n.getD vs.length)).zipIdx.map fun p => task p.1 p.2)
  exact ⟨outs, w1, j, vs, w', e1, h⟩

/-! ## Large tables -/

/-- One selection of a task that runs alone. -/
theorem where_step {names : List String} (hn : NamesOk names) {w : World} (hg : Good names w) {i : Nat} {m : Mem}
    {T : Option (String → DType)} {B : Nat} (hs : Test w i m T B) {ws : List (List Char × SCond × List Char)} (hne : ws ≠ [])
    (hws : ∀ c ∈ ws, (Blank c.1 ∧ Blank c.2.2 ∧ c.2.1.lit.Writable ∧ (∃ q, c.2.1.lit.value = .num q)) ∧
      (c.2.1.col = "user" ∨ c.2.1.col = "interaction"))
    {Q : Row → Bool} (hQ : ∀ r ∈ m.rows, Sat ws r ↔ Q r = true) {q : List Char} (hq : q = queryText ws) {x : Inst}
    (hx : w.insts i = some x) :
    ∃ w' j y, w.select i q true = (w', .ok j) ∧ Good names w' ∧ j ≠ i ∧
      Test w' j { m with rows := m.rows.filter Q } T B ∧ Test w' i m T B ∧
      (∀ k, k ≠ i → (w.insts k).isSome → k ≠ j ∧ w'.insts k = w.insts k ∧ plainOf w' k = plainOf w k) ∧
      w'.insts j = some y ∧ (x.queries < 2 → y.queries = x.queries + 1 ∧ y.nBefore = x.nBefore ∧ y.direct = 0) := by
  subst hq
  have hcols : ∀ c ∈ ws, c.2.1.col ∈ m.cols := by
    intro c hc
    rcases (hws c hc).2 with h | h
    · rw [h]; exact hs.rows.users.hasUser
    · rw [h]; exact hs.full.1 (by simp)
  obtain ⟨x0, hx0, hT, hB⟩ := hs.shows.inst
  rw [hx] at hx0; cases hx0
  have hpre : SelectPre names ws (memPlain m) T := by
    apply selectPre_num hne
    intro c hc
    obtain ⟨⟨h1, h2, h3, h4⟩, h5⟩ := hws c hc
    refine ⟨h1, h2, ?_, h3, h4, hcols c hc, ?_, ?_⟩
    · rcases h5 with h | h <;> rw [h]
      · exact (by decide : NameOk "user")
      · exact (by decide : NameOk "interaction")
    · intro ty hty
      obtain ⟨t1, _, t3⟩ := hs.types ty hty
      rcases h5 with h | h <;> rw [h]
      · rw [t1]; decide
      · exact t3
    · intro r hr
      rcases h5 with h | h <;> rw [h]
      · obtain ⟨n, hn⟩ := hs.rows.users.whole r hr
        exact ⟨n, hn⟩
      · exact hs.rows.numbers r hr
  have hadm : Admissible names w (.select i ws true) := by
    intro p z hp hz
    rw [hs.shows.plain] at hp; cases hp
    rw [hx] at hz; cases hz
    rw [hT]; exact hpre
  obtain ⟨j, hj⟩ := works_good hn hg (op := .select i ws true) hs.shows.plain hadm ⟨hs.full, hcols⟩
  obtain ⟨g1, g2⟩ := step_good hn hg hadm
  rw [hj] at g2
  obtain ⟨_, p, s3, s4⟩ := g2
  simp only [DbOp.inst] at s3
  rw [hs.shows.plain] at s3; cases s3
  simp only [DbOp.effect] at s4
  simp only [runOp] at hj g1 s4
  have e : w.select i (queryText ws) true = ((w.select i (queryText ws) true).1, .ok j) := by rw [← hj]
  have e' := e
  unfold World.select World.inPlaceOrCopy at e'
  rw [if_pos rfl] at e'
  obtain ⟨_, t2, t3, t4, ⟨xi, a1, a2, a3, a4, _⟩, ⟨y, b1, b2, b3⟩, v, v1, v2⟩ := onCopy_touch hn hg hx
    (fun v j y hy => (selectOn_touch hy (queryText ws)).1) e'
  have hyq : x.queries < 2 → y.queries = x.queries + 1 ∧ y.nBefore = x.nBefore ∧ y.direct = 0 := by
    intro hq2
    obtain ⟨_, ht⟩ := selectOn_touch v1 (queryText ws)
    obtain ⟨y', c1, c2, c3, c4⟩ := ht hq2 (by rw [v2])
    rw [v2] at c1
    dsimp only at c1
    rw [b1] at c1; cases c1
    exact ⟨c2, c3, c4⟩
  refine ⟨_, j, y, e, g1, t3, ⟨⟨?_, y, b1, b2.trans hT, le_trans b3 hB⟩, hs.full, memOk_filter hs.ok Q,
    evaluable_filter hs.rows Q, hs.types⟩, ⟨⟨?_, xi, a1, a2.trans hT, le_trans a3 hB⟩, hs.full, hs.ok, hs.rows, hs.types⟩,
    ?_, b1, hyq⟩
  · rw [s4, ← select_plain hcols hQ]
    simp [setAt]
  · rw [s4]
    simp [setAt, Ne.symm t3, hs.shows.plain]
  · intro k hki hk
    have hkj : k ≠ j := by
      rintro rfl
      rw [t2] at hk; cases hk
    exact ⟨hkj, t4 k hki hkj, by rw [s4]; simp [setAt, hkj]⟩

/-- One read of a task that runs alone. -/
theorem values_step {names : List String} (hn : NamesOk names) {w : World} (hg : Good names w) {i : Nat} {m : Mem}
    {T : Option (String → DType)} {B : Nat} (hs : Test w i m T B) {cs : List String} (hc : cs ⊆ m.cols) {x : Inst}
    (hx : w.insts i = some x) :
    ∃ w', w.read i (.values (some cs)) =
        (w', .ok (.recs (m.rows.map fun r => (r.toRec m.cols).filter fun q => q.1 ∈ cs))) ∧ Good names w' ∧
      plainOf w' = plainOf w ∧ (∀ k, k ≠ i → w'.insts k = w.insts k) ∧
      (x.direct < 3 → w'.insts i = some { x with direct := x.direct + 1 }) := by
  obtain ⟨x0, hx0, hT, hB⟩ := hs.shows.inst
  let l : List Rec := m.rows.map fun r => (r.toRec m.cols).filter fun q => q.1 ∈ cs
  have h : Gives names [] (.read i (.values (some cs)) fun res => .ret (.ok res)) [i] w (.ok (.recs l)) :=
    gives_values hn (Or.inr (by simp)) hs.shows hs.full hc (by simp) fun _ _ => rfl
  obtain ⟨w', res, e, hm, hres⟩ := h w ⟨hg, by simp, fun _ _ => ⟨rfl, rfl⟩, by simp [hx]⟩
  have hres' : (Except.ok res : Except Err ReadRes) = .ok (.recs l) := hres
  cases hres'
  have hrw := read_world w i (.values (some cs))
  rw [e] at hrw
  simp only at hrw
  obtain ⟨_, r2, _⟩ := record_good hn hg hx
  obtain ⟨t1, t2⟩ := record_touch hx
  refine ⟨w', e, hm.good, by rw [hrw, r2], fun k hk => ?_, fun hd => ?_⟩
  · rw [hrw]; exact t1.1 k hk
  · rw [hrw]; exact t2 hd

/-- A task that runs alone ends with `r`. -/
def Ends {α : Type} (w : World) (p : DbProg α) (r : Except Err α) : Prop :=
  ∀ w' r', ProgRuns w [p] w' [.ret r'] → r' = r

theorem ends_ret {α : Type} (w : World) (x : Except Err α) : Ends w (.ret x) x := by
  intro w' r h
  generalize hp : [DbProg.ret x] = ps at h
  generalize hq : [DbProg.ret r] = qs at h
  induction h with
  | refl =>
    rw [← hp] at hq
    cases hq; rfl
  | @step v ps t p v' ps' hg _ ih =>
    subst hp
    have ht : t = 0 := by
      have := (List.getElem?_eq_some_iff.1 hg).1
      simp at this
      exact this
    subst ht
    simp only [List.getElem?_cons_zero, Option.some.injEq] at hg
    subst hg
    exact ih rfl hq

theorem ends_step {α : Type} {w w1 : World} {p q : DbProg α} {r : Except Err α} (he : p.step w = (w1, q)) (h : Ends w1 q r) :
    Ends w p r := by
  intro w' r' hr
  apply h w' r'
  cases hr with
  | refl =>
    cases he
    exact .refl _ _
  | @step _ _ t p' _ _ hp hrun =>
    have : t = 0 := by
      have := (List.getElem?_eq_some_iff.1 hp).1
      simp at this
      exact this
    subst this
    simp only [List.getElem?_cons_zero, Option.some.injEq] at hp
    subst hp
    rw [he] at hrun
    exact hrun

/-- **The full claim is false**: take any dataset read from a csv file and evaluate a model on the data it was trained
on.  A user whose positive records have less than 80% as many different items as the table has records, and at least
5000 less, and who needs generated negative items, gets an `AssertionError`, which the evaluation swallows: the user
does not count.  In memory the same user is evaluated (`exLarge_evaluated`). -/
theorem C109_fails (names : List String) (w : World) (hw : Reached names w) (test train : Nat) (x : Inst) (m : Mem)
    (model : EvalModel) (hm : SameData w test x m) (he : Evaluable m) (hx : EvalTypes x) (hq : x.queries = 0) (a : EvalArgs)
    (thr : List Char) (hthr : Prints thr a.threshold) (hte : a.trainEval = true) (hgen : a.generate = true) (n : NegArg)
    (hnn : a.nNeg = some n) (u : Int) (rng : EvalRng) (pos sampled : List Row)
    (hpos : pos = thresholdRows (some a.threshold) (recordsOf m.rows (.num u)))
    (hsam : samplePos pos a.nPos rng.pos = some sampled)
    (hneg : (belowThreshold a.threshold (recordsOf m.rows (.num u))).length < n.wanted sampled.length)
    (h0 : 0 < distinct { m with rows := pos } "item") (h1 : (distinct { m with rows := pos } "item" : ℚ) / x.nBefore < 8 / 10)
    (h2 : distinct { m with rows := pos } "item" + 5000 ≤ x.nBefore) (w' : World) (r : Except Err (Outcome EvalData))
    (hrun : ProgRuns w [dbRankingUser model.asDb test train thr a (.num u) rng] w' [.ret r]) : r = .error .assertion := by
  suffices h : Ends w (dbRankingUser model.asDb test train thr a (.num u) rng) (.error .assertion) from h w' r hrun
  obtain ⟨hn, hg⟩ := reached_good hw
  obtain ⟨lit, hwr, rfl, hval⟩ := hthr
  have T0 := sameData_test hm he hx
  have hic : "item" ∈ m.cols := he.items.hasItem
  have hxc : "interaction" ∈ m.cols := hm.full.1 (by simp)
  have bound : ∀ op, ∀ c ∈ [boundWritten op lit], (Blank c.1 ∧ Blank c.2.2 ∧ c.2.1.lit.Writable ∧
      (∃ q, c.2.1.lit.value = .num q)) ∧ (c.2.1.col = "user" ∨ c.2.1.col = "interaction") := by
    intro op c hc
    simp only [List.mem_singleton] at hc
    subst hc
    exact ⟨⟨by simp [boundWritten, Blank], by simp [boundWritten, Blank], hwr, _, hval⟩, Or.inr rfl⟩
  -- the records of the user
  obtain ⟨w1, uds, y1, e1, g1, _, tu, _, _, hy1, hf1⟩ := where_step hn hg T0 (ws := [eqWritten "user" u]) (by simp) (by
      intro c hc
      simp only [List.mem_singleton] at hc
      subst hc
      exact ⟨⟨by simp [eqWritten, Blank], by simp [eqWritten, Blank], trivial, u, rfl⟩, Or.inl rfl⟩)
    (Q := fun r => decide (r.get "user" = .num u)) (fun r _ => sat_eq "user" u r) (userQuery_written u) hm.object
  obtain ⟨q1, n1, d1⟩ := hf1 (by omega)
  unfold dbRankingUser
  refine ends_step (by simp only [DbProg.step, e1]; rfl) ?_
  -- the positive records
  obtain ⟨w2, ps, y2, e2, g2, hne2, tp, tu2, _, hy2, hf2⟩ := where_step hn g1 tu (ws := [boundWritten .ge lit]) (by simp)
    (bound _) (Q := geQ a.threshold) (fun r hr => sat_ge hval r (tu.rows.numbers r hr)) (boundQuery_ge lit) hy1
  obtain ⟨q2, n2, d2⟩ := hf2 (by omega)
  refine ends_step (by simp only [DbProg.step, e2]; rfl) ?_
  -- reading them
  obtain ⟨w3, e3, g3, p3, f3, i3⟩ := values_step hn g2 tp (cs := ["item", "interaction"]) (by
    intro c hc
    simp only [List.mem_cons, List.not_mem_nil, or_false] at hc
    rcases hc with rfl | rfl
    · exact hic
    · exact hxc) hy2
  have i3' := i3 (by omega)
  suffices hrest : Ends w3 (DbProg.select uds (boundQuery "<" lit.text) fun neg =>
      .read neg (.values (some ["item"])) fun res =>
      let negs := columnOf "item" res
      let first := pySample negs (min (n.wanted sampled.length) negs.length) rng.neg
      if first.length < n.wanted sampled.length then
        readItems ps fun items =>
        dbGenerate model.asDb a (.num u) uds [uds, ps, neg] (sampled.map (seen m.cols)) first (n.wanted sampled.length)
          (distinctVals items) rng
      else dbRank model.asDb a (.num u) uds [uds, ps, neg] (sampled.map (seen m.cols)) first rng) (.error .assertion) by
    simp only [hnn, hgen, hte, and_true, if_true]
    have hrows : (m.rows.filter fun r => decide (r.get "user" = .num u)).filter (geQ a.threshold) = pos := hpos.symm
    simp only [hrows] at e3
    cases hN : a.nPos with
    | none =>
      rw [hN] at hsam
      cases hsam
      unfold readPositives
      refine ends_step (by simp only [DbProg.step, e3]; rfl) ?_
      simp only [recsOf, List.map_map, List.length_map]
      exact hrest
    | some k =>
      rw [hN] at hsam
      simp only [samplePos] at hsam
      split at hsam
      · cases hsam
      · rename_i hlt
        cases hsam
        have hlen : w2.len ps = some pos.length := by
          obtain ⟨z, t, rows, hz, ht, hsh, hpe⟩ := plain_inv g2 tp.shows.plain
          unfold World.len
          rw [hz]
          have := congrArg (fun p : Plain => p.recs.length) hpe
          simp only [memPlain, List.length_map, hrows] at this
          simp only [Option.map_some, hsh.len, this]
        unfold readPositives
        refine ends_step (by simp only [DbProg.step, hlen]; rfl) ?_
        rw [if_neg hlt]
        refine ends_step (by simp only [DbProg.step, e3]; rfl) ?_
        rw [← pySample_map] at hrest
        simp only [recsOf, List.map_map]
        have hl : (pySample (pos.map (seen m.cols)) k rng.pos).length = (pySample pos k rng.pos).length := by
          rw [pySample_map, List.length_map]
        rw [← hl] at hrest
        exact hrest
  -- the negative records
  have huds : w3.insts uds = w2.insts uds := f3 uds (Ne.symm hne2)
  have tu3 : Test w3 uds { m with rows := m.rows.filter fun r => decide (r.get "user" = .num u) } x.types x.nBefore := by
    obtain ⟨z, hz, hz2, hz3⟩ := tu2.shows.inst
    exact ⟨⟨by rw [p3]; exact tu2.shows.plain, z, huds.trans hz, hz2, hz3⟩, tu2.full, tu2.ok, tu2.rows, tu2.types⟩
  obtain ⟨z3, hz3, _, _⟩ := tu3.shows.inst
  obtain ⟨w4, neg, y4, e4, g4, _, tn, _, f4, hy4, _⟩ := where_step hn g3 tu3 (ws := [boundWritten .lt lit]) (by simp)
    (bound _) (Q := ltQ a.threshold) (fun r hr => sat_lt hval r (tu3.rows.numbers r hr)) (boundQuery_lt lit) hz3
  refine ends_step (by simp only [DbProg.step, e4]; rfl) ?_
  obtain ⟨hpn, f4i, f4p⟩ := f4 ps hne2 (by rw [i3']; rfl)
  obtain ⟨w5, e5, g5, p5, f5, _⟩ := values_step hn g4 tn (cs := ["item"]) (by simpa using hic) hy4
  refine ends_step (by simp only [DbProg.step, e5]; rfl) ?_
  rw [column_values hic]
  have hnegs : (m.rows.filter fun r => decide (r.get "user" = .num u)).filter (ltQ a.threshold) =
      belowThreshold a.threshold (recordsOf m.rows (.num u)) := rfl
  rw [hnegs, if_pos (by rw [pySample_length _ _ _ (min_le_right _ _), List.length_map]; omega)]
  -- the distinct items
  have i5 : w5.insts ps = some { y2 with direct := y2.direct + 1 } := by rw [f5 ps hpn, f4i, i3']
  have hp5 : plainOf w5 ps = some (memPlain { m with rows := pos }) := by
    rw [p5, f4p, p3, tp.shows.plain, hpos]; rfl
  obtain ⟨vs, hvs, hlen, _⟩ := unique_length (m := { m with rows := pos }) (c := "item") hic (by decide)
  have hun := (unique_outcome hn g5 (m := { m with rows := pos }) (hpos ▸ tp.ok) hp5 i5 hm.full hic (by decide) hvs).2
    (by rw [hlen]; exact ⟨by simp only; omega, h0, by rw [show (({ y2 with direct := y2.direct + 1 } : Inst).nBefore) = x.nBefore by simp only; omega]; exact h1,
      by simp only; omega⟩) (Or.inr (by simp only; omega))
  unfold readItems
  have e6 : w5.unique ps (some ["item"]) true = ((w5.unique ps (some ["item"]) true).1, .error .assertion) := by rw [← hun]
  refine ends_step (by simp only [DbProg.step]; rw [e6]) ?_
  exact ends_ret _ _

/-! ## Concrete evaluations -/

/-- A model trained on the three records; it keeps the order of the items it ranks. -/
def exDbModel : EvalModel :=
  ⟨exBothMem, 30, fun _ items _ => .ok (items.map fun v => (1, v)), fun _ n _ _ => .ok ([(1, .num 10), (0, .num 7)].take n)⟩

/-- One positive and one generated negative item per user, threshold 4. -/
def exDbArgs : EvalArgs := ⟨4, some 1, some (.count 2), true, true, false⟩

/-- Random words. -/
def exDbRng (k : Nat) : EvalRng := ⟨fun _ => k, fun _ => k, [k, 3, 5], fun _ => 1⟩

theorem exBothMem_evaluable : Evaluable exBothMem := by
  have h : ∀ r ∈ exBothMem.rows, ∃ u i q : Nat, r.get "user" = .num u ∧ r.get "item" = .num i ∧ r.get "interaction" = .num q := by
    intro r hr
    simp only [exBothMem, List.mem_cons, List.not_mem_nil, or_false] at hr
    rcases hr with rfl | rfl | rfl
    · exact ⟨1, 10, 5, by decide⟩
    · exact ⟨1, 20, 3, by decide⟩
    · exact ⟨2, 10, 4, by decide⟩
  refine ⟨⟨by decide, rfl, fun r hr => ?_⟩, ⟨by decide, rfl, fun r hr => ?_⟩, fun r hr => ?_⟩
  · obtain ⟨u, _, _, h1, _⟩ := h r hr
    exact ⟨u, by rw [h1]; simp⟩
  · obtain ⟨_, i, _, _, h2, _⟩ := h r hr
    exact ⟨i, by rw [h2]; simp⟩
  · obtain ⟨_, _, q, _, _, h3⟩ := h r hr
    exact ⟨q, h3⟩

/-- The hypotheses hold for the three records read from a csv file, and the evaluations exist. -/
example : Reached exDbNames exWorld ∧ Evaluable exBothMem ∧ Prints "4".toList exDbArgs.threshold ∧
    (∃ x, SameData exWorld 0 x exBothMem ∧ EvalTypes x ∧ x.nBefore < 5000 ∧ ¬ UniqueReduces x (distinct exBothMem "user")) ∧
    (∃ outs, DbEvaluation exWorld 0 none (fun u k => dbRankingUser exDbModel.asDb 0 0 "4".toList exDbArgs u (exDbRng k)) outs) ∧
    ∃ outs, DbEvaluation exWorld 0 none
      (fun u k => dbRecommendationUser exDbModel.asDb 0 "4".toList exDbArgs (some 1) none u (exDbRng k)) outs := by
  have hw : Reached exDbNames exWorld :=
    ⟨exDbCols, _, _, [], by decide, by decide, by decide, by decide, trivial, rfl⟩
  have hx : ∃ x, SameData exWorld 0 x exBothMem ∧ EvalTypes x ∧ x.nBefore < 5000 ∧ ¬ UniqueReduces x (distinct exBothMem "user") := by
    refine ⟨_, ⟨by decide +kernel, rfl, by unfold FullCols; decide, by decide, rfl⟩, ?_, by decide, ?_⟩
    · intro ty h
      cases h
      exact ⟨rfl, rfl, by decide⟩
    · rintro ⟨h, _⟩
      exact absurd h (by decide)
  refine ⟨hw, exBothMem_evaluable, ⟨.int 4, trivial, by decide, by simp [SLit.value, exDbArgs]⟩, hx, ?_, ?_⟩
  · obtain ⟨x, h1, _, _, h4⟩ := hx
    exact C109_returns_partial exDbNames exWorld hw 0 x exBothMem h1 h4 none _
  · obtain ⟨x, h1, _, _, h4⟩ := hx
    exact C109_returns_partial exDbNames exWorld hw 0 x exBothMem h1 h4 none _

/-- The model of the large dataset. -/
def exLargeModel : EvalModel := { exDbModel with train := exLarge }

theorem exLarge_rows {r : Row} (h : r ∈ exLarge.rows) :
    r.get "user" = .num (1 : Int) ∧ r.get "item" = .num (10 : Int) ∧ r.get "interaction" = .num 5 := by
  simp only [exLarge, List.mem_map] at h
  obtain ⟨n, _, rfl⟩ := h
  simp [exDbRow, Row.get]

theorem exLarge_evaluable : Evaluable exLarge :=
  ⟨⟨by decide, rfl, fun _ hr => ⟨1, (exLarge_rows hr).1⟩⟩, ⟨by decide, rfl, fun _ hr => ⟨10, (exLarge_rows hr).2.1⟩⟩,
    fun _ hr => ⟨5, (exLarge_rows hr).2.2⟩⟩

theorem exLarge_all : recordsOf exLarge.rows (.num (1 : Int)) = exLarge.rows ∧
    thresholdRows (some exDbArgs.threshold) exLarge.rows = exLarge.rows ∧
    belowThreshold exDbArgs.threshold exLarge.rows = [] := by
  refine ⟨?_, ?_, ?_⟩
  · exact List.filter_eq_self.2 fun r hr => by simp only [(exLarge_rows hr).1, decide_true]
  · exact List.filter_eq_self.2 fun r hr => by simp only [(exLarge_rows hr).2.2]; decide
  · exact List.filter_eq_nil_iff.2 fun r hr => by simp only [(exLarge_rows hr).2.2]; decide

theorem exLarge_sample : samplePos exLarge.rows exDbArgs.nPos (exDbRng 0).pos = some [exDbRow 0 1 10 5] := by
  have hl : exLarge.rows.length = 5001 := by simp [exLarge]
  simp only [samplePos, exDbArgs, hl]
  rw [if_neg (by decide)]
  simp only [pySample, hl]
  simp [exLarge, exDbRng]

theorem distinctVals_const (v : Val) (n : Nat) : distinctVals (List.replicate (n + 1) v) = [v] := by
  simp only [List.replicate_succ, distinctVals]
  congr 1
  apply List.filter_eq_nil_iff.2
  intro x hx
  rw [mem_distinctVals] at hx
  simp [List.eq_of_mem_replicate hx]

theorem exLarge_items : exLarge.rows.map (·.get "item") = List.replicate (5000 + 1) (.num 10) := by
  simp only [exLarge, List.map_map]
  have : ((fun r : Row => r.get "item") ∘ fun n => exDbRow n 1 10 5) = fun _ : Nat => Val.num 10 := by
    funext n
    simp [exDbRow, Row.get]
  rw [this, List.map_const', List.length_range]

theorem exLarge_distinctItems : distinctVals (exLarge.rows.map (·.get "item")) = [.num 10] := by
  rw [exLarge_items]
  exact distinctVals_const (.num 10) 5000

theorem evaluated_of {m : Mem} (he : Evaluable m) (h1 : recordsOf m.rows (.num (1 : Int)) = m.rows)
    (h2 : thresholdRows (some exDbArgs.threshold) m.rows = m.rows) (h3 : belowThreshold exDbArgs.threshold m.rows = [])
    (hs : samplePos m.rows exDbArgs.nPos (exDbRng 0).pos = some [exDbRow 0 1 10 5])
    (hi : distinctVals (m.rows.map (·.get "item")) = [.num 10]) (train : Mem) :
    ∃ data, rankingUser { exDbModel with train := train } m exDbArgs (.num (1 : Int)) (exDbRng 0) = .ok (.done data) := by
  obtain ⟨d, hd, hdr, hdc, hdt⟩ := userDs_int he.users 1
  have hrows : d.rows = m.rows := hdr.trans h1
  have hneg : negativesOf { exDbModel with train := train } exDbArgs (.num (1 : Int)) m.rows [exDbRow 0 1 10 5].length []
      (exDbRng 0) = .ok (.done [.num 0, .num 3]) := by
    unfold negativesOf blacklist
    simp only [show exDbArgs.trainEval = true from rfl, if_true, hi]
    have hg : genLoop 30 [.num 10] 2 [] [0, 3, 5] = some [.num 0, .num 3] := by decide +kernel
    have e1 : exDbArgs.nNeg = some (.count 2) := rfl
    have e2 : exDbArgs.generate = true := rfl
    have e3 : exDbModel.nItems = 30 := rfl
    have e4 : (exDbRng 0).items = [0, 3, 5] := rfl
    simp [e1, e2, e3, e4, NegArg.wanted, pySample, hg]
  unfold rankingUser
  rw [hd]
  simp only [hrows, h2, h3, hs, hneg, rankData]
  rw [if_neg (by simp)]
  simp only [exDbModel]
  rw [relevanciesOf_eq (ds := m) (u := .num (1 : Int)) hdr (by rw [hdc]; exact he.items.hasItem) (by rw [hdt]; exact he.items.int)]
  · exact ⟨_, rfl⟩
  · intro v hv
    have := pySample_subset _ _ _ hv
    simp only [List.map_cons, List.map_nil, List.cons_append, List.nil_append, List.mem_cons, List.not_mem_nil, or_false] at this
    rcases this with rfl | rfl | rfl
    · exact ⟨10, by decide⟩
    · exact ⟨0, by simp⟩
    · exact ⟨3, by simp⟩

/-- In memory, the user of the large dataset is evaluated. -/
theorem exLarge_evaluated : ∃ data, rankingUser exLargeModel exLarge exDbArgs (.num (1 : Int)) (exDbRng 0) = .ok (.done data) :=
  evaluated_of exLarge_evaluable exLarge_all.1 exLarge_all.2.1 exLarge_all.2.2 exLarge_sample exLarge_distinctItems exLarge

/-- In the database, the same user is not. -/
theorem C109_example (w' : World) (r : Except Err (Outcome EvalData))
    (hrun : ProgRuns (World.ofCsv exDbCols (fun _ => .int) exLarge.rows)
      [dbRankingUser exLargeModel.asDb 0 0 "4".toList exDbArgs (.num (1 : Int)) (exDbRng 0)] w' [.ret r]) :
    r = .error .assertion := by
  obtain ⟨h1, h2, h3⟩ := exLarge_all
  have hn : tableCols ⊆ exDbNames ∧ "uid" ∈ exDbNames ∧ "iid" ∈ exDbNames := by decide
  have hsort : exLarge.rows.Pairwise fun a b => a.rid < b.rid := by
    simp only [exLarge, List.pairwise_map, exDbRow]
    exact List.pairwise_lt_range
  obtain ⟨_, p0⟩ := ofCsv_good hn (fun _ => .int) exLarge.rows (cols := exDbCols) (by decide) (by decide) hsort
  have hp0 : plainOf (runOps (World.ofCsv exDbCols (fun _ => .int) exLarge.rows) []) 0 = some (memPlain exLarge) := by
    simp only [runOps, p0, if_true]
    rfl
  have hd : distinct { exLarge with rows := exLarge.rows } "item" = 1 := by
    unfold distinct
    rw [exLarge_items, List.replicate_dedup (by decide)]
    rfl
  have hl : exLarge.rows.length = 5001 := by simp [exLarge]
  refine C109_fails exDbNames _ ⟨exDbCols, _, exLarge.rows, [], hn, by decide, by decide, hsort, trivial, rfl⟩ 0 0
    ⟨exDbCols, .table, 0, false, some (fun _ => .int), exLarge.rows.length, exLarge.rows.length, 0, 0⟩ exLarge exLargeModel
    ⟨hp0, rfl, by unfold FullCols; decide, hsort, rfl⟩ exLarge_evaluable ?_ rfl exDbArgs "4".toList
    ⟨.int 4, trivial, by decide, by simp [SLit.value, exDbArgs]⟩ rfl rfl (.count 2) rfl 1 (exDbRng 0) exLarge.rows
    [exDbRow 0 1 10 5] (by rw [h1]; exact h2.symm) exLarge_sample ?_ ?_ ?_ ?_ w' r hrun
  · intro ty h
    cases h
    exact ⟨rfl, rfl, by decide⟩
  · rw [h1, h3]
    decide
  · rw [hd]; decide
  · rw [hd, hl]; norm_num
  · rw [hd, hl]

/-- What the three records give: recommended and relevant items. -/
example : (rankingOutcomes exDbModel exBothMem exDbArgs [Val.num 1, Val.num 2] exDbRng).map (fun o => match o with
      | .ok (.done d) => (d.recs, d.relevancies)
      | _ => ([], [])) =
    [([Val.num 20, Val.num 0, Val.num 10], [(Val.num 20, 3), (Val.num 0, 0), (Val.num 10, 5)]),
      ([Val.num 1, Val.num 3, Val.num 10], [(Val.num 1, 0), (Val.num 3, 0), (Val.num 10, 4)])] := by decide +kernel

end DRec.Conc
