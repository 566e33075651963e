import Verif.Spec.ScoreOrder
import Verif.Props.Evaluation
import Verif.Props.Vectors
import Mathlib.Tactic.Linarith

/-! # C118: only the order of the scores matters -/

namespace DRec

open Spec

/-- Lists of scores and items that belong together. -/
def AlikeLists (s s' : Nat → Option ℚ) (l l' : List (ℚ × Nat)) : Prop :=
  ∃ L : List (ℚ × ℚ × Nat), l = L.map (fun t => (t.1, t.2.2)) ∧ l' = L.map (fun t => (t.2.1, t.2.2)) ∧
    ∀ t ∈ L, s t.2.2 = some t.1 ∧ s' t.2.2 = some t.2.1

theorem AlikeLists.items {s s' : Nat → Option ℚ} {l l' : List (ℚ × Nat)} (h : AlikeLists s s' l l') :
    l.map Prod.snd = l'.map Prod.snd := by
  obtain ⟨L, rfl, rfl, _⟩ := h
  simp

theorem alike_filterMap {s s' : Nat → Option ℚ} (h : ∀ i, (s i).isSome = (s' i).isSome) (is : List Nat) :
    AlikeLists s s' (is.filterMap fun i => (s i).map (·, i)) (is.filterMap fun i => (s' i).map (·, i)) := by
  induction is with
  | nil => exact ⟨[], rfl, rfl, by simp⟩
  | cons i is ih =>
    obtain ⟨L, h1, h2, h3⟩ := ih
    have hi := h i
    cases hs : s i with
    | none =>
      cases hs' : s' i with
      | none => exact ⟨L, by simp [hs, h1], by simp [hs', h2], h3⟩
      | some y => simp [hs, hs'] at hi
    | some x =>
      cases hs' : s' i with
      | none => simp [hs, hs'] at hi
      | some y =>
        refine ⟨(x, y, i) :: L, by simp [hs, h1], by simp [hs', h2], ?_⟩
        intro t ht
        rcases List.mem_cons.1 ht with rfl | ht
        · exact ⟨hs, hs'⟩
        · exact h3 t ht

theorem alike_nlargest {s s' : Nat → Option ℚ} {l l' : List (ℚ × Nat)} (h : AlikeLists s s' l l')
    (ho : ∀ i j x y x' y', s i = some x → s j = some y → s' i = some x' → s' j = some y' → (x < y ↔ x' < y')) (n : Nat) :
    AlikeLists s s' (nlargest n l) (nlargest n l') := by
  obtain ⟨L, rfl, rfl, h3⟩ := h
  let r : ℚ × ℚ × Nat → ℚ × ℚ × Nat → Prop := fun a b => pairGe (a.1, a.2.2) (b.1, b.2.2)
  have : DecidableRel r := fun a b => by unfold r; infer_instance
  have e1 := List.map_insertionSort r pairGe (fun t : ℚ × ℚ × Nat => (t.1, t.2.2)) L (fun a _ b _ => Iff.rfl)
  have e2 := List.map_insertionSort r pairGe (fun t : ℚ × ℚ × Nat => (t.2.1, t.2.2)) L (by
    intro a ha b hb
    obtain ⟨a1, a2⟩ := h3 a ha
    obtain ⟨b1, b2⟩ := h3 b hb
    have o1 := ho _ _ _ _ _ _ a1 b1 a2 b2
    have o2 := ho _ _ _ _ _ _ b1 a1 b2 a2
    have o3 : b.1 = a.1 ↔ b.2.1 = a.2.1 := by
      constructor
      · intro e
        exact le_antisymm (not_lt.1 fun k => absurd (o1.2 k) (by rw [e]; exact lt_irrefl _))
          (not_lt.1 fun k => absurd (o2.2 k) (by rw [e]; exact lt_irrefl _))
      · intro e
        exact le_antisymm (not_lt.1 fun k => absurd (o1.1 k) (by rw [e]; exact lt_irrefl _))
          (not_lt.1 fun k => absurd (o2.1 k) (by rw [e]; exact lt_irrefl _))
    simp only [r, pairGe]
    rw [o2, o3])
  refine ⟨(L.insertionSort r).take n, ?_, ?_, ?_⟩
  · rw [nlargest, ← e1, List.map_take]
  · rw [nlargest, ← e2, List.map_take]
  · intro t ht
    exact h3 t ((List.mem_insertionSort r).1 (List.mem_of_mem_take ht))

/-- Two `_rank` methods that raise the same or return lists that belong together. -/
def AlikeRanks (s s' : Nat → Nat → Option ℚ) (rk rk' : RankFn) : Prop :=
  ∀ uid iids n novelty, (∃ e, rk uid iids n novelty = .error e ∧ rk' uid iids n novelty = .error e) ∨
    ∃ l l', rk uid iids n novelty = .ok l ∧ rk' uid iids n novelty = .ok l' ∧ AlikeLists (s uid) (s' uid) l l'

theorem scored_alike {f f' : PredictFn ℚ} {uid : Nat}
    (he : ∀ i e, f (some uid) (some i) = .error e ↔ f' (some uid) (some i) = .error e) (is : List Nat) :
    (∃ e, is.mapM (scored f uid) = .error e ∧ is.mapM (scored f' uid) = .error e) ∨
    ∃ ps ps', is.mapM (scored f uid) = .ok ps ∧ is.mapM (scored f' uid) = .ok ps' ∧
      ps.filterMap id = is.filterMap (fun i => (scoreOf f uid i).map (·, i)) ∧
      ps'.filterMap id = is.filterMap (fun i => (scoreOf f' uid i).map (·, i)) := by
  induction is with
  | nil => exact .inr ⟨[], [], rfl, rfl, rfl, rfl⟩
  | cons i is ih =>
    cases hf : f (some uid) (some i) with
    | error e =>
      left
      have hf' := (he i e).1 hf
      exact ⟨e, by rw [List.mapM_cons]; simp [scored, hf, Except.map, bind, Except.bind],
        by rw [List.mapM_cons]; simp [scored, hf', Except.map, bind, Except.bind]⟩
    | ok p =>
      cases hf' : f' (some uid) (some i) with
      | error e => rw [(he i e).2 hf'] at hf; cases hf
      | ok p' =>
        have s1 : scored f uid i = .ok (p.map (·, i)) := by simp [scored, hf, Except.map]
        have s2 : scored f' uid i = .ok (p'.map (·, i)) := by simp [scored, hf', Except.map]
        have t1 : scoreOf f uid i = p := by simp [scoreOf, hf]
        have t2 : scoreOf f' uid i = p' := by simp [scoreOf, hf']
        rcases ih with ⟨e, e1, e2⟩ | ⟨ps, ps', e1, e2, e3, e4⟩
        · left
          exact ⟨e, by rw [List.mapM_cons, s1, e1]; rfl, by rw [List.mapM_cons, s2, e2]; rfl⟩
        · right
          refine ⟨p.map (·, i) :: ps, p'.map (·, i) :: ps', by rw [List.mapM_cons, s1, e1]; rfl,
            by rw [List.mapM_cons, s2, e2]; rfl, ?_, ?_⟩
          · rw [List.filterMap_cons, List.filterMap_cons, e3, t1]; rfl
          · rw [List.filterMap_cons, List.filterMap_cons, e4, t2]; rfl

theorem zipIdx_eq (l : List ℚ) (k : List Nat) :
    l.zipIdx.filter (fun p => p.2 ∈ k) = ((List.range l.length).filter (· ∈ k)).filterMap fun i => (l[i]?).map (·, i) := by
  have h : l.zipIdx = (List.range l.length).filterMap fun i => (l[i]?).map (·, i) := by
    have : (List.range l.length).filterMap (fun i => (l[i]?).map (·, i)) =
        (List.range l.length).map fun i => (l.getD i 0, i) := by
      rw [← List.filterMap_eq_map]
      apply List.filterMap_congr
      intro i hi
      have := List.mem_range.1 hi
      simp [this]
    rw [this]
    apply List.ext_getElem
    · simp
    · intro i h1 h2
      have : i < l.length := by simpa using h1
      simp [this]
  rw [h, List.filter_filterMap, List.filterMap_filter]
  apply List.filterMap_congr
  intro i hi
  have := List.mem_range.1 hi
  by_cases hk : i ∈ k <;> simp [this, hk]

theorem zipIdx_alike {p p' : List ℚ} (ha : ∀ i : Nat, (p[i]?).isSome = (p'[i]?).isSome) (k : List Nat) :
    AlikeLists (fun i => p[i]?) (fun i => p'[i]?) (p.zipIdx.filter fun q => q.2 ∈ k) (p'.zipIdx.filter fun q => q.2 ∈ k) := by
  have hl : p.length = p'.length := by
    apply le_antisymm
    · by_contra hc
      have := ha p'.length
      simp only [List.getElem?_eq_none (le_refl _), Option.isSome_none] at this
      rw [List.getElem?_eq_getElem (by omega)] at this
      cases this
    · by_contra hc
      have := ha p.length
      simp only [List.getElem?_eq_none (le_refl _), Option.isSome_none] at this
      rw [List.getElem?_eq_getElem (by omega)] at this
      cases this
  rw [zipIdx_eq, zipIdx_eq, hl]
  exact alike_filterMap ha _

theorem ordered_alike {m : Mem} {t t' : Option ℚ} {rk rk' : RankFn} (h : OrderedAlike m t t' rk rk') :
    ∃ s s', SameOrder s s' t t' ∧ AlikeRanks s s' rk rk' := by
  cases h with
  | base f f' h he =>
    refine ⟨_, _, h, ?_⟩
    intro uid iids n novelty
    unfold baseRank
    cases candidates m uid iids novelty with
    | error e => exact .inl ⟨e, rfl, rfl⟩
    | ok c =>
      rcases scored_alike (he uid) c with ⟨e, e1, e2⟩ | ⟨ps, ps', e1, e2, e3, e4⟩
      · exact .inl ⟨e, by simp only [e1], by simp only [e2]⟩
      · refine .inr ⟨_, _, by simp only [e1]; rfl, by simp only [e2]; rfl, ?_⟩
        rw [e3, e4]
        exact alike_nlargest (alike_filterMap (h.alike uid) c) (h.order uid) n
  | cdae p p' h =>
    refine ⟨_, _, h, ?_⟩
    intro uid iids n novelty
    unfold cdaeRank
    cases cdaeItems m uid iids novelty with
    | error e => exact .inl ⟨e, rfl, rfl⟩
    | ok c => exact .inr ⟨_, _, rfl, rfl, alike_nlargest (zipIdx_alike (h.alike uid) c) (h.order uid) n⟩
  | caser p p' h =>
    refine ⟨_, _, h, ?_⟩
    intro uid iids n novelty
    unfold caserRank
    cases ratedIids m uid with
    | error e => exact .inl ⟨e, rfl, rfl⟩
    | ok own =>
      cases novelty with
      | true => exact .inr ⟨_, _, rfl, rfl, alike_nlargest (zipIdx_alike (h.alike uid) _) (h.order uid) n⟩
      | false =>
        refine .inr ⟨_, _, rfl, rfl, ?_⟩
        have e : ∀ l : List ℚ, l.length ≤ max (p uid).length (p' uid).length →
            l.zipIdx = l.zipIdx.filter fun q => q.2 ∈ List.range (max (p uid).length (p' uid).length) := by
          intro l hl
          symm
          rw [List.filter_eq_self]
          intro q hq
          have := List.snd_lt_of_mem_zipIdx hq
          simp only [List.mem_range, decide_eq_true_eq]
          omega
        rw [e _ (le_max_left _ _), e _ (le_max_right _ _)]
        exact alike_nlargest (zipIdx_alike (h.alike uid) _) (h.order uid) n

theorem toRaw_items (ds : Mem) (l : List (ℚ × Nat)) : itemsOnly (toRaw ds l) = (l.map Prod.snd).mapM ds.iidToItem := by
  induction l with
  | nil => rfl
  | cons p l ih =>
    unfold toRaw at ih ⊢
    rw [List.mapM_cons, List.map_cons, List.mapM_cons, ← ih]
    cases ds.iidToItem p.2 with
    | error e => rfl
    | ok v =>
      cases l.mapM fun p : ℚ × Nat => (ds.iidToItem p.2).map fun v => (p.1, v) <;> rfl

/-- **C118** for `rank`: recommenders whose scores order the items in the same way rank them in the same way. -/
theorem C118_rank (m : Mem) (t t' : Option ℚ) (rk rk' : RankFn) (h : OrderedAlike m t t' rk rk') (user : Lit)
    (items : List Lit) (novelty skip : Bool) (n : Option Nat) :
    itemsOnly (rank m rk user items novelty skip n) = itemsOnly (rank m rk' user items novelty skip n) := by
  obtain ⟨s, s', _, ha⟩ := ordered_alike h
  unfold rank
  cases m.userToUid user with
  | error e => rfl
  | ok o =>
    cases o with
    | none => rfl
    | some uid =>
      cases knownIids m skip items with
      | error e => rfl
      | ok iids =>
        simp only
        split
        · rfl
        · rcases ha uid iids (n.getD iids.length) novelty with ⟨e, e1, e2⟩ | ⟨l, l', e1, e2, e3⟩
          · simp only [e1, e2]
          · simp only [e1, e2, toRaw_items, e3.items]

theorem recommendIids_filter (nItems : Nat) (rk : RankFn) (uid n : Nat) (novelty : Bool) (t : Option ℚ) :
    recommendIids nItems rk uid n novelty t =
      (rk uid (List.range nItems) n novelty).map fun l => l.filter fun p => ∀ q ∈ t, q ≤ p.1 := by
  unfold recommendIids
  cases t <;> simp

/-- **C118** for `recommend`, with thresholds that separate the same items. -/
theorem C118_recommend (m : Mem) (t t' : Option ℚ) (rk rk' : RankFn) (h : OrderedAlike m t t' rk rk') (user : Lit)
    (n : Option Nat) (novelty : Bool) :
    itemsOnly (recommend m rk user n novelty t) = itemsOnly (recommend m rk' user n novelty t') := by
  obtain ⟨s, s', ho, ha⟩ := ordered_alike h
  unfold recommend
  cases m.userToUid user with
  | error e => rfl
  | ok o =>
    cases o with
    | none => rfl
    | some uid =>
      simp only [recommendIids_filter]
      rcases ha uid (List.range (nItemsOf m)) (n.getD (nItemsOf m)) novelty with ⟨e, e1, e2⟩ | ⟨l, l', e1, e2, e3⟩
      · simp only [e1, e2, Except.map]
      · simp only [e1, e2, Except.map, toRaw_items]
        obtain ⟨L, rfl, rfl, h3⟩ := e3
        congr 1
        rw [List.filter_map, List.filter_map, List.map_map, List.map_map]
        have : L.filter ((fun p : ℚ × Nat => decide (∀ q ∈ t, q ≤ p.1)) ∘ fun t => (t.1, t.2.2)) =
            L.filter ((fun p : ℚ × Nat => decide (∀ q ∈ t', q ≤ p.1)) ∘ fun t => (t.2.1, t.2.2)) := by
          apply List.filter_congr
          intro a ha
          simp only [Function.comp_apply, decide_eq_decide]
          exact ho.cut _ _ _ _ (h3 a ha).1 (h3 a ha).2
        rw [this]
        rfl

theorem rawPairs_items {r r' : Except Err (List (ℚ × Option Val))} (h : itemsOnly r = itemsOnly r') :
    (∃ e, r.map rawPairs = .error e ∧ r'.map rawPairs = .error e) ∨
      ∃ l l', r.map rawPairs = .ok l ∧ r'.map rawPairs = .ok l' ∧ l.map Prod.snd = l'.map Prod.snd := by
  cases r with
  | error e =>
    cases r' with
    | error e' => simp only [itemsOnly, Except.map, Except.error.injEq] at h; exact .inl ⟨e, rfl, by rw [h]; rfl⟩
    | ok l' => cases h
  | ok l =>
    cases r' with
    | error e' => cases h
    | ok l' =>
      simp only [itemsOnly, Except.map, Except.ok.injEq] at h
      refine .inr ⟨_, _, rfl, rfl, ?_⟩
      have e : ∀ k : List (ℚ × Option Val), (rawPairs k).map Prod.snd = (k.map Prod.snd).map (·.getD .null) := by
        intro k; simp [rawPairs]
      rw [e, e, h]

theorem rankData_alike {m : Mem} {t t' : Option ℚ} {rk rk' : RankFn} (h : OrderedAlike m t t' rk rk') (a : EvalArgs)
    (user : Val) (uds : Mem) (sampled : List Row) (neg : List Val) (rng : EvalRng) :
    rankData (rankedModel m rk) a user uds sampled neg rng = rankData (rankedModel m rk') a user uds sampled neg rng := by
  unfold rankData
  simp only [rankedModel]
  split
  · rfl
  · rcases rawPairs_items (C118_rank m t t' rk rk' h (idLit user)
      ((pySample (sampled.map (·.get "item") ++ neg) (sampled.map (·.get "item") ++ neg).length rng.shuffle).map idLit)
      a.novelty true none) with ⟨e, e1, e2⟩ | ⟨l, l', e1, e2, e3⟩
    · rw [e1, e2]
    · rw [e1, e2]
      simp only [e3]

theorem rankingUser_alike {m : Mem} {t t' : Option ℚ} {rk rk' : RankFn} (h : OrderedAlike m t t' rk rk') (ds : Mem)
    (a : EvalArgs) (user : Val) (rng : EvalRng) :
    rankingUser (rankedModel m rk) ds a user rng = rankingUser (rankedModel m rk') ds a user rng := by
  have hn : ∀ l k neg, negativesOf (rankedModel m rk) a user l k neg rng = negativesOf (rankedModel m rk') a user l k neg rng :=
    fun l k neg => rfl
  simp only [rankingUser, hn, rankData_alike h]

theorem recommendationUser_alike {m : Mem} {t t' : Option ℚ} {rk rk' : RankFn} (h : OrderedAlike m t t' rk rk') (ds : Mem)
    (a : EvalArgs) (n : Option Nat) (user : Val) (rng : EvalRng) :
    recommendationUser (rankedModel m rk) ds a n t user rng = recommendationUser (rankedModel m rk') ds a n t' user rng := by
  unfold recommendationUser
  cases userDs ds user with
  | error e => rfl
  | ok uds =>
    simp only
    cases samplePos (thresholdRows (some a.threshold) uds.rows) a.nPos rng.pos with
    | none => rfl
    | some sampled =>
      simp only
      split
      · rfl
      · cases n with
        | none => rfl
        | some n =>
          simp only [rankedModel]
          rcases rawPairs_items (C118_recommend m t t' rk rk' h (idLit user) (some n) a.novelty) with
            ⟨e, e1, e2⟩ | ⟨l, l', e1, e2, e3⟩
          · rw [e1, e2]
          · rw [e1, e2]
            simp only [e3]

variable {K : Type} [Field K] [LinearOrder K] [FloorRing K]

/-- **C118** for `ranking_evaluation`: the two recommenders get the same results, for every interleaving of the tasks in
either evaluation. -/
theorem C118_ranking_evaluation (m : Mem) (t t' : Option ℚ) (rk rk' : RankFn) (h : OrderedAlike m t t' rk rk') (test : Mem)
    (a : EvalArgs) (n : Option Nat) (rngs : Nat → EvalRng) (metrics : List (EvalMetric K))
    (hn : (metrics.map (·.name)).Nodup) (ks : List Nat) (tasks tasks' : List (List EAct))
    (ht : rankingTasks (rankedModel m rk) test a n rngs = .ok tasks)
    (ht' : rankingTasks (rankedModel m rk') test a n rngs = .ok tasks') (mem mem' : (v : EVar) → v.Ty K)
    (hr : EvalRun metrics ks tasks mem) (hr' : EvalRun metrics ks tasks' mem') (key : String × Nat) (x : K) :
    (key, x) ∈ evalResults metrics ks (mem .sums) ↔ (key, x) ∈ evalResults metrics ks (mem' .sums) := by
  cases hu : evalUsers test n with
  | error e => simp [rankingTasks, hu, Except.map] at ht
  | ok users =>
    rw [(C44_ranking _ test a n rngs metrics hn ks users hu tasks ht mem hr).1,
      (C44_ranking _ test a n rngs metrics hn ks users hu tasks' ht' mem' hr').1]
    have : rankingOutcomes (rankedModel m rk) test a users rngs = rankingOutcomes (rankedModel m rk') test a users rngs := by
      simp only [rankingOutcomes, rankingUser_alike h]
    rw [this]

/-- **C118** for `recommendation_evaluation`, with thresholds that separate the same items. -/
theorem C118_recommendation_evaluation (m : Mem) (t t' : Option ℚ) (rk rk' : RankFn) (h : OrderedAlike m t t' rk rk')
    (test : Mem) (a : EvalArgs) (n : Option Nat) (rngs : Nat → EvalRng) (metrics : List (EvalMetric K))
    (hn : (metrics.map (·.name)).Nodup) (ks : List Nat) (tasks tasks' : List (List EAct))
    (ht : recommendationTasks (rankedModel m rk) test a ks t n rngs = .ok tasks)
    (ht' : recommendationTasks (rankedModel m rk') test a ks t' n rngs = .ok tasks') (mem mem' : (v : EVar) → v.Ty K)
    (hr : EvalRun metrics ks tasks mem) (hr' : EvalRun metrics ks tasks' mem') (key : String × Nat) (x : K) :
    (key, x) ∈ evalResults metrics ks (mem .sums) ↔ (key, x) ∈ evalResults metrics ks (mem' .sums) := by
  cases hu : evalUsers test n with
  | error e => simp [recommendationTasks, hu, Except.map] at ht
  | ok users =>
    rw [(C44_recommendation _ test a n rngs t metrics hn ks users hu tasks ht mem hr).1,
      (C44_recommendation _ test a n rngs t' metrics hn ks users hu tasks' ht' mem' hr').1]
    have : recommendationOutcomes (rankedModel m rk) test a ks t users rngs =
        recommendationOutcomes (rankedModel m rk') test a ks t' users rngs := by
      simp only [recommendationOutcomes, recommendationUser_alike h]
    rw [this]

/-- **C118**, a strictly increasing change of the scores is of this kind, a different one for each user allowed. -/
theorem C118_increasing (s : Nat → Nat → Option ℚ) (g : Nat → ℚ → ℚ) (hg : ∀ u, StrictMono (g u)) :
    SameOrder s (fun u i => (s u i).map (g u)) none none where
  alike u i := by simp
  order u i j x y x' y' h1 h2 h3 h4 := by
    simp only [h1, h2, Option.map_some, Option.some.injEq] at h3 h4
    rw [← h3, ← h4, (hg u).lt_iff_lt]
  cut u i x x' _ _ := by simp [HighEnough]

/-- Scores between 0 and 2, and others in the same order: a threshold of 1 on one side is a threshold of 3 on the other. -/
example : OrderedAlike exIds (some 1) (some 3) (baseRank exIds fun _ i => .ok (i.map fun k : Nat => (k : ℚ)))
    (baseRank exIds fun _ i => .ok (i.map fun k : Nat => 2 * (k : ℚ) + 1)) ∧
    itemsOnly (recommend exIds (baseRank exIds fun _ i => .ok (i.map fun k : Nat => (k : ℚ))) (.str "u") none false (some 1)) =
      itemsOnly (recommend exIds (baseRank exIds fun _ i => .ok (i.map fun k : Nat => 2 * (k : ℚ) + 1)) (.str "u") none false (some 3)) ∧
    itemsOnly (recommend exIds (baseRank exIds fun _ i => .ok (i.map fun k : Nat => (k : ℚ))) (.str "u") none false (some 1)) =
      .ok [some (.str "c"), some (.str "b")] := by
  refine ⟨.base _ _ ⟨?_, ?_, ?_⟩ ?_, by decide +kernel, by decide +kernel⟩
  · intro u i; rfl
  · intro u i j x y x' y' h1 h2 h3 h4
    simp only [scoreOf, Option.map_some, Option.some.injEq] at h1 h2 h3 h4
    subst h1 h2 h3 h4
    constructor <;> intro h <;> linarith
  · intro u i x x' h1 h2
    simp only [scoreOf, Option.map_some, Option.some.injEq] at h1 h2
    subst h1 h2
    simp only [HighEnough, Option.mem_def, Option.some.injEq, forall_eq']
    constructor <;> intro h <;> linarith
  · intro u i e
    simp

end DRec
