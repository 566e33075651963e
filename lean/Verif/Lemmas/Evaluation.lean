import Verif.Spec.Evaluation
import Verif.Props.SplitThreads
import Mathlib.Tactic.Ring
import Mathlib.Tactic.FieldSimp
import Mathlib.Algebra.BigOperators.Group.List.Basic

/-! # Lemmas about evaluation processes -/

namespace DRec

open Spec

variable {K : Type} [Field K] [LinearOrder K] [FloorRing K]

/-! ## Sums -/

/-- What one user adds to an entry. -/
def contrib (metrics : List (EvalMetric K)) (ks : List Nat) (key : String × Nat) (d : EvalData) : List K :=
  (metricPairs metrics ks).filterMap fun p =>
    if (p.1.name, p.2) = key then (p.1.call d p.2).toOption else none

omit [LinearOrder K] [FloorRing K] in
theorem foldl_addMetric (d : EvalData) (key : String × Nat) (ps : List (EvalMetric K × Nat)) (s : Sums K) :
    ps.foldl (addMetric d) s key =
      ((s key).1 + (ps.filterMap fun p =>
          if (p.1.name, p.2) = key then (p.1.call d p.2).toOption else none).sum,
        (s key).2 + (ps.filterMap fun p =>
          if (p.1.name, p.2) = key then (p.1.call d p.2).toOption else none).length) := by
  induction ps generalizing s with
  | nil => simp
  | cons p ps ih =>
    rw [List.foldl_cons, ih, List.filterMap_cons]
    unfold addMetric
    cases hc : p.1.call d p.2 with
    | error e =>
      simp only [Except.toOption, ite_self]
    | ok v =>
      simp only [Except.toOption]
      by_cases hk : (p.1.name, p.2) = key
      · subst hk
        simp only [Function.update_self, if_true, List.sum_cons, List.length_cons]
        exact Prod.ext (by ring) (by simp only []; omega)
      · simp only [hk, if_false]
        rw [Function.update_of_ne (fun h => hk h.symm)]

omit [LinearOrder K] [FloorRing K] in
theorem addMetrics_apply (metrics : List (EvalMetric K)) (ks : List Nat) (d : EvalData) (s : Sums K)
    (key : String × Nat) :
    addMetrics metrics ks d s key =
      ((s key).1 + (contrib metrics ks key d).sum, (s key).2 + (contrib metrics ks key d).length) :=
  foldl_addMetric d key _ s

/-- The user evaluated by a section. -/
def evalOf : EAct → Option EvalData
  | .metrics d => some d
  | .count => none

/-- Does the section count the task? -/
def countsE : EAct → Bool
  | .metrics _ => false
  | .count => true

omit [LinearOrder K] [FloorRing K] in
theorem applyLog_eval (metrics : List (EvalMetric K)) (ks : List Nat) (log : List EAct)
    (m : (v : EVar) → v.Ty K) (key : String × Nat) :
    applyLog (log.map (EAct.sec metrics ks)) m .sums key =
      ((m .sums key).1 + ((log.filterMap evalOf).flatMap (contrib metrics ks key)).sum,
        (m .sums key).2 + ((log.filterMap evalOf).flatMap (contrib metrics ks key)).length) ∧
    applyLog (log.map (EAct.sec metrics ks)) m .done = m .done + log.countP countsE := by
  induction log generalizing m with
  | nil => exact ⟨by simp [applyLog], rfl⟩
  | cons a log ih =>
    obtain ⟨h1, h2⟩ := ih (applySec m (a.sec metrics ks))
    simp only [List.map_cons]
    show applyLog (log.map (EAct.sec metrics ks)) (applySec m (a.sec metrics ks)) .sums key = _ ∧
      applyLog (log.map (EAct.sec metrics ks)) (applySec m (a.sec metrics ks)) .done = _
    rw [h1, h2]
    cases a with
    | metrics d =>
      have e : applySec m ((EAct.metrics d).sec metrics ks) .sums =
          addMetrics metrics ks d (m .sums) := by
        simp [applySec, EAct.sec, Function.update]
      have e2 : applySec m ((EAct.metrics d).sec metrics ks) .done = m .done := by
        simp [applySec, EAct.sec, Function.update]
      rw [e, e2, addMetrics_apply]
      simp only [List.filterMap_cons, evalOf, List.flatMap_cons, List.sum_append, List.length_append,
        List.countP_cons, countsE]
      exact ⟨Prod.ext (by simp only []; ring) (by simp only []; omega), by simp⟩
    | count =>
      have e : applySec m (EAct.count.sec metrics ks) .sums = m .sums := by
        simp [applySec, EAct.sec, Function.update]
      have e2 : applySec m (EAct.count.sec metrics ks) .done = (m .done : Nat) + 1 := by
        simp [applySec, EAct.sec, Function.update]
      rw [e, e2]
      refine ⟨rfl, ?_⟩
      show (m .done : Nat) + 1 + log.countP countsE = (m .done : Nat) + (EAct.count :: log).countP countsE
      rw [List.countP_cons]
      simp only [countsE, if_true]
      exact Nat.add_right_comm _ _ _

omit [LinearOrder K] [FloorRing K] in
theorem perm_flatMap_sum {A : Type} {l l' : List A} (h : l.Perm l') (f : A → List K) :
    (l.flatMap f).sum = (l'.flatMap f).sum ∧ (l.flatMap f).length = (l'.flatMap f).length :=
  ⟨(h.flatMap_right f).sum_eq, (h.flatMap_right f).length_eq⟩

omit [LinearOrder K] [FloorRing K] in
theorem evalRun_mem {metrics : List (EvalMetric K)} {ks : List Nat} {tasks : List (List EAct)}
    {m : (v : EVar) → v.Ty K} (h : EvalRun metrics ks tasks m) :
    (∀ key, m .sums key =
      (((tasks.flatten.filterMap evalOf).flatMap (contrib metrics ks key)).sum,
        ((tasks.flatten.filterMap evalOf).flatMap (contrib metrics ks key)).length)) ∧
    m .done = tasks.flatten.countP countsE := by
  obtain ⟨n, c, hs, hc, rfl⟩ := h
  obtain ⟨log, hp, hm⟩ := steps_serial_map (EAct.sec metrics ks) evalInit tasks hs hc
  constructor
  · intro key
    rw [hm, (applyLog_eval metrics ks log evalInit key).1]
    obtain ⟨a, b⟩ := perm_flatMap_sum (hp.filterMap evalOf) (contrib metrics ks key)
    rw [a, b]
    simp [evalInit]
  · rw [hm, (applyLog_eval metrics ks log evalInit ("", 0)).2, hp.countP_eq]
    simp [evalInit]

omit [LinearOrder K] [FloorRing K] in
theorem evalRun_exists (metrics : List (EvalMetric K)) (ks : List Nat) (tasks : List (List EAct)) :
    ∃ m, EvalRun metrics ks tasks m := by
  obtain ⟨n, d, h1, h2⟩ := steps_extend (init_inv evalInit (tasks.map (List.map (EAct.sec metrics ks))))
  exact ⟨d.mem, n, d, h1, h2, rfl⟩

/-! ## A metric with its own name -/

omit [Field K] [LinearOrder K] [FloorRing K] in
theorem filterMap_none {A B : Type} (l : List A) (f : A → Option B) (h : ∀ x ∈ l, f x = none) :
    l.filterMap f = [] := by
  rw [List.filterMap_eq_nil_iff]; exact h

/-- A value repeated, or nothing. -/
def times {A : Type} (c : Nat) : Option A → List A
  | none => []
  | some v => List.replicate c v

omit [Field K] [LinearOrder K] [FloorRing K] in
/-- One metric contributes its value once per occurrence of `k`. -/
theorem contrib_one (mt : EvalMetric K) (k : Nat) (d : EvalData) (ks : List Nat) :
    (ks.map fun k' => (mt, k')).filterMap (fun p =>
      if (p.1.name, p.2) = (mt.name, k) then (p.1.call d p.2).toOption else none) =
      times (ks.count k) (mt.call d k).toOption := by
  induction ks with
  | nil => cases (mt.call d k).toOption <;> rfl
  | cons k' ks ih =>
    rw [List.map_cons, List.filterMap_cons, ih, List.count_cons]
    by_cases hk : k' = k
    · subst hk
      simp only [if_true, beq_self_eq_true]
      cases (mt.call d k').toOption <;> simp [times, List.replicate_succ]
    · simp [hk]

omit [Field K] [LinearOrder K] [FloorRing K] in
theorem contrib_distinct (metrics : List (EvalMetric K)) (hn : (metrics.map (·.name)).Nodup)
    (ks : List Nat) (mt : EvalMetric K) (hm : mt ∈ metrics) (k : Nat) (d : EvalData) :
    contrib metrics ks (mt.name, k) d =
      times (ks.count k) (mt.call d k).toOption := by
  unfold contrib metricPairs
  induction metrics with
  | nil => cases hm
  | cons a l ih =>
    rw [List.map_cons, List.nodup_cons] at hn
    rw [List.flatMap_cons, List.filterMap_append]
    rcases List.mem_cons.1 hm with rfl | hm
    · rw [contrib_one, filterMap_none, List.append_nil]
      intro p hp
      simp only [List.mem_flatMap, List.mem_map] at hp
      obtain ⟨a', ha', k', _, rfl⟩ := hp
      rw [if_neg]
      intro hc
      exact hn.1 (List.mem_map.2 ⟨a', ha', (Prod.mk.inj hc).1⟩)
    · rw [ih hn.2 hm, filterMap_none, List.nil_append]
      intro p hp
      simp only [List.mem_map] at hp
      obtain ⟨k', _, rfl⟩ := hp
      rw [if_neg]
      intro hc
      exact hn.1 ((Prod.mk.inj hc).1 ▸ List.mem_map.2 ⟨mt, hm, rfl⟩)

omit [LinearOrder K] [FloorRing K] in
theorem sum_replicated (mt : EvalMetric K) (c k : Nat) (ds : List EvalData) :
    (ds.flatMap fun d => times c (mt.call d k).toOption).sum =
      (c : K) * (computed mt k ds).sum ∧
    (ds.flatMap fun d => times c (mt.call d k).toOption).length =
      c * (computed mt k ds).length := by
  induction ds with
  | nil => simp [computed]
  | cons d ds ih =>
    simp only [computed] at ih
    simp only [List.flatMap_cons, List.sum_append, List.length_append, computed, List.filterMap_cons]
    rw [ih.1, ih.2]
    cases (mt.call d k).toOption with
    | none => simp [times]
    | some v =>
      simp only [times, List.sum_replicate, nsmul_eq_mul, List.length_replicate, List.sum_cons,
        List.length_cons]
      exact ⟨by ring, by ring⟩

variable [IsStrictOrderedRing K]

omit [IsStrictOrderedRing K] in
/-- The entry of a metric with a name of its own. -/
theorem result_distinct {metrics : List (EvalMetric K)} (hn : (metrics.map (·.name)).Nodup)
    {ks : List Nat} {mt : EvalMetric K} (hm : mt ∈ metrics) {k : Nat} (hk : k ∈ ks)
    (ds : List EvalData) :
    resultOf ((ds.flatMap (contrib metrics ks (mt.name, k))).sum,
      (ds.flatMap (contrib metrics ks (mt.name, k))).length) = reported (computed mt k ds) := by
  have e : contrib metrics ks (mt.name, k) =
      fun d => times (ks.count k) (mt.call d k).toOption :=
    funext fun d => contrib_distinct metrics hn ks mt hm k d
  rw [e, (sum_replicated mt _ k ds).1, (sum_replicated mt _ k ds).2]
  have hc : 0 < ks.count k := List.count_pos_iff.2 hk
  unfold resultOf reported
  by_cases hz : computed mt k ds = []
  · simp [hz]
  · have hl : 0 < (computed mt k ds).length := List.length_pos_iff.2 hz
    rw [if_neg hz, if_pos (Nat.mul_pos hc hl)]
    congr 1
    simp only [Nat.cast_mul]
    have h1 : (ks.count k : K) ≠ 0 := by exact_mod_cast hc.ne'
    have h2 : ((computed mt k ds).length : K) ≠ 0 := by exact_mod_cast hl.ne'
    field_simp

/-! ## Rounding -/

omit [FloorRing K] in
theorem round4_spec [FloorRing K] (x : K) :
    (∃ n : Int, round4 x = n / 10000) ∧ |round4 x - x| ≤ 1 / 20000 := by
  refine ⟨⟨_, rfl⟩, ?_⟩
  have key : ∀ y : K, |(roundHalfEven y : K) - y| ≤ 1 / 2 := by
    intro y
    have h1 : (⌊y⌋ : K) ≤ y := Int.floor_le y
    have h2 : y < ⌊y⌋ + 1 := Int.lt_floor_add_one y
    unfold roundHalfEven
    rw [abs_le]
    split
    · constructor <;> linarith
    · split
      · push_cast; constructor <;> linarith
      · have : y - ⌊y⌋ = 1 / 2 := le_antisymm (not_lt.1 (by assumption)) (not_lt.1 (by assumption))
        split
        · constructor <;> linarith
        · push_cast; constructor <;> linarith
  have := key (x * 10000)
  unfold round4
  rw [abs_le] at this ⊢
  constructor
  · have : -(1 / 20000 : K) = -(1/2) / 10000 := by norm_num
    rw [this]
    have e : (roundHalfEven (x * 10000) : K) / 10000 - x = ((roundHalfEven (x * 10000) : K) - x * 10000) / 10000 := by
      field_simp
    rw [e]
    exact (div_le_div_iff_of_pos_right (by norm_num)).2 (by linarith)
  · have e : (roundHalfEven (x * 10000) : K) / 10000 - x = ((roundHalfEven (x * 10000) : K) - x * 10000) / 10000 := by
      field_simp
    rw [e, div_le_iff₀ (by norm_num)]
    linarith

end DRec
