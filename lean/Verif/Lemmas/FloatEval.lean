import Verif.Lemmas.Float
import Verif.Props.Evaluation
import Verif.Spec.FloatEval

/-! # Lemmas about evaluation with sums in floating point -/

namespace DRec

open DRec.Spec

/-! ## Runs in a given order -/

section Order

variable {V : Type} [DecidableEq V] {α : V → Type}

theorem Steps.cons {n : Nat} {c c' d : Cfg α} (i : Nat) (h : c.step i = some c') (hs : Steps n c' d) :
    Steps (n + 1) c d := by
  induction hs with
  | refl => exact .step i (.refl _) h
  | step j _ hj ih => exact .step j (ih h) hj

theorem Steps.trans {n k : Nat} {c d e : Cfg α} (h1 : Steps n c d) (h2 : Steps k d e) : ∃ m, Steps m c e := by
  induction h2 with
  | refl => exact ⟨n, h1⟩
  | step j _ hj ih =>
    obtain ⟨m, hm⟩ := ih h1
    exact ⟨m + 1, .step j hm hj⟩

theorem steps_task (i : Nat) (secs : List (Sec α)) (c : Cfg α) (ho : ∀ v, c.owner v = none)
    (ht : c.thr[i]? = some (.idle secs)) :
    ∃ n, Steps n c { mem := applyLog secs c.mem, owner := c.owner, thr := c.thr.set i (.idle []) } := by
  induction secs generalizing c with
  | nil =>
    refine ⟨0, ?_⟩
    have : c.thr.set i (.idle []) = c.thr := by
      obtain ⟨hi, e⟩ := List.getElem?_eq_some_iff.1 ht
      rw [← e, List.set_getElem_self]
    rw [this]
    exact .refl c
  | cons s rest ih =>
    have hi : i < c.thr.length := (List.getElem?_eq_some_iff.1 ht).1
    let c1 : Cfg α := { c with owner := Function.update c.owner s.var (some i), thr := c.thr.set i (.locked s rest) }
    let c2 : Cfg α := { c1 with thr := c1.thr.set i (.loaded s (c1.mem s.var) rest) }
    let c3 : Cfg α := { c2 with
      mem := Function.update c2.mem s.var (s.upd (c1.mem s.var)), thr := c2.thr.set i (.stored s rest) }
    let c4 : Cfg α := { c3 with owner := Function.update c3.owner s.var none, thr := c3.thr.set i (.idle rest) }
    have s1 : c.step i = some c1 := by
      unfold Cfg.step
      rw [ht]
      simp only [ho, if_true, c1]
    have g1 : c1.thr[i]? = some (.locked s rest) := by simp [c1, hi]
    have s2 : c1.step i = some c2 := by
      unfold Cfg.step
      rw [g1]
    have g2 : c2.thr[i]? = some (.loaded s (c1.mem s.var) rest) := by simp [c2, c1, hi]
    have s3 : c2.step i = some c3 := by
      unfold Cfg.step
      rw [g2]
    have g3 : c3.thr[i]? = some (.stored s rest) := by simp [c3, c2, c1, hi]
    have s4 : c3.step i = some c4 := by
      unfold Cfg.step
      rw [g3]
    have ow : c4.owner = c.owner := by
      simp only [c4, c3, c2, c1, Function.update_idem]
      rw [← ho s.var, Function.update_eq_self]
    have g4 : c4.thr[i]? = some (.idle rest) := by simp [c4, c3, c2, c1, hi]
    obtain ⟨n, hn⟩ := ih c4 (by rw [ow]; exact ho) g4
    refine ⟨n + 1 + 1 + 1 + 1, .cons i s1 (.cons i s2 (.cons i s3 (.cons i s4 ?_)))⟩
    have e1 : applyLog rest c4.mem = applyLog (s :: rest) c.mem := rfl
    have e2 : c4.thr.set i (.idle []) = c.thr.set i (.idle []) := by
      simp only [c4, c3, c2, c1, List.set_set]
    rw [e1, ow, e2] at hn
    exact hn

theorem applyLog_append (a b : List (Sec α)) (m : (v : V) → α v) :
    applyLog (a ++ b) m = applyLog b (applyLog a m) := List.foldl_append

theorem steps_tasks (progs : List (List (Sec α))) (order : List Nat) (hn : order.Nodup) (c : Cfg α)
    (ho : ∀ v, c.owner v = none) (hi : ∀ i ∈ order, ∃ p, progs[i]? = some p ∧ c.thr[i]? = some (.idle p)) :
    ∃ n d, Steps n c d ∧ d.owner = c.owner ∧ d.thr.length = c.thr.length ∧
      (∀ i ∈ order, d.thr[i]? = some (.idle [])) ∧ (∀ i, i ∉ order → d.thr[i]? = c.thr[i]?) ∧
      d.mem = applyLog (order.flatMap fun i => progs[i]?.getD []) c.mem := by
  induction order generalizing c with
  | nil => exact ⟨0, c, .refl c, rfl, rfl, by simp, fun _ _ => rfl, rfl⟩
  | cons i is ih =>
    rw [List.nodup_cons] at hn
    obtain ⟨p, hp, ht⟩ := hi i (by simp)
    obtain ⟨n1, h1⟩ := steps_task i p c ho ht
    have hlt : i < c.thr.length := (List.getElem?_eq_some_iff.1 ht).1
    obtain ⟨n2, d, h2, h3, h4, h5, h6, h7⟩ := ih hn.2
      { mem := applyLog p c.mem, owner := c.owner, thr := c.thr.set i (.idle []) }
      ho (by
        intro j hj
        obtain ⟨q, hq, hjt⟩ := hi j (by simp [hj])
        refine ⟨q, hq, ?_⟩
        have : i ≠ j := fun e => hn.1 (e ▸ hj)
        simp only [List.getElem?_set_ne this, hjt])
    obtain ⟨m, hm⟩ := Steps.trans h1 h2
    refine ⟨m, d, hm, h3, by rw [h4]; simp, ?_, ?_, ?_⟩
    · intro j hj
      rcases List.mem_cons.1 hj with rfl | hj
      · rw [h6 j hn.1]; simp [hlt]
      · exact h5 j hj
    · intro j hj
      rw [List.mem_cons, not_or] at hj
      rw [h6 j hj.2]
      simp only [List.getElem?_set_ne (Ne.symm hj.1)]
    · rw [h7, List.flatMap_cons, applyLog_append, hp]
      rfl

/-- The tasks can run one after the other in every order. -/
theorem steps_order (m0 : (v : V) → α v) (progs : List (List (Sec α))) (order : List Nat)
    (ho : order.Perm (List.range progs.length)) :
    ∃ n c, Steps n (Cfg.init m0 progs) c ∧ c.Complete ∧
      c.mem = applyLog (order.flatMap fun i => progs[i]?.getD []) m0 := by
  obtain ⟨n, d, h1, _, h3, h4, _, h6⟩ := steps_tasks progs order (ho.nodup_iff.2 List.nodup_range) (Cfg.init m0 progs)
    (fun _ => rfl) (by
      intro i hi
      have : i < progs.length := List.mem_range.1 (ho.mem_iff.1 hi)
      exact ⟨progs[i], List.getElem?_eq_getElem this, by simp [Cfg.init, this]⟩)
  refine ⟨n, d, h1, ?_, h6⟩
  intro t ht
  obtain ⟨i, hi, rfl⟩ := List.getElem_of_mem ht
  have hl : i < progs.length := by
    rw [h3] at hi
    simpa [Cfg.init] using hi
  have := h4 i (ho.mem_iff.2 (List.mem_range.2 hl))
  rw [List.getElem?_eq_getElem hi] at this
  exact Option.some.inj this

end Order

/-! ## What a run adds up -/

section Log

variable {K : Type} [Field K] [LinearOrder K] [FloorRing K]

theorem foldl_addMetricFloat (d : EvalData) (key : String × Nat) (ps : List (EvalMetric K × Nat)) (s : Sums K) :
    ps.foldl (addMetricFloat d) s key =
      ((ps.filterMap fun p =>
          if (p.1.name, p.2) = key then (p.1.call d p.2).toOption else none).foldl (fun s x => toFloat (s + x)) (s key).1,
        (s key).2 + (ps.filterMap fun p =>
          if (p.1.name, p.2) = key then (p.1.call d p.2).toOption else none).length) := by
  induction ps generalizing s with
  | nil => simp
  | cons p ps ih =>
    rw [List.foldl_cons, ih, List.filterMap_cons]
    unfold addMetricFloat
    cases hc : p.1.call d p.2 with
    | error e => simp only [Except.toOption, ite_self]
    | ok v =>
      simp only [Except.toOption]
      by_cases hk : (p.1.name, p.2) = key
      · subst hk
        simp only [Function.update_self, if_true, List.foldl_cons, List.length_cons]
        exact Prod.ext rfl (by simp only []; omega)
      · simp only [hk, if_false]
        rw [Function.update_of_ne (fun h => hk h.symm)]

theorem applyLog_float (metrics : List (EvalMetric K)) (ks : List Nat) (log : List EAct)
    (m : (v : EVar) → v.Ty K) (key : String × Nat) :
    applyLog (log.map (EAct.secFloat metrics ks)) m .sums key =
      (((log.filterMap evalOf).flatMap (contrib metrics ks key)).foldl (fun s x => toFloat (s + x)) (m .sums key).1,
        (m .sums key).2 + ((log.filterMap evalOf).flatMap (contrib metrics ks key)).length) := by
  induction log generalizing m with
  | nil => simp [applyLog]
  | cons a log ih =>
    have h1 := ih (applySec m (a.secFloat metrics ks))
    simp only [List.map_cons]
    show applyLog (log.map (EAct.secFloat metrics ks)) (applySec m (a.secFloat metrics ks)) .sums key = _
    rw [h1]
    cases a with
    | metrics d =>
      have e : applySec m ((EAct.metrics d).secFloat metrics ks) .sums = addMetricsFloat metrics ks d (m .sums) := by
        simp [applySec, EAct.secFloat, Function.update]
      rw [e, addMetricsFloat, foldl_addMetricFloat]
      simp only [List.filterMap_cons, evalOf, List.flatMap_cons, List.foldl_append, List.length_append]
      exact Prod.ext rfl (by simp only [contrib]; omega)
    | count =>
      have e : applySec m (EAct.count.secFloat metrics ks) .sums = m .sums := by
        simp [applySec, EAct.secFloat, Function.update]
      rw [e]
      rfl

omit [Field K] [LinearOrder K] [FloorRing K] in
theorem contrib_once {metrics : List (EvalMetric K)} (hn : (metrics.map (·.name)).Nodup) {ks : List Nat}
    (hk : ks.Nodup) {mt : EvalMetric K} (hm : mt ∈ metrics) {k : Nat} (hks : k ∈ ks) (users : List EvalData) :
    users.flatMap (contrib metrics ks (mt.name, k)) = computed mt k users := by
  have e : contrib metrics ks (mt.name, k) = fun d => ((mt.call d k).toOption).toList := by
    funext d
    rw [contrib_distinct metrics hn ks mt hm k d, List.count_eq_one_of_mem hk hks]
    cases (mt.call d k).toOption <;> rfl
  rw [e, computed]
  induction users with
  | nil => rfl
  | cons d l ih =>
    rw [List.flatMap_cons, ih, List.filterMap_cons]
    cases (mt.call d k).toOption <;> rfl

theorem entry_float {metrics : List (EvalMetric K)} (hn : (metrics.map (·.name)).Nodup) {ks : List Nat}
    (hk : ks.Nodup) (log : List EAct) {mt : EvalMetric K} (hm : mt ∈ metrics) {k : Nat} (hks : k ∈ ks) :
    resultFloat (applyLog (log.map (EAct.secFloat metrics ks)) evalInit .sums (mt.name, k)) =
      floatReported (computed mt k (log.filterMap evalOf)) := by
  rw [applyLog_float, contrib_once hn hk hm hks]
  simp only [evalInit, resultFloat, floatReported, floatSum, Nat.zero_add]
  by_cases hz : computed mt k (log.filterMap evalOf) = []
  · simp [hz]
  · rw [if_neg hz, if_pos (List.length_pos_iff.2 hz)]

theorem results_float {metrics : List (EvalMetric K)} (hn : (metrics.map (·.name)).Nodup) {ks : List Nat}
    (hk : ks.Nodup) (log : List EAct) (key : String × Nat) (x : K) :
    (key, x) ∈ evalResultsFloat metrics ks (applyLog (log.map (EAct.secFloat metrics ks)) evalInit .sums) ↔
      ∃ mt ∈ metrics, ∃ k ∈ ks, key = (mt.name, k) ∧ x = floatReported (computed mt k (log.filterMap evalOf)) := by
  simp only [evalResultsFloat, List.mem_map, List.mem_dedup, metricPairs, List.mem_flatMap, Prod.mk.injEq]
  constructor
  · rintro ⟨key', ⟨p, ⟨mt, hmt, k, hks, rfl⟩, rfl⟩, rfl, rfl⟩
    exact ⟨mt, hmt, k, hks, rfl, entry_float hn hk log hmt hks⟩
  · rintro ⟨mt, hmt, k, hks, rfl, rfl⟩
    exact ⟨(mt.name, k), ⟨(mt, k), ⟨mt, hmt, k, hks, rfl⟩, rfl⟩, rfl, entry_float hn hk log hmt hks⟩

/-- Whatever the interleaving, the users are added up in some order. -/
theorem float_run {metrics : List (EvalMetric K)} (hn : (metrics.map (·.name)).Nodup) {ks : List Nat}
    (hk : ks.Nodup) {tasks : List (List EAct)} {m : (v : EVar) → v.Ty K} (hm : FloatRun metrics ks tasks m) :
    ∃ users : List EvalData, users.Perm (tasks.flatten.filterMap evalOf) ∧
      ∀ key x, (key, x) ∈ evalResultsFloat metrics ks (m .sums) ↔
        ∃ mt ∈ metrics, ∃ k ∈ ks, key = (mt.name, k) ∧ x = floatReported (computed mt k users) := by
  obtain ⟨n, c, hs, hc, rfl⟩ := hm
  obtain ⟨log, hp, hm⟩ := steps_serial_map (EAct.secFloat metrics ks) evalInit tasks hs hc
  refine ⟨log.filterMap evalOf, hp.filterMap _, fun key x => ?_⟩
  rw [hm]
  exact results_float hn hk log key x

omit [Field K] [LinearOrder K] [FloorRing K] in
theorem perm_filterMap_lift {A B : Type} (f : A → Option B) (vs : List B) (l : List A) (h : vs.Perm (l.filterMap f)) :
    ∃ l' : List A, l'.Perm l ∧ l'.filterMap f = vs := by
  induction vs generalizing l with
  | nil => exact ⟨l, .refl _, h.nil_eq.symm⟩
  | cons v vs ih =>
    obtain ⟨a, ha, hf⟩ := List.mem_filterMap.1 (h.subset (List.mem_cons_self (a := v)))
    obtain ⟨s, t, rfl⟩ := List.append_of_mem ha
    have h2 : (s ++ a :: t).Perm (a :: (s ++ t)) := List.perm_middle
    have h3 := h.trans (h2.filterMap f)
    rw [List.filterMap_cons, hf] at h3
    obtain ⟨l', hl, e⟩ := ih (s ++ t) ((List.perm_cons v).1 h3)
    exact ⟨a :: l', (hl.cons a).trans h2.symm, by rw [List.filterMap_cons, hf, e]⟩

omit [Field K] [LinearOrder K] [FloorRing K] in
theorem evaluated_cons (o : Except Err (Outcome EvalData)) (os : List (Except Err (Outcome EvalData))) :
    evaluated (o :: os) = evaluated [o] ++ evaluated os := by
  simp only [evaluated, List.filterMap_cons, List.filterMap_nil]
  rcases o with e | (_ | _ | d) <;> rfl

omit [Field K] [LinearOrder K] [FloorRing K] in
theorem evaluated_zipIdx (os : List (Except Err (Outcome EvalData))) (n : Nat) :
    evaluated os = (os.zipIdx n).filterMap fun p => (evaluated [p.1]).head? := by
  induction os generalizing n with
  | nil => rfl
  | cons o os ih =>
    rw [evaluated_cons, List.zipIdx_cons, List.filterMap_cons, ← ih]
    rcases o with e | (_ | _ | d) <;> rfl

/-- Every order of the users is the order of some run. -/
theorem float_order {metrics : List (EvalMetric K)} (hn : (metrics.map (·.name)).Nodup) {ks : List Nat}
    (hk : ks.Nodup) (task : Except Err (Outcome EvalData) → List EAct)
    (ht : ∀ o, (task o).filterMap evalOf = evaluated [o])
    (os : List (Except Err (Outcome EvalData))) (users : List EvalData) (hu : users.Perm (evaluated os)) :
    ∃ m, FloatRun metrics ks (os.map task) m ∧
      ∀ key x, (key, x) ∈ evalResultsFloat metrics ks (m .sums) ↔
        ∃ mt ∈ metrics, ∃ k ∈ ks, key = (mt.name, k) ∧ x = floatReported (computed mt k users) := by
  rw [evaluated_zipIdx os 0] at hu
  obtain ⟨z, hz, e⟩ := perm_filterMap_lift _ _ _ hu
  have hord : (z.map (·.2)).Perm (List.range ((os.map task).map (List.map (EAct.secFloat metrics ks))).length) := by
    have := hz.map (·.2)
    simpa [List.range_eq_range'] using this
  obtain ⟨n, c, hs, hc, hm⟩ := steps_order evalInit ((os.map task).map (List.map (EAct.secFloat metrics ks))) _ hord
  refine ⟨c.mem, ⟨n, c, hs, hc, rfl⟩, fun key x => ?_⟩
  have hl : ((z.map (·.2)).flatMap fun i => ((os.map task).map (List.map (EAct.secFloat metrics ks)))[i]?.getD []) =
      (z.flatMap fun p => task p.1).map (EAct.secFloat metrics ks) := by
    rw [List.flatMap_map, List.map_flatMap]
    refine List.flatMap_congr fun p hp => ?_
    have : os[p.2]? = some p.1 := by
      have := hz.subset hp
      simpa [List.mem_zipIdx_iff_getElem?] using this
    simp [this]
  have he : (z.flatMap fun p => task p.1).filterMap evalOf = users := by
    rw [← e]
    clear e hz hord hs hm hl
    induction z with
    | nil => rfl
    | cons p z ih =>
      rw [List.flatMap_cons, List.filterMap_append, ih, ht, List.filterMap_cons]
      rcases p.1 with e | (_ | _ | d) <;> rfl
  rw [hm, hl, ← he]
  exact results_float hn hk _ key x

end Log

/-! ## Rounding errors -/

section Error

variable {K : Type} [Field K] [LinearOrder K] [FloorRing K] [IsStrictOrderedRing K]

theorem floatSum_error_aux (xs : List K) (hx : ∀ x ∈ xs, 0 ≤ x) (s t : K) (i : Nat) (hi : i + xs.length ≤ 2 ^ 52)
    (ht : 0 ≤ t) (hst : |s - t| ≤ 2 * i * t / 2 ^ 53) :
    |xs.foldl (fun s x => toFloat (s + x)) s - (t + xs.sum)| ≤ 2 * ((i + xs.length : Nat) : K) * (t + xs.sum) / 2 ^ 53 := by
  induction xs generalizing s t i with
  | nil => simpa using hst
  | cons x xs ih =>
    rw [List.foldl_cons, List.sum_cons]
    have hx0 : 0 ≤ x := hx x (by simp)
    rw [List.length_cons] at hi
    have hi' : ((i : Nat) : K) ≤ 2 ^ 52 := by
      have : i ≤ 2 ^ 52 := by omega
      exact_mod_cast this
    have h1 := toFloat_error (s + x)
    have hu : |s + x| ≤ 2 * (t + x) := by
      have h2 : 2 * (i : K) * t / 2 ^ 53 ≤ t := by
        rw [div_le_iff₀ (by positivity)]
        nlinarith
      have h3 := abs_le.1 (hst.trans h2)
      rw [abs_le]
      constructor <;> linarith
    have hstep : |toFloat (s + x) - (t + x)| ≤ 2 * ((i + 1 : Nat) : K) * (t + x) / 2 ^ 53 := by
      have h4 : toFloat (s + x) - (t + x) = (toFloat (s + x) - (s + x)) + (s - t) := by ring
      rw [h4]
      refine (abs_add_le _ _).trans ?_
      have h5 : |s + x| / 2 ^ 53 ≤ 2 * (t + x) / 2 ^ 53 := div_le_div_of_nonneg_right hu (by positivity)
      have h6 : 2 * (i : K) * t / 2 ^ 53 ≤ 2 * (i : K) * (t + x) / 2 ^ 53 := by
        refine div_le_div_of_nonneg_right ?_ (by positivity)
        have : (0 : K) ≤ i := Nat.cast_nonneg i
        nlinarith [mul_nonneg this hx0]
      calc _ ≤ 2 * (t + x) / 2 ^ 53 + 2 * (i : K) * (t + x) / 2 ^ 53 :=
            add_le_add (h1.trans h5) (hst.trans h6)
        _ = _ := by push_cast; ring
    have := ih (fun y hy => hx y (by simp [hy])) (toFloat (s + x)) (t + x) (i + 1) (by omega) (by linarith) hstep
    rw [← add_assoc, List.length_cons]
    have e : i + (xs.length + 1) = i + 1 + xs.length := by omega
    rw [e]
    exact this

/-- The relative error of a sum of `n` numbers that are not negative is at most `n / 2 ^ 52`. -/
theorem floatSum_error (xs : List K) (hx : ∀ x ∈ xs, 0 ≤ x) (hl : xs.length ≤ 2 ^ 52) :
    |floatSum xs - xs.sum| ≤ xs.length * xs.sum / 2 ^ 52 := by
  have := floatSum_error_aux xs hx 0 0 0 (by omega) le_rfl (by simp)
  simp only [zero_add] at this
  refine this.trans (le_of_eq ?_)
  have : (2 : K) ^ 53 = 2 * 2 ^ 52 := by norm_num
  rw [this, mul_assoc, mul_div_mul_left _ _ (by norm_num)]

theorem floatMean_error (xs : List K) (hx : ∀ x ∈ xs, 0 ≤ x) (hne : xs ≠ []) (hl : xs.length ≤ 2 ^ 52) :
    |toFloat (floatSum xs / xs.length) - xs.sum / xs.length| ≤ (xs.length + 1) * (xs.sum / xs.length) / 2 ^ 52 := by
  have hn : (0 : K) < xs.length := by exact_mod_cast List.length_pos_iff.2 hne
  have hs : 0 ≤ xs.sum := List.sum_nonneg hx
  have h1 := floatSum_error xs hx hl
  have h2 : |floatSum xs / xs.length - xs.sum / xs.length| ≤ xs.length * (xs.sum / xs.length) / 2 ^ 52 := by
    rw [← sub_div, abs_div, abs_of_pos hn, div_le_iff₀ hn]
    refine h1.trans (le_of_eq ?_)
    field_simp
  have hm : 0 ≤ xs.sum / (xs.length : K) := div_nonneg hs hn.le
  have h3 : xs.length * (xs.sum / xs.length) / 2 ^ 52 ≤ xs.sum / (xs.length : K) := by
    rw [div_le_iff₀ (by positivity), mul_comm]
    refine mul_le_mul_of_nonneg_left ?_ hm
    exact_mod_cast hl
  have h4 := toFloat_error (floatSum xs / (xs.length : K))
  have h5 : |floatSum xs / (xs.length : K)| ≤ 2 * (xs.sum / xs.length) := by
    have := abs_le.1 (h2.trans h3)
    rw [abs_le]
    constructor <;> linarith
  have h6 : |floatSum xs / (xs.length : K)| / 2 ^ 53 ≤ (xs.sum / xs.length) / 2 ^ 52 := by
    have e : (2 : K) ^ 53 = 2 * 2 ^ 52 := by norm_num
    rw [div_le_div_iff₀ (by positivity) (by positivity), e]
    have : (0 : K) < 2 ^ 52 := by positivity
    nlinarith
  have e : toFloat (floatSum xs / xs.length) - xs.sum / xs.length =
      (toFloat (floatSum xs / xs.length) - floatSum xs / xs.length) + (floatSum xs / xs.length - xs.sum / xs.length) := by
    ring
  rw [e]
  refine (abs_add_le _ _).trans ((add_le_add (h4.trans h6) h2).trans (le_of_eq ?_))
  ring

theorem roundHalfEven_diff {x y : K} (h : |x - y| < 1) : |roundHalfEven x - roundHalfEven y| ≤ 1 := by
  have h1 := abs_le.1 (roundHalfEven_close x)
  have h2 := abs_le.1 (roundHalfEven_close y)
  have h3 := abs_lt.1 h
  have a : ((roundHalfEven x - roundHalfEven y : Int) : K) < ((2 : Int) : K) := by
    push_cast
    linarith [h1.2, h2.1, h3.2]
  have b : ((-2 : Int) : K) < ((roundHalfEven x - roundHalfEven y : Int) : K) := by
    push_cast
    linarith [h1.1, h2.2, h3.1]
  rw [Int.cast_lt] at a b
  rw [abs_le]
  omega

/-- Away from halfway points, close numbers are rounded to the same integer. -/
theorem roundHalfEven_same {x y eps : K} (h : |x - y| ≤ eps) (ht : ∀ j : Int, eps < |y - (j + 1 / 2)|) :
    roundHalfEven x = roundHalfEven y := by
  have h1 := abs_le.1 (roundHalfEven_close x)
  have h2 := abs_le.1 (roundHalfEven_close y)
  have h3 := abs_le.1 h
  rcases lt_trichotomy (roundHalfEven x) (roundHalfEven y) with hlt | heq | hgt
  · exfalso
    have hc : ((roundHalfEven x : Int) : K) + 1 ≤ roundHalfEven y := by exact_mod_cast hlt
    have := ht (roundHalfEven x)
    have hp : 0 ≤ y - ((roundHalfEven x : K) + 1 / 2) := by linarith [h2.2]
    rw [abs_of_nonneg hp] at this
    linarith [h1.1, h3.1]
  · exact heq
  · exfalso
    have hc : ((roundHalfEven y : Int) : K) + 1 ≤ roundHalfEven x := by exact_mod_cast hgt
    have := ht (roundHalfEven y)
    have hp : y - ((roundHalfEven y : K) + 1 / 2) ≤ 0 := by linarith [h2.1]
    rw [abs_of_nonpos hp] at this
    linarith [h1.2, h3.2]

theorem round4_same {x y eps : K} (h : |x - y| ≤ eps) (ht : NoTie eps y) : round4 x = round4 y := by
  unfold round4
  rw [roundHalfEven_same (x := x * 10000) (y := y * 10000) (eps := eps * 10000)]
  · rw [← sub_mul, abs_mul, abs_of_pos (by norm_num : (0 : K) < 10000)]
    exact mul_le_mul_of_nonneg_right h (by norm_num)
  · intro j
    have := ht j
    have e : y * 10000 - (j + 1 / 2) = (y - (2 * j + 1) / 20000) * 10000 := by ring
    rw [e, abs_mul, abs_of_pos (by norm_num : (0 : K) < 10000)]
    exact mul_lt_mul_of_pos_right this (by norm_num)

end Error

end DRec
