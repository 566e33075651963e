import Verif.Model.Validation
import Verif.Props.Evaluation
import Verif.Props.Registered
import Verif.Lemmas.Text

/-!
# C147: early stopping with a validation set

`fit` with a callback that runs `ranking_evaluation` on a validation set and `MaxValidationValueRule`: which epoch is chosen, and what the
fitted model scores when it is evaluated once more.
-/

namespace DRec

open DRec.Spec

/-- Up to the first `@`. -/
theorem trimName_append {n t : MName} (h : '@' ∉ n) : trimName (n ++ '@' :: t) = n := (trimName_eq h).2 (Or.inr ⟨t, rfl⟩)

/-- Different keys have different names. -/
theorem resultName_inj {pre : MName} {p q : String × Nat} (hp : '@' ∉ p.1.toList) (hq : '@' ∉ q.1.toList)
    (h : pre ++ resultName p = pre ++ resultName q) : p = q := by
  have h := List.append_cancel_left h
  have h1 : p.1.toList = q.1.toList := by
    have := congrArg trimName h
    unfold resultName at this
    rwa [trimName_append hp, trimName_append hq] at this
  unfold resultName at h
  rw [h1] at h
  have h2 : natText p.2 = natText q.2 := by
    have := List.append_cancel_left h
    exact (List.cons.inj this).2
  have h3 : p.2 = q.2 := by rw [← digitsVal_natText p.2, h2, digitsVal_natText]
  exact Prod.ext (String.toList_inj.1 h1) h3

theorem valueOf_of_mem {rs : Results} (hd : IsDict rs) {n : MName} {x : ℚ} (h : (n, x) ∈ rs) : valueOf rs n = some x := by
  unfold valueOf IsDict at *
  induction rs with
  | nil => cases h
  | cons r rs ih =>
    rw [List.map_cons, List.nodup_cons] at hd
    rcases List.mem_cons.1 h with rfl | h
    · simp
    · have : r.1 ≠ n := fun e => hd.1 (List.mem_map.2 ⟨(n, x), h, e.symm⟩)
      rw [List.find?_cons_of_neg (by simpa using this)]
      exact ih hd.2 h

/-- The value that evaluating a model reports for a metric and a cut-off: the rounded mean over the users. -/
def scoreOf (ds : Mem) (a : EvalArgs) (users : List Val) (rngs : Nat → EvalRng) (mt : EvalMetric ℚ) (k : Nat) (model : EvalModel) : ℚ :=
  reported (computed mt k (evaluated (rankingOutcomes model ds a users rngs)))

/-- The results of a validation: a dictionary, with the score under the name of the metric and the cut-off. -/
theorem validation_spec (pre : MName) (ds : Mem) (a : EvalArgs) (n : Option Nat) (rngs : Nat → EvalRng) (metrics : List (EvalMetric ℚ))
    (hn : (metrics.map (·.name)).Nodup) (hat : ∀ mt ∈ metrics, '@' ∉ mt.name.toList) (ks : List Nat) (users : List Val)
    (hu : evalUsers ds n = .ok users) (model : EvalModel) (tasks : List (List EAct)) (ht : rankingTasks model ds a n rngs = .ok tasks)
    (m : (v : EVar) → v.Ty ℚ) (hm : EvalRun metrics ks tasks m) :
    IsDict (validation pre (evalResults metrics ks (m .sums))) ∧
    (∀ mt ∈ metrics, ∀ k ∈ ks, valueOf (validation pre (evalResults metrics ks (m .sums))) (pre ++ resultName (mt.name, k)) =
      some (scoreOf ds a users rngs mt k model)) ∧
    ∀ x ∈ (validation pre (evalResults metrics ks (m .sums))).map (·.1), ∃ mt ∈ metrics, ∃ k ∈ ks, x = pre ++ resultName (mt.name, k) := by
  obtain ⟨h1, h2⟩ := C44_ranking model ds a n rngs metrics hn ks users hu tasks ht m hm
  have hkey : ∀ p ∈ evalResults metrics ks (m .sums), ∃ mt ∈ metrics, ∃ k ∈ ks, p.1 = (mt.name, k) := by
    intro p hp
    obtain ⟨mt, hmt, k, hk, e, -⟩ := (h1 p.1 p.2).1 hp
    exact ⟨mt, hmt, k, hk, e⟩
  have hd : IsDict (validation pre (evalResults metrics ks (m .sums))) := by
    unfold IsDict validation
    rw [List.map_map]
    have : ((evalResults metrics ks (m .sums)).map fun p => pre ++ resultName p.1).Nodup := by
      have := List.Nodup.map_on (f := fun q : String × Nat => pre ++ resultName q) (l := (evalResults metrics ks (m .sums)).map (·.1))
        (fun p hp q hq e => by
          obtain ⟨p', hp', rfl⟩ := List.mem_map.1 hp
          obtain ⟨q', hq', rfl⟩ := List.mem_map.1 hq
          obtain ⟨mt, hmt, k, -, e1⟩ := hkey p' hp'
          obtain ⟨mt', hmt', k', -, e2⟩ := hkey q' hq'
          exact resultName_inj (by rw [e1]; exact hat mt hmt) (by rw [e2]; exact hat mt' hmt') e) h2
      rwa [List.map_map] at this
    exact this
  refine ⟨hd, fun mt hmt k hk => valueOf_of_mem hd ?_, fun x hx => ?_⟩
  · exact List.mem_map.2 ⟨((mt.name, k), _), (h1 _ _).2 ⟨mt, hmt, k, hk, rfl, rfl⟩, rfl⟩
  · unfold validation at hx
    rw [List.map_map] at hx
    obtain ⟨p, hp, rfl⟩ := List.mem_map.1 hx
    obtain ⟨mt, hmt, k, hk, e⟩ := hkey p hp
    exact ⟨mt, hmt, k, hk, by simp [e]⟩

/-- A metric asked for by name with its cut-off, or by name alone when there is one cut-off. -/
def Asked (pre : MName) (ks : List Nat) (name : String) (k : Nat) (m : MName) : Prop :=
  (m = pre ++ resultName (name, k) ∧ k ∈ ks) ∨ (m = pre ++ name.toList ∧ ks = [k])

/-- **C147.**  The chosen epoch is the first of the validated ones with the best score on the validation set, whatever the interleavings of
the evaluations. -/
theorem C147_chosen {α : Type} (c : FitCfg α) (pre : MName) (hpre : '@' ∉ pre) (ds : Mem) (a : EvalArgs) (n : Option Nat) (rngs : Nat → EvalRng)
    (metrics : List (EvalMetric ℚ)) (hn : (metrics.map (·.name)).Nodup) (hat : ∀ mt ∈ metrics, '@' ∉ mt.name.toList) (ks : List Nat)
    (users : List Val) (hu : evalUsers ds n = .ok users) (model : Nat → EvalModel) (tasks : Nat → List (List EAct))
    (ht : ∀ e, rankingTasks (model e) ds a n rngs = .ok (tasks e)) (mem : Nat → (v : EVar) → v.Ty ℚ)
    (hm : ∀ e, EvalRun metrics ks (tasks e) (mem e))
    (hf : c.callback = some fun e => validation pre (evalResults metrics ks (mem e .sums)))
    (mt : EvalMetric ℚ) (hmt : mt ∈ metrics) (k : Nat) (m : MName) (hk : Asked pre ks mt.name k m) (hr : c.rule = some (maxRule m))
    (hcb : 0 < c.cbFreq) (hrf : 0 < c.ruleFreq) (hv : validated c ≠ []) (net : Net)
    (hnet : ¬ (net.vars = [] ∧ net.layers = [] ∧ net.models = [])) (heap : Addr → α) (r : Fitted α) (h : fit c net heap = .ok r) :
    ∃ b, r.best = some b ∧ FirstMax (validated c) (fun e => scoreOf ds a users rngs mt k (model e)) b := by
  have hs := fun e => validation_spec pre ds a n rngs metrics hn hat ks users hu (model e) (tasks e) (ht e) (mem e) (hm e)
  have hkk : k ∈ ks := by
    rcases hk with ⟨-, h⟩ | ⟨-, rfl⟩
    · exact h
    · exact List.mem_singleton_self _
  have hno : ∀ mt' ∈ metrics, '@' ∉ pre ++ mt'.name.toList := fun mt' h' hx => by
    rcases List.mem_append.1 hx with h | h
    · exact hpre h
    · exact hat mt' h' h
  refine C54_fit_partial c m (pre ++ resultName (mt.name, k)) hr _ hf (fun e => (hs e).1) hcb hrf net hnet heap ?_ _
    (fun e _ => (hs e).2.1 mt hmt k hkk) (fun e _ n' hn' hnm => ?_) hv r h
  · rcases hk with ⟨rfl, -⟩ | ⟨rfl, -⟩
    · exact Or.inl rfl
    · exact Or.inr ⟨hno mt hmt, Nat.toDigits 10 k, by simp [resultName]⟩
  · obtain ⟨mt', hmt', k', hk', rfl⟩ := (hs e).2.2 n' hn'
    rcases hk with ⟨rfl, -⟩ | ⟨rfl, rfl⟩
    · rcases hnm with e1 | ⟨h1, -⟩
      · exact e1
      · exact absurd (by simp [resultName]) h1
    · obtain rfl := List.mem_singleton.1 hk'
      have hname : pre ++ mt'.name.toList = pre ++ mt.name.toList := by
        rcases hnm with e1 | ⟨h1, rest, e1⟩
        · exact absurd (by rw [← e1]; simp [resultName]) (hno mt hmt)
        · have := congrArg trimName e1
          rw [trimName_append h1] at this
          rw [← this]
          unfold resultName
          rw [← List.append_assoc, trimName_append (hno mt' hmt')]
      unfold resultName
      rw [← List.append_assoc, ← List.append_assoc, hname]

end DRec

namespace DRec.Trn

open DRec.Spec

/-- **C147** (partial: CDAE; the full claim is for all models and fails for DMF and Caser, see `C147_layers_stopped`).  Evaluated once more with
the same seed, the fitted model scores what it scored at the best validated epoch, and no validated epoch scored more.  `rank` is how the
evaluation sees a network. -/
theorem C147_cdae_partial (users items hidden a : Nat) (rank : Cdae → EvalModel) (c : FitCfg (Nat → ℝ)) (w : Weights) (pre : MName)
    (hpre : '@' ∉ pre) (ds : Mem) (ea : EvalArgs) (n : Option Nat) (rngs : Nat → EvalRng) (metrics : List (EvalMetric ℚ))
    (hn : (metrics.map (·.name)).Nodup) (hat : ∀ mt ∈ metrics, '@' ∉ mt.name.toList) (ks : List Nat)
    (vals : List Val) (hu : evalUsers ds n = .ok vals) (tasks : Nat → List (List EAct))
    (ht : ∀ e, rankingTasks (rank (cdaeOf users items hidden a (weightsAt c.train w e))) ds ea n rngs = .ok (tasks e))
    (mem : Nat → (v : EVar) → v.Ty ℚ) (hm : ∀ e, EvalRun metrics ks (tasks e) (mem e))
    (hf : c.callback = some fun e => validation pre (evalResults metrics ks (mem e .sums)))
    (mt : EvalMetric ℚ) (hmt : mt ∈ metrics) (k : Nat) (m : MName) (hk : Asked pre ks mt.name k m) (hr : c.rule = some (maxRule m))
    (hq : c.verbose = false) (hcb : 0 < c.cbFreq) (hrf : 0 < c.ruleFreq) (hv : validated c ≠ []) (r : Fitted (Nat → ℝ))
    (h : fit c (cdaeNet a) w = .ok r) :
    ∃ b, r.best = some b ∧ b ∈ validated c ∧
      scoreOf ds ea vals rngs mt k (rank (cdaeOf users items hidden a r.heap)) =
        scoreOf ds ea vals rngs mt k (rank (cdaeOf users items hidden a (weightsAt c.train w b))) ∧
      ∀ e ∈ validated c, scoreOf ds ea vals rngs mt k (rank (cdaeOf users items hidden a (weightsAt c.train w e))) ≤
        scoreOf ds ea vals rngs mt k (rank (cdaeOf users items hidden a r.heap)) := by
  obtain ⟨b, hb, hbest⟩ := C147_chosen c pre hpre ds ea n rngs metrics hn hat ks vals hu
    (fun e => rank (cdaeOf users items hidden a (weightsAt c.train w e))) tasks ht mem hm hf mt hmt k m hk hr hcb hrf hv (cdaeNet a)
    (by simp [cdaeNet, addrs]) w r h
  have hd : DictCallback c := by
    intro f hf'
    rw [hf] at hf'
    cases hf'
    exact fun e => (validation_spec pre ds ea n rngs metrics hn hat ks vals hu _ (tasks e) (ht e) (mem e) (hm e)).1
  have he : cdaeOf users items hidden a r.heap = cdaeOf users items hidden a (weightsAt c.train w b) := by
    have hx : ∀ x : Nat, a ≤ x → x < a + 5 → r.heap x = weightsAt c.train w b x := fun x h1 h2 =>
      C55_max_rule_partial c m hr hq hd hcb hrf (cdaeNet a) w r h b hb x (by
        simp only [cdaeNet, addrs, List.mem_range'_1]
        exact ⟨h1, h2⟩)
    have hx' : ∀ j : Nat, j < 5 → r.heap (a + j) = weightsAt c.train w b (a + j) := fun j hj =>
      hx _ (Nat.le_add_right _ _) (Nat.add_lt_add_left hj _)
    have h0 : r.heap a = weightsAt c.train w b a := hx' 0 (by omega)
    simp only [cdaeOf, h0, hx' 1 (by omega), hx' 2 (by omega), hx' 3 (by omega), hx' 4 (by omega)]
  refine ⟨b, hb, hbest.1, by rw [he], fun e hee => ?_⟩
  rw [he]
  exact (hbest.2 e hee).1

/-- **C147 fails** for models made of layers (DMF and Caser), seen through any functions `net` of the weights: evaluated once more, the fitted
model scores what it scored after the last epoch, whatever epoch was chosen. -/
theorem C147_layers_stopped (N : DRec.Net) (hN : N.vars = []) (hne : ¬ (N.layers = [] ∧ N.models = [])) (rank : Weights → EvalModel)
    (c : FitCfg (Nat → ℝ)) (w : Weights) (r : Fitted (Nat → ℝ)) (h : fit c N w = .ok r) (hran : 1 ≤ r.ran)
    (hb : ∀ b, r.best = some b → b ≤ r.ran) (ds : Mem) (ea : EvalArgs) (vals : List Val) (rngs : Nat → EvalRng) (mt : EvalMetric ℚ) (k : Nat) :
    scoreOf ds ea vals rngs mt k (rank r.heap) = scoreOf ds ea vals rngs mt k (rank (weightsAt c.train w r.ran)) := by
  have : r.heap = weightsAt c.train w r.ran := by
    funext x
    exact C55_fails_layers c N w r (fun h => hne h.2) h hran hb x (by rw [hN]; exact List.not_mem_nil)
  rw [this]

/-- Asked for by name alone among several cut-offs, the last cut-off decides: `HR@1` was best at epoch 5, `HR@5` at epoch 10. -/
theorem C147_several : ((maxRule "val_HR".toList).compute (replay [
    (5, validation "val_".toList [(("HR", 1), 1), (("HR", 5), 1)]), (10, validation "val_".toList [(("HR", 1), 0), (("HR", 5), 2)])])).toOption = some 10 ∧
    ((maxRule "val_HR@1".toList).compute (replay [
    (5, validation "val_".toList [(("HR", 1), 1), (("HR", 5), 1)]), (10, validation "val_".toList [(("HR", 1), 0), (("HR", 5), 2)])])).toOption = some 5 := by
  refine ⟨by decide +kernel, by decide +kernel⟩

/-- Ten epochs of CDAE, validated every five with the F-score at 2: the hypotheses of `C147_chosen` and `C147_cdae_partial` hold. -/
example : ∃ (c : FitCfg (Nat → ℝ)) (vals : List Val) (tasks : Nat → List (List EAct)) (mem : Nat → (v : EVar) → v.Ty ℚ) (r : Fitted (Nat → ℝ)),
    evalUsers exSplit none = .ok vals ∧ (∀ e, rankingTasks exEvalModel exSplit exEvalArgs none (fun _ => exEvalRng) = .ok (tasks e)) ∧
    (∀ e, EvalRun [fscoreMetric 1] [2] (tasks e) (mem e)) ∧
    c.callback = some (fun e => validation "val_".toList (evalResults [fscoreMetric 1] [2] (mem e .sums))) ∧
    c.rule = some (maxRule "val_FScore".toList) ∧ Asked "val_".toList [2] (fscoreMetric 1).name 2 "val_FScore".toList ∧
    c.verbose = false ∧ 0 < c.cbFreq ∧ 0 < c.ruleFreq ∧ validated c = [5, 10] ∧ fit c (cdaeNet 0) (fun _ _ => 0) = .ok r := by
  obtain ⟨all, vals, hu, -⟩ := C44_users exSplit (by decide) none
  have ht := rankingTasks_eq (model := exEvalModel) (a := exEvalArgs) (rngs := fun _ => exEvalRng) hu
  obtain ⟨m, hm⟩ := evalRun_exists [fscoreMetric 1] [2] _
  have hs := validation_spec "val_".toList exSplit exEvalArgs none (fun _ => exEvalRng) [fscoreMetric 1] (by simp) (by
    intro mt h
    obtain rfl := List.mem_singleton.1 h
    decide) [2] vals hu exEvalModel _ ht m hm
  let c : FitCfg (Nat → ℝ) := ⟨10, false, some fun _ => validation "val_".toList (evalResults [fscoreMetric 1] [2] (m .sums)), 5,
    some (maxRule "val_FScore".toList), 5, fun _ => 0, fun e _ _ _ => e⟩
  have hval : validated c = [5, 10] := by
    show (List.range (10 + 1)).filter (fun e => decide (e % 5 = 0 ∧ (e = 0 → false = true))) = [5, 10]
    decide
  have h5 : 0 < 5 := by omega
  have hq : Asked "val_".toList [2] (fscoreMetric 1).name 2 "val_FScore".toList := Or.inr ⟨by decide, rfl⟩
  have hfit : ∃ r, fit c (cdaeNet 0) (fun _ _ => 0) = .ok r := by
    refine (C56_completes_partial c "val_FScore".toList rfl ?_ h5 h5 (cdaeNet 0) (by simp [cdaeNet, addrs]) (fun _ _ => 0)).2
      ⟨show 0 < 10 by omega, fun _ => ⟨_, rfl, 5, by rw [hval]; simp, "val_FScore@2".toList, ?_, Or.inr ⟨by decide, "2".toList, by decide⟩⟩, fun h => by cases h⟩
    · intro f hf e
      cases hf
      exact hs.1
    · have := hs.2.1 (fscoreMetric 1) (by simp) 2 (by simp)
      unfold valueOf at this
      rw [Option.map_eq_some_iff] at this
      obtain ⟨p, hp, -⟩ := this
      refine List.mem_map.2 ⟨p, List.mem_of_find?_eq_some hp, ?_⟩
      have := List.find?_some hp
      simp only [decide_eq_true_eq] at this
      rw [this]
      decide
  obtain ⟨r, hr⟩ := hfit
  exact ⟨c, vals, fun _ => _, fun _ => m, r, hu, fun _ => ht, fun _ => hm, rfl, rfl, hq, rfl, h5, h5, hval, hr⟩

/-- Ten epochs of Caser: the hypotheses of `C147_layers_stopped` hold. -/
example : ∃ r, fit exTrain (caserNet 1 0) (fun _ _ => 0) = .ok r ∧ 1 ≤ r.ran ∧ ∀ b, r.best = some b → b ≤ r.ran := by
  obtain ⟨r, h1, h2, h3⟩ := exTrain_runs.1
  refine ⟨r, h1, by omega, fun b hb => ?_⟩
  rw [h2] at hb
  cases hb
  omega

end DRec.Trn
