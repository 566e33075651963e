import Verif.Props.DescentDmf
import Verif.Props.CaserNet
import Verif.Props.Fit
import Verif.Props.Refit

/-!
# C146: the registered variables are the model

What a network computes depends on the variables it registers and on nothing else, so that going back to the stored variables of an epoch
means going back to the predictions of that epoch.  For CDAE early stopping does so; for DMF and Caser it does not (see C55), and the
fitted model predicts as after the last epoch.
-/

namespace DRec.Trn

open DRec.Spec

/-- **C146** (CDAE): equal registered variables give equal reconstructions and losses. -/
theorem C146_cdae (users items hidden a : Nat) {w w' : Weights} (h : ∀ x ∈ (cdaeNet a).all, w' x = w x) :
    (∀ uid input, (cdaeOf users items hidden a w').reconstruct uid input = (cdaeOf users items hidden a w).reconstruct uid input) ∧
    (∀ t ds uid, (cdaeOf users items hidden a w').scores t ds uid = (cdaeOf users items hidden a w).scores t ds uid) ∧
    ∀ f rate batch, cdaeObjective f rate users items hidden a batch w' = cdaeObjective f rate users items hidden a batch w := by
  have hm : ∀ k : Nat, k < 5 → w' (a + k) = w (a + k) := fun k hk => h _ (((C78_registered 0 0 0 a).1.2.2 _).2 ⟨Nat.le_add_right a k, Nat.add_lt_add_left hk a⟩)
  have h0 : w' a = w a := hm 0 (by omega)
  have he : cdaeOf users items hidden a w' = cdaeOf users items hidden a w := by
    simp only [cdaeOf, h0, hm 1 (by omega), hm 2 (by omega), hm 3 (by omega), hm 4 (by omega)]
  refine ⟨fun uid input => by rw [he], fun t ds uid => by rw [he], fun f rate batch => ?_⟩
  simp only [cdaeObjective, he, elements, h0, hm 1 (by omega), hm 2 (by omega)]

/-- **C146** (DMF): equal registered variables give equal scores and losses. -/
theorem C146_dmf (users items : Nat) (norm : Bool) (f : List Nat × List Nat) (a : Nat) {w w' : Weights}
    (h : ∀ x ∈ (dmfNet f.1.length f.2.length a).all, w' x = w x) :
    (∀ us is, (dmfOf users items norm f a w').forward us is = (dmfOf users items norm f a w).forward us is) ∧
    ∀ rate b, dmfObjective rate users items norm f a b w' = dmfObjective rate users items norm f a b w := by
  have hm : ∀ z i, (z, i) ∈ towerElements a items f.1 ∪ towerElements (a + 2 * f.1.length) users f.2 → w' z i = w z i := by
    intro z i hz
    refine congrFun (h z ?_) i
    simp only [DRec.Net.all, dmfNet, List.flatten_cons, List.flatten_nil, List.append_nil, List.nil_append, List.mem_append]
    rcases Finset.mem_union.1 hz with h | h
    · exact Or.inl (towerElements_vars _ _ _ _ _ h)
    · exact Or.inr (towerElements_vars _ _ _ _ _ h)
  exact ⟨fun us is => (dmf_agree 0 users items norm f a ⟨us, is, []⟩ hm).1, fun rate b => (dmf_agree rate users items norm f a b hm).2⟩

/-- Steps that agree on a list give the same list of results. -/
theorem optionMapM_congr {α β : Type} {f g : α → Option β} : ∀ {l : List α}, (∀ x ∈ l, f x = g x) → l.mapM f = l.mapM g
  | [], _ => rfl
  | x :: xs, h => by
    rw [List.mapM_cons, List.mapM_cons, h x List.mem_cons_self, optionMapM_congr fun y hy => h y (List.mem_cons_of_mem _ hy)]

/-- Only the first `L` horizontal layers are used. -/
theorem forward_kernels (m : Cas.Net) (K : Nat → Nat → Nat → Nat → ℝ) (b : Nat → Nat → ℝ) (hK : ∀ i, i < m.cfg.L → K i = m.Kh i ∧ b i = m.bh i)
    (uids : List Nat) (befores afters : List (List Nat)) (noise : Option (ℝ × (Nat → Nat → ℝ))) :
    Cas.Net.forward { m with Kh := K, bh := b } uids befores afters noise = m.forward uids befores afters noise := by
  have hf : ∀ xs, Cas.Net.features { m with Kh := K, bh := b } xs = m.features xs := by
    intro xs
    have h1 : (List.range m.cfg.L).mapM (Cas.Net.outH { m with Kh := K, bh := b } xs) = (List.range m.cfg.L).mapM (m.outH xs) := by
      refine optionMapM_congr fun i hi => ?_
      obtain ⟨e1, e2⟩ := hK i (List.mem_range.1 hi)
      simp only [Cas.Net.outH, e1, e2]
    simp only [Cas.Net.features, h1]
    rfl
  unfold Cas.Net.forward
  simp only [hf]
  rfl

/-- **C146** (Caser): equal registered variables give equal scores and losses. -/
theorem C146_caser (c : Caser) (users items : Nat) (actH actMlp : ℝ → ℝ) (a : Nat) {w w' : Weights}
    (h : ∀ x ∈ (caserNet c.L a).all, w' x = w x) :
    (∀ uids befores afters noise, (caserOf c users items actH actMlp a w').forward uids befores afters noise =
      (caserOf c users items actH actMlp a w).forward uids befores afters noise) ∧
    ∀ rate b, caserObjective rate c users items actH actMlp a b w' = caserObjective rate c users items actH actMlp a b w := by
  have hm : ∀ k : Nat, k < 8 + 2 * c.L → w' (a + k) = w (a + k) := fun k hk =>
    h _ (((C78_registered c.L 0 0 a).2.1.2 _).2 ⟨Nat.le_add_right a k, by rw [Nat.add_assoc]; exact Nat.add_lt_add_left hk a⟩)
  have h0 : w' a = w a := hm 0 (by omega)
  have h8 : ∀ i, i < c.L → w' (a + 8 + 2 * i) = w (a + 8 + 2 * i) := fun i hi => by
    rw [Nat.add_assoc]; exact hm _ (by omega)
  have h9 : ∀ i, i < c.L → w' (a + 9 + 2 * i) = w (a + 9 + 2 * i) := fun i hi => by
    rw [Nat.add_assoc]; exact hm _ (by omega)
  have he : caserOf c users items actH actMlp a w' = { caserOf c users items actH actMlp a w with
      Kh := (caserOf c users items actH actMlp a w').Kh, bh := (caserOf c users items actH actMlp a w').bh } := by
    simp only [caserOf, h0, hm 1 (by omega), hm 2 (by omega), hm 3 (by omega), hm 4 (by omega), hm 5 (by omega), hm 6 (by omega), hm 7 (by omega)]
  have hf : ∀ uids befores afters noise, (caserOf c users items actH actMlp a w').forward uids befores afters noise =
      (caserOf c users items actH actMlp a w).forward uids befores afters noise := by
    intro uids befores afters noise
    rw [he]
    refine forward_kernels _ _ _ (fun i hi => ⟨?_, ?_⟩) uids befores afters noise
    · simp only [caserOf, h8 i hi]
    · simp only [caserOf, h9 i hi]
  refine ⟨hf, fun rate b => ?_⟩
  have hk : ((List.range c.L).map fun i => elements w' (a + 8 + 2 * i) ((i + 1) * c.d * c.nh)) =
      (List.range c.L).map fun i => elements w (a + 8 + 2 * i) ((i + 1) * c.d * c.nh) :=
    List.map_congr_left fun i hi => by simp only [elements, h8 i (List.mem_range.1 hi)]
  simp only [caserObjective, hf, hk]
  simp only [elements, h0, hm 1 (by omega), hm 2 (by omega), hm 4 (by omega), hm 6 (by omega)]

/-- **C146** (CDAE, early stopping): the fitted model computes what it computed after the best epoch. -/
theorem C146_cdae_stopped_partial (users items hidden a : Nat) (c : FitCfg (Nat → ℝ)) (w : Weights) (r : Fitted (Nat → ℝ))
    (h : fit c (cdaeNet a) w = .ok r) (b : Nat) (hb : r.best = some b) (h1 : 1 ≤ b) (h2 : b ≤ r.ran) (uid : Nat) (input : List ℝ) :
    (cdaeOf users items hidden a r.heap).reconstruct uid input =
      (cdaeOf users items hidden a (weightsAt c.train w b)).reconstruct uid input :=
  (C146_cdae users items hidden a fun x hx => C55_restored_partial c _ w r h b hb h1 h2 x (by simpa [DRec.Net.all, cdaeNet] using hx)).1 uid input

/-- **C146** (DMF and Caser, early stopping): whatever epoch is best, the fitted model computes what it computed after the last epoch. -/
theorem C146_layers_stopped (net : DRec.Net) (hv : net.vars = []) (hnet : ¬ (net.layers = [] ∧ net.models = [])) (c : FitCfg (Nat → ℝ)) (w : Weights)
    (r : Fitted (Nat → ℝ)) (h : fit c net w = .ok r) (hran : 1 ≤ r.ran) (hb : ∀ b, r.best = some b → b ≤ r.ran) :
    (∀ users items norm f a, net = dmfNet f.1.length f.2.length a → ∀ us is,
      (dmfOf users items norm f a r.heap).forward us is = (dmfOf users items norm f a (weightsAt c.train w r.ran)).forward us is) ∧
    ∀ k users items actH actMlp a, net = caserNet k.L a → ∀ uids befores afters noise,
      (caserOf k users items actH actMlp a r.heap).forward uids befores afters noise =
        (caserOf k users items actH actMlp a (weightsAt c.train w r.ran)).forward uids befores afters noise := by
  have hw : ∀ x, r.heap x = weightsAt c.train w r.ran x := fun x =>
    C55_fails_layers c net w r (fun h => hnet h.2) h hran hb x (by rw [hv]; exact List.not_mem_nil)
  exact ⟨fun users items norm f a _ => (C146_dmf users items norm f a fun x _ => hw x).1,
    fun k users items actH actMlp a _ => (C146_caser k users items actH actMlp a fun x _ => hw x).1⟩

/-- Ten epochs of which the fifth is best; after epoch `e` every bias of Caser's last layer and of CDAE's output is `e`, all else 0. -/
noncomputable def exTrain : FitCfg (Nat → ℝ) :=
  ⟨10, false, some exReport, 5, some (maxRule "P".toList), 5, fun _ => 0, fun e _ x _ => if x = 7 ∨ x = 4 then e else 0⟩

theorem exTrain_key (x : Except Err (Fitted (Nat → ℝ))) (h : (x.toOption.map fun r => (r.best, r.ran)) = some (some 5, 10)) :
    ∃ r, x = .ok r ∧ r.best = some 5 ∧ r.ran = 10 := by
  cases x with
  | error e => cases h
  | ok r =>
    simp only [Except.toOption, Option.map_some, Option.some.injEq, Prod.mk.injEq] at h
    exact ⟨r, rfl, h⟩

theorem exTrain_runs : (∃ r, fit exTrain (caserNet 1 0) (fun _ _ => 0) = .ok r ∧ r.best = some 5 ∧ r.ran = 10) ∧
    ∃ r, fit exTrain (cdaeNet 0) (fun _ _ => 0) = .ok r ∧ r.best = some 5 ∧ r.ran = 10 := by
  exact ⟨exTrain_key _ (by decide +kernel), exTrain_key _ (by decide +kernel)⟩

/-- **C146 fails** for Caser: the fifth epoch is best, and with its weights the score would be 5, but the fitted model computes 10. -/
theorem C146_caser_refuted : ∃ r, fit exTrain (caserNet 1 0) (fun _ _ => 0) = .ok r ∧ r.best = some 5 ∧
    (caserOf ⟨1, 1, 1, 1, 1⟩ 1 1 id id 0 r.heap).forward [0] [[0]] [[0]] none = some [[10]] ∧
    (caserOf ⟨1, 1, 1, 1, 1⟩ 1 1 id id 0 (weightsAt exTrain.train (fun _ _ => 0) 5)).forward [0] [[0]] [[0]] none = some [[5]] := by
  obtain ⟨r, h1, h2, h3⟩ := exTrain_runs.1
  have hs : ∀ e : Nat, (caserOf ⟨1, 1, 1, 1, 1⟩ 1 1 id id 0 (weightsAt exTrain.train (fun _ _ => 0) (e + 1))).forward [0] [[0]] [[0]] none =
      some [[((e + 1 : Nat) : ℝ)]] := by
    intro e
    simp [Cas.Net.forward, Cas.Net.sequences, Cas.tensor, Cas.lookup, Cas.Net.features, Cas.Net.outV, Cas.Net.outH, Cas.conv, Cas.pool, Cas.squeeze,
      Cas.concats, Cas.concat, Cas.dropped, Cas.Net.dense, Cas.Net.targets, Cas.product, caserOf, weightsAt, exTrain]
  refine ⟨r, h1, h2, ?_, ?_⟩
  · have := (C146_layers_stopped (caserNet 1 0) rfl (by simp [caserNet]) exTrain (fun _ _ => 0) r h1 (by omega) (fun b hb => by
      rw [h2] at hb; cases hb; omega)).2 ⟨1, 1, 1, 1, 1⟩ 1 1 id id 0 rfl [0] [[0]] [[0]] none
    rw [this, h3, hs 9]
    norm_num
  · rw [hs 4]
    norm_num

/-- **C146 fails** for a model with a variable of its own besides a keras model, as in `examples/extending_recommender_dmf.py:10-13`: early
stopping leaves weights that the model had after no epoch, the variable as after epoch 5 and the keras model as after epoch 10. -/
theorem C146_mixed_refuted : ∃ r, fit exTrain ⟨[4], [], [[7]]⟩ (fun _ _ => 0) = .ok r ∧ r.best = some 5 ∧ r.heap 4 0 = 5 ∧ r.heap 7 0 = 10 ∧
    ∀ e, ¬ (r.heap 4 0 = weightsAt exTrain.train (fun _ _ => 0) e 4 0 ∧ r.heap 7 0 = weightsAt exTrain.train (fun _ _ => 0) e 7 0) := by
  obtain ⟨r, h1, h2, h3⟩ := exTrain_key (fit exTrain ⟨[4], [], [[7]]⟩ (fun _ _ => 0)) (by decide +kernel)
  have hw : ∀ e : Nat, weightsAt exTrain.train (fun _ _ => 0) e 4 0 = e ∧ weightsAt exTrain.train (fun _ _ => 0) e 7 0 = e := by
    intro e
    cases e with
    | zero => simp [weightsAt]
    | succ e => simp [weightsAt, exTrain]
  have e1 : r.heap 4 0 = 5 := by
    rw [C55_restored_partial _ _ _ r h1 5 h2 (by omega) (by omega) 4 (by simp), (hw 5).1]
    norm_num
  have e2 : r.heap 7 0 = 10 := by
    rw [C55_fails_layers _ _ _ r (by simp) h1 (by omega) (fun b hb => by rw [h2] at hb; cases hb; omega) 7 (by decide), h3, (hw 10).2]
    norm_num
  refine ⟨r, h1, h2, e1, e2, fun e h => ?_⟩
  rw [e1, e2, (hw e).1, (hw e).2] at h
  have := h.1.trans h.2.symm
  norm_num at this

/-- The hypotheses of `C146_cdae_stopped_partial` hold. -/
example : ∃ r b, fit exTrain (cdaeNet 0) (fun _ _ => 0) = .ok r ∧ r.best = some b ∧ 1 ≤ b ∧ b ≤ r.ran := by
  obtain ⟨r, h1, h2, h3⟩ := exTrain_runs.2
  exact ⟨r, 5, h1, h2, by omega, by omega⟩

/-- Weights that differ outside the registered variables only (hypothesis of `C146_cdae`, `C146_dmf` and `C146_caser`). -/
example : (∀ x ∈ (cdaeNet 0).all, (fun (x : Addr) (_ : Nat) => if x = 100 then (1 : ℝ) else 0) x = (fun _ _ => 0 : Weights) x) ∧
    (∀ x ∈ (dmfNet 2 2 0).all, (fun (x : Addr) (_ : Nat) => if x = 100 then (1 : ℝ) else 0) x = (fun _ _ => 0 : Weights) x) ∧
    ∀ x ∈ (caserNet 3 0).all, (fun (x : Addr) (_ : Nat) => if x = 100 then (1 : ℝ) else 0) x = (fun _ _ => 0 : Weights) x := by
  have key : ∀ l : List Addr, (100 : Nat) ∉ l → ∀ x ∈ l, (fun (x : Addr) (_ : Nat) => if x = 100 then (1 : ℝ) else 0) x = (fun _ _ => 0 : Weights) x := by
    intro l hl x hx
    funext i
    exact if_neg fun (e : x = 100) => hl (e ▸ hx)
  exact ⟨key _ (by decide), key _ (by decide), key _ (by decide)⟩

end DRec.Trn
