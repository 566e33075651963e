import Verif.Model.Refit
import Verif.Props.Fit

/-!
# C78: fitting a model again

Full claim: fitting an object that was fitted before leaves it with the weights that a new object would get.  It is false: the
variables of earlier fits stay registered.  `C78_cdae_raises` and `C78_caser_raises`: the second fit of these models
always raises.  `C78_wrong_epoch`: early stopping goes back to an epoch of the first fit.  `C78_same_partial` is what
holds: when the loss still depends on all registered trainables, and no plain variables are registered or there is no
early stopping rule.  `C78_dmf_partial` applies it to DMF.
-/

namespace DRec

namespace Spec

/-- Objects that have been fitted any number of times, each time successfully. -/
inductive Earlier {α : Type} : Trained α → Prop
  | fresh : Earlier Trained.fresh
  | again {m m' : Trained α} (c : FitCfg α) (reach : Addr → Bool) (new : Net) (heap : Addr → α) (f : Fitted α)
      (h : Earlier m) (hf : refit c reach new heap m = .ok (f, m')) : Earlier m'

/-- The loss depends on every registered variable, and on one variable of every layer and model that has any. -/
def AllReached (net : Net) (reach : Addr → Bool) : Prop :=
  (∀ a ∈ net.vars, reach a = true) ∧ ∀ ws ∈ net.layers ++ net.models, ws ≠ [] → ∃ a ∈ ws, reach a = true

/-- Two fits that only differ in the losses, and in what training does to variables outside `new`: these belong to
earlier networks. -/
structure SameTraining {α : Type} (new : Net) (c c' : FitCfg α) : Prop where
  epochs : c'.epochs = c.epochs
  verbose : c'.verbose = c.verbose
  callback : c'.callback = c.callback
  cbFreq : c'.cbFreq = c.cbFreq
  rule : c'.rule = c.rule
  ruleFreq : c'.ruleFreq = c.ruleFreq
  train : ∀ e h h', (∀ a ∈ new.all, h' a = h a) → ∀ a ∈ new.all, c'.train e h' a = c.train e h a

/-- The rule looks at the reported metrics only. -/
def IgnoresLosses {α : Type} (c : FitCfg α) : Prop :=
  ∀ R, c.rule = some R → ∀ l l' v e, R.best l v e = R.best l' v e

end Spec

open Spec

theorem updateAll_ok {net : Net} {reach : Addr → Bool} (h : AllReached net reach) : updateAll net reach = .ok () := by
  unfold updateAll
  rw [if_pos (by simpa using h.1), if_pos]
  rw [List.all_eq_true]
  intro ws hws
  unfold updateMany
  rw [if_pos]
  · rfl
  · by_cases he : ws = []
    · exact Or.inl he
    · exact Or.inr (by simpa using h.2 ws hws he)

/-- Trackers with the same metrics. -/
def TrackerSim (t t' : Tracker) : Prop := t'.results = t.results ∧ t'.epochs = t.epochs

theorem sim_addResults (rs : Results) (e : Nat) {t t' : Tracker} (h : TrackerSim t t') :
    TrackerSim (t.addResults rs e) (t'.addResults rs e) := by
  unfold Tracker.addResults
  induction rs generalizing t t' with
  | nil => exact h
  | cons p rs ih =>
    simp only [List.foldl_cons]
    refine ih ⟨?_, ?_⟩
    · simp only [Tracker.addResult, h.1]
    · simp only [Tracker.addResult, h.2]

theorem sim_track {α : Type} {new : Net} {c c' : FitCfg α} (hc : SameTraining new c c') (e : Nat) {t t' u : Tracker}
    (h : TrackerSim t t') (hu : trackEpoch c e t = .ok u) : ∃ u', trackEpoch c' e t' = .ok u' ∧ TrackerSim u u' := by
  have hl : TrackerSim (t.addLoss (c.loss e)) (t'.addLoss (c'.loss e)) := h
  unfold trackEpoch at hu ⊢
  rw [hc.verbose, hc.rule, hc.callback, hc.cbFreq]
  split at hu
  · rename_i hb
    rw [if_pos hb]
    split at hu
    · cases hu; exact ⟨_, rfl, hl⟩
    · split at hu
      · cases hu
      · cases hu; exact ⟨_, rfl, hl⟩
      · cases hu; exact ⟨_, rfl, sim_addResults _ _ hl⟩
  · rename_i hb
    rw [if_neg hb]
    cases hu
    exact ⟨_, rfl, h⟩

theorem sim_compute {R : Rule} (hR : ∀ l l' v e, R.best l v e = R.best l' v e) {t t' : Tracker}
    (h : TrackerSim t t') : R.compute t' = R.compute t := by
  unfold Rule.compute
  rw [h.1, h.2, hR t'.losses t.losses]

theorem sim_rule {α : Type} {new : Net} {c c' : FitCfg α} (hc : SameTraining new c c') (hi : IgnoresLosses c) (e : Nat)
    {t t' : Tracker} (h : TrackerSim t t') (b : Option Nat) : ruleEpoch c' e t' b = ruleEpoch c e t b := by
  unfold ruleEpoch
  rw [hc.rule, hc.ruleFreq, hc.epochs]
  cases hr : c.rule with
  | none => rfl
  | some R => simp only; rw [sim_compute (hi R hr) h]

theorem sim_after {α : Type} {new : Net} {c c' : FitCfg α} (hc : SameTraining new c c') (hi : IgnoresLosses c)
    {t t' : Tracker} (h : TrackerSim t t') (v : LoopVars) : ruleAfter c' t' v = ruleAfter c t v := by
  unfold ruleAfter
  rw [hc.rule, hc.ruleFreq]
  cases hr : c.rule with
  | none => rfl
  | some R => simp only; rw [sim_compute (hi R hr) h]

/-- The loop only adds snapshots, and does not look at the earlier ones. -/
theorem refitEpochs_eq {α : Type} {c c' : FitCfg α} {net new : Net} {reach : Addr → Bool} (hc : SameTraining new c c')
    (hi : IgnoresLosses c) (hu : updateAll net reach = .ok ()) (es : List Nat) {st st' st2 : FitSt α}
    (h : fitEpochs c new es st = .ok st') (ht : TrackerSim st.tracker st2.tracker) (hv : st2.vars = st.vars)
    (hh : ∀ a ∈ new.all, st2.heap a = st.heap a) :
    ∃ s st2', refitEpochs c' net reach es st2 = .ok st2' ∧ TrackerSim st'.tracker st2'.tracker ∧
      st2'.vars = st'.vars ∧ (∀ a ∈ new.all, st2'.heap a = st'.heap a) ∧ st2'.saved = st2.saved ++ s ∧
      st'.saved.length = st.saved.length + s.length := by
  induction es generalizing st st2 with
  | nil =>
    simp only [fitEpochs, Except.ok.injEq] at h
    subst h
    exact ⟨[], st2, by simp [refitEpochs], ht, hv, hh, by simp, by simp⟩
  | cons e es ih =>
    simp only [fitEpochs] at h
    simp only [refitEpochs, hu]
    cases hE : trackEpoch c e st.tracker with
    | error x => rw [hE] at h; cases h
    | ok t =>
      rw [hE] at h
      obtain ⟨t', hE', hs⟩ := sim_track hc e ht hE
      rw [hE', hv]
      simp only at h ⊢
      rw [sim_rule hc hi e hs]
      cases hR : ruleEpoch c e t st.vars.best with
      | error x => rw [hR] at h; cases h
      | ok v =>
        rw [hR] at h
        simp only at h ⊢
        by_cases hstop : v.stop = true
        · rw [if_pos hstop] at h ⊢
          cases h
          exact ⟨[_], _, rfl, hs, rfl, hc.train e _ _ hh, rfl, by simp⟩
        · rw [if_neg hstop] at h ⊢
          obtain ⟨s, st2', h1, h2, h3, h4, h5, h6⟩ := ih (st2 := ⟨c'.train e st2.heap,
            st2.saved ++ [snapshot net (c'.train e st2.heap)], t', v⟩) h hs rfl (hc.train e _ _ hh)
          refine ⟨snapshot net (c'.train e st2.heap) :: s, st2', h1, h2, h3, h4, ?_, ?_⟩
          · simpa using h5
          · rw [h6]; simp; omega

/-- What the loop stores. -/
theorem refitEpochs_saved {α : Type} {c : FitCfg α} {net : Net} {reach : Addr → Bool} (es : List Nat) {st st' : FitSt α}
    (h : refitEpochs c net reach es st = .ok st') :
    ∀ x ∈ st'.saved, x ∈ st.saved ∨ (x.layers = net.layers ∧ x.models = net.models) := by
  induction es generalizing st with
  | nil =>
    simp only [refitEpochs, Except.ok.injEq] at h
    subst h
    exact fun x hx => Or.inl hx
  | cons e es ih =>
    simp only [refitEpochs] at h
    split at h
    · cases h
    · split at h
      · cases h
      · split at h
        · cases h
        · have last : ∀ x ∈ st.saved ++ [snapshot net (c.train e st.heap)],
              x ∈ st.saved ∨ (x.layers = net.layers ∧ x.models = net.models) := by
            intro x hx
            rcases List.mem_append.1 hx with hx | hx
            · exact Or.inl hx
            · rw [List.mem_singleton.1 hx]; exact Or.inr ⟨rfl, rfl⟩
          split at h
          · cases h; exact last
          · intro x hx
            rcases ih h x hx with h1 | h1
            · exact last x h1
            · exact Or.inr h1

/-- Stored layers and models are beginnings of the registered ones. -/
def KeptInOrder {α : Type} (m : Trained α) : Prop :=
  ∀ s ∈ m.saved, s.layers <+: m.net.layers ∧ s.models <+: m.net.models

theorem refit_net {α : Type} {c : FitCfg α} {reach : Addr → Bool} {new : Net} {heap : Addr → α} {m m' : Trained α}
    {f : Fitted α} (h : refit c reach new heap m = .ok (f, m')) : m'.net = m.net.add new := by
  unfold refit at h
  simp only at h
  split at h
  · cases h; rfl
  · split at h
    · cases h
    · split at h
      · cases h
      · cases h; rfl

theorem refit_kept {α : Type} {c : FitCfg α} {reach : Addr → Bool} {new : Net} {heap : Addr → α} {m m' : Trained α}
    {f : Fitted α} (hk : KeptInOrder m) (h : refit c reach new heap m = .ok (f, m')) : KeptInOrder m' := by
  have grow : ∀ s ∈ m.saved, s.layers <+: (m.net.add new).layers ∧ s.models <+: (m.net.add new).models := fun s hs =>
    ⟨(hk s hs).1.trans (List.prefix_append _ _), (hk s hs).2.trans (List.prefix_append _ _)⟩
  unfold refit at h
  simp only at h
  split at h
  · cases h; exact grow
  · split at h
    · cases h
    · rename_i st hst
      split at h
      · cases h
      · cases h
        intro s hs
        rcases refitEpochs_saved _ hst s hs with h1 | ⟨h1, h2⟩
        · exact grow s h1
        · simp only; rw [h1, h2]; exact ⟨List.prefix_refl _, List.prefix_refl _⟩

theorem earlier_kept {α : Type} {m : Trained α} (h : Earlier m) : KeptInOrder m := by
  induction h with
  | fresh => intro s hs; cases hs
  | again c reach new heap f _ hf ih => exact refit_kept ih hf

theorem setWeights_prefix {α : Type} (ls ks : List (List Addr)) (hk : ks <+: ls) (h : Addr → α) :
    setWeights h (ls.zip ks) = h := by
  obtain ⟨rest, rfl⟩ := hk
  have : (ks ++ rest).zip ks = ks.zip ks := by
    induction ks with
    | nil => simp
    | cons a ks ih => simp [ih]
  rw [this]
  exact setWeights_self ks h

/-- Without plain variables nothing is ever written. -/
theorem revert_none {α : Type} {net : Net} (hv : net.vars = []) {saved : List (Snap α)} {b : Nat}
    (hk : ∀ s ∈ saved, s.layers <+: net.layers ∧ s.models <+: net.models) (hb : (epochEntry saved b).isSome = true)
    (heap : Addr → α) : revert net saved b heap = .ok heap := by
  unfold revert
  cases he : epochEntry saved b with
  | none => rw [he] at hb; cases hb
  | some s =>
    have hs : s ∈ saved := by
      unfold epochEntry at he
      split at he
      · exact List.mem_of_getLast? he
      · exact List.mem_of_getElem? he
    simp only [hv, setWeights_prefix _ _ (hk s hs).1, setWeights_prefix _ _ (hk s hs).2]
    rfl

theorem epochEntry_isSome {β : Type} (l : List β) (b : Nat) : (epochEntry l b).isSome = true ↔ l ≠ [] ∧ b ≤ l.length := by
  unfold epochEntry
  split
  · rename_i h
    subst h
    simp
  · cases l with
    | nil => simp
    | cons a l =>
      simp only [List.getElem?_eq_some_iff, Option.isSome_iff_exists, ne_eq, reduceCtorEq, not_false_eq_true, true_and,
        List.length_cons]
      constructor
      · rintro ⟨_, h, _⟩; omega
      · intro h; exact ⟨_, by omega, rfl⟩

theorem sim_first {α : Type} {new : Net} {c c' : FitCfg α} (hc : SameTraining new c c') :
    firstTracker c' = firstTracker c := by
  unfold firstTracker
  rw [hc.verbose, hc.callback]

/-- Going back changes nothing, when no plain variable is registered or there is no rule. -/
theorem revertBest_none {α : Type} {net : Net} {saved : List (Snap α)} {best : Option Nat} {epochs : Nat}
    (hk : ∀ s ∈ saved, s.layers <+: net.layers ∧ s.models <+: net.models) (heap : Addr → α)
    (h : (net.vars = [] ∧ ∀ b, best = some b → b = epochs ∨ (saved ≠ [] ∧ b ≤ saved.length)) ∨ best = none) :
    revertBest epochs net saved best heap = .ok heap := by
  unfold revertBest
  rcases h with ⟨hv, h⟩ | h
  · cases best with
    | none => rfl
    | some b =>
      simp only
      by_cases he : b = epochs
      · rw [if_pos he]
      · rw [if_neg he]
        apply revert_none hv hk
        rw [epochEntry_isSome]
        rcases h b rfl with h | h
        · exact absurd h he
        · exact h
  · rw [h]

/-- Fitting again leaves the new networks with the weights that a new object would get, however often it was fitted
before; also the best epoch and the validation results are the same.  Missing from the full claim: trainables the loss
no longer depends on, plain variables with early stopping, and rules that look at the losses. -/
theorem C78_same_partial {α : Type} (m : Trained α) (hm : Earlier m) (c c' : FitCfg α) (reach : Addr → Bool)
    (new : Net) (hc : SameTraining new c c') (hi : IgnoresLosses c)
    (heap : Addr → α) (hr : AllReached (m.net.add new) reach)
    (hv : (m.net.vars = [] ∧ new.vars = []) ∨ c.rule = none)
    (hnew : ¬ (new.vars = [] ∧ new.layers = [] ∧ new.models = [])) (r : Fitted α) (hf : fit c new heap = .ok r) :
    ∃ r' m', refit c' reach new heap m = .ok (r', m') ∧ (∀ a ∈ new.all, r'.heap a = r.heap a) ∧ r'.best = r.best ∧
      r'.tracker.results = r.tracker.results ∧ r'.tracker.epochs = r.tracker.epochs := by
  unfold fit at hf
  rw [if_neg hnew] at hf
  have hne : ¬ ((m.net.add new).vars = [] ∧ (m.net.add new).layers = [] ∧ (m.net.add new).models = []) := by
    simp only [Net.add, List.append_eq_nil_iff]
    rintro ⟨⟨_, h1⟩, ⟨_, h2⟩, ⟨_, h3⟩⟩
    exact hnew ⟨h1, h2, h3⟩
  cases hst : fitEpochs c new (List.range' 1 c.epochs) ⟨heap, [], firstTracker c, ⟨none, none, false⟩⟩ with
  | error x => rw [hst] at hf; cases hf
  | ok st =>
    rw [hst] at hf
    simp only at hf
    obtain ⟨s, st2, h1, h2, h3, h4, h5, h6⟩ := refitEpochs_eq hc hi (updateAll_ok hr) _
      (st2 := ⟨heap, m.saved, firstTracker c', ⟨none, none, false⟩⟩) hst
      (by rw [sim_first hc]; exact ⟨rfl, rfl⟩) rfl (fun _ _ => rfl)
    simp only [List.length_nil, Nat.zero_add] at h5 h6
    have hsk := refitEpochs_saved _ h1
    have hk : ∀ x ∈ st2.saved, x.layers <+: (m.net.add new).layers ∧ x.models <+: (m.net.add new).models := by
      intro x hx
      rcases hsk x hx with h3 | ⟨h3, h4⟩
      · exact ⟨(earlier_kept hm x h3).1.trans (List.prefix_append _ _),
          (earlier_kept hm x h3).2.trans (List.prefix_append _ _)⟩
      · rw [h3, h4]; exact ⟨List.prefix_refl _, List.prefix_refl _⟩
    have hs' : ∀ x ∈ st.saved, x.layers <+: new.layers ∧ x.models <+: new.models := by
      obtain ⟨j, _, _, hw⟩ := fitEpochs_weights c.epochs 0 _ st
        (⟨rfl, rfl⟩ : WeightsInv c new heap 0 ⟨heap, [], firstTracker c, ⟨none, none, false⟩⟩) hst
      intro x hx
      rw [hw.saved] at hx
      obtain ⟨e, _, rfl⟩ := List.mem_map.1 hx
      exact ⟨List.prefix_refl _, List.prefix_refl _⟩
    unfold refit
    simp only
    rw [if_neg hne, hc.epochs, h1]
    simp only
    unfold fitEnd at hf ⊢
    rw [sim_after hc hi h2, h3]
    cases hb : ruleAfter c st.tracker st.vars with
    | error x => rw [hb] at hf; cases hf
    | ok best =>
      rw [hb] at hf
      simp only at hf ⊢
      have hbest : ((m.net.add new).vars = [] ∧ new.vars = []) ∨ best = none := by
        rcases hv with ⟨hv1, hv2⟩ | hv
        · exact Or.inl ⟨by simp [Net.add, hv1, hv2], hv2⟩
        · right
          have hbn : st.vars.best = none := by
            have gen : ∀ (es : List Nat) (a a' : FitSt α), a.vars.best = none → fitEpochs c new es a = .ok a' →
                a'.vars.best = none := by
              intro es
              induction es with
              | nil => intro a a' ha h; simp only [fitEpochs, Except.ok.injEq] at h; rw [← h]; exact ha
              | cons e es ih =>
                intro a a' ha h
                simp only [fitEpochs] at h
                split at h
                · cases h
                · simp only [ruleEpoch, hv] at h
                  rw [if_neg (by simp)] at h
                  refine ih _ a' ?_ h
                  exact ha
            exact gen _ _ _ rfl hst
          simp only [ruleAfter, hv, Except.ok.injEq] at hb
          rw [← hb]; exact hbn
      cases hg : revertBest c.epochs new st.saved best st.heap with
      | error x => rw [hg] at hf; cases hf
      | ok g =>
        rw [hg] at hf
        simp only at hf
        have hin : ∀ b, best = some b → b = c.epochs ∨ (st.saved ≠ [] ∧ b ≤ st.saved.length) := by
          intro b eb
          by_cases he : b = c.epochs
          · exact Or.inl he
          · right
            rw [← epochEntry_isSome]
            unfold revertBest at hg
            rw [eb] at hg
            simp only [if_neg he] at hg
            cases hE : epochEntry st.saved b with
            | none => unfold revert at hg; rw [hE] at hg; cases hg
            | some _ => rfl
        have hg1 : g = st.heap := by
          rw [revertBest_none hs' _ (hbest.imp (fun h => ⟨h.2, hin⟩) id)] at hg
          cases hg; rfl
        have hg2 : revertBest c.epochs (m.net.add new) st2.saved best st2.heap = .ok st2.heap := by
          apply revertBest_none hk
          refine hbest.imp (fun h => ⟨h.1, fun b eb => (hin b eb).imp id fun hh => ?_⟩) id
          have hl : st.saved.length ≠ 0 := by simpa using hh.1
          rw [h5]
          refine ⟨?_, by simp; omega⟩
          intro hnil
          rw [List.append_eq_nil_iff] at hnil
          rw [hnil.2, List.length_nil] at h6
          exact hl h6
        rw [hc.epochs, hg2]
        simp only
        have hd : display st2.tracker = display st.tracker := by unfold display; rw [h2.1, h2.2]
        rw [hc.verbose, hd]
        split at hf
        · cases hf
        · cases hf
          exact ⟨_, _, rfl, by rw [hg1]; exact h4, rfl, h2.1, h2.2⟩

/-! ## Models that raise -/

theorem refit_update_error {α : Type} {c : FitCfg α} (he : 1 ≤ c.epochs) {reach : Addr → Bool} {new : Net}
    {m : Trained α} {e : Err} (hu : updateAll (m.net.add new) reach = .error e)
    (hne : ¬ ((m.net.add new).vars = [] ∧ (m.net.add new).layers = [] ∧ (m.net.add new).models = []))
    (heap : Addr → α) : refit c reach new heap m = .error e := by
  unfold refit
  simp only
  rw [if_neg hne]
  obtain ⟨n, hn⟩ : ∃ n, c.epochs = n + 1 := ⟨c.epochs - 1, by omega⟩
  rw [hn, List.range'_succ, refitEpochs, hu]

/-- A registered variable that the loss does not depend on any more: every fit raises. -/
theorem C78_variables_raise {α : Type} (m : Trained α) (c : FitCfg α) (he : 1 ≤ c.epochs) (reach : Addr → Bool)
    (new : Net) (heap : Addr → α) (a : Addr) (ha : a ∈ m.net.vars) (hr : reach a = false) :
    refit c reach new heap m = .error .typeError := by
  apply refit_update_error he
  · unfold updateAll
    rw [if_neg]
    intro h
    have := List.all_eq_true.1 h a (List.mem_append_left _ ha)
    rw [hr] at this
    cases this
  · rintro ⟨h, _⟩
    simp only [Net.add, List.append_eq_nil_iff] at h
    rw [h.1] at ha
    cases ha

/-- A registered layer or model whose variables the loss does not depend on any more: every fit raises. -/
theorem C78_layers_raise {α : Type} (m : Trained α) (c : FitCfg α) (he : 1 ≤ c.epochs) (reach : Addr → Bool)
    (new : Net) (heap : Addr → α) (ws : List Addr) (hw : ws ∈ m.net.layers ∨ ws ∈ m.net.models) (hne : ws ≠ [])
    (hr : ∀ a ∈ ws, reach a = false) : ∃ e, refit c reach new heap m = .error e := by
  have hmem : ws ∈ (m.net.add new).layers ++ (m.net.add new).models := by
    rcases hw with hw | hw
    · exact List.mem_append_left _ (List.mem_append_left _ hw)
    · exact List.mem_append_right _ (List.mem_append_left _ hw)
  have hu : ∃ e, updateAll (m.net.add new) reach = .error e := by
    unfold updateAll
    split
    · rw [if_neg]
      · exact ⟨_, rfl⟩
      · intro h
        have h1 := List.all_eq_true.1 h ws hmem
        unfold updateMany at h1
        rw [if_neg] at h1
        · cases h1
        · rintro (h2 | h2)
          · exact hne h2
          · obtain ⟨a, ha, h3⟩ := List.any_eq_true.1 h2
            rw [hr a ha] at h3
            cases h3
    · exact ⟨_, rfl⟩
  obtain ⟨e, hu⟩ := hu
  refine ⟨e, refit_update_error he hu ?_ heap⟩
  rintro ⟨_, h1, h2⟩
  rw [h1, h2] at hmem
  cases hmem

/-- What a fit registers: CDAE its five variables, Caser one layer for each of the two embeddings, the vertical
convolution, every horizontal one and the three last layers, DMF two networks with kernel and bias for every layer; no
variable is registered twice. -/
theorem C78_registered (L u i b : Nat) :
    ((cdaeNet b).all.Nodup ∧ (cdaeNet b).vars.length = 5 ∧ (∀ a : Nat, a ∈ (cdaeNet b).all ↔ b ≤ a ∧ a < b + 5)) ∧
    ((caserNet L b).layers.length = 6 + L ∧ ∀ a : Nat, a ∈ (caserNet L b).all ↔ b ≤ a ∧ a < b + 8 + 2 * L) ∧
    ((dmfNet u i b).models.length = 2 ∧ ∀ a : Nat, a ∈ (dmfNet u i b).all ↔ b ≤ a ∧ a < b + 2 * u + 2 * i) := by
  refine ⟨⟨?_, by simp [cdaeNet, addrs], ?_⟩, ⟨?_, ?_⟩, by simp [dmfNet], ?_⟩
  · simp [cdaeNet, Net.all, addrs, List.nodup_range']
  · intro a
    simp [cdaeNet, Net.all, addrs, List.mem_range'_1]
  · simp [caserNet]; omega
  · intro a
    unfold Addr
    simp only [caserNet, Net.all, List.mem_append, List.mem_flatten, List.mem_map, List.mem_cons, List.mem_range,
      List.not_mem_nil, or_false, List.nil_append, List.flatten_nil]
    constructor
    · rintro ⟨l, ((rfl | rfl | rfl) | ⟨i, _, rfl⟩) | rfl | rfl | rfl, hl⟩ <;> simp at hl <;> omega
    · rintro ⟨h1, h2⟩
      by_cases h3 : a < b + 8
      · have : a = b ∨ a = b + 1 ∨ a = b + 2 ∨ a = b + 3 ∨ a = b + 4 ∨ a = b + 5 ∨ a = b + 6 ∨ a = b + 7 := by omega
        rcases this with e | e | e | e | e | e | e | e
        · exact ⟨[b], by simp, by simp [e]⟩
        · exact ⟨[b + 1], by simp, by simp [e]⟩
        · exact ⟨[b + 2, b + 3], by simp, by simp [e]⟩
        · exact ⟨[b + 2, b + 3], by simp, by simp [e]⟩
        · exact ⟨[b + 4, b + 5], by simp, by simp [e]⟩
        · exact ⟨[b + 4, b + 5], by simp, by simp [e]⟩
        · exact ⟨[b + 6], by simp, by simp [e]⟩
        · exact ⟨[b + 7], by simp, by simp [e]⟩
      · refine ⟨_, .inl (.inr ⟨(a - b - 8) / 2, by omega, rfl⟩), ?_⟩
        simp only [List.mem_cons, List.not_mem_nil, or_false]
        omega
  · intro a
    simp only [dmfNet, Net.all, denseVars, addrs, List.nil_append, List.flatten_nil, List.flatten_cons, List.append_nil,
      List.mem_append, List.mem_range'_1]
    omega

/-- CDAE: whenever a first fit returns, the second raises, whatever the data and arguments of both. -/
theorem C78_cdae_raises {α : Type} (c c' : FitCfg α) (he : 1 ≤ c'.epochs) (heap heap' : Addr → α) (f : Fitted α)
    (m : Trained α) (b b' : Nat) (hb : b + 5 ≤ b')
    (h : refit c (reaches (cdaeNet b) []) (cdaeNet b) heap Trained.fresh = .ok (f, m)) :
    refit c' (reaches (cdaeNet b') []) (cdaeNet b') heap' m = .error .typeError := by
  apply C78_variables_raise m c' he _ _ _ b
  · rw [refit_net h]
    simp [Net.add, Trained.fresh, cdaeNet, addrs]
  · simp only [reaches, cdaeNet, addrs, List.flatten_nil, List.append_nil, decide_eq_false_iff_not,
      List.mem_range'_1]
    omega

/-- Caser: the same, for every sequence length. -/
theorem C78_caser_raises {α : Type} (L : Nat) (c c' : FitCfg α) (he : 1 ≤ c'.epochs) (heap heap' : Addr → α)
    (f : Fitted α) (m : Trained α) (b b' : Nat) (hb : b + 8 + 2 * L ≤ b')
    (h : refit c (reaches (caserNet L b) []) (caserNet L b) heap Trained.fresh = .ok (f, m)) :
    ∃ e, refit c' (reaches (caserNet L b') (caserReg L b)) (caserNet L b') heap' m = .error e := by
  apply C78_layers_raise m c' he _ _ _ [b + 7]
  · rw [refit_net h]
    left
    simp [Net.add, Trained.fresh, caserNet]
  · simp
  · intro a ha
    rw [List.mem_singleton.1 ha]
    apply decide_eq_false
    unfold Addr
    simp only [caserNet, caserReg, List.mem_append, List.mem_flatten, List.mem_map, List.mem_cons, List.mem_range,
      List.not_mem_nil, or_false, not_or, List.nil_append]
    refine ⟨⟨?_, ?_⟩, ?_, ?_⟩
    · rintro ⟨l, ((rfl | rfl | rfl) | ⟨i, _, rfl⟩) | rfl | rfl | rfl, hl⟩ <;> simp at hl <;> omega
    · rintro ⟨l, hl, _⟩; exact hl
    · omega
    · rintro ⟨i, _, hi⟩; omega

/-- DMF: a second fit gives the weights that a new object would get (the networks have at least one layer each). -/
theorem C78_dmf_partial {α : Type} (u i : Nat) (hu : 1 ≤ u) (hi : 1 ≤ i) (c c' c'' : FitCfg α) (heap heap' : Addr → α)
    (f : Fitted α) (m : Trained α) (b b' : Nat) (hs : SameTraining (dmfNet u i b') c' c'') (hl : IgnoresLosses c')
    (h : refit c (reaches (dmfNet u i b) []) (dmfNet u i b) heap Trained.fresh = .ok (f, m))
    (r : Fitted α) (hf : fit c' (dmfNet u i b') heap' = .ok r) :
    ∃ r' m', refit c'' (reaches (dmfNet u i b') (dmfReg u i b)) (dmfNet u i b') heap' m = .ok (r', m') ∧
      (∀ a ∈ denseVars b' u ++ denseVars (b' + 2 * u) i, r'.heap a = r.heap a) ∧ r'.best = r.best := by
  have hm : m.net = dmfNet u i b := by rw [refit_net h]; simp [Net.add, Trained.fresh, dmfNet]
  obtain ⟨r', m', h1, h2, h3, _⟩ := C78_same_partial m (.again _ _ _ _ _ .fresh h) c' c''
    (reaches (dmfNet u i b') (dmfReg u i b)) _ hs hl heap' (by
      rw [hm]
      refine ⟨by simp [Net.add, dmfNet], ?_⟩
      intro ws hws _
      have h0 : b ∈ denseReg b u := by simp [denseReg]; omega
      have h1 : b + 2 * u ∈ denseReg (b + 2 * u) i := by simp [denseReg]; omega
      simp only [Net.add, dmfNet, List.nil_append, List.cons_append, List.mem_cons, List.not_mem_nil, or_false] at hws
      rcases hws with rfl | rfl | rfl | rfl
      · exact ⟨b, by simp [denseVars, addrs]; omega, by simp [reaches, dmfReg, h0]⟩
      · exact ⟨b + 2 * u, by simp [denseVars, addrs]; omega, by simp [reaches, dmfReg, h1]⟩
      · exact ⟨b', by simp [denseVars, addrs]; omega, by simp [reaches, dmfNet, denseVars, addrs]; omega⟩
      · exact ⟨b' + 2 * u, by simp [denseVars, addrs]; omega, by simp [reaches, dmfNet, denseVars, addrs]; omega⟩)
    (by rw [hm]; exact Or.inl ⟨rfl, rfl⟩) (by simp [dmfNet]) r hf
  exact ⟨r', m', h1, fun a ha => h2 a (by simpa [Net.all, dmfNet] using ha), h3⟩

/-- Two fits with one variable each, both in the loss of the second.  The fifth epoch is best in both.  A new object
goes back to the fifth epoch, this one keeps the variable at the last epoch. -/
theorem C78_wrong_epoch :
    let c := exFit 10 false (some exReport)
    (((fit c ⟨[1], [], []⟩ fun _ => 0).toOption.map fun r => (r.best, r.heap 1)) = some (some 5, 5)) ∧
    ((refit c (fun _ => true) ⟨[0], [], []⟩ (fun _ => 0) Trained.fresh).toOption.bind fun m =>
      (refit c (fun _ => true) ⟨[1], [], []⟩ (fun _ => 0) m.2).toOption.map fun r => (r.1.best, r.1.heap 1)) =
      some (some 5, 10) := by
  refine ⟨by decide +kernel, by decide +kernel⟩

/-- The hypotheses of the theorems above hold: these fits return. -/
example : ((refit (exFit 10 false (some exReport)) (reaches (cdaeNet 0) []) (cdaeNet 0) (fun _ => 0)
    Trained.fresh).toOption.map fun r => r.1.best) = some (some 5) := by decide +kernel

example : ((refit (exFit 10 false (some exReport)) (reaches (caserNet 2 0) []) (caserNet 2 0) (fun _ => 0)
    Trained.fresh).toOption.map fun r => r.1.best) = some (some 5) := by decide +kernel

example : ((refit (exFit 10 false (some exReport)) (reaches (dmfNet 2 2 0) []) (dmfNet 2 2 0) (fun _ => 0)
    Trained.fresh).toOption.map fun r => r.1.best) = some (some 5) ∧
    ((fit (exFit 10 false (some exReport)) (dmfNet 2 2 8) fun _ => 0).toOption.map fun r => r.best) = some (some 5) := by
  refine ⟨by decide +kernel, by decide +kernel⟩

/-- The losses of the second fit, and what it does to the first networks (addresses below 8), may differ. -/
example : SameTraining (dmfNet 2 2 8) (exFit 10 false (some exReport))
    { exFit 10 false (some exReport) with
      loss := fun _ => 3
      train := (fun _ h a => if a < 8 then h a / 2 else h a + 1) } ∧
    IgnoresLosses (exFit 10 false (some exReport)) := by
  refine ⟨⟨rfl, rfl, rfl, rfl, rfl, rfl, ?_⟩, ?_⟩
  · intro e h h' hh a ha
    have h8 : ¬ a < 8 := by
      unfold Addr at *
      simp only [Net.all, dmfNet, denseVars, addrs, List.flatten_nil, List.nil_append, List.flatten_cons,
        List.append_nil, List.mem_append, List.mem_range'_1] at ha
      omega
    simp only [if_neg h8, exFit, hh a ha]
  · intro R hR l l' v e
    cases hR
    rfl

end DRec
