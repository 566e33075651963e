import Verif.Props.Fit

/-!
# C75: when training stops
-/

namespace DRec

open Spec

/-- What the tracker holds after `e` epochs of training with a rule. -/
def trackedAfter {α : Type} (c : FitCfg α) : Nat → Tracker
  | 0 => match c.verbose, c.callback with
    | true, some f => Tracker.init.addResults (f 0) 0
    | _, _ => Tracker.init
  | e + 1 => match c.callback with
    | none => (trackedAfter c e).addLoss (c.loss (e + 1))
    | some f =>
      if c.cbFreq ∣ e + 1 then ((trackedAfter c e).addLoss (c.loss (e + 1))).addResults (f (e + 1)) (e + 1)
      else (trackedAfter c e).addLoss (c.loss (e + 1))

/-- The rule is due at epoch `e`, can choose an epoch and asks to stop. -/
def AsksToStop {α : Type} (c : FitCfg α) (R : Rule) (e : Nat) : Prop :=
  c.ruleFreq ∣ e ∧ ∃ b, R.compute (trackedAfter c e) = .ok b ∧ R.stop e b c.epochs = true

theorem trackEpoch_tracked {α : Type} {c : FitCfg α} {R : Rule} (hr : c.rule = some R) (hcb : 0 < c.cbFreq) (e : Nat) :
    trackEpoch c (e + 1) (trackedAfter c e) = .ok (trackedAfter c (e + 1)) := by
  unfold trackEpoch
  rw [if_pos (by simp [hr]), trackedAfter]
  cases c.callback with
  | none => rfl
  | some f =>
    simp only [onTick, show c.cbFreq ≠ 0 by omega, if_false]
    by_cases h : (e + 1) % c.cbFreq = 0
    · simp [h, Nat.dvd_of_mod_eq_zero h]
    · have h' : ¬ c.cbFreq ∣ e + 1 := fun hd => h (Nat.mod_eq_zero_of_dvd hd)
      simp [h, h']

theorem ruleEpoch_stop {α : Type} {c : FitCfg α} {R : Rule} (hr : c.rule = some R) {e : Nat}
    {best : Option Nat} {v : LoopVars} (h : ruleEpoch c e (trackedAfter c e) best = .ok v) :
    v.stop = true ↔ AsksToStop c R e := by
  unfold ruleEpoch at h
  simp only [hr, onTick] at h
  split at h
  · cases h
  next hf =>
    split at hf
    · cases hf
    · have hnot : ¬ c.ruleFreq ∣ e := fun hd => by
        simp [Nat.mod_eq_zero_of_dvd hd] at hf
      cases h
      simp [AsksToStop, hnot]
  next hf =>
    split at hf
    · cases hf
    · have hd : c.ruleFreq ∣ e := Nat.dvd_of_mod_eq_zero (by simpa using hf)
      split at h
      next hc => cases h; simp [AsksToStop, hc]
      · cases h
      next b hc => cases h; simp [AsksToStop, hc, hd]

theorem fitEpochs_stop {α : Type} {c : FitCfg α} {R : Rule} (hr : c.rule = some R) (hcb : 0 < c.cbFreq)
    (net : Net) (n : Nat) : ∀ (k : Nat) (st st' : FitSt α), st.tracker = trackedAfter c k → st.saved.length = k →
    fitEpochs c net (List.range' (k + 1) n) st = .ok st' →
    st'.tracker = trackedAfter c st'.saved.length ∧ k ≤ st'.saved.length ∧
    (∀ e, k < e → e < st'.saved.length → ¬ AsksToStop c R e) ∧
    (st'.saved.length = k + n ∨ (k < st'.saved.length ∧ st'.saved.length < k + n ∧
      AsksToStop c R st'.saved.length)) := by
  induction n with
  | zero =>
    intro k st st' ht hs h
    cases h
    exact ⟨by rw [hs, ht], by omega, by intro e h1 h2; omega, .inl hs⟩
  | succ n ih =>
    intro k st st' ht hs h
    simp only [List.range'_succ, fitEpochs, ht, trackEpoch_tracked hr hcb] at h
    split at h
    · cases h
    next v hv =>
      have hstop := ruleEpoch_stop hr hv
      split at h
      next hs' =>
        cases h
        simp only [List.length_append, List.length_cons, List.length_nil, hs]
        refine ⟨trivial, by omega, by intro e h1 h2; omega, ?_⟩
        by_cases hn : n = 0
        · exact .inl (by omega)
        · exact .inr ⟨by omega, by omega, hstop.1 hs'⟩
      next hs' =>
        obtain ⟨h1, h2, h3, h4⟩ := ih (k + 1) _ st' rfl (by simp [hs]) h
        refine ⟨h1, by omega, ?_, ?_⟩
        · intro e he1 he2
          by_cases he : e = k + 1
          · subst he; exact fun ha => hs' (hstop.2 ha)
          · exact h3 e (by omega) he2
        · rcases h4 with h4 | ⟨h4, h5, h6⟩
          · exact .inl (by omega)
          · exact .inr ⟨by omega, by omega, h6⟩

/-- **C75.** With a rule, training goes on until the first epoch at which the rule asks to stop, and through all
epochs if it never does.  In particular no epoch before the last one trained asked to stop. -/
theorem C75_stops {α : Type} (c : FitCfg α) (R : Rule) (hr : c.rule = some R) (hcb : 0 < c.cbFreq) (net : Net)
    (hnet : ¬ (net.vars = [] ∧ net.layers = [] ∧ net.models = [])) (heap : Addr → α) (r : Fitted α)
    (h : fit c net heap = .ok r) :
    (∀ e, 0 < e → e < r.ran → ¬ AsksToStop c R e) ∧
    (r.ran = c.epochs ∨ (0 < r.ran ∧ r.ran < c.epochs ∧ AsksToStop c R r.ran)) ∧
    r.tracker = trackedAfter c r.ran := by
  unfold fit at h
  rw [if_neg hnet] at h
  split at h
  · cases h
  next st hst =>
    have := fitEpochs_stop hr hcb net c.epochs 0 _ st (by rfl) rfl hst
    unfold fitEnd at h
    split at h
    · cases h
    · split at h
      · cases h
      · split at h
        · cases h
        · cases h
          obtain ⟨h1, _, h3, h4⟩ := this
          exact ⟨h3, by simpa using h4, h1⟩

/-- A rule that stops at the second check, going back to the first epoch. -/
def exStopRule : Rule where
  required := []
  best := fun _ _ _ => .ok 1
  stop := fun e _ _ => decide (10 ≤ e)

/-- Twenty epochs with that rule, checked every five epochs. -/
def exStopFit : FitCfg ℚ := { exFit 20 false (some exReport) with rule := some exStopRule }

example : exStopFit.rule = some exStopRule ∧ AsksToStop exStopFit exStopRule 10 ∧
    ((fit exStopFit ⟨[0], [], []⟩ fun _ => 0).toOption.map
      fun r => (r.ran, r.best, r.heap 0)) = some (10, some 1, 1) := by
  refine ⟨rfl, ⟨⟨2, rfl⟩, 1, rfl, rfl⟩, by decide +kernel⟩

end DRec
