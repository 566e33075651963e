import Verif.Spec.Optimizer
import Mathlib.Tactic.Linarith
import Mathlib.Tactic.Ring
import Mathlib.Tactic.NormNum
import Mathlib.Tactic.Positivity
import Mathlib.Tactic.IntervalCases

/-! # Lemmas about the optimizer -/

namespace DRec.Opt

open DRec.Spec

variable {S : Type}

theorem groups_flatten (net : Net) : (groups net).flatten = net.all := by
  have : ∀ l : List Addr, (l.map fun a => [a]).flatten = l := by
    intro l; induction l with
    | nil => rfl
    | cons a l ih => simp [ih]
  have f : ∀ l : List (List Addr), (l.filter fun ws => decide (ws ≠ [])).flatten = l.flatten := by
    intro l
    induction l with
    | nil => rfl
    | cons ws l ih => cases ws <;> simp_all
  unfold groups
  rw [f]
  simp [Net.all, this]

theorem groups_nonempty {net : Net} {ws : List Addr} (h : ws ∈ groups net) : ws ≠ [] := by
  simpa using (List.mem_filter.1 h).2

theorem chain_append {σ β : Type} (f : β → σ → Except Err σ) (a b : List β) (s : σ) :
    chain f (a ++ b) s = match chain f a s with | .error e => .error e | .ok s' => chain f b s' := by
  induction a generalizing s with
  | nil => rfl
  | cons x a ih =>
    simp only [List.cons_append, chain]
    cases f x s with
    | error e => rfl
    | ok s' => exact ih s'

theorem updateWeights_ok (R : Algo S) (net : Net) (g : Addr → Option (Nat → ℝ)) (s s' : St S) :
    updateWeights R net g s = .ok s' ↔ chain (applyGradients R g) (groups net) s = .ok s' := by
  have h : ∀ (l : List Addr) (s s' : St S), chain (updateVar R g) l s = .ok s' ↔ chain (applyGradients R g) (l.map fun a => [a]) s = .ok s' := by
    intro l
    induction l with
    | nil => intro s s'; rfl
    | cons a l ih =>
      intro s s'
      simp only [chain, List.map_cons, updateVar]
      cases hg : g a with
      | none => simp [applyGradients, hg]
      | some x =>
        simp only [Option.isNone_some, Bool.false_eq_true, if_false]
        cases applyGradients R g [a] s with
        | error e => simp
        | ok t => exact ih t s'
  have f : ∀ (l : List (List Addr)) (s : St S), chain (applyGradients R g) (l.filter fun ws => decide (ws ≠ [])) s =
      chain (applyGradients R g) l s := by
    intro l
    induction l with
    | nil => intro s; rfl
    | cons ws l ih =>
      intro s
      by_cases hw : ws = []
      · subst hw
        simp only [ne_eq, not_true_eq_false, decide_false, Bool.false_eq_true, not_false_eq_true, List.filter_cons_of_neg]
        rw [show (fun ws : List Addr => decide ¬ws = []) = fun ws => decide (ws ≠ []) from rfl, ih s]
        simp [chain, applyGradients]
      · rw [List.filter_cons_of_pos (by simpa using hw)]
        simp only [chain]
        cases applyGradients R g ws s with
        | error e => rfl
        | ok t => exact ih t
  unfold updateWeights groups
  rw [f, List.append_assoc, chain_append]
  cases h1 : chain (updateVar R g) net.vars s with
  | ok t =>
    rw [(h net.vars s t).1 h1]
  | error e =>
    cases h2 : chain (applyGradients R g) (net.vars.map fun a => [a]) s with
    | error e' => simp
    | ok t => rw [(h net.vars s t).2 h2] at h1; cases h1

/-- The variables of one call. -/
theorem foldl_applyOne (R : Algo S) (t : Nat) (g : Addr → Option (Nat → ℝ)) (ws : List Addr) : ∀ (s : St S), ws.Nodup →
    (ws.foldl (applyOne R t g) s).w = (fun a i => if a ∈ ws then
      match g a with
      | some x => s.w a i - (R.step t (s.slots a i) (x i)).2
      | none => s.w a i
    else s.w a i) ∧
    (ws.foldl (applyOne R t g) s).slots = (fun a i => if a ∈ ws then
      match g a with
      | some x => (R.step t (s.slots a i) (x i)).1
      | none => s.slots a i
    else s.slots a i) ∧ (ws.foldl (applyOne R t g) s).iterations = s.iterations := by
  induction ws with
  | nil => intro s _; simp
  | cons b ws ih =>
    intro s h
    rw [List.nodup_cons] at h
    obtain ⟨h1, h2, h3⟩ := ih (applyOne R t g s b) h.2
    simp only [List.foldl_cons]
    refine ⟨?_, ?_, ?_⟩
    · rw [h1]
      funext a i
      by_cases hab : a = b
      · subst hab
        simp only [h.1, List.mem_cons, true_or, if_true, if_false]
        cases hg : g a <;> simp [applyOne, hg]
      · have hw : (applyOne R t g s b).w a i = s.w a i := by unfold applyOne; cases g b <;> simp [hab]
        have hs : (applyOne R t g s b).slots a i = s.slots a i := by unfold applyOne; cases g b <;> simp [hab]
        simp only [List.mem_cons, hab, false_or, hw, hs]
    · rw [h2]
      funext a i
      by_cases hab : a = b
      · subst hab
        simp only [h.1, List.mem_cons, true_or, if_true, if_false]
        cases hg : g a <;> simp [applyOne, hg]
      · have hs : (applyOne R t g s b).slots a i = s.slots a i := by unfold applyOne; cases g b <;> simp [hab]
        simp only [List.mem_cons, hab, false_or, hs]
    · rw [h3]
      unfold applyOne
      cases g b <;> rfl

/-- All calls of an epoch. -/
theorem chain_groups (R : Algo S) (g : Addr → Option (Nat → ℝ)) (gs : List (List Addr)) : ∀ (s s' : St S), (∀ ws ∈ gs, ws ≠ []) → gs.flatten.Nodup →
    chain (applyGradients R g) gs s = .ok s' →
    s'.w = (fun a i => if a ∈ gs.flatten then
      match g a with
      | some x => s.w a i - (R.step (s.iterations + (gs.findIdx (fun ws => decide (a ∈ ws)) + 1)) (s.slots a i) (x i)).2
      | none => s.w a i
    else s.w a i) ∧
    s'.slots = (fun a i => if a ∈ gs.flatten then
      match g a with
      | some x => (R.step (s.iterations + (gs.findIdx (fun ws => decide (a ∈ ws)) + 1)) (s.slots a i) (x i)).1
      | none => s.slots a i
    else s.slots a i) ∧ s'.iterations = s.iterations + gs.length := by
  induction gs with
  | nil => intro s s' _ _ h; cases h; simp
  | cons ws gs ih =>
    intro s s' he hn h
    rw [List.flatten_cons] at hn
    obtain ⟨n1, n2, n3⟩ := List.nodup_append.1 hn
    simp only [chain] at h
    unfold applyGradients at h
    rw [if_neg (he ws (List.mem_cons_self ..))] at h
    split at h
    · cases h
    · rename_i t ht
      split at ht
      · cases ht
      · cases ht
        obtain ⟨h1, h2, h3⟩ := ih _ s' (fun x hx => he x (List.mem_cons_of_mem _ hx)) n2 h
        obtain ⟨f1, f2, f3⟩ := foldl_applyOne R (s.iterations + 1) g ws s n1
        simp only at h1 h2 h3
        rw [f1, f2] at h1
        rw [f2] at h2
        refine ⟨?_, ?_, ?_⟩
        · rw [h1]
          funext a i
          simp only [List.flatten_cons, List.mem_append]
          by_cases ha : a ∈ ws
          · have hb : a ∉ gs.flatten := fun hb => n3 a ha a hb rfl
            simp only [ha, hb, true_or, if_true, if_false, List.findIdx_cons, decide_true, cond_true]
          · simp only [ha, false_or, if_false, List.findIdx_cons, decide_false, cond_false]
            simp only [show s.iterations + 1 + (gs.findIdx (fun ws => decide (a ∈ ws)) + 1) =
              s.iterations + (gs.findIdx (fun ws => decide (a ∈ ws)) + 1 + 1) by omega]
        · rw [h2]
          funext a i
          simp only [List.flatten_cons, List.mem_append]
          by_cases ha : a ∈ ws
          · have hb : a ∉ gs.flatten := fun hb => n3 a ha a hb rfl
            simp only [ha, hb, true_or, if_true, if_false, List.findIdx_cons, decide_true, cond_true]
          · simp only [ha, false_or, if_false, List.findIdx_cons, decide_false, cond_false]
            simp only [show s.iterations + 1 + (gs.findIdx (fun ws => decide (a ∈ ws)) + 1) =
              s.iterations + (gs.findIdx (fun ws => decide (a ∈ ws)) + 1 + 1) by omega]
        · rw [h3, List.length_cons]; omega

/-- The step numbers matter only if the optimizer looks at them. -/
theorem epochs_congr (R : Algo S) (num num' : Addr → Nat → Nat) (vars vars' : List Addr) (hv : ∀ a, a ∈ vars ↔ a ∈ vars')
    (grad : Nat → (Addr → Nat → ℝ) → Addr → Option (Nat → ℝ)) (p : (Addr → Nat → ℝ) × (Addr → Nat → S))
    (h : ∀ a ∈ vars, ∀ e, 1 ≤ e → ∀ s x, R.step (num a e) s x = R.step (num' a e) s x) (n : Nat) :
    epochs R num vars grad p n = epochs R num' vars' grad p n := by
  induction n with
  | zero => rfl
  | succ n ih =>
    simp only [epochs]
    rw [ih]
    unfold epochStep
    refine Prod.ext ?_ ?_
    · funext a i
      by_cases ha : a ∈ vars
      · simp only [ha, (hv a).1 ha, if_true, h a ha (n + 1) (by omega)]
      · have ha' : a ∉ vars' := fun h => ha ((hv a).2 h)
        simp only [ha, ha', if_false]
    · funext a i
      by_cases ha : a ∈ vars
      · simp only [ha, (hv a).1 ha, if_true, h a ha (n + 1) (by omega)]
      · have ha' : a ∉ vars' := fun h => ha ((hv a).2 h)
        simp only [ha, ha', if_false]

theorem correction_lt {j : Nat} (h2 : 2 ≤ j) (h20 : j ≤ 20) : correction j < correction 1 := by
  have key : (1 - 0.999 ^ j : ℝ) / (1 - 0.9 ^ j) ^ 2 < (1 - 0.999 ^ 1) / (1 - 0.9 ^ 1) ^ 2 := by
    interval_cases j <;> norm_num
  have e : ∀ t : Nat, 1 ≤ t → correction t = √((1 - 0.999 ^ t : ℝ) / (1 - 0.9 ^ t) ^ 2) := by
    intro t ht
    have hp : (0 : ℝ) ≤ 1 - 0.9 ^ t := by
      have := pow_le_one₀ (by norm_num : (0 : ℝ) ≤ 0.9) (by norm_num : (0.9 : ℝ) ≤ 1) (n := t)
      linarith
    unfold correction
    rw [Real.sqrt_div' _ (sq_nonneg _), Real.sqrt_sq hp]
  rw [e j (by omega), e 1 le_rfl]
  refine Real.sqrt_lt_sqrt ?_ key
  have hp : (0 : ℝ) ≤ 1 - 0.999 ^ j := by
    have := pow_le_one₀ (by norm_num : (0 : ℝ) ≤ 0.999) (by norm_num : (0.999 : ℝ) ≤ 1) (n := j)
    linarith
  positivity

theorem correction_pos {t : Nat} (h : 1 ≤ t) : 0 < correction t := by
  have h1 : (0.999 : ℝ) ^ t < 1 := pow_lt_one₀ (by norm_num) (by norm_num) (by omega)
  have h2 : (0.9 : ℝ) ^ t < 1 := pow_lt_one₀ (by norm_num) (by norm_num) (by omega)
  unfold correction
  have : 0 < 1 - (0.999 : ℝ) ^ t := by linarith
  have : 0 < 1 - (0.9 : ℝ) ^ t := by linarith
  positivity

end DRec.Opt
