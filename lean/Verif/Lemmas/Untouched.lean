import Verif.Spec.Untouched
import Verif.Lemmas.Optimizer
import Verif.Lemmas.Training
import Mathlib.Analysis.Calculus.Deriv.Pow
import Mathlib.Analysis.Calculus.Deriv.Add
import Mathlib.Analysis.Calculus.Deriv.Mul

/-! # Lemmas about weights that the batches do not use -/

namespace DRec.Trn

open DRec.Spec DRec.Opt

variable {S : Type}

theorem gradient_outside {c : ℝ} {loss : Weights → Except Err ℝ} {a : Addr} {i : Nat} (h : Outside c loss a i) {w : Weights} {y : ℝ}
    (hy : loss w = .ok y) : ∃ g, gradient loss w a = some g ∧ g i = 2 * c * w a i := by
  refine ⟨_, rfl, ?_⟩
  have : (fun x => lossOr0 (loss (put w a i x))) = fun x => (y - c * w a i ^ 2) + c * x ^ 2 := by
    funext x
    rw [h w x, hy]
    simp only [Except.map, lossOr0]
    ring
  simp only [this]
  have hd : HasDerivAt (fun x : ℝ => (y - c * w a i ^ 2) + c * x ^ 2) (c * (2 * w a i)) (w a i) := by
    have h2 := ((hasDerivAt_pow 2 (w a i)).const_mul c).const_add (y - c * w a i ^ 2)
    simpa using h2
  rw [hd.deriv]
  ring

theorem fitEpochs_succ (R : Algo S) (net : DRec.Net) (loss : Nat → Weights → Except Err ℝ) (n : Nat) (s : St S) :
    fitEpochs R net loss (n + 1) s = match fitEpochs R net loss n s with
      | .error e => .error e
      | .ok t => match loss (n + 1) t.w with
        | .error x => .error x
        | .ok _ => updateWeights R net (gradient (loss (n + 1)) t.w) t := by
  unfold fitEpochs
  rw [List.range'_concat, chain_append]
  cases chain (fun e s => match loss e s.w with
    | .error x => .error x
    | .ok _ => updateWeights R net (gradient (loss e) s.w) s) (List.range' 1 n) s with
  | error e => rfl
  | ok t =>
    simp only [chain, Nat.one_mul, Nat.add_comm 1 n]
    cases loss (n + 1) t.w with
    | error x => rfl
    | ok y =>
      simp only
      cases updateWeights R net (gradient (loss (n + 1)) t.w) t <;> rfl

/-- What happens to one element with such a loss. -/
theorem fitEpochs_outside (R : Algo S) (net : DRec.Net) (hn : net.all.Nodup) {a : Addr} (ha : a ∈ net.all) (i : Nat) (c : Nat → ℝ)
    (loss : Nat → Weights → Except Err ℝ) (n : Nat) (s s' : St S) (ho : ∀ e, 1 ≤ e → e ≤ n → Outside (c e) (loss e) a i)
    (P : Nat → ℝ → S → Prop) (h0 : P 0 (s.w a i) (s.slots a i))
    (hP : ∀ e x z, e + 1 ≤ n → P e x z →
      P (e + 1) (x - (R.step (s.iterations + e * (groups net).length + place net a) z (2 * c (e + 1) * x)).2)
        (R.step (s.iterations + e * (groups net).length + place net a) z (2 * c (e + 1) * x)).1)
    (h : fitEpochs R net loss n s = .ok s') :
    P n (s'.w a i) (s'.slots a i) ∧ s'.iterations = s.iterations + n * (groups net).length := by
  induction n generalizing s' with
  | zero => cases h; exact ⟨h0, by simp⟩
  | succ n ih =>
    rw [fitEpochs_succ] at h
    split at h
    · cases h
    rename_i t ht
    obtain ⟨i1, i2⟩ := ih t (fun e h1 h2 => ho e h1 (by omega)) (fun e x z he => hP e x z (by omega)) ht
    split at h
    · cases h
    rename_i y hy
    obtain ⟨g, g1, g2⟩ := gradient_outside (ho (n + 1) (by omega) le_rfl) hy
    rw [updateWeights_ok] at h
    obtain ⟨c1, c2, c3⟩ := chain_groups R _ (groups net) t s' (fun _ => groups_nonempty) (by rw [groups_flatten]; exact hn) h
    refine ⟨?_, by rw [c3, i2]; ring⟩
    have hw := congrFun (congrFun c1 a) i
    have hs := congrFun (congrFun c2 a) i
    rw [groups_flatten] at hw hs
    simp only [ha, if_true, g1, g2] at hw hs
    rw [hw, hs]
    have := hP n _ _ le_rfl i1
    rw [i2]
    exact this

theorem fitEpochs_sgd (lr : ℝ) (net : DRec.Net) (hn : net.all.Nodup) {a : Addr} (ha : a ∈ net.all) (i : Nat) (c : Nat → ℝ)
    (loss : Nat → Weights → Except Err ℝ) (n : Nat) (s s' : St Unit) (ho : ∀ e, 1 ≤ e → e ≤ n → Outside (c e) (loss e) a i)
    (h : fitEpochs (sgd lr) net loss n s = .ok s') :
    s'.w a i = s.w a i * ((List.range n).map fun e => 1 - 2 * lr * c (e + 1)).prod := by
  refine (fitEpochs_outside (sgd lr) net hn ha i c loss n s s' ho
    (fun e x _ => x = s.w a i * ((List.range e).map fun e => 1 - 2 * lr * c (e + 1)).prod) (by simp) ?_ h).1
  intro e x z _ hx
  simp only [sgd, List.range_succ, List.map_append, List.prod_append, List.map_cons, List.map_nil, List.prod_cons, List.prod_nil, mul_one]
  rw [hx]
  ring

theorem fitEpochs_still (R : Algo S) (hR : Still R) (net : DRec.Net) (hn : net.all.Nodup) {a : Addr} (ha : a ∈ net.all) (i : Nat)
    (loss : Nat → Weights → Except Err ℝ) (n : Nat) (w : Weights) (s' : St S) (ho : ∀ e, 1 ≤ e → e ≤ n → Outside 0 (loss e) a i)
    (h : fitEpochs R net loss n (St.init R w) = .ok s') : s'.w a i = w a i := by
  refine (fitEpochs_outside R net hn ha i (fun _ => 0) loss n (St.init R w) s' ho
    (fun _ x z => x = w a i ∧ z = R.start) ⟨rfl, rfl⟩ ?_ h).1.1
  rintro e x z _ ⟨rfl, rfl⟩
  simp only [mul_zero, zero_mul, hR _, sub_zero]
  exact ⟨trivial, trivial⟩

theorem elements_put_ne {w : Weights} {a b : Addr} (h : b ≠ a) (i : Nat) (x : ℝ) (n : Nat) :
    elements (put w a i x) b n = elements w b n := by
  simp [elements, put, h]

theorem squares_put (w : Weights) (a : Addr) (i : Nat) (x : ℝ) : ∀ n, i < n →
    ((elements (put w a i x) a n).map fun v => v ^ 2).sum = ((elements w a n).map fun v => v ^ 2).sum + (x ^ 2 - w a i ^ 2) := by
  have lo : ∀ n, n ≤ i → elements (put w a i x) a n = elements w a n := by
    intro n hn
    unfold elements
    refine List.map_congr_left fun j hj => ?_
    have := List.mem_range.1 hj
    exact if_neg (by omega)
  intro n
  induction n with
  | zero => intro h; omega
  | succ n ih =>
    intro h
    have sp : ∀ v : Weights, elements v a (n + 1) = elements v a n ++ [v a n] := by
      intro v; simp [elements, List.range_succ]
    rw [sp, sp, List.map_append, List.map_append, List.sum_append, List.sum_append]
    by_cases hi : i = n
    · subst hi
      rw [lo i le_rfl]
      simp [put]
    · rw [ih (by omega)]
      have : put w a i x a n = w a n := if_neg (by omega)
      rw [this]
      ring

end DRec.Trn
