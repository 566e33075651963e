import Verif.Model.Training
import Mathlib.Tactic.Ring
import Mathlib.Tactic.Linarith

/-!
# C78: the regularized variables

The variables that count as regularized when a model is fitted again (`caserReg`, `denseReg`) are those whose squares are in the loss.
-/

namespace DRec.Trn

/-- Number of elements of the variable at distance `k` from the first one of Caser. -/
def caserSize (c : Caser) (users items : Nat) : Nat → Nat
  | 0 => users * c.d
  | 1 => items * c.d
  | 2 => c.L * c.d * c.nv
  | 4 => (c.nv + c.L * c.nh) * c.d
  | 6 => items * (2 * c.d)
  | k => ((k - 8) / 2 + 1) * c.d * c.nh

/-- Number of elements of kernel `k` of a network with layers of sizes `ss` and inputs of size `n`. -/
def kernelSize (n : Nat) (ss : List Nat) (k : Nat) : Nat := (n :: ss).getD k 0 * ss.getD k 0

theorem regLoss_eq (rate : ℝ) (l : List (List ℝ)) : regLoss rate l = rate * (l.map fun k => (k.map fun x => x ^ 2).sum).sum := by
  unfold regLoss
  induction l with
  | nil => simp
  | cons k l ih => simp only [List.map_cons, List.sum_cons, ih]; ring

/-- The loss of Caser is the loss without regularization plus the rate times the squares of all elements of the regularized variables. -/
theorem C78_caser_reg (rate : ℝ) (c : Caser) (users items : Nat) (actH actMlp : ℝ → ℝ) (a : Nat) (b : CaserBatch) (w : Weights) :
    caserObjective rate c users items actH actMlp a b w = (caserObjective 0 c users items actH actMlp a b w).map fun x =>
      x + rate * ((caserReg c.L a).map fun v : Nat => ((elements w v (caserSize c users items (v - a))).map fun y => y ^ 2).sum).sum := by
  unfold caserObjective
  cases (caserOf c users items actH actMlp a w).forward b.uids b.befores b.afters (some b.noise) with
  | none => rfl
  | some preds =>
    simp only [Except.map, regLoss_eq, zero_mul, add_zero]
    congr 3
    unfold caserReg
    simp only [List.map_append, List.map_cons, List.map_nil, List.map_map, Function.comp_def]
    have e : ∀ k : Nat, a + k - a = k := fun k => by omega
    have z : ∀ i : Nat, caserSize c users items (a + 8 + 2 * i - a) = (i + 1) * c.d * c.nh := fun i => by
      have : a + 8 + 2 * i - a = 2 * i + 8 := by omega
      rw [this]
      show ((2 * i + 8 - 8) / 2 + 1) * c.d * c.nh = _
      congr 3
      omega
    simp only [e, z, Nat.sub_self]
    rfl

theorem kernels_eq (w : Weights) (a n : Nat) (ss : List Nat) :
    kernels w a n ss = (denseReg a ss.length).map fun v : Nat => elements w v (kernelSize n ss ((v - a) / 2)) := by
  induction ss generalizing a n with
  | nil => rfl
  | cons s ss ih =>
    unfold kernels
    rw [ih]
    unfold denseReg
    rw [List.length_cons, List.range_succ_eq_map, List.map_cons, List.map_cons, List.map_map, List.map_map, List.map_map]
    congr 1
    · have : (a + 2 * 0 - a) / 2 = 0 := by omega
      rw [this]
      rfl
    · refine List.map_congr_left fun i _ => ?_
      have h1 : (a + 2 + 2 * i - (a + 2)) / 2 = i := by omega
      have h2 : (a + 2 + 2 * i - a) / 2 = i + 1 := by omega
      have h3 : a + 2 * (i + 1) = a + 2 + 2 * i := by omega
      simp only [Function.comp_apply, Nat.succ_eq_add_one, h1, h3, h2]
      rfl

/-- The same for DMF: the kernels of both networks are regularized. -/
theorem C78_dmf_reg (rate : ℝ) (users items : Nat) (l2Norm : Bool) (f : List Nat × List Nat) (a : Nat) (b : DmfBatch) (w : Weights) :
    dmfObjective rate users items l2Norm f a b w = (dmfObjective 0 users items l2Norm f a b w).map fun x =>
      x + rate * (((denseReg a f.1.length).map fun v : Nat => ((elements w v (kernelSize items f.1 ((v - a) / 2))).map fun y => y ^ 2).sum).sum +
        ((denseReg (a + 2 * f.1.length) f.2.length).map fun v : Nat =>
          ((elements w v (kernelSize users f.2 ((v - (a + 2 * f.1.length)) / 2))).map fun y => y ^ 2).sum).sum) := by
  unfold dmfObjective
  cases (dmfOf users items l2Norm f a w).forward b.users b.items with
  | none => rfl
  | some preds =>
    simp only [Except.map, regLoss_eq, zero_mul, add_zero, kernels_eq, List.map_append, List.sum_append, List.map_map]
    rfl

/-- A network with two layers for users and one for items: three kernels with 6, 2 and 3 elements. -/
example : (denseReg 0 2).map (fun v : Nat => kernelSize 3 [2, 1] ((v - 0) / 2)) = [6, 2] ∧ kernelSize 3 [1] 0 = 3 := by decide

end DRec.Trn
