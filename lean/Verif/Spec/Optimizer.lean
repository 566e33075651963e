import Verif.Model.Optimizer

/-! # What training with an optimizer should do -/

namespace DRec.Spec

open DRec.Opt

noncomputable section

/-- The optimizer ignores how often it was called. -/
def Countless {S : Type} (R : Algo S) : Prop := ∀ t t' s g, R.step t s g = R.step t' s g

/-- Epoch `e`: every registered variable with a gradient takes one step, and call number `num a e` of the algorithm is the one for
variable `a`. -/
def epochStep {S : Type} (R : Algo S) (num : Addr → Nat → Nat) (vars : List Addr) (grad : Nat → (Addr → Nat → ℝ) → Addr → Option (Nat → ℝ))
    (e : Nat) (p : (Addr → Nat → ℝ) × (Addr → Nat → S)) : (Addr → Nat → ℝ) × (Addr → Nat → S) :=
  (fun a i => if a ∈ vars then
      match grad e p.1 a with
      | some x => p.1 a i - (R.step (num a e) (p.2 a i) (x i)).2
      | none => p.1 a i
    else p.1 a i,
   fun a i => if a ∈ vars then
      match grad e p.1 a with
      | some x => (R.step (num a e) (p.2 a i) (x i)).1
      | none => p.2 a i
    else p.2 a i)

/-- `n` epochs. -/
def epochs {S : Type} (R : Algo S) (num : Addr → Nat → Nat) (vars : List Addr) (grad : Nat → (Addr → Nat → ℝ) → Addr → Option (Nat → ℝ))
    (p : (Addr → Nat → ℝ) × (Addr → Nat → S)) : Nat → (Addr → Nat → ℝ) × (Addr → Nat → S)
  | 0 => p
  | n + 1 => epochStep R num vars grad (n + 1) (epochs R num vars grad p n)

/-- The algorithm as it is meant: in epoch `e` every variable takes step `e`. -/
def trained {S : Type} (R : Algo S) (vars : List Addr) (grad : Nat → (Addr → Nat → ℝ) → Addr → Option (Nat → ℝ)) (w : Addr → Nat → ℝ)
    (n : Nat) : Addr → Nat → ℝ := (epochs R (fun _ e => e) vars grad (w, fun _ _ => R.start) n).1

/-- The number of the trainable (from 1) that variable `a` belongs to. -/
def place (net : Net) (a : Addr) : Nat := (groups net).findIdx (fun ws => decide (a ∈ ws)) + 1

end

end DRec.Spec
