import Verif.Model.Refit
import Mathlib.Analysis.SpecialFunctions.Pow.Real

/-!
# The optimizer (`DRecPy/Recommender/recommender_abc.py:153-156,186-204,328-334`)

`fit` makes a new Adam optimizer, or takes the one given, and `_update_weights` calls `apply_gradients` once for every registered
trainable.  A keras optimizer counts these calls (`iterations`); the number of the call enters the step of Adam and of optimizers with
a learning rate schedule.  Simplifications: exact arithmetic; what an optimizer does with a number depends on the number of the call, what it
stored for that number and the derivative (true of all keras optimizers without clipping by norm).
-/

namespace DRec.Opt

noncomputable section

/-- An optimizer: what it stores for a new number, and what call number `t` stores and subtracts for a derivative. -/
structure Algo (S : Type) where
  start : S
  step : Nat → S → ℝ → S × ℝ

/-- Plain gradient descent (`tf.keras.optimizers.SGD(lr)`). -/
def sgd (lr : ℝ) : Algo Unit := ⟨(), fun _ s g => (s, lr * g)⟩

/-- `tf.keras.optimizers.SGD(lr, momentum)`: the velocity is stored and subtracted.  Simplification: gradients are dense (for the rows of
an embedding that do not occur in a batch keras leaves the velocity alone). -/
def momentum (lr mu : ℝ) : Algo ℝ := ⟨0, fun _ s g => (mu * s + lr * g, mu * s + lr * g)⟩

/-- The factor with which Adam corrects the moving averages in call number `t`. -/
def correction (t : Nat) : ℝ := √(1 - 0.999 ^ t) / (1 - 0.9 ^ t)

/-- `tf.keras.optimizers.Adam(learning_rate)` (`recommender_abc.py:153`): moving averages of derivatives and of their squares. -/
def adam (lr : ℝ) : Algo (ℝ × ℝ) :=
  ⟨(0, 0), fun t s g =>
    let m := 0.9 * s.1 + 0.1 * g
    let v := 0.999 * s.2 + 0.001 * g ^ 2
    ((m, v), lr * correction t * m / (√v + 1e-7))⟩

/-- Weights (the elements of each variable) and the state of the optimizer. -/
structure St (S : Type) where
  w : Addr → Nat → ℝ
  slots : Addr → Nat → S
  iterations : Nat

/-- The state in which `fit` starts with a new optimizer. -/
def St.init {S : Type} (R : Algo S) (w : Addr → Nat → ℝ) : St S := ⟨w, fun _ _ => R.start, 0⟩

/-- One variable in `apply_gradients`; variables without a gradient are left out. -/
def applyOne {S : Type} (R : Algo S) (t : Nat) (g : Addr → Option (Nat → ℝ)) (s : St S) (a : Addr) : St S :=
  match g a with
  | none => s
  | some x =>
    { s with
      w := fun b i => if b = a then s.w a i - (R.step t (s.slots a i) (x i)).2 else s.w b i
      slots := fun b i => if b = a then (R.step t (s.slots a i) (x i)).1 else s.slots b i }

/-- `optimizer.apply_gradients(zip(gradient, trainable_var))` (`recommender_abc.py:334`): tensorflow raises when there are variables, but none
with a gradient; a call without variables does not count. -/
def applyGradients {S : Type} (R : Algo S) (g : Addr → Option (Nat → ℝ)) (ws : List Addr) (s : St S) : Except Err (St S) :=
  if ws = [] then .ok s
  else if ws.all (fun a => (g a).isNone) then .error .badValue
  else .ok { ws.foldl (applyOne R (s.iterations + 1) g) s with iterations := s.iterations + 1 }

/-- One registered variable (`recommender_abc.py:329-334`): without a gradient, `zip(None, …)` raises. -/
def updateVar {S : Type} (R : Algo S) (g : Addr → Option (Nat → ℝ)) (a : Addr) (s : St S) : Except Err (St S) :=
  if (g a).isNone then .error .typeError else applyGradients R g [a] s

/-- Steps one after the other, up to the first that raises. -/
def chain {σ β : Type} (f : β → σ → Except Err σ) : List β → σ → Except Err σ
  | [], s => .ok s
  | b :: bs, s =>
    match f b s with
    | .error e => .error e
    | .ok s' => chain f bs s'

/-- `_update_weights` (`recommender_abc.py:328-334`): variables, then layers, then models (`recommender_abc.py:194-196`). -/
def updateWeights {S : Type} (R : Algo S) (net : Net) (g : Addr → Option (Nat → ℝ)) (s : St S) : Except Err (St S) :=
  match chain (updateVar R g) net.vars s with
  | .error e => .error e
  | .ok s' => chain (applyGradients R g) (net.layers ++ net.models) s'

/-- The epochs of `fit` (`recommender_abc.py:189-203`): in each the gradients of the loss at the current weights, then the update.
`grad e w` is the gradient at epoch `e` (the batch differs from epoch to epoch). -/
def train {S : Type} (R : Algo S) (net : Net) (grad : Nat → (Addr → Nat → ℝ) → Addr → Option (Nat → ℝ)) (n : Nat) (s : St S) :
    Except Err (St S) :=
  chain (fun e s => updateWeights R net (grad e s.w) s) (List.range' 1 n) s

/-- The trainables with variables in the order in which they are updated. -/
def groups (net : Net) : List (List Addr) := (net.vars.map (fun a => [a]) ++ net.layers ++ net.models).filter (fun ws => decide (ws ≠ []))

end

end DRec.Opt
