import Verif.Model.Optimizer
import Verif.Model.Loss
import Verif.Model.DmfNet
import Mathlib.Analysis.Calculus.Deriv.Basic

/-!
# Training the three networks (`DRecPy/Recommender/recommender_abc.py:186-204`)

Losses as functions of all weights, their gradients, and the steps of the optimizer.  The elements of a variable are numbered row by row.
Simplifications: real numbers; where a loss is not differentiable its derivative counts as 0 (tensorflow takes a one-sided derivative at
the kinks of ReLU and `maximum`); the first fit of an object (for later ones see C78), so that the loss depends on all registered variables.
-/

namespace DRec.Trn

open DRec.Opt

noncomputable section

/-- All weights: variable, element. -/
abbrev Weights := Addr → Nat → ℝ

/-- One element replaced. -/
def put (w : Weights) (a : Addr) (i : Nat) (x : ℝ) : Weights := fun b j => if b = a ∧ j = i then x else w b j

/-- The loss, 0 when the computation raises (then `fit` raises as well, see `fitEpochs`). -/
def lossOr0 : Except Err ℝ → ℝ
  | .ok x => x
  | .error _ => 0

/-- `tape.gradient(loss, trainable_weights)` (`recommender_abc.py:202`). -/
def gradient (loss : Weights → Except Err ℝ) (w : Weights) (a : Addr) : Option (Nat → ℝ) :=
  some fun i => deriv (fun x => lossOr0 (loss (put w a i x))) (w a i)

/-- The epochs of `fit` (`recommender_abc.py:189-203`): `loss e` is the sum of batch loss and regularization in epoch `e`. -/
def fitEpochs {S : Type} (R : Algo S) (net : DRec.Net) (loss : Nat → Weights → Except Err ℝ) (n : Nat) (s : St S) : Except Err (St S) :=
  chain (fun e s =>
    match loss e s.w with
    | .error x => .error x
    | .ok _ => updateWeights R net (gradient (loss e) s.w) s) (List.range' 1 n) s

/-- The first `n` elements of a variable. -/
def elements (w : Weights) (a : Addr) (n : Nat) : List ℝ := (List.range n).map (w a)

/-! ## CDAE -/

/-- `W`, `W_`, `V`, `b`, `b_` (`cdae.py:36-43`), registered as in `cdaeNet a`. -/
def cdaeOf (users items hidden a : Nat) (w : Weights) : Cdae where
  users := users
  items := items
  hidden := hidden
  W i k := w a (i * hidden + k)
  W' k j := w (a + 1) (k * items + j)
  V u k := w (a + 2) (u * hidden + k)
  b := w (a + 3)
  b' := w (a + 4)

/-- One sample of a batch (`cdae.py:50-65`): user, corrupted vector and desired vector. -/
structure CdaeSample where
  uid : Nat
  input : List ℝ
  wanted : List ℝ

/-- Loss of a batch (`cdae.py:50-57,78-82`, `recommender_abc.py:191-201`). -/
def cdaeObjective (f : ℝ → ℝ → ℝ) (rate : ℝ) (users items hidden a : Nat) (batch : List CdaeSample) (w : Weights) : Except Err ℝ :=
  match batch.mapM fun s => (cdaeOf users items hidden a w).reconstruct s.uid s.input with
  | .error x => .error x
  | .ok preds => .ok (cdaeLoss f preds (batch.map (·.wanted)) + cdaeReg rate batch.length
      [elements w a (items * hidden), elements w (a + 1) (hidden * items), elements w (a + 2) (users * hidden)])

/-! ## DMF -/

/-- The two networks (`dmf.py:46-60`), registered as in `dmfNet f.1.length f.2.length a`. -/
def dmfOf (users items : Nat) (l2Norm : Bool) (f : List Nat × List Nat) (a : Nat) (w : Weights) : Dm.Net :=
  Dm.preFit users items l2Norm f (fun k r c => w (a + 2 * k) (r * f.1.getD k 0 + c))
    (fun k r c => w (a + 2 * f.1.length + 2 * k) (r * f.2.getD k 0 + c)) (fun k => w (a + 2 * k + 1))
    (fun k => w (a + 2 * f.1.length + 2 * k + 1))

/-- The kernels of one network (`dmf.py:47-58`): `n` is the size of the input of the first layer. -/
def kernels (w : Weights) (a : Nat) : Nat → List Nat → List (List ℝ)
  | _, [] => []
  | n, s :: ss => elements w a (n * s) :: kernels w (a + 2) s ss

/-- Loss of a batch (`dmf.py:88-99`, `recommender_abc.py:191-201`). -/
def dmfObjective (rate : ℝ) (users items : Nat) (l2Norm : Bool) (f : List Nat × List Nat) (a : Nat) (b : DmfBatch) (w : Weights) :
    Except Err ℝ :=
  match (dmfOf users items l2Norm f a w).forward b.users b.items with
  | none => .error .badValue
  | some preds => .ok (average ((b.wanted.zip preds).map fun (x : ℚ × ℝ) => bce x.1 x.2) +
      regLoss rate (kernels w a items f.1 ++ kernels w (a + 2 * f.1.length) users f.2))

/-! ## Caser -/

/-- The layers of Caser (`caser.py:47-70`), registered as in `caserNet c.L a`. -/
def caserOf (c : Caser) (users items : Nat) (actH actMlp : ℝ → ℝ) (a : Nat) (w : Weights) : Cas.Net where
  cfg := c
  users := users
  items := items
  U u k := w a (u * c.d + k)
  E i k := w (a + 1) (i * c.d + k)
  Kv j k f := w (a + 2) ((j * c.d + k) * c.nv + f)
  bv := w (a + 3)
  Kh i j k f := w (a + 8 + 2 * i) ((j * c.d + k) * c.nh + f)
  bh i := w (a + 9 + 2 * i)
  actH := actH
  actMlp := actMlp
  D i k := w (a + 4) (i * c.d + k)
  bd := w (a + 5)
  W i k := w (a + 6) (i * (2 * c.d) + k)
  b := w (a + 7)

/-- A batch (`caser.py:77-95`): users, items before, items after, labels and the dropout of this step. -/
structure CaserBatch where
  uids : List Nat
  befores : List (List Nat)
  afters : List (List Nat)
  labels : List (List ℝ)
  noise : ℝ × (Nat → Nat → ℝ)

/-- Loss of a batch (`caser.py:84-95,122-123`, `recommender_abc.py:191-201`).  Simplification: the regularization terms are added in
another order. -/
def caserObjective (rate : ℝ) (c : Caser) (users items : Nat) (actH actMlp : ℝ → ℝ) (a : Nat) (b : CaserBatch) (w : Weights) :
    Except Err ℝ :=
  match (caserOf c users items actH actMlp a w).forward b.uids b.befores b.afters (some b.noise) with
  | none => .error .badValue
  | some preds => .ok (caserLoss preds b.labels + regLoss rate
      ([elements w a (users * c.d), elements w (a + 1) (items * c.d), elements w (a + 2) (c.L * c.d * c.nv),
        elements w (a + 4) ((c.nv + c.L * c.nh) * c.d), elements w (a + 6) (items * (2 * c.d))] ++
        (List.range c.L).map fun i => elements w (a + 8 + 2 * i) ((i + 1) * c.d * c.nh)))

end

end DRec.Trn
