import Verif.Model.Fit

/-!
# Fitting a model that has been fitted before

`DRecPy/Recommender/recommender_abc.py:63-70,151-264,266-287,328-341`.  The lists of registered trainables and the
stored weights of all epochs belong to the object and are only ever appended to.
-/

namespace DRec

/-- What the object remembers between two fits (`recommender_abc.py:66-70`): `trainable_weights`, `trainable_layers`,
`trainable_models` and `epoch_weights`. -/
structure Trained (α : Type) where
  net : Net
  saved : List (Snap α)

/-- A new object. -/
def Trained.fresh {α : Type} : Trained α := ⟨⟨[], [], []⟩, []⟩

/-- `_register_trainables` appends (`recommender_abc.py:266-282`). -/
def Net.add (a b : Net) : Net := ⟨a.vars ++ b.vars, a.layers ++ b.layers, a.models ++ b.models⟩

/-- All variables of the registered trainables (`recommender_abc.py:194-196`). -/
def Net.all (n : Net) : List Addr := n.vars ++ n.layers.flatten ++ n.models.flatten

/-- `apply_gradients` for one layer or model (`recommender_abc.py:328-334`): tensorflow leaves out variables without a
gradient and raises when none is left. -/
def updateMany (reach : Addr → Bool) (ws : List Addr) : Except Err Unit :=
  if ws = [] ∨ ws.any reach = true then .ok () else .error .badValue

/-- Whether `_update_weights` raises (`recommender_abc.py:328-334`).  `tape.gradient` is `None` for a variable that the
loss does not depend on (`reach` is false), and `zip(None, …)` raises. -/
def updateAll (net : Net) (reach : Addr → Bool) : Except Err Unit :=
  if net.vars.all reach then
    if (net.layers ++ net.models).all fun ws => (updateMany reach ws).isOk then .ok () else .error .badValue
  else .error .typeError

/-- The loop over epochs (`recommender_abc.py:186-239`). -/
def refitEpochs {α : Type} (c : FitCfg α) (net : Net) (reach : Addr → Bool) :
    List Nat → FitSt α → Except Err (FitSt α)
  | [], st => .ok st
  | e :: es, st =>
    match updateAll net reach with
    | .error x => .error x
    | .ok _ =>
      match trackEpoch c e st.tracker with
      | .error x => .error x
      | .ok t =>
        match ruleEpoch c e t st.vars.best with
        | .error x => .error x
        | .ok v =>
          let st' : FitSt α := ⟨c.train e st.heap, st.saved ++ [snapshot net (c.train e st.heap)], t, v⟩
          if v.stop then .ok st' else refitEpochs c net reach es st'

/-- `fit` (`recommender_abc.py:151-264`) of an object in any state: `_pre_fit` registers `new`, `heap` has the initial
values.  `c` is what happens in this fit; its losses include the regularisation of earlier networks, and its training
steps change them.  Simplification: the loss depends on the same variables at every epoch. -/
def refit {α : Type} (c : FitCfg α) (reach : Addr → Bool) (new : Net) (heap : Addr → α) (m : Trained α) :
    Except Err (Fitted α × Trained α) :=
  let net := m.net.add new
  if net.vars = [] ∧ net.layers = [] ∧ net.models = [] then .ok (⟨heap, none, Tracker.init, 0⟩, ⟨net, m.saved⟩)
  else
    match refitEpochs c net reach (List.range' 1 c.epochs) ⟨heap, m.saved, firstTracker c, ⟨none, none, false⟩⟩ with
    | .error x => .error x
    | .ok st =>
      match fitEnd c net st with
      | .error x => .error x
      | .ok f => .ok (f, ⟨net, st.saved⟩)

/-! ## What the models register

Variables are numbered from `b`.  The loss depends on all variables of the last `_pre_fit` and, through the
regularisation of all registered layers and models (`recommender_abc.py:314-326`), on the regularised variables of
earlier ones.  CDAE has its own regularisation, over the last variables only (`cdae.py:81-82`). -/

/-- Addresses `b, …, b + n - 1`. -/
def addrs (b n : Nat) : List Addr := List.range' b n

/-- `W`, `W_`, `V`, `b`, `b_` (`cdae.py:36-43`). -/
def cdaeNet (b : Nat) : Net := ⟨addrs b 5, [], []⟩

/-- The layers (`caser.py:47-70`): user and item embeddings, `conv_v`, `L` horizontal convolutions and `dense_0` (each
with kernel and bias), `dense_1_W` and `dense_1_b`. -/
def caserNet (L b : Nat) : Net :=
  ⟨[], [[b], [b + 1], [b + 2, b + 3]] ++ (List.range L).map (fun i => [b + 8 + 2 * i, b + 9 + 2 * i]) ++
    [[b + 4, b + 5], [b + 6], [b + 7]], []⟩

/-- The variables with a regulariser: all but the biases and `dense_1_b` (`caser.py:47-69`). -/
def caserReg (L b : Nat) : List Addr :=
  [b, b + 1, b + 2, b + 4, b + 6] ++ (List.range L).map fun i => b + 8 + 2 * i

/-- A network of `n` dense layers: kernel and bias of each (`dmf.py:47-52`). -/
def denseVars (b n : Nat) : List Addr := addrs b (2 * n)

/-- The kernels. -/
def denseReg (b n : Nat) : List Addr := (List.range n).map fun i => b + 2 * i

/-- The two networks (`dmf.py:47-60`), with `u` and `i` layers. -/
def dmfNet (u i b : Nat) : Net := ⟨[], [], [denseVars b u, denseVars (b + 2 * u) i]⟩

/-- The variables with a regulariser (`dmf.py:49-58`). -/
def dmfReg (u i b : Nat) : List Addr := denseReg b u ++ denseReg (b + 2 * u) i

/-- What the loss depends on: the variables of `new` and the listed ones. -/
def reaches (new : Net) (reg : List Addr) (a : Addr) : Bool :=
  decide (a ∈ new.vars ++ new.layers.flatten ++ new.models.flatten ++ reg)

end DRec
