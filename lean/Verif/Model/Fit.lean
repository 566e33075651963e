import Verif.Model.Core

/-!
# Training loop, early stopping and loss tracking

`DRecPy/Recommender/recommender_abc.py:97-264,331-352`,
`DRecPy/Recommender/EarlyStopping/*.py`, `DRecPy/Evaluation/loss_tracker.py`.

Losses and metric values are exact rationals (no NaN).  A training step is an arbitrary function of the
weights; what the callback returned at an epoch is an arbitrary dictionary.  Progress bars and logging
are left out.
-/

namespace DRec

/-- Metric names. -/
abbrev MName := List Char

/-- A callback's result: a dictionary in insertion order. -/
abbrev Results := List (MName × ℚ)

/-! ## `LossTracker` -/

/-- `LossTracker` (`loss_tracker.py:4-13`). -/
structure Tracker where
  losses : List ℚ
  avg : ℚ
  results : List (MName × List ℚ)
  epochs : List Nat

/-- `__init__` (`loss_tracker.py:9-13`). -/
def Tracker.init : Tracker := ⟨[], 0, [], []⟩

/-- `add_epoch_loss` (`loss_tracker.py:15-22`). -/
def Tracker.addLoss (t : Tracker) (x : ℚ) : Tracker :=
  { t with
    losses := t.losses ++ [x]
    avg := t.avg + (x - t.avg) / ((t.losses ++ [x]).length : ℚ) }

/-- `reset_epoch_losses` (`loss_tracker.py:32-35`). -/
def Tracker.reset (t : Tracker) : Tracker := { t with losses := [], avg := 0 }

/-- `results[name].append(v)`, with an empty list for a new name (`loss_tracker.py:45-48`). -/
def record (m : MName) (v : ℚ) : List (MName × List ℚ) → List (MName × List ℚ)
  | [] => [(m, [v])]
  | p :: ps => if p.1 = m then (m, p.2 ++ [v]) :: ps else p :: record m v ps

/-- `called_epochs` (`loss_tracker.py:49-50`). -/
def noteEpoch (e : Nat) (l : List Nat) : List Nat :=
  match l.getLast? with
  | none => l ++ [e]
  | some x => if x < e then l ++ [e] else l

/-- `add_epoch_callback_result` (`loss_tracker.py:37-50`). -/
def Tracker.addResult (t : Tracker) (m : MName) (v : ℚ) (e : Nat) : Tracker :=
  { t with results := record m v t.results, epochs := noteEpoch e t.epochs }

/-- All entries of a dictionary (`recommender_abc.py:183-184,217-222`). -/
def Tracker.addResults (t : Tracker) (rs : Results) (e : Nat) : Tracker :=
  rs.foldl (fun t p => t.addResult p.1 p.2 e) t

/-! ## Early stopping rules -/

/-- `metric.split("@")[0]` (`early_stopping_rule_abc.py:49`). -/
def trimName (m : MName) : MName := m.takeWhile (· ≠ '@')

/-- The stored metric a required name stands for (`early_stopping_rule_abc.py:45-49`): the name itself if
any required name has an `@`, else the last stored name with that beginning (later entries of a
dictionary comprehension win). -/
def translate (required names : List MName) (r : MName) : Option MName :=
  if required.any (fun q => decide ('@' ∈ q)) then
    if r ∈ names then some r else none
  else (names.filter fun n => trimName n = r).getLast?

/-- Values stored under a name. -/
def storedVals (results : List (MName × List ℚ)) (n : MName) : Option (List ℚ) :=
  (results.find? fun p => p.1 = n).map (·.2)

/-- `translated_epoch_validation_results` (`early_stopping_rule_abc.py:56-57`). -/
def valuesFor (required : List MName) (results : List (MName × List ℚ)) (r : MName) : Option (List ℚ) :=
  (translate required (results.map (·.1)) r).bind (storedVals results)

/-- `EarlyStoppingRuleABC` (`early_stopping_rule_abc.py:5-84`): required metrics, `_compute_best_epoch` and
`stop_training`. -/
structure Rule where
  required : List MName
  best : List ℚ → (MName → Option (List ℚ)) → List Nat → Except Err Nat
  stop : Nat → Nat → Nat → Bool

/-- `compute` (`early_stopping_rule_abc.py:21-65`); `badValue` stands for
`InvalidEpochValidationResultsException`. -/
def Rule.compute (R : Rule) (t : Tracker) : Except Err Nat :=
  if t.results = [] then .error .badValue
  else if R.required.any fun r => (translate R.required (t.results.map (·.1)) r).isNone then .error .badValue
  else if R.required.any fun r => valuesFor R.required t.results r = some [] then .error .badValue
  else R.best t.losses (valuesFor R.required t.results) t.epochs

/-- The loop of `MaxValidationValueRule._compute_best_epoch` (`max_validation_value_rule.py:22-25`). -/
def bestGo : List ℚ → Nat → ℚ → Nat → Nat
  | [], _, _, bi => bi
  | x :: xs, i, b, bi => if b < x then bestGo xs (i + 1) x i else bestGo xs (i + 1) b bi

/-- `_compute_best_epoch` (`max_validation_value_rule.py:18-27`). -/
def maxBest (vals : Option (List ℚ)) (epochs : List Nat) : Except Err Nat :=
  match vals with
  | none => .error .keyError
  | some [] => .error .outOfRange
  | some (x :: xs) =>
    match epochs[bestGo (x :: xs) 0 x 0]? with
    | none => .error .outOfRange
    | some e => .ok e

/-- `MaxValidationValueRule` (`max_validation_value_rule.py:4-30`). -/
def maxRule (m : MName) : Rule := ⟨[m], fun _ vals epochs => maxBest (vals m) epochs, fun _ _ _ => false⟩

/-! ## Weights -/

/-- Where tensors live. -/
abbrev Addr := Nat

/-- The registered trainables (`recommender_abc.py:266-282`): variables, and for each layer and each keras
model the variables it owns.  Non-trainable weights of layers are not modelled. -/
structure Net where
  vars : List Addr
  layers : List (List Addr)
  models : List (List Addr)

/-- An entry of `epoch_weights`. -/
structure Snap (α : Type) where
  vars : List α
  layers : List (List Addr)
  models : List (List Addr)

/-- `_store_epoch_weights` (`recommender_abc.py:336-341`): variables are deep-copied, the weights of layers and
models are stored as lists of the live variables. -/
def snapshot {α : Type} (net : Net) (heap : Addr → α) : Snap α := ⟨net.vars.map heap, net.layers, net.models⟩

/-- `variable.assign(value)` for each pair. -/
def assignAll {α : Type} (heap : Addr → α) (l : List (Addr × α)) : Addr → α :=
  l.foldl (fun h p a => if a = p.1 then p.2 else h a) heap

/-- `set_weights(weights)` with a list of variables: their current values are written. -/
def setWeights {α : Type} (heap : Addr → α) (l : List (List Addr × List Addr)) : Addr → α :=
  l.foldl (fun h p => assignAll h (p.1.zip (p.2.map h))) heap

/-- Python's `l[epoch-1]`: epoch 0 is the last element. -/
def epochEntry {β : Type} (l : List β) (epoch : Nat) : Option β :=
  if epoch = 0 then l.getLast? else l[epoch - 1]?

/-- `_revert_weights` (`recommender_abc.py:343-351`). -/
def revert {α : Type} (net : Net) (saved : List (Snap α)) (epoch : Nat) (heap : Addr → α) :
    Except Err (Addr → α) :=
  match epochEntry saved epoch with
  | none => .error .outOfRange
  | some s => .ok (assignAll (setWeights (setWeights heap (net.models.zip s.models)) (net.layers.zip s.layers))
      (net.vars.zip s.vars))

/-! ## `fit` -/

/-- The arguments of `fit` that matter here, the training step and what the callback returns. -/
structure FitCfg (α : Type) where
  epochs : Nat
  verbose : Bool
  callback : Option (Nat → Results)
  cbFreq : Nat
  rule : Option Rule
  ruleFreq : Nat
  loss : Nat → ℚ
  train : Nat → (Addr → α) → Addr → α

/-- `e % freq == 0`. -/
def onTick (freq e : Nat) : Except Err Bool :=
  if freq = 0 then .error .zeroDiv else .ok (decide (e % freq = 0))

/-- Loss and callback results of one epoch (`recommender_abc.py:207-222`). -/
def trackEpoch {α : Type} (c : FitCfg α) (e : Nat) (t : Tracker) : Except Err Tracker :=
  if c.verbose || c.rule.isSome then
    match c.callback with
    | none => .ok (t.addLoss (c.loss e))
    | some f =>
      match onTick c.cbFreq e with
      | .error x => .error x
      | .ok false => .ok (t.addLoss (c.loss e))
      | .ok true => .ok ((t.addLoss (c.loss e)).addResults (f e) e)
  else .ok t

/-- Local variables of the loop: best epoch so far, the loop variable `e` (`none` when unbound) and whether
the loop was left by `break`. -/
structure LoopVars where
  best : Option Nat
  e : Option Nat
  stop : Bool

/-- The early stopping part of one epoch (`recommender_abc.py:224-232`).  `except … as e` unbinds the loop
variable `e`. -/
def ruleEpoch {α : Type} (c : FitCfg α) (e : Nat) (t : Tracker) (best : Option Nat) : Except Err LoopVars :=
  match c.rule with
  | none => .ok ⟨best, some e, false⟩
  | some R =>
    match onTick c.ruleFreq e with
    | .error x => .error x
    | .ok false => .ok ⟨best, some e, false⟩
    | .ok true =>
      match R.compute t with
      | .error .badValue => .ok ⟨best, none, false⟩
      | .error x => .error x
      | .ok b => .ok ⟨some b, some e, R.stop e b c.epochs⟩

/-- State of the loop. -/
structure FitSt (α : Type) where
  heap : Addr → α
  saved : List (Snap α)
  tracker : Tracker
  vars : LoopVars

/-- The loop over epochs (`recommender_abc.py:186-239`). -/
def fitEpochs {α : Type} (c : FitCfg α) (net : Net) : List Nat → FitSt α → Except Err (FitSt α)
  | [], st => .ok st
  | e :: es, st =>
    match trackEpoch c e st.tracker with
    | .error x => .error x
    | .ok t =>
      match ruleEpoch c e t st.vars.best with
      | .error x => .error x
      | .ok v =>
        let st' : FitSt α := ⟨c.train e st.heap, st.saved ++ [snapshot net (c.train e st.heap)], t, v⟩
        if v.stop then .ok st' else fitEpochs c net es st'

/-- The rule after the loop (`recommender_abc.py:241-251`). -/
def ruleAfter {α : Type} (c : FitCfg α) (t : Tracker) (v : LoopVars) : Except Err (Option Nat) :=
  match c.rule with
  | none => .ok v.best
  | some R =>
    match v.e with
    | none => .error .crash
    | some e =>
      match onTick c.ruleFreq e with
      | .error x => .error x
      | .ok true => .ok v.best
      | .ok false =>
        match R.compute t with
        | .error .badValue => .ok v.best
        | .error x => .error x
        | .ok b => .ok (some b)

/-- `display_graph` (`loss_tracker.py:52-94`): raises when a metric was not reported at every called epoch. -/
def display (t : Tracker) : Except Err Unit :=
  if t.results.all fun p => p.2.length = t.epochs.length then .ok () else .error .crash

/-- What `fit` leaves behind. -/
structure Fitted (α : Type) where
  heap : Addr → α
  best : Option Nat
  tracker : Tracker
  ran : Nat

/-- Going back to the best epoch, if it is not the last one (`recommender_abc.py:253-256`). -/
def revertBest {α : Type} (epochs : Nat) (net : Net) (saved : List (Snap α)) (best : Option Nat)
    (heap : Addr → α) : Except Err (Addr → α) :=
  match best with
  | none => .ok heap
  | some b => if b = epochs then .ok heap else revert net saved b heap

/-- The end of `fit` (`recommender_abc.py:241-264`). -/
def fitEnd {α : Type} (c : FitCfg α) (net : Net) (st : FitSt α) : Except Err (Fitted α) :=
  match ruleAfter c st.tracker st.vars with
  | .error x => .error x
  | .ok best =>
    match revertBest c.epochs net st.saved best st.heap with
    | .error x => .error x
    | .ok heap =>
      match (if c.verbose then display st.tracker else .ok ()) with
      | .error x => .error x
      | .ok _ => .ok ⟨heap, best, st.tracker, st.saved.length⟩

/-- Results before the first epoch, only when verbose (`recommender_abc.py:178-184`). -/
def firstTracker {α : Type} (c : FitCfg α) : Tracker :=
  match c.verbose, c.callback with
  | true, some f => Tracker.init.addResults (f 0) 0
  | _, _ => Tracker.init

/-- `fit` from the registered trainables on (`recommender_abc.py:159-264`), for a model fitted for the first time
(`epoch_weights` is empty).  Without trainables nothing is trained. -/
def fit {α : Type} (c : FitCfg α) (net : Net) (heap : Addr → α) : Except Err (Fitted α) :=
  if net.vars = [] ∧ net.layers = [] ∧ net.models = [] then .ok ⟨heap, none, Tracker.init, 0⟩
  else
    match fitEpochs c net (List.range' 1 c.epochs) ⟨heap, [], firstTracker c, ⟨none, none, false⟩⟩ with
    | .error x => .error x
    | .ok st => fitEnd c net st

end DRec
