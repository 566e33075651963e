import Verif.Model.Nets
import Mathlib.Analysis.SpecialFunctions.Log.Basic

/-!
# The training losses (`DRecPy/Recommender/dmf.py:64-73,98-99`, `cdae.py:29-32,78-82`, `caser.py:43,122-123`,
`recommender_abc.py:196-205,314-326`)

Numbers are real, rounding is left out.
-/

namespace DRec

noncomputable section

/-- `tf.keras.backend.epsilon()`. -/
def kEps : ℝ := 1 / 10 ^ 7

/-- Clipping of a prediction in `tf.losses.BinaryCrossentropy`. -/
def clipProb (p : ℝ) : ℝ := max kEps (min p (1 - kEps))

/-- `tf.losses.BinaryCrossentropy` for one target and one prediction (used in `dmf.py:45`, `cdae.py:31`, `caser.py:43`). -/
def bce (y p : ℝ) : ℝ :=
  -(y * Real.log (clipProb p + kEps) + (1 - y) * Real.log (1 - clipProb p + kEps))

/-- `tf.losses.MeanSquaredError` for one target and one prediction (used in `cdae.py:30`). -/
def mse (y p : ℝ) : ℝ := (y - p) ^ 2

/-- The user vectors of a batch (`dmf.py:76`): requested one after the other; the dataset keeps its caches. -/
def userVecs (ds : Mem) : List Nat → Mem × Except Err (List (List ℚ))
  | [] => (ds, .ok [])
  | u :: us =>
    match ds.userVec u with
    | (d, .error e) => (d, .error e)
    | (d, .ok v) =>
      match userVecs d us with
      | (d', .error e) => (d', .error e)
      | (d', .ok vs) => (d', .ok (v :: vs))

/-- The item vectors of a batch (`dmf.py:77`). -/
def itemVecs (ds : Mem) : List Nat → Mem × Except Err (List (List ℚ))
  | [] => (ds, .ok [])
  | i :: is =>
    match ds.itemVec i with
    | (d, .error e) => (d, .error e)
    | (d, .ok v) =>
      match itemVecs d is with
      | (d', .error e) => (d', .error e)
      | (d', .ok vs) => (d', .ok (v :: vs))

/-- A training batch of DMF. -/
structure DmfBatch where
  users : List (List ℚ)
  items : List (List ℚ)
  wanted : List ℚ
  deriving DecidableEq

/-- `_sample_batch` of DMF after sampling (`dmf.py:64-77`): `samples` are the internal ids and the interaction values that the
sampler returned; `lo` and `hi` are `min_interaction` and `max_interaction`. -/
def Dmf.sampleBatch (m : Dmf) (lo hi : ℚ) (ds : Mem) (samples : List (Nat × Nat × ℚ)) : Mem × Except Err DmfBatch :=
  match samples.mapM fun s => m.target lo hi s.2.2 with
  | .error e => (ds, .error e)
  | .ok wanted =>
    match userVecs ds (samples.map (·.1)) with
    | (d, .error e) => (d, .error e)
    | (d, .ok us) =>
      match itemVecs d (samples.map (·.2.1)) with
      | (d', .error e) => (d', .error e)
      | (d', .ok is) => (d', .ok ⟨us, is, wanted⟩)

/-- `_predict_batch` of DMF (`dmf.py:88-96`). -/
def Dmf.predictBatch (m : Dmf) (b : DmfBatch) : List ℝ := (b.users.zip b.items).map fun p => m.score p.1 p.2

/-- `_compute_batch_loss` of DMF (`dmf.py:98-99`): the mean over the batch. -/
def Dmf.batchLoss (m : Dmf) (b : DmfBatch) : ℝ :=
  average ((b.wanted.zip (m.predictBatch b)).map fun x => bce x.1 x.2)

/-- `_compute_batch_loss` of Caser (`caser.py:85-95,122-123`): predictions and labels have shape (batch, targets); the mean over
the targets, then over the batch. -/
def caserLoss (preds labels : List (List ℝ)) : ℝ := average ((labels.zip preds).map fun x => vecLoss bce x.1 x.2)

/-- The regularization loss of keras networks (`recommender_abc.py:325-326`) with `l2` regularizers (`dmf.py:48`): the rate times
the sum of the squares of the regularized weights. -/
def regLoss (rate : ℝ) (kernels : List (List ℝ)) : ℝ := (kernels.map fun k => rate * (k.map fun w => w ^ 2).sum).sum

/-- The regularization loss of CDAE (`cdae.py:81-82`): `tf.nn.l2_loss` is half the sum of the squares; `n` is the number of samples
of the batch (`recommender_abc.py:204`). -/
def cdaeReg (rate : ℝ) (n : Nat) (kernels : List (List ℝ)) : ℝ :=
  (kernels.map fun k => (k.map fun w => w ^ 2).sum / 2).sum * rate / n

end

end DRec
