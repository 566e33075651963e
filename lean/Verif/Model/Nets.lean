import Verif.Model.Sampler
import Verif.Model.Recommender
import Mathlib.Analysis.Real.Sqrt
import Mathlib.Analysis.Complex.Exponential

/-!
# The networks of DMF, CDAE and Caser

`DRecPy/Recommender/dmf.py`, `cdae.py`, `caser.py`.  Numbers are real, rounding is left out.  Weights are arbitrary.
-/

namespace DRec

noncomputable section

/-! ## DMF -/

/-- `tf.nn.l2_normalize` of one vector (`dmf.py:82-84,92-93`): division by the root of the sum of squares, which
tensorflow takes to be at least 1e-12. -/
def l2Normalize (v : List ℝ) : List ℝ := v.map fun x => x / Real.sqrt (max (v.map fun y => y ^ 2).sum (1 / 10 ^ 12))

/-- `tf.reduce_sum(tf.multiply(u, i))` (`dmf.py:95`); both vectors have the size of the last layers, which `__init__`
asserts to be the same (`dmf.py:39-40`). -/
def vecDot (u i : List ℝ) : ℝ := ((u.zip i).map fun p => p.1 * p.2).sum

/-- A DMF object after `_pre_fit` (`dmf.py:22-62`).  The two networks are arbitrary functions. -/
structure Dmf where
  useNce : Bool
  l2Norm : Bool
  userNet : List ℝ → List ℝ
  itemNet : List ℝ → List ℝ

/-- One row of `_preprocess_input` (`dmf.py:79-86`). -/
def Dmf.input (m : Dmf) (v : List ℚ) : List ℝ :=
  if m.l2Norm then l2Normalize (v.map fun (q : ℚ) => (q : ℝ)) else v.map fun (q : ℚ) => (q : ℝ)

/-- One prediction of `_predict_batch` (`dmf.py:88-96`). -/
def Dmf.score (m : Dmf) (u i : List ℚ) : ℝ :=
  max (1 / 10 ^ 6) (vecDot (l2Normalize (m.userNet (m.input u))) (l2Normalize (m.itemNet (m.input i))))

/-- The desired value of a sampled interaction (`dmf.py:69`). -/
def Dmf.target (m : Dmf) (lo hi x : ℚ) : Except Err ℚ := if m.useNce then standardize lo hi x else .ok x

/-- The two vectors of a pair (`dmf.py:76-77`), with the dataset afterwards (it keeps its caches). -/
def Dmf.vectors (ds : Mem) (uid iid : Nat) : Mem × Except Err (List ℚ × List ℚ) :=
  match ds.userVec uid with
  | (d, .error e) => (d, .error e)
  | (d, .ok u) =>
    match d.itemVec iid with
    | (d', .error e) => (d', .error e)
    | (d', .ok i) => (d', .ok (u, i))

/-- `_predict` (`dmf.py:101-106`); `lo` and `hi` are `min_interaction` and `max_interaction`. -/
def Dmf.predict (m : Dmf) (lo hi : ℚ) (ds : Mem) (uid iid : Nat) : Mem × Except Err ℝ :=
  match Dmf.vectors ds uid iid with
  | (d, .error e) => (d, .error e)
  | (d, .ok p) => (d, .ok (lo + (hi - lo) * m.score p.1 p.2))

/-! ## CDAE -/

/-- `tf.sigmoid` (`cdae.py:74,76`). -/
def sigmoid (x : ℝ) : ℝ := 1 / (1 + Real.exp (-x))

/-- The variables of CDAE and their sizes (`cdae.py:36-41`). -/
structure Cdae where
  users : Nat
  items : Nat
  hidden : Nat
  W : Nat → Nat → ℝ
  W' : Nat → Nat → ℝ
  V : Nat → Nat → ℝ
  b : Nat → ℝ
  b' : Nat → ℝ

/-- `hidden_layer` (`cdae.py:74-75`). -/
def Cdae.layer (m : Cdae) (uid : Nat) (x : List ℝ) : List ℝ :=
  (List.range m.hidden).map fun k =>
    sigmoid ((x.zipIdx.map fun p => p.1 * m.W p.2 k).sum + m.V uid k + m.b k)

/-- `_reconstruct` (`cdae.py:60,68,73-76`): an embedding that does not exist or an input of the wrong size raises. -/
def Cdae.reconstruct (m : Cdae) (uid : Nat) (x : List ℝ) : Except Err (List ℝ) :=
  if m.users ≤ uid then .error .outOfRange
  else if x.length ≠ m.items then .error .badValue
  else .ok ((List.range m.items).map fun j =>
    sigmoid (((m.layer uid x).zipIdx.map fun p => p.1 * m.W' p.2 j).sum + m.b' j))

/-- `desired_vector` (`cdae.py:61-62,69-70`). -/
def desired (t : ℚ) (v : List ℚ) : List ℚ := v.map fun x => if t ≤ x then 1 else 0

/-- One entry of `corrupted_vector` (`cdae.py:63-64`): `u` is `uniform(0, 1)`. -/
def corrupt (c u d : ℚ) : Except Err ℚ :=
  if u < c then .ok 0 else if 1 - c = 0 then .error .zeroDiv else .ok (d / (1 - c))

/-- `corrupted_vector` (`cdae.py:63-64`). -/
def corruptAll (c : ℚ) (us : List ℚ) (ds : List ℚ) : Except Err (List ℚ) :=
  (us.zip ds).mapM fun p => corrupt c p.1 p.2

/-- `_reconstruct_for_predictions` (`cdae.py:67-71`), with the dataset afterwards. -/
def Cdae.scores (m : Cdae) (t : ℚ) (ds : Mem) (uid : Nat) : Mem × Except Err (List ℝ) :=
  match ds.userVec uid with
  | (d, .error e) => (d, .error e)
  | (d, .ok v) => (d, m.reconstruct uid ((desired t v).map fun (q : ℚ) => (q : ℝ)))

/-- Mean of a list (`tf.reduce_mean`). -/
def average (l : List ℝ) : ℝ := l.sum / l.length

/-- Mean loss of one vector, for a loss `f` between a desired and a predicted number. -/
def vecLoss (f : ℝ → ℝ → ℝ) (d p : List ℝ) : ℝ := average ((d.zip p).map fun x => f x.1 x.2)

/-- `_compute_batch_loss` of CDAE (`cdae.py:50-57,78-79`).  Each element of `predictions` is a matrix of one row
(`cdae.py:74-76`), so the predictions have shape (B, 1, I) and the desired values (B, I).  Tensorflow broadcasts them
to (B, B, I): every prediction meets every desired vector.  `f` is squared error or cross-entropy. -/
def cdaeLoss (f : ℝ → ℝ → ℝ) (preds wanted : List (List ℝ)) : ℝ :=
  average (preds.flatMap fun p => wanted.map fun d => vecLoss f d p)

/-! ## Caser -/

/-- Shape of a tensor. -/
abbrev Shape := List Nat

/-- The arguments of Caser that determine shapes (`caser.py:29-41`). -/
structure Caser where
  L : Nat
  T : Nat
  d : Nat
  nv : Nat
  nh : Nat

/-- `Conv1D(filters, kernel_size)` without padding (`caser.py:53,58`): raises when the input is shorter than the
kernel. -/
def conv1d (filters kernel : Nat) : Shape → Option Shape
  | [b, l, _] => if 1 ≤ kernel ∧ kernel ≤ l then some [b, l - kernel + 1, filters] else none
  | _ => none

/-- `max_pool1d(x, k, k, 'SAME')` (`caser.py:108`). -/
def maxPool (k : Nat) : Shape → Option Shape
  | [b, l, c] => if k = 0 then none else some [b, (l + k - 1) / k, c]
  | _ => none

/-- `tf.squeeze(x, 1)` (`caser.py:108`): raises when the size is not 1. -/
def squeeze1 : Shape → Option Shape
  | [b, l, c] => if l = 1 then some [b, c] else none
  | _ => none

/-- `tf.reshape(x, [b, -1])` (`caser.py:103`). -/
def reshape2 : Shape → Option Shape
  | [b, l, c] => some [b, l * c]
  | _ => none

/-- `tf.concat([x, y], 1)` (`caser.py:110-111,115`). -/
def concat1 : Shape → Shape → Option Shape
  | [b, m], [b', n] => if b = b' then some [b, m + n] else none
  | _, _ => none

/-- `tf.concat(l, 1)`; an empty list raises (`caser.py:110`). -/
def concatAll : List Shape → Option Shape
  | [] => none
  | s :: ss => ss.foldlM concat1 s

/-- `Dense(d)` (`caser.py:114`). -/
def dense (d : Nat) : Shape → Option Shape
  | [b, _] => some [b, d]
  | _ => none

/-- `reduce_sum(multiply(expand_dims(x, 1), w), 2) + squeeze(b, 2)` for `w` of shape (batch, targets, k)
(`caser.py:115-120`). -/
def scoreTargets (batch targets k : Nat) : Shape → Option Shape
  | [b, n] => if b = batch ∧ n = k then some [batch, targets] else none
  | _ => none

/-- One horizontal convolution, of size `i + 1` (`caser.py:106-108`). -/
def Caser.horizontal (c : Caser) (items : Shape) (i : Nat) : Option Shape :=
  ((conv1d c.nh (i + 1) items).bind (maxPool c.nh)).bind squeeze1

/-- The input of the dense layer, `concat_out` (`caser.py:103-111`): its shape, `none` when tensorflow raises. -/
def Caser.features (c : Caser) (batch len : Nat) : Option Shape :=
  ((conv1d c.nv c.L [batch, len, c.d]).bind reshape2).bind fun outV =>
  ((List.range c.L).mapM (c.horizontal [batch, len, c.d])).bind fun hs =>
  (concatAll hs).bind fun outH => concat1 outV outH

/-- `_predict_batch_aux` (`caser.py:97-120`): the shape of the result, `none` when tensorflow raises.  `len` is the
length of the item sequences, `targets` the number of items to score.  That the dense layer gets inputs of one size in
all calls (otherwise keras raises) is not checked here, see `C84_width`. -/
def Caser.forward (c : Caser) (batch len targets : Nat) : Option Shape :=
  (c.features batch len).bind fun x =>
  (dense c.d x).bind fun y =>
  (concat1 y [batch, c.d]).bind fun z =>
  scoreTargets batch targets (2 * c.d) z

/-- `l[-L:]` (`caser.py:137`); `-0` is the whole list. -/
def lastOf {α : Type} (L : Nat) (l : List α) : List α := if L = 0 then l else l.drop (l.length - L)

/-- The items `_rank` feeds to the network (`caser.py:129-134,137`).  The sort column is ignored when the dataset does
not have it; its values are taken to be numbers. -/
def Caser.sequence (c : Caser) (ds : Mem) (sortCol : Option String) (uid : Nat) : Except Err (List Val) :=
  (uidRows ds uid).map fun s =>
    lastOf c.L ((sortRows (sortCol.filter (· ∈ ds.cols)) s.rows).map (·.get "iid"))

/-- The scores computed by `_rank` (`caser.py:129-137`): their shape, `none` when tensorflow raises. -/
def Caser.rankShape (c : Caser) (ds : Mem) (sortCol : Option String) (uid : Nat) : Except Err (Option Shape) :=
  (c.sequence ds sortCol uid).map fun l => c.forward 1 l.length (nItemsOf ds)

/-- The sampler of Caser (`caser.py:72-75`) with the assertions of its constructor (`list_sampler.py:41-62`). -/
def Caser.sampler (c : Caser) (ds : Mem) (negRatio : Nat) (threshold : ℚ) (sortCol : Option String) :
    Except Err LSampler :=
  if ds.hasIds = false then .error .assertion
  else if c.T = 0 then .error .assertion
  else if "iid" ∉ ds.cols then .error .assertion
  else if ∃ s ∈ sortCol, s ∉ ds.cols then .error .assertion
  else .ok ⟨ds.rows, ["uid"], negRatio, some c.T, "iid", some threshold, sortCol, c.L, some c.L⟩

/-- One training example (`caser.py:77-93`). -/
structure CaserExample where
  uid : Val
  before : List Val
  after : List Val
  labels : List ℚ
  deriving DecidableEq

/-- `_sample_batch` and the desired values for one sampled element (`caser.py:80-82,92`). -/
def Caser.example (c : Caser) (negRatio : Nat) (s : Sampled) : Except Err CaserExample :=
  match s.positives with
  | [] => .error .outOfRange
  | r :: rs => .ok ⟨r.get "uid", (r :: rs).map (·.get "iid"), s.targets.map (·.get "iid") ++ s.negatives,
      List.replicate c.T 1 ++ List.replicate (c.T * negRatio) 0⟩

/-! ## Log output of `fit` -/

/-- `sparsity` before rounding (`recommender_abc.py:478-479`). -/
def sparsity (rows users items : Nat) : Except Err ℚ :=
  if users * items = 0 then .error .zeroDiv else .ok (100 * (1 - (rows : ℚ) / (users * items : ℕ)))

end

end DRec
