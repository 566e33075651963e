import Verif.Model.Nets
import Verif.Model.CaserNet

/-!
# The values that DMF computes (`DRecPy/Recommender/dmf.py:22-106`)

`Model/Nets` leaves the two networks of DMF open; here are their layers.  A tensor of shape (batch, n) is a list of rows.  Numbers are
real, rounding is left out; weights and biases are arbitrary; an operation that raises is `none`.
-/

namespace DRec.Dm

open DRec.Cas (tensor)

noncomputable section

/-- A tensor with two axes. -/
abbrev Rows := List (List ℝ)

/-- A `Dense` layer (`dmf.py:49-58`): its number of units, its kernel (input, unit) and its bias. -/
structure Layer where
  units : Nat
  W : Nat → Nat → ℝ
  b : Nat → ℝ

/-- A layer with `activation=tf.nn.relu`, built for inputs of size `n` (`dmf.py:49-52`, `55-58`): other inputs raise. -/
def dense (n : Nat) (l : Layer) (x : Rows) : Option Rows :=
  if x.all (fun r => r.length == n) then
    some (x.map fun r => (List.range l.units).map fun k => max 0 ((r.zipIdx.map fun p => p.1 * l.W p.2 k).sum + l.b k))
  else none

/-- A `Sequential` of such layers (`dmf.py:48-58`, `89-90`): every layer is built for the size of the one before it. -/
def tower : Nat → List Layer → Rows → Option Rows
  | _, [], x => some x
  | n, l :: ls, x => (dense n l x).bind (tower l.units ls)

/-- A fitted DMF (`dmf.py:22-62`). -/
structure Net where
  users : Nat
  items : Nat
  l2Norm : Bool
  userNN : List Layer
  itemNN : List Layer

/-- `user_factors` and `item_factors` (`dmf.py:25-40`).  Simplification: the arguments are lists of natural numbers or `None`. -/
def factors (user item : Option (List Nat)) : Except Err (List Nat × List Nat) :=
  let u := user.getD [64, 32]
  let i := item.getD [64, 32]
  if u.length = 0 then .error .assertion
  else if i.length = 0 then .error .assertion
  else if u.getLast? = i.getLast? then .ok (u, i) else .error .assertion

/-- `_pre_fit` (`dmf.py:46-60`): layer `k` of a network has weights `W k` and bias `b k`. -/
def preFit (users items : Nat) (l2Norm : Bool) (f : List Nat × List Nat) (Wu Wi : Nat → Nat → Nat → ℝ) (bu bi : Nat → Nat → ℝ) :
    Net :=
  ⟨users, items, l2Norm, f.1.zipIdx.map fun s => ⟨s.1, Wu s.2, bu s.2⟩, f.2.zipIdx.map fun s => ⟨s.1, Wi s.2, bi s.2⟩⟩

/-- `tf.convert_to_tensor` of the vectors (`dmf.py:79-80`): without vectors the tensor has one axis, which the networks do not
accept. -/
def stack (l : List (List ℚ)) : Option Rows :=
  if l.length = 0 then none else (tensor l).map fun x => x.map fun r => r.map fun (q : ℚ) => (q : ℝ)

/-- `_preprocess_input` from the tensors on (`dmf.py:82-86`). -/
def Net.input (m : Net) (x : Rows) : Rows := if m.l2Norm then x.map l2Normalize else x

/-- `tf.multiply` (`dmf.py:95`).  Simplification: axes of size 1 are not broadcast (both operands have the same shape). -/
def multiply (x y : Rows) : Option Rows :=
  if x.map List.length = y.map List.length then some (List.zipWith (List.zipWith (· * ·)) x y) else none

/-- `_predict_batch` (`dmf.py:88-96`) for vectors of users and items. -/
def Net.forward (m : Net) (us is : List (List ℚ)) : Option (List ℝ) :=
  (stack us).bind fun u => (stack is).bind fun i =>
  (tower m.items m.userNN (m.input u)).bind fun ur => (tower m.users m.itemNN (m.input i)).bind fun ir =>
  (multiply (ur.map l2Normalize) (ir.map l2Normalize)).map fun p => p.map fun r => max (1 / 10 ^ 6) r.sum

/-- `_predict` (`dmf.py:101-106`); `lo` and `hi` are `min_interaction` and `max_interaction`. -/
def Net.predict (m : Net) (lo hi : ℚ) (ds : Mem) (uid iid : Nat) : Mem × Except Err ℝ :=
  match Dmf.vectors ds uid iid with
  | (d, .error e) => (d, .error e)
  | (d, .ok p) =>
    match m.forward [p.1] [p.2] with
    | some (x :: _) => (d, .ok (lo + (hi - lo) * x))
    | _ => (d, .error .badValue)

end

end DRec.Dm
