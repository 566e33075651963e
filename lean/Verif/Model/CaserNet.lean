import Verif.Model.Nets

/-!
# The values that Caser computes (`DRecPy/Recommender/caser.py:97-120`)

`Model/Nets` has the shapes of the tensors, this file their contents.  A tensor of shape (batch, n) is a list of rows, one of
shape (batch, length, channels) a list of matrices, a matrix a list of rows.  Numbers are real, rounding is left out; weights and
biases are arbitrary; an operation that raises is `none`.
-/

namespace DRec.Cas

noncomputable section

/-- Rows of equal length. -/
abbrev Mat := List (List ℝ)

/-- The layers of a fitted Caser (`caser.py:47-70`).  `act_h` and `act_mlp` are functions of single numbers. -/
structure Net where
  cfg : Caser
  users : Nat
  items : Nat
  /-- `user_embeddings` (`caser.py:47`). -/
  U : Nat → Nat → ℝ
  /-- `item_embeddings` (`caser.py:50`). -/
  E : Nat → Nat → ℝ
  /-- Kernel of `conv_v` (`caser.py:53`): position, channel, filter. -/
  Kv : Nat → Nat → Nat → ℝ
  /-- Bias of `conv_v`. -/
  bv : Nat → ℝ
  /-- Kernels of `convs_h` (`caser.py:56-58`): number of the layer, position, channel, filter. -/
  Kh : Nat → Nat → Nat → Nat → ℝ
  /-- Biases of `convs_h`. -/
  bh : Nat → Nat → ℝ
  actH : ℝ → ℝ
  actMlp : ℝ → ℝ
  /-- Kernel of `dense_0` (`caser.py:63`): input, output. -/
  D : Nat → Nat → ℝ
  /-- Bias of `dense_0`. -/
  bd : Nat → ℝ
  /-- `dense_1_W` (`caser.py:66`). -/
  W : Nat → Nat → ℝ
  /-- `dense_1_b` (`caser.py:69`). -/
  b : Nat → ℝ

/-- One lookup in an `Embedding` layer of `n` rows (`caser.py:99-100,118-119`): ids out of range raise. -/
def lookup (n width : Nat) (M : Nat → Nat → ℝ) (id : Nat) : Option (List ℝ) :=
  if id < n then some ((List.range width).map (M id)) else none

/-- `tf.convert_to_tensor` of a list of lists (`caser.py:99,117`): raises when the lists differ in length. -/
def tensor {α : Type} (l : List (List α)) : Option (List (List α)) :=
  if l.all (fun x => l.all fun y => x.length == y.length) then some l else none

/-- `Conv1D(filters, kernel_size)` (`caser.py:53,58,103,107`) on one matrix, without padding: raises when the input is shorter than
the kernel. -/
def conv (filters kernel : Nat) (K : Nat → Nat → Nat → ℝ) (bias : Nat → ℝ) (x : Mat) : Option Mat :=
  if 1 ≤ kernel ∧ kernel ≤ x.length then
    some ((List.range (x.length - kernel + 1)).map fun t => (List.range filters).map fun f =>
      ((List.range kernel).map fun j => ((x.getD (t + j) []).zipIdx.map fun p => p.1 * K j p.2 f).sum).sum + bias f)
  else none

/-- Largest element. -/
def maxOf : List ℝ → ℝ
  | [] => 0
  | v :: vs => vs.foldl max v

/-- `tf.nn.max_pool1d(x, k, k, 'SAME')` (`caser.py:108`) on one matrix with `c` channels: windows of `k` rows, the first of which
starts before the matrix when the rows do not fill the windows; what lies outside does not count. -/
def pool (c k : Nat) (x : Mat) : Option Mat :=
  if k = 0 then none
  else
    let n := (x.length + k - 1) / k
    let left := (n * k - x.length) / 2
    some ((List.range n).map fun o => (List.range c).map fun f =>
      maxOf ((x.zipIdx.filter fun p => o * k ≤ p.2 + left ∧ p.2 + left < (o + 1) * k).map fun p => p.1.getD f 0))

/-- `tf.squeeze(x, 1)` (`caser.py:108`) on one matrix. -/
def squeeze : Mat → Option (List ℝ)
  | [row] => some row
  | _ => none

/-- `tf.concat([x, y], 1)` (`caser.py:110-111,115`). -/
def concat (x y : Mat) : Option Mat := if x.length = y.length then some (List.zipWith (· ++ ·) x y) else none

/-- `tf.concat(l, 1)` (`caser.py:110`). -/
def concats : List Mat → Option Mat
  | [] => none
  | s :: ss => ss.foldlM concat s

/-- `items_embeddings` (`caser.py:99`). -/
def Net.sequences (m : Net) (befores : List (List Nat)) : Option (List Mat) :=
  (tensor befores).bind fun l => l.mapM fun s => s.mapM (lookup m.items m.cfg.d m.E)

/-- `out_v` (`caser.py:103`); a reshape to `[0, -1]` raises. -/
def Net.outV (m : Net) (xs : List Mat) : Option Mat :=
  if xs = [] then none else (xs.mapM (conv m.cfg.nv m.cfg.L m.Kv m.bv)).map fun ys => ys.map List.flatten

/-- One element of `out_h` (`caser.py:106-108`). -/
def Net.outH (m : Net) (xs : List Mat) (i : Nat) : Option Mat :=
  xs.mapM fun x => (((conv m.cfg.nh (i + 1) (m.Kh i) (m.bh i) x).map fun y => y.map fun r => r.map m.actH).bind
    (pool m.cfg.nh m.cfg.nh)).bind squeeze

/-- `concat_out` (`caser.py:103-111`). -/
def Net.features (m : Net) (xs : List Mat) : Option Mat :=
  (m.outV xs).bind fun v => ((List.range m.cfg.L).mapM (m.outH xs)).bind fun hs => (concats hs).bind fun h => concat v h

/-- `Dropout(rate)` on one number (`caser.py:61,114`) with the random number `u` from [0, 1). -/
def dropout (rate u x : ℝ) : ℝ := if u < rate then 0 else x / (1 - rate)

/-- `self.dropout(concat_out, training=training)` (`caser.py:114`): `noise` has the rate and the random numbers of a training step,
and is `none` when ranking. -/
def dropped (noise : Option (ℝ × (Nat → Nat → ℝ))) (x : Mat) : Mat :=
  match noise with
  | none => x
  | some (rate, u) => x.zipIdx.map fun r => r.1.zipIdx.map fun p => dropout rate (u r.2 p.2) p.1

/-- `self.dense_0` (`caser.py:63,114`), with the number of inputs of its first call. -/
def Net.dense (m : Net) (x : Mat) : Option Mat :=
  if x.all (fun r => r.length == m.cfg.nv + m.cfg.L * m.cfg.nh) then
    some (x.map fun r => (List.range m.cfg.d).map fun k => m.actMlp ((r.zipIdx.map fun p => p.1 * m.D p.2 k).sum + m.bd k))
  else none

/-- `w_` and `b_` (`caser.py:117-119`). -/
def Net.targets (m : Net) (afters : List (List Nat)) : Option (List (List (List ℝ × ℝ))) :=
  (tensor afters).bind fun l => l.mapM fun (is : List Nat) => is.mapM fun i =>
    (lookup m.items (2 * m.cfg.d) m.W i).map fun w => (w, m.b i)

/-- `tf.reduce_sum(tf.multiply(concat_dense_1_input, w_), 2) + tf.squeeze(b_, 2)` (`caser.py:120`) for one example. -/
def product (z : List ℝ) (ws : List (List ℝ × ℝ)) : List ℝ := ws.map fun p => (List.zipWith (· * ·) z p.1).sum + p.2

/-- `_predict_batch_aux` (`caser.py:97-120`).  Numbers of users, sequences and lists of targets that differ raise in `concat` or
`multiply` (a batch of one would be repeated by `multiply`; the code never passes one with others). -/
def Net.forward (m : Net) (uids : List Nat) (befores afters : List (List Nat)) (noise : Option (ℝ × (Nat → Nat → ℝ))) :
    Option Mat :=
  (m.sequences befores).bind fun xs =>
  (uids.mapM (lookup m.users m.cfg.d m.U)).bind fun us =>
  (m.features xs).bind fun feats =>
  (m.dense (dropped noise feats)).bind fun ds =>
  (concat ds us).bind fun zs =>
  (m.targets afters).bind fun ws => if zs.length = ws.length then some (List.zipWith product zs ws) else none

/-- The scores of all items computed by `_rank` (`caser.py:136-137`) for the items of the sequence. -/
def Net.scores (m : Net) (uid : Nat) (seq : List Nat) : Option (List ℝ) :=
  (m.forward [uid] [seq] [List.range m.items] none).bind List.head?

end

end DRec.Cas
