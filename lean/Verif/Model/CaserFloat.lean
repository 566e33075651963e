import Verif.Model.CaserNet
import Verif.Model.DmfTower

/-!
# Caser's scores in single precision (`DRecPy/Recommender/caser.py:97-120`, `136-137`)

Every operation rounds to 24 binary digits; as in `Model/DmfTower` the order of the sums is left open, so the results are relations.
Simplifications: exponents are unbounded; a convolution adds up the products that define it (no transforms); `act_h` and `act_mlp` are
the default `tf.nn.relu`; scores are computed outside training (no dropout).
-/

namespace DRec.Cas

open Dm (Dotted DenseF)

noncomputable section

/-- `tf.nn.relu`, the default of `act_h` and `act_mlp` (`caser.py:28-29`). -/
def relu (x : ℝ) : ℝ := max 0 x

/-- `Conv1D(filters, kernel_size)` (`caser.py:53,58,103,107`) on one matrix. -/
def ConvF (filters kernel : Nat) (K : Nat → Nat → Nat → ℝ) (bias : Nat → ℝ) (x y : Mat) : Prop :=
  1 ≤ kernel ∧ kernel ≤ x.length ∧ ∃ d : Nat → Nat → ℝ,
    (∀ t f, t < x.length - kernel + 1 → f < filters →
      Dotted ((List.range kernel).flatMap fun j => (x.getD (t + j) []).zipIdx.map fun p => (p.1, K j p.2 f)) (d t f)) ∧
    y = (List.range (x.length - kernel + 1)).map fun t => (List.range filters).map fun f => single (d t f + bias f)

/-- One element of `out_h` (`caser.py:106-108`) for one sequence: activation and pooling do not round. -/
def Net.OutHF (m : Net) (x : Mat) (i : Nat) (r : List ℝ) : Prop :=
  ∃ y, ConvF m.cfg.nh (i + 1) (m.Kh i) (m.bh i) x y ∧
    (pool m.cfg.nh m.cfg.nh (y.map fun row => row.map m.actH)).bind squeeze = some r

/-- `concat_out` (`caser.py:103-111`) for one sequence. -/
def Net.FeaturesF (m : Net) (x : Mat) (feats : List ℝ) : Prop :=
  ∃ (v : Mat) (h : Nat → List ℝ), ConvF m.cfg.nv m.cfg.L m.Kv m.bv x v ∧ (∀ i, i < m.cfg.L → m.OutHF x i (h i)) ∧
    feats = v.flatten ++ (List.range m.cfg.L).flatMap h

/-- The scores of all items computed by `_rank` (`caser.py:97-120`, `136-137`) for the items of the sequence. -/
def Net.ScoresF (m : Net) (uid : Nat) (seq : List Nat) (l : List ℝ) : Prop :=
  uid < m.users ∧ ∃ (x : Mat) (feats z : List ℝ), seq.mapM (lookup m.items m.cfg.d m.E) = some x ∧ m.FeaturesF x feats ∧
    DenseF ⟨m.cfg.d, m.D, m.bd⟩ feats z ∧ l.length = m.items ∧
    ∀ i, i < m.items → ∃ d : ℝ,
      Dotted (List.zip (z ++ (List.range m.cfg.d).map (m.U uid)) ((List.range (2 * m.cfg.d)).map (m.W i))) d ∧
        l.getD i 0 = single (d + m.b i)

end

end DRec.Cas
