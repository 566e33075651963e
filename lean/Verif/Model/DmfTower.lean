import Verif.Model.DmfFloat

/-!
# DMF's networks in single precision (`DRecPy/Recommender/dmf.py:49-58`, `75-106`)

Every operation rounds to 24 binary digits.  As in `Model/DmfFloat` the order of the sums is left open, so the results are relations.
The weights and biases of a layer are the numbers that its variables hold.  Simplification: exponents are unbounded.
-/

namespace DRec.Dm

noncomputable section

/-- One number of the product of a matrix and a kernel, in a `Dense` layer (`dmf.py:49-58`): the products are rounded before they are
added or not (a fused multiply-add), and are added in any order and grouping. -/
inductive Dotted : List (ℝ × ℝ) → ℝ → Prop
  | nil : Dotted [] 0
  | mul (a b : ℝ) : Dotted [(a, b)] (single (a * b))
  | fma {l : List (ℝ × ℝ)} {s : ℝ} (a b : ℝ) : Dotted l s → Dotted ((a, b) :: l) (single (s + a * b))
  | add {l r : List (ℝ × ℝ)} {s t : ℝ} : l ≠ [] → r ≠ [] → Dotted l s → Dotted r t → Dotted (l ++ r) (single (s + t))
  | perm {l l' : List (ℝ × ℝ)} {s : ℝ} : l.Perm l' → Dotted l s → Dotted l' s

/-- A `Dense` layer with `activation=tf.nn.relu` (`dmf.py:49-52`, `55-58`) for one row. -/
def DenseF (l : Layer) (x y : List ℝ) : Prop :=
  ∃ d : Nat → ℝ, (∀ k, k < l.units → Dotted (x.zipIdx.map fun p => (p.1, l.W p.2 k)) (d k)) ∧
    y = (List.range l.units).map fun k => max 0 (single (d k + l.b k))

/-- A `Sequential` of such layers (`dmf.py:48-58`, `89-90`) for one row. -/
def TowerF : List Layer → List ℝ → List ℝ → Prop
  | [], x, y => y = x
  | l :: ls, x, y => ∃ z, DenseF l x z ∧ TowerF ls z y

/-- `_preprocess_input` (`dmf.py:79-86`) for one vector: the interactions are rounded, then normalised. -/
def InputF (l2Norm : Bool) (v : List ℚ) (x : List ℝ) : Prop :=
  if l2Norm then Normalised Rsqrt (v.map fun (q : ℚ) => single (q : ℝ)) x else x = v.map fun (q : ℚ) => single (q : ℝ)

/-- `_predict_batch` (`dmf.py:88-96`) for one pair of vectors, with what the networks return. -/
def Net.ScoreF (m : Net) (u i : List ℚ) (v : ℝ) : Prop :=
  ∃ xu xi ru ri : List ℝ, InputF m.l2Norm u xu ∧ InputF m.l2Norm i xi ∧ TowerF m.userNN xu ru ∧ TowerF m.itemNN xi ri ∧
    Scored Rsqrt ru ri v

/-- `_predict` (`dmf.py:101-106`) for the vectors of a user and an item. -/
def Net.PredictF (m : Net) (lo hi : ℝ) (u i : List ℚ) (p : ℝ) : Prop := ∃ v, m.ScoreF u i v ∧ p = rescaleSingle lo hi v

end

end DRec.Dm
