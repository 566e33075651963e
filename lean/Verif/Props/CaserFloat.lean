import Verif.Lemmas.CaserFloat
import Verif.Props.DmfTower

/-!
# C140: Caser's scores in single precision

Weights, sizes (up to 65536 operations per score) and the order of all sums are arbitrary; the activations are the default ones.
-/

namespace DRec.Cas

open DRec.Spec Dm

/-- A network with the default activations, at least as many horizontal filters as items in a sequence, and sums that are not too long. -/
structure Plain (m : Net) : Prop where
  actH : ∀ x, m.actH x = max 0 x
  actMlp : ∀ x, m.actMlp x = max 0 x
  height : 1 ≤ m.cfg.L
  filters : m.cfg.L ≤ m.cfg.nh
  steps : caserSteps m.cfg ≤ 2 ^ 16

/-- **C140.** Whatever the order of the sums, each score differs from the exact one by at most the relative error of the operations on
its way, multiplied with the score of the network in which all numbers are replaced by their absolute values. -/
theorem C140_close (m : Net) (hm : Plain m) (uid : Nat) (seq : List Nat) (hs : seq.length = m.cfg.L) (y : List ℝ)
    (h : m.ScoresF uid seq y) :
    ∃ l a, m.scores uid seq = some l ∧ (absNet m).scores uid seq = some a ∧ y.length = m.items ∧ l.length = m.items ∧
      a.length = m.items ∧ ∀ i < m.items, |y.getD i 0 - l.getD i 0| ≤ stepError (caserSteps m.cfg) * a.getD i 0 := by
  have hu := h.1
  have hk : ∀ i ∈ seq, i < m.items := by
    obtain ⟨_, x, _, _, hx, _⟩ := h
    exact (emb_of_mapM hx).2
  have hy : y.length = m.items := by
    obtain ⟨_, x, _, _, _, _, _, hl, _⟩ := h
    exact hl
  have e1 := scores_eq (m := m) hm.height hm.filters hu hs hk
  have e2 := scores_eq (m := absNet m) hm.height hm.filters hu hs hk
  refine ⟨_, _, e1, e2, hy, by simp, by simp [absNet], fun i hi => ?_⟩
  have e := scores_error (funext hm.actH) (funext hm.actMlp) hm.filters hs h i hi
  rw [getD_range_map _ _ _ _ hi, getD_range_map _ _ _ _ (show i < (absNet m).items from hi)]
  refine e.trans (mul_le_mul_of_nonneg_right (Cd.pow_le_step _ hm.steps) ?_)
  have p : (0 : ℝ) < (1 + 1 / 2 ^ 24) ^ caserSteps m.cfg - 1 := by
    have : (1 : ℝ) < (1 + 1 / 2 ^ 24) ^ caserSteps m.cfg := one_lt_pow₀ (by norm_num) (by unfold caserSteps; omega)
    linarith
  exact le_of_mul_le_mul_left (by simpa using (abs_nonneg _).trans e) p

/-- **C140.** Two items are ordered as by the exact scores when these differ by more than both errors. -/
theorem C140_order (m : Net) (hm : Plain m) (uid : Nat) (seq : List Nat) (hs : seq.length = m.cfg.L) (y l a : List ℝ)
    (h : m.ScoresF uid seq y) (hl : m.scores uid seq = some l) (ha : (absNet m).scores uid seq = some a) (i j : Nat)
    (hi : i < m.items) (hj : j < m.items)
    (hd : l.getD i 0 + stepError (caserSteps m.cfg) * (a.getD i 0 + a.getD j 0) < l.getD j 0) : y.getD i 0 < y.getD j 0 := by
  obtain ⟨l', a', h1, h2, _, _, _, h3⟩ := C140_close m hm uid seq hs y h
  rw [hl] at h1
  rw [ha] at h2
  cases h1
  cases h2
  linarith [(abs_le.1 (h3 i hi)).2, (abs_le.1 (h3 j hj)).1]

/-- **C140.** Two computations of a score differ by at most twice the bound. -/
theorem C140_again (m : Net) (hm : Plain m) (uid : Nat) (seq : List Nat) (hs : seq.length = m.cfg.L) (y z a : List ℝ)
    (h : m.ScoresF uid seq y) (h' : m.ScoresF uid seq z) (ha : (absNet m).scores uid seq = some a) (i : Nat) (hi : i < m.items) :
    |y.getD i 0 - z.getD i 0| ≤ 2 * (stepError (caserSteps m.cfg) * a.getD i 0) := by
  obtain ⟨l, b, h1, h2, _, _, _, h3⟩ := C140_close m hm uid seq hs y h
  obtain ⟨l', b', h1', h2', _, _, _, h3'⟩ := C140_close m hm uid seq hs z h'
  rw [h1] at h1'
  rw [ha] at h2 h2'
  cases h1'
  cases h2
  cases h2'
  rw [abs_le]
  constructor <;> linarith [abs_le.1 (h3 i hi), abs_le.1 (h3' i hi)]

/-- **C140.** If no weight is negative, the relative error is that of the operations alone. -/
theorem C140_positive (m : Net) (hm : Plain m) (uid : Nat) (seq : List Nat) (hs : seq.length = m.cfg.L) (y l : List ℝ)
    (h : m.ScoresF uid seq y) (hl : m.scores uid seq = some l) (hp : absNet m = m) (i : Nat) (hi : i < m.items) :
    |y.getD i 0 - l.getD i 0| ≤ stepError (caserSteps m.cfg) * l.getD i 0 := by
  obtain ⟨l', a', h1, h2, _, _, _, h3⟩ := C140_close m hm uid seq hs y h
  rw [hl] at h1
  rw [hp, hl] at h2
  cases h1
  cases h2
  exact h3 i hi

/-- **C140.** There are scores for every known user and every sequence of known items, and for no other. -/
theorem C140_some (m : Net) (hm : Plain m) (uid : Nat) (seq : List Nat) (hs : seq.length = m.cfg.L) :
    (∃ y, m.ScoresF uid seq y) ↔ uid < m.users ∧ ∀ i ∈ seq, i < m.items := by
  constructor
  · rintro ⟨y, hu, x, _, _, hx, _⟩
    exact ⟨hu, (emb_of_mapM hx).2⟩
  · rintro ⟨hu, hk⟩
    exact scoresF_exists m hm.height hm.filters uid hu seq hs hk

/-- The claim that items with different exact scores are ordered by them. -/
def CaserOrderKept : Prop := ∀ (m : Net) (uid : Nat) (seq : List Nat) (y l : List ℝ) (i j : Nat), Plain m → seq.length = m.cfg.L →
  i < m.items → j < m.items → m.ScoresF uid seq y → m.scores uid seq = some l → l.getD i 0 < l.getD j 0 → y.getD i 0 ≤ y.getD j 0

/-- Two items; the score of the first is (2^24 + 1) - 2^24, that of the second 1/2. -/
noncomputable def lossyNet : Net where
  cfg := ⟨1, 1, 1, 1, 1⟩
  users := 1
  items := 2
  U _ _ := 1
  E _ _ := 0
  Kv _ _ _ := 0
  bv _ := 0
  Kh _ _ _ _ := 0
  bh _ _ := 0
  actH := relu
  actMlp := relu
  D _ _ := 0
  bd _ := 1
  W i k := if i = 0 then (if k = 0 then 16777216 else 1) else 0
  b i := if i = 0 then -16777216 else 1 / 2

theorem lossy_plain : Plain lossyNet :=
  ⟨fun _ => rfl, fun _ => rfl, le_refl 1, le_refl 1, by simp [lossyNet, caserSteps]⟩

theorem lossy_exact : lossyNet.scores 0 [0] = some [1, 1 / 2] := by
  rw [scores_eq lossy_plain.height lossy_plain.filters (by simp [lossyNet]) rfl (by simp [lossyNet])]
  have e : ∀ i, caserScore lossyNet (feat lossyNet [0]) 0 i = if i = 0 then 1 else 1 / 2 := by
    intro i
    have hd : ∀ n : Nat, ∑ x ∈ Finset.range n, (feat lossyNet [0]).getD x 0 * lossyNet.D x 0 = 0 := fun n =>
      Finset.sum_eq_zero fun x _ => mul_zero _
    show ∑ k ∈ Finset.range 1, relu (_ + (1 : ℝ)) * lossyNet.W i k + ∑ k ∈ Finset.range 1, (1 : ℝ) * lossyNet.W i (1 + k) + lossyNet.b i = _
    rw [Finset.sum_range_one, Finset.sum_range_one, hd, zero_add, relu_nonneg zero_le_one]
    simp only [lossyNet]
    split <;> norm_num
  show some ((List.range 2).map _) = _
  simp [List.range_succ, e]

theorem lossy_scores : lossyNet.ScoresF 0 [0] [0, 1 / 2] := by
  have s0 : single (0 : ℝ) = 0 := roundTo_zero
  have s1 : single (1 : ℝ) = 1 := single_of 1 1 (by decide +kernel) (by norm_num) (by norm_num)
  have s2 : single (1 + 16777216 : ℝ) = 16777216 := single_of 16777217 16777216 (by decide +kernel) (by norm_num) (by norm_num)
  have s3 : single (1 / 2 : ℝ) = 1 / 2 := single_of (1 / 2) (1 / 2) (by decide +kernel) (by norm_num) (by norm_num)
  have z : ∀ a : ℝ, Dotted [(a, 0)] 0 := fun a => by
    have := Dotted.mul a 0
    rwa [mul_zero, s0] at this
  have conv1 : ConvF 1 1 (fun _ _ _ => 0) (fun _ => 0) [[0]] [[0]] :=
    ⟨le_refl 1, le_refl 1, fun _ _ => 0, fun t f ht hf => by
      obtain rfl : t = 0 := by simpa using ht
      simpa [List.range_succ] using z 0, by simp [List.range_succ, s0]⟩
  refine ⟨by simp [lossyNet], [[0]], [0, 0], [1], rfl, ⟨[[0]], fun _ => [0], conv1, fun i hi => ⟨[[0]], ?_, ?_⟩, rfl⟩,
    ⟨fun _ => 0, fun k hk => ?_, ?_⟩, rfl, fun i hi => ?_⟩
  · obtain rfl : i = 0 := by simpa [lossyNet] using hi
    exact conv1
  · simp [pool, lossyNet, squeeze, maxOf, relu, List.range_succ]
  · have := Dotted.fma 0 0 (z 0)
    rw [mul_zero, add_zero, s0] at this
    simpa [lossyNet] using this
  · simp [lossyNet, List.range_succ, s1]
  · have hi : i < 2 := hi
    rcases (by omega : i = 0 ∨ i = 1) with rfl | rfl
    · have := Dotted.fma 1 16777216 (Dotted.mul 1 1)
      rw [one_mul, one_mul, s1, s2] at this
      refine ⟨16777216, by simpa [lossyNet, List.range_succ] using this, ?_⟩
      simp [lossyNet, s0]
    · have := Dotted.fma 1 0 (z 1)
      rw [mul_zero, add_zero, s0] at this
      refine ⟨0, by simpa [lossyNet, List.range_succ] using this, ?_⟩
      simp only [lossyNet, one_ne_zero, if_false, zero_add, s3]
      rfl

/-- **C140** (witness): cancellation changes the order of two items, the exact scores of which are 1 and 1/2. -/
theorem C140_order_refuted : ¬ CaserOrderKept := by
  intro h
  have := h lossyNet 0 [0] [0, 1 / 2] [1, 1 / 2] 1 0 lossy_plain rfl (by simp [lossyNet]) (by simp [lossyNet]) lossy_scores lossy_exact
    (by norm_num)
  norm_num at this

example : Plain lossyNet ∧ [0].length = lossyNet.cfg.L ∧ lossyNet.ScoresF 0 [0] [0, 1 / 2] ∧ lossyNet.scores 0 [0] = some [1, 1 / 2] :=
  ⟨lossy_plain, rfl, lossy_scores, lossy_exact⟩

/-- Weights that are not negative. -/
example : Plain (absNet lossyNet) ∧ absNet (absNet lossyNet) = absNet lossyNet ∧ ∃ y, (absNet lossyNet).ScoresF 0 [0] y := by
  have hp : Plain (absNet lossyNet) := ⟨lossy_plain.actH, lossy_plain.actMlp, le_refl 1, le_refl 1, lossy_plain.steps⟩
  exact ⟨hp, by simp [absNet], (C140_some _ hp 0 [0] rfl).2 ⟨by simp [absNet, lossyNet], by simp [absNet, lossyNet]⟩⟩

end DRec.Cas
