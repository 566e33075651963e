import Verif.Lemmas.DmfTower
import Verif.Model.CdaeFloat
import Verif.Spec.CdaeFloat
import Mathlib.Analysis.SpecialFunctions.Sigmoid
import Mathlib.Analysis.Calculus.MeanValue

/-! # Errors of CDAE's scores in single precision -/

namespace DRec.Cd

open Spec Dm

theorem sigmoid_eq (x : ℝ) : sigmoid x = Real.sigmoid x := by
  rw [Real.sigmoid_def, sigmoid, one_div]

theorem sigmoid_lipschitz (x y : ℝ) : |sigmoid y - sigmoid x| ≤ |y - x| / 4 := by
  rw [sigmoid_eq, sigmoid_eq]
  have h := Convex.norm_image_sub_le_of_norm_deriv_le (f := Real.sigmoid) (C := 1 / 4) (s := Set.univ) (x := x) (y := y)
    (fun z _ => differentiableAt_sigmoid) (fun z _ => by
      rw [Real.deriv_sigmoid, Real.norm_eq_abs]
      have h0 := Real.sigmoid_pos z
      have h1 := Real.sigmoid_lt_one z
      rw [abs_of_nonneg (mul_nonneg h0.le (by linarith))]
      nlinarith [sq_nonneg (Real.sigmoid z - 1 / 2)]) convex_univ trivial trivial
  rw [Real.norm_eq_abs, Real.norm_eq_abs] at h
  linarith

theorem sigmoid_bounds (x : ℝ) : 0 < sigmoid x ∧ sigmoid x < 1 := by
  rw [sigmoid_eq]
  exact ⟨Real.sigmoid_pos x, Real.sigmoid_lt_one x⟩

/-- A sigmoid of an argument that is off by `e`. -/
theorem sig_error {a x y e : ℝ} (h : SigF a y) (ha : |a - x| ≤ e) : |y - sigmoid x| ≤ e / 4 + 4 / 2 ^ 24 := by
  have h1 := sigmoid_lipschitz x a
  have h2 := sigmoid_bounds a
  unfold SigF at h
  have t := abs_add_le (y - sigmoid a) (sigmoid a - sigmoid x)
  rw [sub_add_sub_cancel] at t
  have h3 : 4 / 2 ^ 24 * sigmoid a ≤ 4 / 2 ^ 24 := by nlinarith [h2.2]
  linarith

theorem pow_le_step (k : ℕ) (hk : k ≤ 2 ^ 16) : (1 + 1 / 2 ^ 24 : ℝ) ^ k - 1 ≤ stepError k := by
  have := pow_linear k hk
  unfold stepError
  linarith

/-- The sum of a layer, as a list of pairs. -/
theorem row_error {x : List ℝ} {n : Nat} (hx : x.length = n) {f : Nat → ℝ} {d : ℝ}
    (hd : Dotted (x.zipIdx.map fun p => (p.1, f p.2)) d) :
    |d - ∑ j ∈ Finset.range n, x.getD j 0 * f j| ≤ ((1 + 1 / 2 ^ 24) ^ n - 1) * ∑ j ∈ Finset.range n, |x.getD j 0| * |f j| := by
  have e : (x.zipIdx.map fun p => (p.1, f p.2)) = (List.range n).map fun j => (x.getD j 0, f j) := by
    have := zipIdx_range n (fun j => x.getD j 0) fun a j => (a, f j)
    rw [← this, ← hx, ← eq_range_getD x]
  rw [e] at hd
  have h1 := dotted_error hd
  rw [List.length_map, List.length_range, List.map_map, List.map_map] at h1
  change |d - ((List.range n).map fun j => x.getD j 0 * f j).sum| ≤ _ * ((List.range n).map fun j => |x.getD j 0 * f j|).sum at h1
  rw [sum_list_range, sum_list_range] at h1
  simp only [abs_mul] at h1
  exact h1

theorem row_abs (x : List ℝ) (n : Nat) (f : Nat → ℝ) :
    |∑ j ∈ Finset.range n, x.getD j 0 * f j| ≤ ∑ j ∈ Finset.range n, |x.getD j 0| * |f j| := by
  refine (Finset.abs_sum_le_sum_abs _ _).trans (le_of_eq ?_)
  simp only [abs_mul]

theorem row_sum (x : List ℝ) (n : Nat) (hx : x.length = n) (f : Nat → ℝ) :
    (x.zipIdx.map fun p => p.1 * f p.2).sum = ∑ j ∈ Finset.range n, x.getD j 0 * f j := by
  have := zipIdx_range n (fun j => x.getD j 0) fun a j => (a, f j)
  rw [← hx, ← eq_range_getD x] at this
  have e : (x.zipIdx.map fun p => p.1 * f p.2) = (x.zipIdx.map fun p => (p.1, f p.2)).map fun q => q.1 * q.2 := by
    rw [List.map_map]
    rfl
  rw [e, this, List.map_map, hx]
  exact sum_list_range n _

/-- The hidden layer without rounding. -/
noncomputable def exactHidden (m : Cdae) (uid : Nat) (x : List ℝ) (k : Nat) : ℝ :=
  sigmoid (∑ j ∈ Finset.range m.items, x.getD j 0 * m.W j k + m.V uid k + m.b k)

theorem hidden_close {m : Cdae} {uid : Nat} {x h : List ℝ} (hx : x.length = m.items) (hn : m.items + 2 ≤ 2 ^ 16)
    (hh : HiddenF SigF m uid x h) (k : Nat) (hk : k < m.hidden) :
    |h.getD k 0 - exactHidden m uid x k| ≤ hiddenError m uid x k ∧ |h.getD k 0| ≤ 1 + 4 / 2 ^ 24 := by
  obtain ⟨d, hd, hs⟩ := hh.2 k hk
  have h1 := row_error hx (f := fun j => m.W j k) hd
  have h2 := step_error (q := 0) (b := m.V uid k) (row_abs x m.items fun j => m.W j k) (le_refl |m.V uid k|) h1 (by simp) (pow_step _ _ le_rfl)
    (pow_step0 _ (by omega))
  have h3 := step_error (q := 0) (b := m.b k) ((abs_add_le _ _).trans (add_le_add (row_abs x m.items fun j => m.W j k) (le_refl |m.V uid k|)))
    (le_refl |m.b k|) h2 (by simp) (pow_step _ _ le_rfl) (pow_step0 _ (by omega))
  have hr0 : 0 ≤ hiddenReach m uid x k := by
    unfold hiddenReach
    have : 0 ≤ ∑ j ∈ Finset.range m.items, |x.getD j 0| * |m.W j k| :=
      Finset.sum_nonneg fun j _ => mul_nonneg (abs_nonneg _) (abs_nonneg _)
    positivity
  have h4 := h3.trans (mul_le_mul_of_nonneg_right (pow_le_step (m.items + 2) hn) hr0)
  refine ⟨sig_error hs h4, ?_⟩
  obtain ⟨b0, b1⟩ := sigmoid_bounds (single (single (d + m.V uid k) + m.b k))
  unfold SigF at hs
  have t := abs_add_le (h.getD k 0 - sigmoid (single (single (d + m.V uid k) + m.b k))) (sigmoid (single (single (d + m.V uid k) + m.b k)))
  rw [sub_add_cancel, abs_of_pos b0] at t
  nlinarith

theorem output_close {m : Cdae} {uid : Nat} {x h y : List ℝ} (hx : x.length = m.items) (hn : m.items + 2 ≤ 2 ^ 16)
    (hk : m.hidden + 1 ≤ 2 ^ 16) (hh : HiddenF SigF m uid x h) (hy : OutputF SigF m h y) (j : Nat) (hj : j < m.items) :
    |y.getD j 0 - sigmoid (∑ k ∈ Finset.range m.hidden, exactHidden m uid x k * m.W' k j + m.b' j)| ≤ cdaeError m uid x j := by
  obtain ⟨d, hd, hs⟩ := hy.2 j hj
  have h1 := row_error hh.1 (f := fun k => m.W' k j) hd
  have h2 := step_error (q := 0) (b := m.b' j) (row_abs h m.hidden fun k => m.W' k j) (le_refl |m.b' j|) h1 (by simp) (pow_step _ _ le_rfl)
    (pow_step0 _ (by omega))
  have h3 : ∑ k ∈ Finset.range m.hidden, |h.getD k 0| * |m.W' k j| ≤ (1 + 4 / 2 ^ 24) * ∑ k ∈ Finset.range m.hidden, |m.W' k j| := by
    rw [Finset.mul_sum]
    exact Finset.sum_le_sum fun k hk => mul_le_mul_of_nonneg_right (hidden_close hx hn hh k (Finset.mem_range.1 hk)).2 (abs_nonneg _)
  have h4 : |∑ k ∈ Finset.range m.hidden, h.getD k 0 * m.W' k j - ∑ k ∈ Finset.range m.hidden, exactHidden m uid x k * m.W' k j| ≤
      ∑ k ∈ Finset.range m.hidden, hiddenError m uid x k * |m.W' k j| := by
    rw [← Finset.sum_sub_distrib]
    refine (Finset.abs_sum_le_sum_abs _ _).trans (Finset.sum_le_sum fun k hk => ?_)
    rw [← sub_mul, abs_mul]
    exact mul_le_mul_of_nonneg_right (hidden_close hx hn hh k (Finset.mem_range.1 hk)).1 (abs_nonneg _)
  have hp0 : (0 : ℝ) ≤ stepError (m.hidden + 1) := by unfold stepError; positivity
  have h5 : |single (d + m.b' j) - (∑ k ∈ Finset.range m.hidden, h.getD k 0 * m.W' k j + m.b' j)| ≤
      stepError (m.hidden + 1) * ((1 + 4 / 2 ^ 24) * ∑ k ∈ Finset.range m.hidden, |m.W' k j| + |m.b' j|) := by
    have h0 : 0 ≤ ∑ k ∈ Finset.range m.hidden, |h.getD k 0| * |m.W' k j| + |m.b' j| :=
      add_nonneg (Finset.sum_nonneg fun k _ => mul_nonneg (abs_nonneg _) (abs_nonneg _)) (abs_nonneg _)
    exact (h2.trans (mul_le_mul_of_nonneg_right (pow_le_step _ hk) h0)).trans (mul_le_mul_of_nonneg_left (by linarith) hp0)
  refine sig_error hs ?_
  have t := abs_add_le (single (d + m.b' j) - (∑ k ∈ Finset.range m.hidden, h.getD k 0 * m.W' k j + m.b' j))
    (∑ k ∈ Finset.range m.hidden, h.getD k 0 * m.W' k j - ∑ k ∈ Finset.range m.hidden, exactHidden m uid x k * m.W' k j)
  have e : single (d + m.b' j) - (∑ k ∈ Finset.range m.hidden, h.getD k 0 * m.W' k j + m.b' j) +
      (∑ k ∈ Finset.range m.hidden, h.getD k 0 * m.W' k j - ∑ k ∈ Finset.range m.hidden, exactHidden m uid x k * m.W' k j) =
      single (d + m.b' j) - (∑ k ∈ Finset.range m.hidden, exactHidden m uid x k * m.W' k j + m.b' j) := by ring
  rw [e] at t
  linarith

theorem layer_range (m : Cdae) (uid : Nat) (x : List ℝ) (hx : x.length = m.items) :
    m.layer uid x = (List.range m.hidden).map (exactHidden m uid x) := by
  unfold Cdae.layer exactHidden
  refine List.map_congr_left fun k _ => ?_
  rw [row_sum x m.items hx fun j => m.W j k]

theorem reconstruct_eq (m : Cdae) (uid : Nat) (x : List ℝ) (hu : uid < m.users) (hx : x.length = m.items) :
    m.reconstruct uid x = .ok ((List.range m.items).map fun j =>
      sigmoid (∑ k ∈ Finset.range m.hidden, exactHidden m uid x k * m.W' k j + m.b' j)) := by
  unfold Cdae.reconstruct
  rw [if_neg (by omega), if_neg (by simpa using hx)]
  congr 1
  refine List.map_congr_left fun j _ => ?_
  rw [row_sum (m.layer uid x) m.hidden (by simp [Cdae.layer]) fun k => m.W' k j, layer_range m uid x hx]
  congr 2
  refine Finset.sum_congr rfl fun k hk => ?_
  simp [Finset.mem_range.1 hk]

theorem best_sig {x y : ℝ} (h : SigBest x y) : SigF x y := by
  rw [SigBest] at h
  unfold SigF
  subst h
  have := single_err (sigmoid x)
  have h0 := (sigmoid_bounds x).1
  rw [abs_of_pos h0] at this
  refine this.trans (mul_le_mul_of_nonneg_right ?_ h0.le)
  norm_num

theorem best_reconstruct {m : Cdae} {uid : Nat} {x y : List ℝ} (h : ReconstructF SigBest m uid x y) : ReconstructF SigF m uid x y := by
  obtain ⟨h1, h2, l, ⟨a1, a2⟩, b1, b2⟩ := h
  refine ⟨h1, h2, l, ⟨a1, fun k hk => ?_⟩, b1, fun j hj => ?_⟩
  · obtain ⟨d, hd, hs⟩ := a2 k hk
    exact ⟨d, hd, best_sig hs⟩
  · obtain ⟨d, hd, hs⟩ := b2 j hj
    exact ⟨d, hd, best_sig hs⟩

theorem reconstruct_exists (m : Cdae) (uid : Nat) (x : List ℝ) (hu : uid < m.users) (hx : x.length = m.items) :
    ∃ y, ReconstructF SigBest m uid x y := by
  choose d hd using fun k => dotted_exists (x.zipIdx.map fun p => (p.1, m.W p.2 k))
  generalize hh : ((List.range m.hidden).map fun k => single (sigmoid (single (single (d k + m.V uid k) + m.b k)))) = h
  choose c hc using fun j => dotted_exists (h.zipIdx.map fun p => (p.1, m.W' p.2 j))
  refine ⟨(List.range m.items).map fun j => single (sigmoid (single (c j + m.b' j))), hu, hx, h, ⟨by simp [← hh], fun k hk => ?_⟩,
    by simp, fun j hj => ?_⟩
  · refine ⟨d k, hd k, ?_⟩
    rw [← hh]
    simp [SigBest, hk]
  · refine ⟨c j, hc j, ?_⟩
    simp [SigBest, hj]

end DRec.Cd
