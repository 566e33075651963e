import Verif.Lemmas.DmfFloat
import Verif.Lemmas.DmfNet
import Verif.Model.DmfTower
import Verif.Spec.DmfTower
import Mathlib.Analysis.InnerProductSpace.PiL2
import Mathlib.Algebra.Order.Ring.Pow

/-! # Errors of DMF's networks in single precision -/

namespace DRec.Dm

open Spec

/-! ## One number of a layer -/

/-- Rounding a sum whose parts have relative errors `p` and `q`. -/
theorem step_error {a b L R A B p q t : ℝ} (hL : |L| ≤ A) (hR : |R| ≤ B) (h1 : |a - L| ≤ p * A) (h2 : |b - R| ≤ q * B)
    (k1 : (1 + 1 / 2 ^ 24) * p + 1 / 2 ^ 24 ≤ t) (k2 : (1 + 1 / 2 ^ 24) * q + 1 / 2 ^ 24 ≤ t) :
    |single (a + b) - (L + R)| ≤ t * (A + B) := by
  have hA0 : 0 ≤ A := (abs_nonneg _).trans hL
  have hB0 : 0 ≤ B := (abs_nonneg _).trans hR
  have e := single_err (a + b)
  generalize single (a + b) = s at *
  generalize hu : (1 / 2 ^ 24 : ℝ) = u at *
  have hu0 : 0 ≤ u := by rw [← hu]; positivity
  have hd : |a + b - (L + R)| ≤ p * A + q * B := by
    have : a + b - (L + R) = (a - L) + (b - R) := by ring
    rw [this]
    exact (abs_add_le _ _).trans (add_le_add h1 h2)
  have hab : |a + b| ≤ p * A + q * B + (A + B) := by
    have h1 : |a + b| ≤ |a + b - (L + R)| + |L + R| := by
      have := abs_add_le (a + b - (L + R)) (L + R)
      rwa [sub_add_cancel] at this
    have h2 := abs_add_le L R
    linarith
  have hs : |s - (L + R)| ≤ |s - (a + b)| + |a + b - (L + R)| := by
    have := abs_add_le (s - (a + b)) (a + b - (L + R))
    rwa [sub_add_sub_cancel] at this
  have m1 : u * |a + b| ≤ u * (p * A + q * B + (A + B)) := mul_le_mul_of_nonneg_left hab hu0
  have m2 : ((1 + u) * p + u) * A ≤ t * A := mul_le_mul_of_nonneg_right k1 hA0
  have m3 : ((1 + u) * q + u) * B ≤ t * B := mul_le_mul_of_nonneg_right k2 hB0
  linarith

theorem pow_step (k m : ℕ) (h : k + 1 ≤ m) :
    (1 + 1 / 2 ^ 24 : ℝ) * ((1 + 1 / 2 ^ 24) ^ k - 1) + 1 / 2 ^ 24 ≤ (1 + 1 / 2 ^ 24) ^ m - 1 := by
  have : (1 + 1 / 2 ^ 24 : ℝ) ^ (k + 1) ≤ (1 + 1 / 2 ^ 24) ^ m := pow_le_pow_right₀ (by norm_num) h
  rw [pow_succ] at this
  linarith

theorem pow_step0 (m : ℕ) (h : 1 ≤ m) : (1 + 1 / 2 ^ 24 : ℝ) * 0 + 1 / 2 ^ 24 ≤ (1 + 1 / 2 ^ 24) ^ m - 1 := by
  have := pow_step 0 m h
  rwa [pow_zero, sub_self] at this

theorem dotted_error {l : List (ℝ × ℝ)} {s : ℝ} (h : Dotted l s) :
    |s - (l.map fun p => p.1 * p.2).sum| ≤ ((1 + 1 / 2 ^ 24) ^ l.length - 1) * (l.map fun p => |p.1 * p.2|).sum := by
  induction h with
  | nil => simp
  | mul a b =>
    have := single_err (a * b)
    simpa using this
  | @fma l s a b _ ih =>
    rw [List.map_cons, List.map_cons, List.sum_cons, List.sum_cons, List.length_cons, add_comm (a * b), add_comm |a * b|]
    exact step_error (q := 0) (abs_sum_le l _) le_rfl ih (by simp) (pow_step _ _ le_rfl) (pow_step0 _ (by omega))
  | @add l r s t hl hr _ _ ih1 ih2 =>
    have hl' : 1 ≤ l.length := List.length_pos_iff.2 hl
    have hr' : 1 ≤ r.length := List.length_pos_iff.2 hr
    rw [List.map_append, List.map_append, List.sum_append, List.sum_append, List.length_append]
    exact step_error (abs_sum_le l _) (abs_sum_le r _) ih1 ih2 (pow_step _ _ (by omega)) (pow_step _ _ (by omega))
  | perm hp _ ih =>
    rw [← (hp.map _).sum_eq, ← (hp.map fun p : ℝ × ℝ => |p.1 * p.2|).sum_eq, ← hp.length_eq]
    exact ih

theorem dotted_exists (l : List (ℝ × ℝ)) : ∃ s, Dotted l s := by
  induction l with
  | nil => exact ⟨_, .nil⟩
  | cons p l ih =>
    obtain ⟨s, h⟩ := ih
    exact ⟨_, .fma p.1 p.2 h⟩

theorem towerF_exists (ls : List Layer) (x : List ℝ) : ∃ y, TowerF ls x y := by
  induction ls generalizing x with
  | nil => exact ⟨_, rfl⟩
  | cons l ls ih =>
    choose d hd using fun k => dotted_exists (x.zipIdx.map fun p => (p.1, l.W p.2 k))
    obtain ⟨y, hy⟩ := ih ((List.range l.units).map fun k => max 0 (single (d k + l.b k)))
    exact ⟨y, _, ⟨d, fun k _ => hd k, rfl⟩, hy⟩

/-! ## Networks -/

theorem reachOf_nonneg (ls : List Layer) (n : Nat) (x : Nat → ℝ) (k : Nat) : 0 ≤ reachOf n ls x k := by
  induction ls generalizing n x with
  | nil => exact abs_nonneg _
  | cons l ls ih => exact ih _ _

theorem reachOf_congr (ls : List Layer) (n : Nat) (x y : Nat → ℝ) (h : ∀ j, j < n → |x j| = |y j|) (k : Nat) (hk : k < repSize n ls) :
    reachOf n ls x k = reachOf n ls y k := by
  induction ls generalizing n x y with
  | nil => exact h k hk
  | cons l ls ih =>
    refine ih l.units _ _ (fun j _ => ?_) hk
    congr 2
    exact Finset.sum_congr rfl fun i hi => by rw [h i (Finset.mem_range.1 hi)]

theorem zipIdx_range (n : Nat) (x : Nat → ℝ) (f : ℝ → Nat → ℝ × ℝ) :
    (((List.range n).map x).zipIdx.map fun p => f p.1 p.2) = (List.range n).map fun j => f (x j) j := by
  apply List.ext_getElem
  · simp
  · intro i h1 h2
    simp

theorem sum_list_range (n : Nat) (f : Nat → ℝ) : ((List.range n).map f).sum = ∑ j ∈ Finset.range n, f j := by
  induction n with
  | zero => simp
  | succ n ih => rw [List.range_succ, List.map_append, List.sum_append, ih, Finset.sum_range_succ]; simp

/-- A sum of products and a bias, for inputs that are off by `p` relative to `X`. -/
theorem affine_error (n : Nat) (w : Nat → ℝ) (b : ℝ) (x x' X : Nat → ℝ) (a : ℕ) (d : ℝ) (hX : ∀ j, j < n → |x j| ≤ X j)
    (hx : ∀ j, j < n → |x' j - x j| ≤ ((1 + 1 / 2 ^ 24) ^ a - 1) * X j)
    (hd : Dotted ((List.range n).map fun j => (x' j, w j)) d) :
    |single (d + b) - (∑ j ∈ Finset.range n, x j * w j + b)| ≤
      ((1 + 1 / 2 ^ 24) ^ (a + (n + 1)) - 1) * (∑ j ∈ Finset.range n, X j * |w j| + |b|) := by
  have h1 := dotted_error hd
  rw [List.length_map, List.length_range, List.map_map, List.map_map] at h1
  change |d - ((List.range n).map fun j => x' j * w j).sum| ≤ _ * ((List.range n).map fun j => |x' j * w j|).sum at h1
  rw [sum_list_range, sum_list_range] at h1
  have hpn : (1 : ℝ) ≤ (1 + 1 / 2 ^ 24) ^ n := one_le_pow₀ (by norm_num)
  have hpa : (1 : ℝ) ≤ (1 + 1 / 2 ^ 24) ^ a := one_le_pow₀ (by norm_num)
  have h2 : |∑ j ∈ Finset.range n, x' j * w j - ∑ j ∈ Finset.range n, x j * w j| ≤
      ((1 + 1 / 2 ^ 24) ^ a - 1) * ∑ j ∈ Finset.range n, X j * |w j| := by
    rw [← Finset.sum_sub_distrib, Finset.mul_sum]
    refine (Finset.abs_sum_le_sum_abs _ _).trans (Finset.sum_le_sum fun j hj => ?_)
    rw [← sub_mul, abs_mul, ← mul_assoc]
    exact mul_le_mul_of_nonneg_right (hx j (Finset.mem_range.1 hj)) (abs_nonneg _)
  have h3 : ∑ j ∈ Finset.range n, |x' j * w j| ≤ (1 + 1 / 2 ^ 24) ^ a * ∑ j ∈ Finset.range n, X j * |w j| := by
    rw [Finset.mul_sum]
    refine Finset.sum_le_sum fun j hj => ?_
    have hj := Finset.mem_range.1 hj
    rw [abs_mul, ← mul_assoc]
    refine mul_le_mul_of_nonneg_right ?_ (abs_nonneg _)
    have t := abs_add_le (x' j - x j) (x j)
    rw [sub_add_cancel] at t
    linarith [hx j hj, hX j hj]
  have h4 : |∑ j ∈ Finset.range n, x j * w j| ≤ ∑ j ∈ Finset.range n, X j * |w j| := by
    refine (Finset.abs_sum_le_sum_abs _ _).trans (Finset.sum_le_sum fun j hj => ?_)
    rw [abs_mul]
    exact mul_le_mul_of_nonneg_right (hX j (Finset.mem_range.1 hj)) (abs_nonneg _)
  have h5 : |d - ∑ j ∈ Finset.range n, x j * w j| ≤ ((1 + 1 / 2 ^ 24) ^ (a + n) - 1) * ∑ j ∈ Finset.range n, X j * |w j| := by
    have t := abs_add_le (d - ∑ j ∈ Finset.range n, x' j * w j)
      (∑ j ∈ Finset.range n, x' j * w j - ∑ j ∈ Finset.range n, x j * w j)
    rw [sub_add_sub_cancel] at t
    have t1 := mul_le_mul_of_nonneg_left h3 (sub_nonneg.2 hpn)
    rw [pow_add]
    nlinarith
  exact step_error (q := 0) h4 le_rfl h5 (by simp) (pow_step _ _ (by omega)) (pow_step0 _ (by omega))

/-- One unit, for inputs that are off by `p` relative to `X`. -/
theorem unit_error (n : Nat) (l : Layer) (k : Nat) (x x' X : Nat → ℝ) (a : ℕ) (d : ℝ) (hX : ∀ j, j < n → |x j| ≤ X j)
    (hx : ∀ j, j < n → |x' j - x j| ≤ ((1 + 1 / 2 ^ 24) ^ a - 1) * X j)
    (hd : Dotted ((List.range n).map fun j => (x' j, l.W j k)) d) :
    |max 0 (single (d + l.b k)) - max 0 (∑ j ∈ Finset.range n, x j * l.W j k + l.b k)| ≤
      ((1 + 1 / 2 ^ 24) ^ (a + (n + 1)) - 1) * (∑ j ∈ Finset.range n, X j * |l.W j k| + |l.b k|) := by
  rw [max_comm 0, max_comm 0]
  exact (abs_max_sub_max_le_abs _ _ _).trans (affine_error n (fun j => l.W j k) (l.b k) x x' X a d hX hx hd)

theorem tower_error (ls : List Layer) (n : Nat) (x x' X : Nat → ℝ) (a : ℕ) (y : List ℝ) (hX : ∀ j, j < n → |x j| ≤ X j)
    (hx : ∀ j, j < n → |x' j - x j| ≤ ((1 + 1 / 2 ^ 24) ^ a - 1) * X j) (h : TowerF ls ((List.range n).map x') y) :
    ∃ y' : Nat → ℝ, y = (List.range (repSize n ls)).map y' ∧ ∀ k, k < repSize n ls →
      |y' k - repOf n ls x k| ≤ ((1 + 1 / 2 ^ 24) ^ (a + layerSteps n ls) - 1) * reachOf n ls X k ∧ |repOf n ls x k| ≤ reachOf n ls X k := by
  induction ls generalizing n x x' X a with
  | nil =>
    refine ⟨x', h, fun k hk => ⟨(hx k hk).trans (mul_le_mul_of_nonneg_left (le_abs_self _) ?_), (hX k hk).trans (le_abs_self _)⟩⟩
    exact sub_nonneg.2 (one_le_pow₀ (by norm_num))
  | cons l ls ih =>
    obtain ⟨z, ⟨d, hd, rfl⟩, hz⟩ := h
    have hX0 : ∀ j, j < n → X j = |X j| := fun j hj => (abs_of_nonneg ((abs_nonneg _).trans (hX j hj))).symm
    have g1 : ∀ k, k < l.units → |max 0 (∑ j ∈ Finset.range n, x j * l.W j k + l.b k)| ≤
        ∑ j ∈ Finset.range n, |X j| * |l.W j k| + |l.b k| := by
      intro k _
      have h4 : |∑ j ∈ Finset.range n, x j * l.W j k| ≤ ∑ j ∈ Finset.range n, |X j| * |l.W j k| := by
        refine (Finset.abs_sum_le_sum_abs _ _).trans (Finset.sum_le_sum fun j hj => ?_)
        rw [abs_mul]
        exact mul_le_mul_of_nonneg_right ((hX j (Finset.mem_range.1 hj)).trans (le_abs_self _)) (abs_nonneg _)
      have t : |max 0 (∑ j ∈ Finset.range n, x j * l.W j k + l.b k)| ≤ |∑ j ∈ Finset.range n, x j * l.W j k + l.b k| := by
        rw [abs_of_nonneg (le_max_left _ _)]
        exact max_le (abs_nonneg _) (le_abs_self _)
      exact t.trans ((abs_add_le _ _).trans (by linarith))
    have g2 : ∀ k, k < l.units → |max 0 (single (d k + l.b k)) - max 0 (∑ j ∈ Finset.range n, x j * l.W j k + l.b k)| ≤
        ((1 + 1 / 2 ^ 24) ^ (a + (n + 1)) - 1) * (∑ j ∈ Finset.range n, |X j| * |l.W j k| + |l.b k|) := by
      intro k hk
      have hd' := hd k hk
      rw [zipIdx_range n x' fun a j => (a, l.W j k)] at hd'
      refine unit_error n l k x x' (fun j => |X j|) a (d k) (fun j hj => (hX j hj).trans (le_abs_self _)) (fun j hj => ?_) hd'
      rw [← hX0 j hj]
      exact hx j hj
    obtain ⟨y', hy, hy'⟩ := ih l.units _ _ _ (a + (n + 1)) g1 g2 hz
    refine ⟨y', hy, fun k hk => ?_⟩
    have := hy' k hk
    rw [add_assoc] at this
    exact this

/-! ## Inputs -/

theorem vecLen_range (n : Nat) (x : Nat → ℝ) : vecLen ((List.range n).map x) = normOf n x := by
  unfold vecLen normOf
  rw [List.map_map]
  change max (√((List.range n).map fun k => x k ^ 2).sum) _ = _
  rw [sum_list_range]

theorem bernoulli (k : ℕ) : (k : ℝ) / 2 ^ 24 ≤ (1 + 1 / 2 ^ 24) ^ k - 1 := by
  have := one_add_mul_le_pow (a := (1 / 2 ^ 24 : ℝ)) (by norm_num) k
  rw [div_eq_mul_one_div]
  linarith

theorem normOf_scale (n : Nat) (x y : Nat → ℝ) (c : ℝ) (hc : 1 ≤ c) (h : ∀ k, k < n → |y k| ≤ c * |x k|) :
    normOf n y ≤ c * normOf n x := by
  unfold normOf
  rw [mul_max_of_nonneg _ _ (by linarith)]
  refine max_le_max ?_ (by nlinarith)
  rw [← Real.sqrt_sq (by linarith : 0 ≤ c), ← Real.sqrt_mul (by positivity)]
  refine Real.sqrt_le_sqrt ?_
  rw [Finset.mul_sum]
  refine Finset.sum_le_sum fun k hk => ?_
  have := h k (Finset.mem_range.1 hk)
  rw [← sq_abs (y k), ← sq_abs (x k), ← mul_pow]
  exact pow_le_pow_left₀ (abs_nonneg _) this 2

theorem input_error (l2 : Bool) (n : Nat) (v : List ℚ) (x' : List ℝ) (hv : v.length = n) (hn : l2 = true → n ≤ 2 ^ 16) (h : InputF l2 v x') :
    ∃ x : Nat → ℝ, x' = (List.range n).map x ∧ ∀ j, j < n →
      |x j - inputOf l2 n v j| ≤ ((1 + 1 / 2 ^ 24) ^ (if l2 then n + 11 else 1) - 1) * |inputOf l2 n v j| := by
  have e : (v.map fun (q : ℚ) => single (q : ℝ)) = (List.range n).map fun j => single ((v.getD j 0 : ℚ) : ℝ) := by
    rw [← hv]
    apply List.ext_getElem
    · simp
    · intro i h1 h2
      simp at h1
      simp [h1]
  unfold InputF at h
  unfold inputOf
  cases l2 with
  | false =>
    simp only [Bool.false_eq_true, if_false] at h ⊢
    refine ⟨_, h.trans e, fun j _ => ?_⟩
    have := single_err ((v.getD j 0 : ℚ) : ℝ)
    simpa using this
  | true =>
    replace hn := hn rfl
    simp only [if_true] at h ⊢
    rw [e] at h
    obtain ⟨f, rfl, hf⟩ := normalised_error (by simpa using hn) h
    rw [vecLen_range, List.length_map, List.length_range] at hf
    refine ⟨_, List.map_map, fun j hj => ?_⟩
    simp only [Function.comp]
    have up := normOf_scale n (fun k => ((v.getD k 0 : ℚ) : ℝ)) (fun k => single ((v.getD k 0 : ℚ) : ℝ)) (1 + 1 / 2 ^ 24) (by norm_num)
      (fun k _ => by
        have t := abs_add_le (single ((v.getD k 0 : ℚ) : ℝ) - ((v.getD k 0 : ℚ) : ℝ)) ((v.getD k 0 : ℚ) : ℝ)
        rw [sub_add_cancel] at t
        linarith [single_err ((v.getD k 0 : ℚ) : ℝ)])
    have down := normOf_scale n (fun k => single ((v.getD k 0 : ℚ) : ℝ)) (fun k => ((v.getD k 0 : ℚ) : ℝ)) (1 + 1 / 2 ^ 23) (by norm_num)
      (fun k _ => by
        have t := abs_sub_abs_le_abs_sub ((v.getD k 0 : ℚ) : ℝ) (single ((v.getD k 0 : ℚ) : ℝ))
        rw [abs_sub_comm] at t
        have := single_err ((v.getD k 0 : ℚ) : ℝ)
        have h0 := abs_nonneg ((v.getD k 0 : ℚ) : ℝ)
        generalize |single ((v.getD k 0 : ℚ) : ℝ)| = P at *
        generalize |((v.getD k 0 : ℚ) : ℝ)| = Q at *
        linarith)
    have p0 := normOf_pos n fun k => ((v.getD k 0 : ℚ) : ℝ)
    have p1 := normOf_pos n fun k => single ((v.getD k 0 : ℚ) : ℝ)
    have hw := single_err ((v.getD j 0 : ℚ) : ℝ)
    have hj' := hf (single ((v.getD j 0 : ℚ) : ℝ))
    have hb := bernoulli (n + 11)
    have hne : normError n ≤ (n + 7) / 2 ^ 24 := by
      unfold normError
      have h0 : (0 : ℝ) ≤ n := Nat.cast_nonneg _
      have e : ((n : ℝ) + 7) / 2 ^ 24 - (9 / 16 * ((n + 1) / 2 ^ 24) + 11 / 2 / 2 ^ 24) = (7 / 16 * n + 15 / 16) / 2 ^ 24 := by ring
      have : (0 : ℝ) ≤ (7 / 16 * n + 15 / 16) / 2 ^ 24 := by positivity
      linarith
    have hn' : (n : ℝ) ≤ 2 ^ 16 := by exact_mod_cast hn
    have hn0 : (0 : ℝ) ≤ n := Nat.cast_nonneg _
    refine le_trans ?_ (mul_le_mul_of_nonneg_right hb (abs_nonneg _))
    generalize f (single ((v.getD j 0 : ℚ) : ℝ)) = y at *
    generalize normOf n (fun k => ((v.getD k 0 : ℚ) : ℝ)) = N at *
    generalize normOf n (fun k => single ((v.getD k 0 : ℚ) : ℝ)) = N' at *
    generalize single ((v.getD j 0 : ℚ) : ℝ) = w' at *
    generalize ((v.getD j 0 : ℚ) : ℝ) = w at *
    have hw' : |w'| ≤ (1 + 1 / 2 ^ 24) * |w| := by
      have t := abs_add_le (w' - w) w
      rw [sub_add_cancel] at t
      linarith
    -- y N' ≈ w', N ≈ N'
    have hy : |y| * N' ≤ (1 + (n + 7) / 2 ^ 24) * |w'| := by
      have t := abs_add_le (y * N' - w') w'
      rw [sub_add_cancel, abs_mul, abs_of_pos p1] at t
      nlinarith [abs_nonneg w']
    have hNN : |N - N'| ≤ 1 / 2 ^ 23 * N' := by
      rw [abs_le]
      constructor <;> [skip; linarith]
      have : N' ≤ N + 1 / 2 ^ 23 * N' := by
        have : N' - N ≤ 1 / 2 ^ 24 * N := by linarith
        have h2 : N ≤ 2 * N' := by nlinarith
        norm_num at this ⊢
        linarith
      linarith
    have hfin : |y * N - w| ≤ (n + 11 : ℕ) / 2 ^ 24 * |w| := by
      have e1 : y * N - w = y * (N - N') + (y * N' - w') + (w' - w) := by ring
      have t1 := abs_add_le (y * (N - N') + (y * N' - w')) (w' - w)
      have t2 := abs_add_le (y * (N - N')) (y * N' - w')
      rw [abs_mul] at t2
      have t3 : |y| * |N - N'| ≤ 1 / 2 ^ 23 * (|y| * N') := by
        have := mul_le_mul_of_nonneg_left hNN (abs_nonneg y)
        linarith
      have t4 : normError n * |w'| ≤ (n + 7) / 2 ^ 24 * |w'| := mul_le_mul_of_nonneg_right hne (abs_nonneg _)
      rw [← e1] at t1
      have t5 : |y * N - w| ≤ (1 / 2 ^ 23 * (1 + (n + 7) / 2 ^ 24) + (n + 7) / 2 ^ 24) * |w'| + 1 / 2 ^ 24 * |w| := by linarith
      have c0 : 0 ≤ (1 / 2 ^ 23 * (1 + ((n : ℝ) + 7) / 2 ^ 24) + (n + 7) / 2 ^ 24) := by positivity
      have t6 := mul_le_mul_of_nonneg_left hw' c0
      have t7 : (1 / 2 ^ 23 * (1 + ((n : ℝ) + 7) / 2 ^ 24) + (n + 7) / 2 ^ 24) * (1 + 1 / 2 ^ 24) + 1 / 2 ^ 24 ≤ (n + 11 : ℕ) / 2 ^ 24 := by
        push_cast
        nlinarith
      have t8 := mul_le_mul_of_nonneg_right t7 (abs_nonneg w)
      linarith
    have e2 : y - w / N = (y * N - w) / N := by field_simp
    rw [e2, abs_div, abs_div, abs_of_pos p0, ← mul_div_assoc]
    exact div_le_div_of_nonneg_right hfin p0.le

/-! ## Cosines of vectors that are off -/

theorem unit_close {E : Type} [NormedAddCommGroup E] [InnerProductSpace ℝ E] (X X' : E) (ε : ℝ) (hε : 0 < ε) :
    ‖(max ‖X‖ ε)⁻¹ • X - (max ‖X'‖ ε)⁻¹ • X'‖ ≤ 2 * (‖X' - X‖ / max ‖X‖ ε) := by
  have hA : 0 < max ‖X‖ ε := lt_of_lt_of_le hε (le_max_right _ _)
  have hA' : 0 < max ‖X'‖ ε := lt_of_lt_of_le hε (le_max_right _ _)
  have hl : |max ‖X'‖ ε - max ‖X‖ ε| ≤ ‖X' - X‖ := (abs_max_sub_max_le_abs _ _ _).trans (abs_norm_sub_norm_le _ _)
  have hX' : ‖X'‖ ≤ max ‖X'‖ ε := le_max_left _ _
  generalize max ‖X‖ ε = A at *
  generalize max ‖X'‖ ε = A' at *
  have e : A⁻¹ • X - A'⁻¹ • X' = A⁻¹ • (X - X') + ((A' - A) * (A⁻¹ * A'⁻¹)) • X' := by
    have : (A' - A) * (A⁻¹ * A'⁻¹) = A⁻¹ - A'⁻¹ := by field_simp
    rw [this, smul_sub, sub_smul]
    abel
  rw [e]
  refine (norm_add_le _ _).trans ?_
  rw [norm_smul, norm_smul, Real.norm_eq_abs, Real.norm_eq_abs, abs_of_pos (inv_pos.2 hA), abs_mul,
    abs_of_pos (mul_pos (inv_pos.2 hA) (inv_pos.2 hA')), norm_sub_rev X X']
  have t : |A' - A| * (A⁻¹ * A'⁻¹) * ‖X'‖ ≤ ‖X' - X‖ / A := by
    have e2 : |A' - A| * (A⁻¹ * A'⁻¹) * ‖X'‖ = |A' - A| / A * (‖X'‖ / A') := by field_simp
    rw [e2]
    have t1 : ‖X'‖ / A' ≤ 1 := (div_le_one hA').2 hX'
    have t2 : |A' - A| / A ≤ ‖X' - X‖ / A := div_le_div_of_nonneg_right hl hA.le
    have t3 : 0 ≤ |A' - A| / A := by positivity
    calc |A' - A| / A * (‖X'‖ / A') ≤ |A' - A| / A * 1 := mul_le_mul_of_nonneg_left t1 t3
      _ ≤ _ := by linarith
  have e3 : A⁻¹ * ‖X' - X‖ = ‖X' - X‖ / A := by field_simp
  linarith

theorem unit_norm {E : Type} [NormedAddCommGroup E] [InnerProductSpace ℝ E] (X : E) (ε : ℝ) (hε : 0 < ε) :
    ‖(max ‖X‖ ε)⁻¹ • X‖ ≤ 1 := by
  have hA : 0 < max ‖X‖ ε := lt_of_lt_of_le hε (le_max_right _ _)
  rw [norm_smul, Real.norm_eq_abs, abs_of_pos (inv_pos.2 hA), inv_mul_le_one₀ hA]
  exact le_max_left _ _

theorem inner_close {E : Type} [NormedAddCommGroup E] [InnerProductSpace ℝ E] (X X' Y Y' : E) (ε : ℝ) (hε : 0 < ε) :
    |inner ℝ X' Y' / (max ‖X'‖ ε * max ‖Y'‖ ε) - inner ℝ X Y / (max ‖X‖ ε * max ‖Y‖ ε)| ≤
      2 * (‖X' - X‖ / max ‖X‖ ε) + 2 * (‖Y' - Y‖ / max ‖Y‖ ε) := by
  have h1 := unit_close X X' ε hε
  have h2 := unit_close Y Y' ε hε
  have n1 := unit_norm X' ε hε
  have n2 := unit_norm Y ε hε
  have c : ∀ (P Q : E), inner ℝ P Q / (max ‖P‖ ε * max ‖Q‖ ε) = inner ℝ ((max ‖P‖ ε)⁻¹ • P) ((max ‖Q‖ ε)⁻¹ • Q) := by
    intro P Q
    rw [real_inner_smul_left, real_inner_smul_right, div_eq_mul_inv, mul_inv]
    ring
  rw [c, c]
  generalize (max ‖X‖ ε)⁻¹ • X = a at *
  generalize (max ‖X'‖ ε)⁻¹ • X' = a' at *
  generalize (max ‖Y‖ ε)⁻¹ • Y = b at *
  generalize (max ‖Y'‖ ε)⁻¹ • Y' = b' at *
  have e : inner ℝ a' b' - inner ℝ a b = -(inner ℝ a' (b - b') + inner ℝ (a - a') b) := by
    rw [inner_sub_right, inner_sub_left]
    ring
  rw [e, abs_neg]
  refine (abs_add_le _ _).trans ?_
  have t1 := abs_real_inner_le_norm a' (b - b')
  have t2 := abs_real_inner_le_norm (a - a') b
  nlinarith [norm_nonneg a', norm_nonneg b, norm_nonneg (b - b'), norm_nonneg (a - a')]

/-- A vector as an element of a Euclidean space. -/
noncomputable def euc (n : Nat) (x : Nat → ℝ) : EuclideanSpace ℝ (Fin n) := WithLp.toLp 2 fun k : Fin n => x k

theorem euc_norm (n : Nat) (x : Nat → ℝ) : ‖euc n x‖ = √(∑ k ∈ Finset.range n, x k ^ 2) := by
  rw [EuclideanSpace.norm_eq, Finset.sum_range]
  congr 1
  exact Finset.sum_congr rfl fun k _ => by simp [euc]

theorem euc_inner (n : Nat) (x y : Nat → ℝ) : inner ℝ (euc n x) (euc n y) = ∑ k ∈ Finset.range n, x k * y k := by
  rw [Finset.sum_range, PiLp.inner_apply]
  exact Finset.sum_congr rfl fun k _ => by simp [euc, mul_comm]

theorem cosineOf_close (n : Nat) (x x' y y' : Nat → ℝ) :
    |cosineOf n x' y' - cosineOf n x y| ≤ 2 * (√(∑ k ∈ Finset.range n, (x' k - x k) ^ 2) / normOf n x) +
      2 * (√(∑ k ∈ Finset.range n, (y' k - y k) ^ 2) / normOf n y) := by
  have h := inner_close (euc n x) (euc n x') (euc n y) (euc n y') (1 / 10 ^ 6) (by norm_num)
  have s : ∀ (p q : Nat → ℝ), euc n p - euc n q = euc n fun k => p k - q k := fun _ _ => rfl
  rw [s, s] at h
  simp only [euc_norm, euc_inner] at h
  exact h

end DRec.Dm
