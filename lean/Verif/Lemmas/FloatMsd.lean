import Verif.Lemmas.FloatCos
import Mathlib.Tactic.Positivity

/-! # How far a mean squared difference computed in doubles is from the exact one -/

namespace DRec

open DRec.Spec

variable {K : Type} [Field K] [LinearOrder K] [FloorRing K] [IsStrictOrderedRing K]

/-- A quotient of rounded numbers. -/
theorem roundedQuotient_error {t D : K} (hD : 0 < D) :
    |toFloat (toFloat t / toFloat D) - t / D| ≤ 4 * (|t / D| / 2 ^ 53) := by
  have h1 := toFloat_error t
  have h2 := toFloat_error D
  rw [abs_of_pos hD] at h2
  have hu : (1 : K) / 2 ^ 53 ≤ 1 / 100 := by norm_num
  have hu0 : (0 : K) < 1 / 2 ^ 53 := by positivity
  have hDp : (1 - 1 / 2 ^ 53) * D ≤ toFloat D := by
    have := (abs_le.1 h2).1
    have e : (1 - 1 / 2 ^ 53) * D = D - D / 2 ^ 53 := by ring
    rw [e]; linarith
  have hD' : 0 < toFloat D := lt_of_lt_of_le (mul_pos (by linarith) hD) hDp
  have e1 : toFloat t / toFloat D - t / D = ((toFloat t - t) * D - t * (toFloat D - D)) / (D * toFloat D) := by
    field_simp
    ring
  have key : |toFloat t / toFloat D - t / D| ≤ 5 / 2 * (|t / D| / 2 ^ 53) := by
    rw [e1, abs_div, abs_of_pos (mul_pos hD hD'), div_le_iff₀ (mul_pos hD hD'), abs_div, abs_of_pos hD]
    have a1 : |(toFloat t - t) * D| ≤ |t| / 2 ^ 53 * D := by
      rw [abs_mul, abs_of_pos hD]
      exact mul_le_mul_of_nonneg_right h1 hD.le
    have a2 : |t * (toFloat D - D)| ≤ |t| * (D / 2 ^ 53) := by
      rw [abs_mul]
      exact mul_le_mul_of_nonneg_left h2 (abs_nonneg _)
    have a3 := abs_sub ((toFloat t - t) * D) (t * (toFloat D - D))
    have e2 : 5 / 2 * (|t| / D / 2 ^ 53) * (D * toFloat D) = 5 / 2 * (|t| / 2 ^ 53) * toFloat D := by
      field_simp
    rw [e2]
    have a4 : 5 / 2 * (|t| / 2 ^ 53) * ((1 - 1 / 2 ^ 53) * D) ≤ 5 / 2 * (|t| / 2 ^ 53) * toFloat D :=
      mul_le_mul_of_nonneg_left hDp (by positivity)
    have a5 : 0 ≤ |t| / 2 ^ 53 * D := by positivity
    have a6 : 5 / 2 * (|t| / 2 ^ 53) * ((1 - 1 / 2 ^ 53) * D) = 5 / 2 * (1 - 1 / 2 ^ 53) * (|t| / 2 ^ 53 * D) := by ring
    have a7 : |t| * (D / 2 ^ 53) = |t| / 2 ^ 53 * D := by ring
    rw [a6] at a4
    rw [a7] at a2
    generalize (1 : K) / 2 ^ 53 = u at *
    generalize |t| / 2 ^ 53 * D = y at *
    nlinarith
  have h3 := toFloat_error (toFloat t / toFloat D)
  have h4 := abs_sub_abs_le_abs_sub (toFloat t / toFloat D) (t / D)
  have h5 : |toFloat t / toFloat D| / 2 ^ 53 ≤ (11 / 10 * |t / D|) / 2 ^ 53 := by
    refine div_le_div_of_nonneg_right ?_ (by positivity)
    have : |t / D| / 2 ^ 53 ≤ |t / D| * (1 / 100) := by
      rw [div_eq_mul_one_div]
      exact mul_le_mul_of_nonneg_left hu (abs_nonneg _)
    linarith
  have e : toFloat (toFloat t / toFloat D) - t / D =
      (toFloat (toFloat t / toFloat D) - toFloat t / toFloat D) + (toFloat t / toFloat D - t / D) := by ring
  rw [e]
  refine (abs_add_le _ _).trans ?_
  have h6 : 11 / 10 * |t / D| / 2 ^ 53 = 11 / 10 * (|t / D| / 2 ^ 53) := by ring
  rw [h6] at h5
  have : 0 ≤ |t / D| / 2 ^ 53 := by positivity
  linarith

theorem square_error {q r : K} (h : |q - r| ≤ 4 * (|r| / 2 ^ 53)) : |q ^ 2 - r ^ 2| ≤ 9 * (r ^ 2 / 2 ^ 53) := by
  have e : q ^ 2 - r ^ 2 = (q - r) * ((q - r) + 2 * r) := by ring
  rw [e, abs_mul]
  have hr := abs_nonneg r
  have h1 : |(q - r) + 2 * r| ≤ 9 / 4 * |r| := by
    have := abs_add_le (q - r) (2 * r)
    rw [abs_mul, abs_two] at this
    have h2 : |r| / 2 ^ 53 ≤ |r| / 16 := div_le_div_of_nonneg_left hr (by norm_num) (by norm_num)
    linarith
  refine (mul_le_mul h h1 (abs_nonneg _) (by positivity)).trans (le_of_eq ?_)
  have : r ^ 2 = |r| * |r| := by rw [← sq, sq_abs]
  rw [this]
  ring

/-- The mean squared difference in doubles. -/
theorem msd_close (l : List (K × K)) (hne : l ≠ []) {D : K} (hD : 0 < D) (h : ∀ p ∈ l, |p.1 - p.2| ≤ D)
    (hl : l.length ≤ 2 ^ 48) :
    |toFloat (1 - toFloat (sumFloat (l.map fun p => toFloat (toFloat (toFloat (p.1 - p.2) / toFloat D) ^ 2)) / l.length)) -
      (1 - (l.map fun p => ((p.1 - p.2) / D) ^ 2).sum / l.length)| ≤ (l.length + 8) / 2 ^ 52 := by
  have hn : (1 : K) ≤ l.length := by exact_mod_cast List.length_pos_of_ne_nil hne
  have hn0 : (0 : K) < l.length := by linarith
  have hl' : (l.length : K) ≤ 2 ^ 48 := by exact_mod_cast hl
  have hr := sumFloat_rounded_error (l.map fun p => toFloat (toFloat (p.1 - p.2) / toFloat D) ^ 2)
    (by intro x hx; obtain ⟨p, _, rfl⟩ := List.mem_map.1 hx; positivity) (by rw [List.length_map]; omega)
  rw [List.length_map, List.map_map] at hr
  change |sumFloat (l.map fun p => toFloat (toFloat (toFloat (p.1 - p.2) / toFloat D) ^ 2)) - _| ≤ _ at hr
  have hsq : ∀ l : List (K × K), |(l.map fun p => toFloat (toFloat (p.1 - p.2) / toFloat D) ^ 2).sum -
      (l.map fun p => ((p.1 - p.2) / D) ^ 2).sum| ≤ 9 * ((l.map fun p => ((p.1 - p.2) / D) ^ 2).sum / 2 ^ 53) := by
    intro l
    induction l with
    | nil => simp
    | cons p l ih =>
      simp only [List.map_cons, List.sum_cons]
      have := square_error (roundedQuotient_error (t := p.1 - p.2) hD)
      have e : ∀ a b c d : K, a + b - (c + d) = (a - c) + (b - d) := fun a b c d => by ring
      rw [e, add_div, mul_add]
      exact (abs_add_le _ _).trans (add_le_add this ih)
  have hle : (l.map fun p => ((p.1 - p.2) / D) ^ 2).sum ≤ (l.length : K) := by
    clear hr hl hl' hn hn0 hne
    induction l with
    | nil => simp
    | cons p l ih =>
      have h1 := ih fun p hp => h p (List.mem_cons_of_mem _ hp)
      have h2 : ((p.1 - p.2) / D) ^ 2 ≤ 1 := by
        rw [sq_le_one_iff_abs_le_one, abs_div, abs_of_pos hD]
        exact (div_le_one hD).2 (h p List.mem_cons_self)
      rw [List.map_cons, List.sum_cons, List.length_cons]
      push_cast
      linarith
  have hS0 : 0 ≤ (l.map fun p => ((p.1 - p.2) / D) ^ 2).sum :=
    List.sum_nonneg (by intro x hx; obtain ⟨p, _, rfl⟩ := List.mem_map.1 hx; positivity)
  have hsq' := hsq l
  generalize (l.map fun p => ((p.1 - p.2) / D) ^ 2).sum = S at *
  generalize (l.map fun p => toFloat (toFloat (p.1 - p.2) / toFloat D) ^ 2).sum = S1 at *
  generalize sumFloat (l.map fun p => toFloat (toFloat (toFloat (p.1 - p.2) / toFloat D) ^ 2)) = S2 at *
  generalize (l.length : K) = n at *
  -- the sum
  have b1 : S / 2 ^ 53 ≤ n / 2 ^ 53 := div_le_div_of_nonneg_right hle (by positivity)
  have hSn : S1 ≤ n + 9 * (n / 2 ^ 53) := by
    have := (abs_le.1 hsq').2
    linarith
  have b2 : (n + 1) * S1 / 2 ^ 52 ≤ (n + 1) * (n + 9 * (n / 2 ^ 53)) / 2 ^ 52 := by
    refine div_le_div_of_nonneg_right ?_ (by positivity)
    exact mul_le_mul_of_nonneg_left hSn (by linarith)
  have b3 : |S2 - S| ≤ (n + 1) * (n + 9 * (n / 2 ^ 53)) / 2 ^ 52 + 9 * (n / 2 ^ 53) := by
    have e : S2 - S = (S2 - S1) + (S1 - S) := by ring
    rw [e]
    refine (abs_add_le _ _).trans ?_
    linarith
  have b4 : |S2 / n - S / n| ≤ (n + 1) * (1 + 9 / 2 ^ 53) / 2 ^ 52 + 9 / 2 ^ 53 := by
    rw [← sub_div, abs_div, abs_of_pos hn0, div_le_iff₀ hn0]
    refine b3.trans (le_of_eq ?_)
    ring
  have b5 : |S2 / n - S / n| ≤ (n + 6) / 2 ^ 52 := by
    refine b4.trans ?_
    rw [← sub_nonneg]
    have e : (n + 6) / 2 ^ 52 - ((n + 1) * (1 + 9 / 2 ^ 53) / 2 ^ 52 + 9 / 2 ^ 53) =
        (1 / 2 - 9 * (n + 1) / 2 ^ 53) / 2 ^ 52 := by ring
    rw [e]
    apply div_nonneg _ (by positivity)
    have : 9 * (n + 1) / 2 ^ 53 ≤ 1 / 2 := by
      rw [div_le_div_iff₀ (by positivity) (by norm_num)]
      linarith
    linarith
  have hq0 : 0 ≤ S / n := div_nonneg hS0 hn0.le
  have hq1 : S / n ≤ 1 := (div_le_one hn0).2 hle
  generalize S / n = m at *
  generalize S2 / n = m2 at *
  have hsmall : (n + 6) / 2 ^ 52 ≤ 1 / 10 := by
    rw [div_le_div_iff₀ (by positivity) (by norm_num)]
    linarith
  have c1 := toFloat_error m2
  have c2 : |m2| ≤ 11 / 10 := by
    have := abs_le.1 (b5.trans hsmall)
    rw [abs_le]
    constructor <;> linarith [this.1, this.2]
  have c3 : |toFloat m2 - m2| ≤ 11 / 10 / 2 ^ 53 := c1.trans (div_le_div_of_nonneg_right c2 (by positivity))
  have c4 : (11 : K) / 10 / 2 ^ 53 ≤ 1 / 10 := by norm_num
  have c5 := toFloat_error (1 - toFloat m2)
  have c6 : |1 - toFloat m2| ≤ 13 / 10 := by
    have d1 := abs_le.1 (b5.trans hsmall)
    have d2 := abs_le.1 (c3.trans c4)
    rw [abs_le]
    constructor <;> linarith [d1.1, d1.2, d2.1, d2.2]
  have c7 : |toFloat (1 - toFloat m2) - (1 - toFloat m2)| ≤ 13 / 10 / 2 ^ 53 :=
    c5.trans (div_le_div_of_nonneg_right c6 (by positivity))
  have e : toFloat (1 - toFloat m2) - (1 - m) =
      (toFloat (1 - toFloat m2) - (1 - toFloat m2)) - (toFloat m2 - m2) - (m2 - m) := by ring
  rw [e]
  have f1 := abs_sub (toFloat (1 - toFloat m2) - (1 - toFloat m2) - (toFloat m2 - m2)) (m2 - m)
  have f2 := abs_sub (toFloat (1 - toFloat m2) - (1 - toFloat m2)) (toFloat m2 - m2)
  have f3 : (n + 8) / 2 ^ 52 = (n + 6) / 2 ^ 52 + 2 / 2 ^ 52 := by ring
  rw [f3]
  have f4 : (13 : K) / 10 / 2 ^ 53 + 11 / 10 / 2 ^ 53 ≤ 2 / 2 ^ 52 := by norm_num
  linarith

end DRec
