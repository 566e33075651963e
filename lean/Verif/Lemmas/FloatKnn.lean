import Verif.Model.FloatKnn
import Verif.Lemmas.Float
import Verif.Lemmas.FloatEval

/-! # Sums, means and quotients of doubles -/

namespace DRec

open DRec.Spec

variable {K : Type} [Field K] [LinearOrder K] [FloorRing K] [IsStrictOrderedRing K]

omit [IsStrictOrderedRing K] in
theorem sumFloat_eq (l : List K) : sumFloat l = floatSum l := rfl

theorem toFloat_pos {x : K} (h : 0 < x) : 0 < toFloat x := by
  have h1 := toFloat_error x
  rw [abs_of_pos h] at h1
  have h2 : x / 2 ^ 53 < x := by
    rw [div_lt_iff₀ (by positivity)]
    nlinarith
  have := (abs_le.1 h1).1
  linarith

theorem toFloat_pos_iff {x : K} (h : 0 ≤ x) : 0 < toFloat x ↔ 0 < x := by
  refine ⟨fun hp => ?_, toFloat_pos⟩
  rcases h.lt_or_eq with h | rfl
  · exact h
  · rw [toFloat_zero] at hp
    exact absurd hp (lt_irrefl _)

/-- Numbers that are far enough apart are rounded to different doubles. -/
theorem toFloat_lt {x y : K} (h : (|x| + |y|) / 2 ^ 53 < y - x) : toFloat x < toFloat y := by
  have h1 := (abs_le.1 (toFloat_error x)).2
  have h2 := (abs_le.1 (toFloat_error y)).1
  rw [add_div] at h
  linarith

theorem toFloat_lt_iff {x y : K} (h : x ≠ y → (|x| + |y|) / 2 ^ 53 < |y - x|) : toFloat x < toFloat y ↔ x < y := by
  constructor
  · intro hlt
    by_contra hn
    exact absurd (toFloat_mono (not_lt.1 hn)) (not_le.2 hlt)
  · intro hlt
    have := h hlt.ne
    rw [abs_of_pos (sub_pos.2 hlt)] at this
    exact toFloat_lt this

/-- Quotients of whole numbers in units of `c` are rounded to different doubles if numerators and denominators are small. -/
theorem quotients_apart {c : K} (hc : 0 < c) {a b : ℤ} {p q B N : ℕ} (hp : 0 < p) (hq : 0 < q) (hpN : p ≤ N) (hqN : q ≤ N)
    (ha : |(a : K) * c / p| ≤ B * c) (hb : |(b : K) * c / q| ≤ B * c) (hN : B * N ^ 2 < 2 ^ 52) :
    (a : K) * c / p ≠ b * c / q → (|(a : K) * c / p| + |(b : K) * c / q|) / 2 ^ 53 < |(b : K) * c / q - a * c / p| := by
  intro hne
  have hp' : (0 : K) < p := by exact_mod_cast hp
  have hq' : (0 : K) < q := by exact_mod_cast hq
  have hz : b * (p : ℤ) - a * q ≠ 0 := by
    intro h0
    apply hne
    have : (b : K) * p = a * q := by
      have : b * (p : ℤ) = a * q := by omega
      exact_mod_cast this
    rw [div_eq_div_iff hp'.ne' hq'.ne']
    linear_combination -c * this
  have h1 : (1 : K) ≤ |(b : K) * p - a * q| := by
    have := Int.one_le_abs hz
    have h2 : ((1 : ℤ) : K) ≤ ((|b * (p : ℤ) - a * q| : ℤ) : K) := by exact_mod_cast this
    rw [Int.cast_abs] at h2
    push_cast at h2
    exact h2
  have e : (b : K) * c / q - a * c / p = (b * p - a * q) * c / (p * q) := by
    field_simp
  have h3 : c / (p * q) ≤ |(b : K) * c / q - a * c / p| := by
    rw [e, abs_div, abs_mul, abs_of_pos hc, abs_of_pos (mul_pos hp' hq')]
    refine div_le_div_of_nonneg_right ?_ (mul_pos hp' hq').le
    nlinarith
  refine lt_of_lt_of_le ?_ h3
  have h4 : (|(a : K) * c / p| + |(b : K) * c / q|) / 2 ^ 53 ≤ B * c / 2 ^ 52 := by
    have e2 : (2 : K) ^ 53 = 2 * 2 ^ 52 := by norm_num
    rw [e2, div_le_div_iff₀ (by positivity) (by positivity)]
    have : (0 : K) < 2 ^ 52 := by positivity
    nlinarith
  refine h4.trans_lt ?_
  rw [div_lt_div_iff₀ (by positivity) (mul_pos hp' hq')]
  have h5 : (B : K) * (p * q) < 2 ^ 52 := by
    have : B * (p * q) < 2 ^ 52 := by
      refine lt_of_le_of_lt ?_ hN
      rw [pow_two]
      exact Nat.mul_le_mul_left _ (Nat.mul_le_mul hpN hqN)
    exact_mod_cast this
  nlinarith

/-- Whole numbers in units of a power of two are added exactly while they stay small. -/
theorem sumFloat_grid_aux (e : ℤ) (zs : List ℤ) : ∀ s : ℤ, |s| + (zs.map abs).sum ≤ 2 ^ 53 →
    (zs.map fun z : ℤ => (z : K) * 2 ^ e).foldl (fun s x => toFloat (s + x)) ((s : K) * 2 ^ e) = ((s + zs.sum : ℤ) : K) * 2 ^ e := by
  induction zs with
  | nil => intro s _; simp
  | cons z zs ih =>
    intro s h
    rw [List.map_cons, List.sum_cons] at h
    rw [List.map_cons, List.foldl_cons]
    have h0 : 0 ≤ (zs.map abs).sum := List.sum_nonneg (by
      intro x hx
      obtain ⟨y, _, rfl⟩ := List.mem_map.1 hx
      exact abs_nonneg y)
    have h1 : |s + z| ≤ |s| + |z| := abs_add_le _ _
    have hd : IsDouble (((s + z : ℤ) : K) * 2 ^ e) := by
      obtain ⟨m, k, hm, hk⟩ := isDouble_int (K := K) (n := s + z) (by omega)
      exact ⟨m, k + e, hm, by rw [hk, zpow_add₀ (by norm_num)]; ring⟩
    have e1 : (s : K) * 2 ^ e + (z : K) * 2 ^ e = ((s + z : ℤ) : K) * 2 ^ e := by push_cast; ring
    rw [e1, toFloat_of_isDouble hd, ih (s + z) (by omega), List.sum_cons, add_assoc]

theorem sumFloat_grid (e : ℤ) (zs : List ℤ) (h : (zs.map abs).sum ≤ 2 ^ 53) :
    sumFloat (zs.map fun z : ℤ => (z : K) * 2 ^ e) = (zs.map fun z : ℤ => (z : K) * 2 ^ e).sum := by
  have := sumFloat_grid_aux (K := K) e zs 0 (by simpa using h)
  simp only [Int.cast_zero, zero_mul, zero_add] at this
  rw [sumFloat, this]
  clear this h
  induction zs with
  | nil => simp
  | cons z zs ih =>
    rw [List.sum_cons, List.map_cons, List.sum_cons, ← ih]
    push_cast
    ring

/-! ## Weighted means -/

theorem sum_toFloat_error (xs : List K) (hx : ∀ x ∈ xs, 0 ≤ x) : |(xs.map toFloat).sum - xs.sum| ≤ xs.sum / 2 ^ 53 := by
  induction xs with
  | nil => simp
  | cons x xs ih =>
    rw [List.map_cons, List.sum_cons, List.sum_cons]
    have h1 := toFloat_error x
    rw [abs_of_nonneg (hx x (by simp))] at h1
    have h2 := ih fun y hy => hx y (by simp [hy])
    have e : toFloat x + (xs.map toFloat).sum - (x + xs.sum) = (toFloat x - x) + ((xs.map toFloat).sum - xs.sum) := by ring
    rw [e, add_div]
    exact (abs_add_le _ _).trans (add_le_add h1 h2)

/-- A sum of rounded numbers that are not negative. -/
theorem sumFloat_rounded_error (xs : List K) (hx : ∀ x ∈ xs, 0 ≤ x) (hl : xs.length ≤ 2 ^ 52) :
    |sumFloat (xs.map toFloat) - xs.sum| ≤ (xs.length + 1) * xs.sum / 2 ^ 52 := by
  have hs : 0 ≤ xs.sum := List.sum_nonneg hx
  have h1 := floatSum_error (xs.map toFloat) (by
    intro y hy
    obtain ⟨x, hx', rfl⟩ := List.mem_map.1 hy
    exact toFloat_nonneg (hx x hx')) (by simpa using hl)
  rw [← sumFloat_eq, List.length_map] at h1
  have h2 := sum_toFloat_error xs hx
  have h3 : (xs.map toFloat).sum ≤ xs.sum + xs.sum / 2 ^ 53 := by have := (abs_le.1 h2).2; linarith
  have hn : (0 : K) ≤ xs.length := Nat.cast_nonneg _
  have hn' : (xs.length : K) ≤ 2 ^ 52 := by exact_mod_cast hl
  have e : sumFloat (xs.map toFloat) - xs.sum =
      (sumFloat (xs.map toFloat) - (xs.map toFloat).sum) + ((xs.map toFloat).sum - xs.sum) := by ring
  rw [e]
  refine (abs_add_le _ _).trans ((add_le_add h1 h2).trans ?_)
  have h4 : (xs.length : K) * (xs.map toFloat).sum ≤ xs.length * (xs.sum + xs.sum / 2 ^ 53) :=
    mul_le_mul_of_nonneg_left h3 hn
  have h5 : (xs.length : K) * (xs.sum / 2 ^ 53) ≤ xs.sum / 2 := by
    rw [mul_div_assoc', div_le_div_iff₀ (by positivity) (by positivity)]
    nlinarith
  have h6 : (xs.length : K) * (xs.map toFloat).sum / 2 ^ 52 ≤ (xs.length * xs.sum + xs.sum / 2) / 2 ^ 52 := by
    refine div_le_div_of_nonneg_right ?_ (by positivity)
    linarith
  have h7 : xs.sum / 2 ^ 53 = (xs.sum / 2) / 2 ^ 52 := by rw [div_div]; norm_num
  rw [h7]
  refine (add_le_add_left h6 _).trans (le_of_eq ?_)
  ring

/-- Quotient of two numbers with small relative errors. -/
theorem quotient_error {s t s' t' : K} (hs : 0 ≤ s) (ht : 0 < t) {n : K} (hn : 0 ≤ n) (hn' : n ≤ 2 ^ 48)
    (h1 : |s' - s| ≤ (n + 1) * s / 2 ^ 52) (h2 : |t' - t| ≤ n * t / 2 ^ 52) :
    |toFloat (s' / t') - s / t| ≤ (n + 1) * (s / t) / 2 ^ 50 := by
  have hb : n * t / 2 ^ 52 ≤ t / 16 := by
    rw [div_le_div_iff₀ (by positivity) (by norm_num)]
    nlinarith
  have ht' : t * (15 / 16) ≤ t' := by have := (abs_le.1 (h2.trans hb)).1; linarith
  have htp : 0 < t' := by nlinarith
  have hq : 0 ≤ s / t := div_nonneg hs ht.le
  have e1 : s' / t' - s / t = ((s' - s) - (s / t) * (t' - t)) / t' := by
    field_simp
    ring
  have h3 : |s' / t' - s / t| ≤ (16 / 15) * (2 * n + 1) * (s / t) / 2 ^ 52 := by
    rw [e1, abs_div, abs_of_pos htp, div_le_iff₀ htp]
    have h4 : |(s' - s) - (s / t) * (t' - t)| ≤ (2 * n + 1) * s / 2 ^ 52 := by
      refine (abs_sub _ _).trans ?_
      rw [abs_mul, abs_of_nonneg hq]
      have h5 : s / t * |t' - t| ≤ s / t * (n * t / 2 ^ 52) := mul_le_mul_of_nonneg_left h2 hq
      have e2 : s / t * (n * t / 2 ^ 52) = n * s / 2 ^ 52 := by field_simp
      rw [e2] at h5
      refine (add_le_add h1 h5).trans (le_of_eq ?_)
      ring
    refine h4.trans ?_
    have e3 : (2 * n + 1) * s / 2 ^ 52 = (16 / 15) * (2 * n + 1) * (s / t) / 2 ^ 52 * (t * (15 / 16)) := by
      field_simp
    rw [e3]
    exact mul_le_mul_of_nonneg_left ht' (by positivity)
  have h5 : (16 / 15) * (2 * n + 1) * (s / t) / 2 ^ 52 ≤ s / t := by
    rw [div_le_iff₀ (by positivity)]
    nlinarith
  have h6 := toFloat_error (s' / t')
  have h7 : |s' / t'| ≤ 2 * (s / t) := by
    have := abs_le.1 (h3.trans h5)
    rw [abs_le]
    constructor <;> linarith
  have e4 : toFloat (s' / t') - s / t = (toFloat (s' / t') - s' / t') + (s' / t' - s / t) := by ring
  rw [e4]
  refine (abs_add_le _ _).trans ((add_le_add (h6.trans (div_le_div_of_nonneg_right h7 (by positivity))) h3).trans ?_)
  have e5 : 2 * (s / t) / 2 ^ 53 + (16 / 15) * (2 * n + 1) * (s / t) / 2 ^ 52 =
      (1 + (16 / 15) * (2 * n + 1)) * (s / t) / 2 ^ 52 := by ring
  have e6 : (n + 1) * (s / t) / 2 ^ 50 = (4 * (n + 1)) * (s / t) / 2 ^ 52 := by ring
  rw [e5, e6]
  refine div_le_div_of_nonneg_right (mul_le_mul_of_nonneg_right ?_ hq) (by positivity)
  linarith

end DRec
