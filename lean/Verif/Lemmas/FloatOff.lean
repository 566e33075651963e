import Verif.Lemmas.FloatSim
import Verif.Lemmas.DmfFloat
import Mathlib.Algebra.Order.Ring.Pow
import Mathlib.Tactic.Linarith
import Mathlib.Tactic.Positivity
import Mathlib.Tactic.FieldSimp
import Mathlib.Tactic.Ring

/-! # Relative errors of numbers that are not negative, counted in roundings -/

namespace DRec

open DRec.Spec

variable {K : Type} [Field K] [LinearOrder K] [IsStrictOrderedRing K] [FloorRing K]

/-- The factor by which a rounding can change a number. -/
def unitF (K : Type) [Field K] : K := 1 / (1 - 1 / 2 ^ 53)

theorem unitF_one : (1 : K) ≤ unitF K := by
  unfold unitF
  rw [le_div_iff₀ (by norm_num)]
  norm_num

theorem unitF_pos : (0 : K) < unitF K := lt_of_lt_of_le one_pos unitF_one

/-- `y` is `x`, which is not negative, up to `k` roundings. -/
def Off (k : Nat) (x y : K) : Prop := 0 ≤ x ∧ x ≤ unitF K ^ k * y ∧ y ≤ unitF K ^ k * x

theorem Off.nonneg {k : Nat} {x y : K} (h : Off k x y) : 0 ≤ y :=
  nonneg_of_mul_nonneg_right (h.1.trans h.2.1) (pow_pos unitF_pos k)

omit [IsStrictOrderedRing K] [FloorRing K] in
theorem Off.refl {x : K} (h : 0 ≤ x) : Off 0 x x := ⟨h, by simp, by simp⟩

theorem Off.symm {k : Nat} {x y : K} (h : Off k x y) : Off k y x := ⟨h.nonneg, h.2.2, h.2.1⟩

theorem Off.trans {j k : Nat} {x y z : K} (h : Off j x y) (h' : Off k y z) : Off (j + k) x z := by
  have pj : (0 : K) < unitF K ^ j := pow_pos unitF_pos j
  have pk : (0 : K) < unitF K ^ k := pow_pos unitF_pos k
  refine ⟨h.1, ?_, ?_⟩
  · rw [pow_add, mul_assoc]
    exact h.2.1.trans (mul_le_mul_of_nonneg_left h'.2.1 pj.le)
  · rw [pow_add, mul_comm (unitF K ^ j), mul_assoc]
    exact h'.2.2.trans (mul_le_mul_of_nonneg_left h.2.2 pk.le)

theorem Off.mono {j k : Nat} {x y : K} (h : Off j x y) (hjk : j ≤ k) : Off k x y := by
  have p : unitF K ^ j ≤ unitF K ^ k := pow_le_pow_right₀ unitF_one hjk
  exact ⟨h.1, h.2.1.trans (mul_le_mul_of_nonneg_right p h.nonneg), h.2.2.trans (mul_le_mul_of_nonneg_right p h.1)⟩

theorem off_round {x : K} (h : 0 ≤ x) : Off 1 x (toFloat x) := by
  have e := abs_le.1 (toFloat_error x)
  rw [abs_of_nonneg h] at e
  have p : (0 : K) < 1 - 1 / 2 ^ 53 := by norm_num
  refine ⟨h, ?_, ?_⟩
  · rw [pow_one, unitF, div_mul_eq_mul_div, one_mul, le_div_iff₀ p]
    linarith [e.1]
  · rw [pow_one, unitF, div_mul_eq_mul_div, one_mul, le_div_iff₀ p]
    have : toFloat x * (1 - 1 / 2 ^ 53) ≤ (x + x / 2 ^ 53) * (1 - 1 / 2 ^ 53) :=
      mul_le_mul_of_nonneg_right (by linarith [e.2]) p.le
    refine this.trans ?_
    have : (x + x / 2 ^ 53) * (1 - 1 / 2 ^ 53) = x - x / 2 ^ 106 := by ring
    rw [this]
    have : 0 ≤ x / 2 ^ 106 := by positivity
    linarith

theorem Off.round {k : Nat} {x y : K} (h : Off k x y) : Off (k + 1) x (toFloat y) := h.trans (off_round h.nonneg)

omit [FloorRing K] in
theorem Off.add {k : Nat} {x y x' y' : K} (h : Off k x y) (h' : Off k x' y') : Off k (x + x') (y + y') :=
  ⟨add_nonneg h.1 h'.1, by rw [mul_add]; exact add_le_add h.2.1 h'.2.1, by rw [mul_add]; exact add_le_add h.2.2 h'.2.2⟩

theorem Off.mul {j k : Nat} {x y x' y' : K} (h : Off j x y) (h' : Off k x' y') : Off (j + k) (x * x') (y * y') := by
  refine ⟨mul_nonneg h.1 h'.1, ?_, ?_⟩
  · refine (mul_le_mul h.2.1 h'.2.1 h'.1 (mul_nonneg (pow_pos unitF_pos j).le h.nonneg)).trans (le_of_eq ?_)
    rw [pow_add]; ring
  · refine (mul_le_mul h.2.2 h'.2.2 h'.nonneg (mul_nonneg (pow_pos unitF_pos j).le h.1)).trans (le_of_eq ?_)
    rw [pow_add]; ring

theorem Off.inv {k : Nat} {x y : K} (h : Off k x y) (hx : 0 < x) : Off k x⁻¹ y⁻¹ := by
  have p : (0 : K) < unitF K ^ k := pow_pos unitF_pos k
  have hy : 0 < y := pos_of_mul_pos_right (lt_of_lt_of_le hx h.2.1) p.le
  refine ⟨inv_nonneg.2 h.1, ?_, ?_⟩
  · rw [← div_eq_mul_inv, le_div_iff₀ hy, inv_mul_le_iff₀ hx, mul_comm]
    exact h.2.2
  · rw [← div_eq_mul_inv, le_div_iff₀ hx, inv_mul_le_iff₀ hy, mul_comm]
    exact h.2.1

theorem Off.div {j k : Nat} {x y x' y' : K} (h : Off j x y) (h' : Off k x' y') (hx : 0 < x') : Off (j + k) (x / x') (y / y') := by
  rw [div_eq_mul_inv, div_eq_mul_inv]
  exact h.mul (h'.inv hx)

theorem Off.pos {k : Nat} {x y : K} (h : Off k x y) : 0 < x ↔ 0 < y :=
  ⟨fun hx => pos_of_mul_pos_right (lt_of_lt_of_le hx h.2.1) (pow_pos unitF_pos k).le,
    fun hy => pos_of_mul_pos_right (lt_of_lt_of_le hy h.2.2) (pow_pos unitF_pos k).le⟩

theorem Off.eq_zero {k : Nat} {x y : K} (h : Off k x y) : x = 0 ↔ y = 0 := by
  have := h.pos
  have hx := h.1
  have hy := h.nonneg
  constructor
  · intro e
    by_contra hc
    exact absurd (this.2 (lt_of_le_of_ne hy (Ne.symm hc))) (by rw [e]; exact lt_irrefl 0)
  · intro e
    by_contra hc
    exact absurd (this.1 (lt_of_le_of_ne hx (Ne.symm hc))) (by rw [e]; exact lt_irrefl 0)

theorem unitF_pow (k : Nat) (hk : k ≤ 2 ^ 51) : unitF K ^ k ≤ 1 + k / 2 ^ 52 := by
  have hk' : (k : K) ≤ 2 ^ 51 := by exact_mod_cast hk
  have hk0 : (0 : K) ≤ k := Nat.cast_nonneg k
  have b : 1 + (k : K) * (-(1 / 2 ^ 53)) ≤ (1 + -(1 / 2 ^ 53)) ^ k := one_add_mul_le_pow (by norm_num) k
  have q : (0 : K) < 1 + (k : K) * (-(1 / 2 ^ 53)) := by
    have : (k : K) * (1 / 2 ^ 53) ≤ 2 ^ 51 * (1 / 2 ^ 53) := mul_le_mul_of_nonneg_right hk' (by norm_num)
    norm_num at this ⊢
    linarith
  unfold unitF
  rw [div_pow, one_pow, div_le_iff₀ (by positivity), sub_eq_add_neg]
  refine le_trans ?_ (mul_le_mul_of_nonneg_left b (by positivity))
  have : (1 + (k : K) / 2 ^ 52) * (1 + (k : K) * (-(1 / 2 ^ 53))) = 1 + (k : K) / 2 ^ 53 * (1 - k / 2 ^ 52) := by ring
  rw [this]
  have : (0 : K) ≤ 1 - k / 2 ^ 52 := by
    rw [sub_nonneg, div_le_one (by positivity)]
    exact hk'.trans (by norm_num)
  have := mul_nonneg (div_nonneg hk0 (by positivity : (0 : K) ≤ 2 ^ 53)) this
  linarith

/-- The relative error of `k` roundings is at most `k` units of 2^-52. -/
theorem Off.error {k : Nat} {x y : K} (h : Off k x y) (hk : k ≤ 2 ^ 51) : |y - x| ≤ k * x / 2 ^ 52 := by
  have u := unitF_pow (K := K) k hk
  have p : (1 : K) ≤ unitF K ^ k := one_le_pow₀ unitF_one
  have h1 : y ≤ (1 + k / 2 ^ 52) * x := h.2.2.trans (mul_le_mul_of_nonneg_right u h.1)
  rw [abs_le]
  have e : (1 + (k : K) / 2 ^ 52) * x = x + k * x / 2 ^ 52 := by ring
  refine ⟨?_, by linarith⟩
  rcases le_total x y with hxy | hxy
  · have : 0 ≤ (k : K) * x / 2 ^ 52 := by have := h.1; positivity
    linarith
  · have h2 : x ≤ (1 + k / 2 ^ 52) * y := h.2.1.trans (mul_le_mul_of_nonneg_right u h.nonneg)
    have e : (1 + (k : K) / 2 ^ 52) * y = y + k * y / 2 ^ 52 := by ring
    have : (k : K) * y / 2 ^ 52 ≤ k * x / 2 ^ 52 :=
      div_le_div_of_nonneg_right (mul_le_mul_of_nonneg_left hxy (Nat.cast_nonneg k)) (by positivity)
    linarith

theorem Off.cast {k : Nat} {x y : ℚ} (h : Off k x y) : Off k (x : ℝ) (y : ℝ) := by
  have u : ((unitF ℚ : ℚ) : ℝ) = unitF ℝ := by simp [unitF]
  refine ⟨by exact_mod_cast h.1, ?_, ?_⟩
  · rw [← u]; exact_mod_cast h.2.1
  · rw [← u]; exact_mod_cast h.2.2

/-- Roots halve the number of roundings. -/
theorem Off.sqrt {k : Nat} {x y : ℝ} (h : Off (2 * k) x y) : Off k (√x) (√y) := by
  have e : ∀ z : ℝ, √(unitF ℝ ^ (2 * k) * z) = unitF ℝ ^ k * √z := by
    intro z
    rw [Real.sqrt_mul (pow_pos unitF_pos _).le, mul_comm 2 k, pow_mul, Real.sqrt_sq (pow_pos unitF_pos k).le]
  refine ⟨Real.sqrt_nonneg _, ?_, ?_⟩
  · rw [← e]; exact Real.sqrt_le_sqrt h.2.1
  · rw [← e]; exact Real.sqrt_le_sqrt h.2.2

/-- Sums of rounded terms, added up one after the other. -/
theorem off_fold (k : Nat) (l : List (K × K)) (h : ∀ p ∈ l, Off k p.1 p.2) : ∀ (n : Nat) (s t : K), k ≤ n → Off n s t →
    Off (n + l.length) (s + (l.map (·.1)).sum) ((l.map (·.2)).foldl (fun s x => toFloat (s + x)) t) := by
  induction l with
  | nil => intro n s t _ hs; simpa using hs
  | cons p l ih =>
    intro n s t hn hs
    have h1 := (hs.add ((h p List.mem_cons_self).mono hn)).round
    have h2 := ih (fun q hq => h q (List.mem_cons_of_mem _ hq)) (n + 1) _ _ (by omega) h1
    simp only [List.map_cons, List.sum_cons, List.foldl_cons, List.length_cons]
    rw [← add_assoc, show n + l.length + 1 = n + 1 + l.length by omega, ← add_assoc s]
    exact h2

end DRec
