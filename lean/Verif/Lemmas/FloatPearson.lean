import Verif.Lemmas.FloatCos
import Mathlib.Tactic.Positivity

/-! # How far a correlation computed in doubles is from the exact one -/

namespace DRec

open DRec.Spec

variable {α : Type}

theorem sqs_nonneg (l : List α) (f : α → ℝ) : 0 ≤ (l.map fun p => f p ^ 2).sum :=
  List.sum_nonneg (by intro x hx; obtain ⟨p, _, rfl⟩ := List.mem_map.1 hx; positivity)

theorem sqs_zero (l : List α) (f : α → ℝ) : (l.map fun p => f p ^ 2).sum = 0 ↔ ∀ p ∈ l, f p = 0 := by
  induction l with
  | nil => simp
  | cons q l ih =>
    simp only [List.map_cons, List.sum_cons, List.mem_cons, forall_eq_or_imp]
    rw [← ih]
    have h1 := sq_nonneg (f q)
    have h2 := sqs_nonneg l f
    constructor
    · intro h
      have : f q ^ 2 = 0 := by linarith
      exact ⟨pow_eq_zero_iff (by norm_num) |>.1 this, by linarith⟩
    · rintro ⟨h, g⟩
      rw [h, g]; norm_num

theorem prods_le (l : List α) (f g : α → ℝ) : |(l.map fun p => f p * g p).sum| ≤
    √(l.map fun p => f p ^ 2).sum * √(l.map fun p => g p ^ 2).sum := by
  have := numerator_le (l.map fun p => (f p, g p))
  simpa only [List.map_map, Function.comp_def] using this

/-- The products of two lists of numbers, when the numbers change a little. -/
theorem prods_change (l : List α) (d d' e e' : α → ℝ) {ρ : ℝ} (hρ : 0 ≤ ρ)
    (h1 : √(l.map fun p => (d' p - d p) ^ 2).sum ≤ ρ * √(l.map fun p => d p ^ 2).sum)
    (h2 : √(l.map fun p => (e' p - e p) ^ 2).sum ≤ ρ * √(l.map fun p => e p ^ 2).sum) :
    |(l.map fun p => d' p * e' p).sum - (l.map fun p => d p * e p).sum| ≤
      (2 * ρ + ρ ^ 2) * (√(l.map fun p => d p ^ 2).sum * √(l.map fun p => e p ^ 2).sum) := by
  have split : (l.map fun p => d' p * e' p).sum - (l.map fun p => d p * e p).sum =
      (l.map fun p => (d' p - d p) * e p).sum + (l.map fun p => d p * (e' p - e p)).sum +
        (l.map fun p => (d' p - d p) * (e' p - e p)).sum := by
    clear h1 h2
    induction l with
    | nil => simp
    | cons q l ih => simp only [List.map_cons, List.sum_cons]; linarith
  rw [split]
  have a1 := prods_le l (fun p => d' p - d p) e
  have a2 := prods_le l d (fun p => e' p - e p)
  have a3 := prods_le l (fun p => d' p - d p) (fun p => e' p - e p)
  have b1 := abs_add_le ((l.map fun p => (d' p - d p) * e p).sum + (l.map fun p => d p * (e' p - e p)).sum)
    (l.map fun p => (d' p - d p) * (e' p - e p)).sum
  have b2 := abs_add_le (l.map fun p => (d' p - d p) * e p).sum (l.map fun p => d p * (e' p - e p)).sum
  have hD := Real.sqrt_nonneg (l.map fun p => d p ^ 2).sum
  have hE := Real.sqrt_nonneg (l.map fun p => e p ^ 2).sum
  have hF := Real.sqrt_nonneg (l.map fun p => (e' p - e p) ^ 2).sum
  have c1 := mul_le_mul_of_nonneg_right h1 hE
  have c2 := mul_le_mul_of_nonneg_left h2 hD
  have c3 := mul_le_mul h1 h2 hF (mul_nonneg hρ hD)
  nlinarith

/-- The root of a sum of squares, when the numbers change a little. -/
theorem norm_change (l : List α) (d d' : α → ℝ) {ρ : ℝ}
    (h1 : √(l.map fun p => (d' p - d p) ^ 2).sum ≤ ρ * √(l.map fun p => d p ^ 2).sum) :
    |√(l.map fun p => d' p ^ 2).sum - √(l.map fun p => d p ^ 2).sum| ≤ ρ * √(l.map fun p => d p ^ 2).sum := by
  have split : (l.map fun p => d' p ^ 2).sum = (l.map fun p => d p ^ 2).sum +
      2 * (l.map fun p => d p * (d' p - d p)).sum + (l.map fun p => (d' p - d p) ^ 2).sum := by
    clear h1
    induction l with
    | nil => simp
    | cons q l ih => simp only [List.map_cons, List.sum_cons]; rw [ih]; ring
  have a := abs_le.1 (prods_le l d (fun p => d' p - d p))
  have hD := Real.sqrt_nonneg (l.map fun p => d p ^ 2).sum
  have hF := Real.sqrt_nonneg (l.map fun p => (d' p - d p) ^ 2).sum
  have e1 := Real.sq_sqrt (sqs_nonneg l d)
  have e2 := Real.sq_sqrt (sqs_nonneg l fun p => d' p - d p)
  generalize √(l.map fun p => d p ^ 2).sum = D at *
  generalize √(l.map fun p => (d' p - d p) ^ 2).sum = F at *
  rw [split, ← e1, ← e2]
  generalize (l.map fun p => d p * (d' p - d p)).sum = X at *
  have k1 : √(D ^ 2 + 2 * X + F ^ 2) ≤ D + F := by
    rw [Real.sqrt_le_left (by positivity)]
    nlinarith [a.2]
  have k2 : D - F ≤ √(D ^ 2 + 2 * X + F ^ 2) := by
    apply Real.le_sqrt_of_sq_le
    nlinarith [a.1]
  rw [abs_le]
  constructor <;> linarith

/-! ## Deviations from the mean -/

theorem abs_sum_bound (l : List α) (f : α → ℝ) {B : ℝ} (h : ∀ p ∈ l, |f p| ≤ B) : |(l.map f).sum| ≤ l.length * B := by
  induction l with
  | nil => simp
  | cons q l ih =>
    rw [List.map_cons, List.sum_cons, List.length_cons]
    have h1 := ih fun p hp => h p (List.mem_cons_of_mem _ hp)
    have h2 := h q List.mem_cons_self
    have h3 := abs_add_le (f q) (l.map f).sum
    push_cast
    linarith

theorem sqs_bound (l : List α) (f : α → ℝ) {B : ℝ} (h : ∀ p ∈ l, |f p| ≤ B) : (l.map fun p => f p ^ 2).sum ≤ l.length * B ^ 2 := by
  induction l with
  | nil => simp
  | cons q l ih =>
    rw [List.map_cons, List.sum_cons, List.length_cons]
    have h1 := ih fun p hp => h p (List.mem_cons_of_mem _ hp)
    have h2 := h q List.mem_cons_self
    have h3 : f q ^ 2 ≤ B ^ 2 := sq_le_sq' (by linarith [(abs_le.1 h2).1]) (abs_le.1 h2).2
    push_cast
    linarith

/-- The squares of the deviations from the mean, in units of the grid. -/
theorem deviations (l : List α) (hne : l ≠ []) (z : α → ℤ) (c : ℝ) :
    l.length * (l.map fun p => ((z p : ℝ) * c - (l.map fun p => (z p : ℝ) * c).sum / l.length) ^ 2).sum =
      (((l.length : ℤ) * (l.map fun p => z p ^ 2).sum - (l.map z).sum ^ 2 : ℤ) : ℝ) * c ^ 2 := by
  have hn : (l.length : ℝ) ≠ 0 := by exact_mod_cast (List.length_pos_of_ne_nil hne).ne'
  have h1 : ∀ (l : List α) (m : ℝ), (l.map fun p => ((z p : ℝ) * c - m) ^ 2).sum =
      ((l.map fun p => z p ^ 2).sum : ℤ) * c ^ 2 - 2 * m * ((l.map z).sum : ℤ) * c + l.length * m ^ 2 := by
    intro l m
    induction l with
    | nil => simp
    | cons q l ih =>
      simp only [List.map_cons, List.sum_cons, List.length_cons]
      rw [ih]
      push_cast
      ring
  have h2 : (l.map fun p => (z p : ℝ) * c).sum = ((l.map z).sum : ℤ) * c := by
    clear hne hn
    induction l with
    | nil => simp
    | cons q l ih => simp only [List.map_cons, List.sum_cons]; rw [ih]; push_cast; ring
  rw [h1, h2]
  push_cast
  field_simp
  ring

theorem spread (l : List α) (hne : l ≠ []) (z : α → ℤ) {c : ℝ}
    (h : (l.map fun p => ((z p : ℝ) * c - (l.map fun p => (z p : ℝ) * c).sum / l.length) ^ 2).sum ≠ 0) :
    c ^ 2 ≤ l.length * (l.map fun p => ((z p : ℝ) * c - (l.map fun p => (z p : ℝ) * c).sum / l.length) ^ 2).sum := by
  have hn : (0 : ℝ) < l.length := by exact_mod_cast List.length_pos_of_ne_nil hne
  have h0 := sqs_nonneg l fun p => (z p : ℝ) * c - (l.map fun p => (z p : ℝ) * c).sum / l.length
  have hp : 0 < l.length * (l.map fun p => ((z p : ℝ) * c - (l.map fun p => (z p : ℝ) * c).sum / l.length) ^ 2).sum :=
    mul_pos hn (lt_of_le_of_ne h0 (Ne.symm h))
  have e := deviations l hne z c
  rw [e] at hp ⊢
  set N : ℤ := (l.length : ℤ) * (l.map fun p => z p ^ 2).sum - (l.map z).sum ^ 2 with hN
  have hc : 0 ≤ c ^ 2 := sq_nonneg c
  have hN1 : 0 < N := by
    by_contra hle
    have : (N : ℝ) ≤ 0 := by exact_mod_cast not_lt.1 hle
    nlinarith
  have : (1 : ℝ) ≤ N := by exact_mod_cast hN1
  nlinarith

/-- The mean in doubles of whole numbers in units of `2 ^ e`. -/
theorem total_grid (l : List α) (z : α → ℤ) (e : ℤ) {B : ℕ} (hB : ∀ p ∈ l, |z p| ≤ B) (hl : l.length * B ≤ 2 ^ 53) :
    sumFloat (l.map fun p => (z p : ℝ) * 2 ^ e) = (l.map fun p => (z p : ℝ) * 2 ^ e).sum := by
  have := sumFloat_grid (K := ℝ) e (l.map z) (by
    have h1 : ((l.map z).map abs).sum ≤ l.length * B := by
      clear hl
      induction l with
      | nil => simp
      | cons q l ih =>
        have h1 := ih fun p hp => hB p (List.mem_cons_of_mem _ hp)
        have h2 := hB q List.mem_cons_self
        rw [List.map_cons, List.map_cons, List.sum_cons, List.length_cons]
        push_cast
        linarith
    exact h1.trans (by exact_mod_cast hl))
  simpa only [List.map_map, Function.comp_def] using this

theorem centre_error (l : List α) (hne : l ≠ []) (z : α → ℤ) (e : ℤ) {B : ℕ} (hB : ∀ p ∈ l, |z p| ≤ B)
    (hl : l.length * B ≤ 2 ^ 53) {p : α} (hp : p ∈ l) :
    |toFloat ((z p : ℝ) * 2 ^ e - toFloat (sumFloat (l.map fun p => (z p : ℝ) * 2 ^ e) / l.length)) -
      ((z p : ℝ) * 2 ^ e - (l.map fun p => (z p : ℝ) * 2 ^ e).sum / l.length)| ≤ 4 * (B * 2 ^ e) / 2 ^ 53 := by
  rw [total_grid l z e hB hl]
  have hn : (0 : ℝ) < l.length := by exact_mod_cast List.length_pos_of_ne_nil hne
  have hc : (0 : ℝ) < 2 ^ e := by positivity
  have hx : ∀ q ∈ l, |(z q : ℝ) * 2 ^ e| ≤ B * 2 ^ e := by
    intro q hq
    rw [abs_mul, abs_of_pos hc]
    refine mul_le_mul_of_nonneg_right ?_ hc.le
    have := hB q hq
    rw [← Int.cast_abs]
    exact_mod_cast this
  have hm : |(l.map fun p => (z p : ℝ) * 2 ^ e).sum / l.length| ≤ B * 2 ^ e := by
    rw [abs_div, abs_of_pos hn, div_le_iff₀ hn, mul_comm]
    exact abs_sum_bound l _ hx
  have hxp := hx p hp
  generalize (z p : ℝ) * 2 ^ e = x at *
  generalize (l.map fun p => (z p : ℝ) * 2 ^ e).sum / l.length = m at *
  generalize (B : ℝ) * 2 ^ e = b at *
  have e1 := toFloat_error m
  have e2 := toFloat_error (x - toFloat m)
  have hb : 0 ≤ b := le_trans (abs_nonneg _) hm
  have e1' : |toFloat m - m| ≤ b / 2 ^ 53 := e1.trans (div_le_div_of_nonneg_right hm (by positivity))
  have hb' : b / 2 ^ 53 ≤ b := div_le_self hb (by norm_num)
  have e3 : |x - toFloat m| ≤ 3 * b := by
    have e : x - toFloat m = x - m - (toFloat m - m) := by ring
    rw [e]
    have := abs_sub (x - m) (toFloat m - m)
    have := abs_sub x m
    linarith
  have e2' : |toFloat (x - toFloat m) - (x - toFloat m)| ≤ 3 * b / 2 ^ 53 :=
    e2.trans (div_le_div_of_nonneg_right e3 (by positivity))
  have e : toFloat (x - toFloat m) - (x - m) = (toFloat (x - toFloat m) - (x - toFloat m)) - (toFloat m - m) := by ring
  rw [e]
  have := abs_sub (toFloat (x - toFloat m) - (x - toFloat m)) (toFloat m - m)
  have e4 : 4 * b / 2 ^ 53 = 3 * b / 2 ^ 53 + b / 2 ^ 53 := by ring
  rw [e4]
  linarith

/-- Rows without variation have deviations of exactly zero. -/
theorem centre_const (l : List α) (z : α → ℤ) (e : ℤ) {B : ℕ} (hB : ∀ p ∈ l, |z p| ≤ B)
    (hl : l.length * B ≤ 2 ^ 53) {p : α} (hp : p ∈ l)
    (h : (z p : ℝ) * 2 ^ e - (l.map fun p => (z p : ℝ) * 2 ^ e).sum / l.length = 0) :
    toFloat ((z p : ℝ) * 2 ^ e - toFloat (sumFloat (l.map fun p => (z p : ℝ) * 2 ^ e) / l.length)) = 0 := by
  rw [total_grid l z e hB hl, ← sub_eq_zero.1 h]
  have hB1 : |z p| ≤ 2 ^ 53 := by
    have h1 : 1 ≤ l.length := List.length_pos_of_mem hp
    have h2 : B ≤ 2 ^ 53 := le_trans (by nlinarith) hl
    exact (hB p hp).trans (by exact_mod_cast h2)
  have hd : IsDouble ((z p : ℝ) * 2 ^ e) := by
    obtain ⟨m, k, hm, hk⟩ := isDouble_int (K := ℝ) hB1
    refine ⟨m, k + e, hm, ?_⟩
    rw [hk, zpow_add₀ (by norm_num), mul_assoc]
  rw [toFloat_of_isDouble hd, sub_self, toFloat_zero]

/-- The deviations in doubles, as a vector. -/
theorem centre_norm (l : List α) (hne : l ≠ []) (z : α → ℤ) (e : ℤ) {B : ℕ} (hB : ∀ p ∈ l, |z p| ≤ B)
    (hl : l.length * B ≤ 2 ^ 53) :
    √(l.map fun p => (toFloat ((z p : ℝ) * 2 ^ e - toFloat (sumFloat (l.map fun p => (z p : ℝ) * 2 ^ e) / l.length)) -
      ((z p : ℝ) * 2 ^ e - (l.map fun p => (z p : ℝ) * 2 ^ e).sum / l.length)) ^ 2).sum ≤
    4 * (l.length * B) / 2 ^ 53 *
      √(l.map fun p => ((z p : ℝ) * 2 ^ e - (l.map fun p => (z p : ℝ) * 2 ^ e).sum / l.length) ^ 2).sum := by
  set d : α → ℝ := fun p => (z p : ℝ) * 2 ^ e - (l.map fun p => (z p : ℝ) * 2 ^ e).sum / l.length with hd
  set d' : α → ℝ := fun p => toFloat ((z p : ℝ) * 2 ^ e - toFloat (sumFloat (l.map fun p => (z p : ℝ) * 2 ^ e) / l.length)) with hd'
  change √(l.map fun p => (d' p - d p) ^ 2).sum ≤ _ * √(l.map fun p => d p ^ 2).sum
  by_cases h0 : (l.map fun p => d p ^ 2).sum = 0
  · have h1 := (sqs_zero l d).1 h0
    have h2 : (l.map fun p => (d' p - d p) ^ 2).sum = 0 := by
      apply (sqs_zero l fun p => d' p - d p).2
      intro p hp
      rw [h1 p hp, sub_zero]
      exact centre_const l z e hB hl hp (h1 p hp)
    rw [h2, h0, Real.sqrt_zero, mul_zero]
  · have hs := spread l hne z (c := 2 ^ e) h0
    change (2 ^ e) ^ 2 ≤ l.length * (l.map fun p => d p ^ 2).sum at hs
    have hb := sqs_bound l (fun p => d' p - d p) fun p hp => centre_error l hne z e hB hl hp
    have hS := sqs_nonneg l d
    rw [Real.sqrt_le_left (by positivity), mul_pow, Real.sq_sqrt hS]
    refine hb.trans ?_
    have hn : (0 : ℝ) ≤ l.length := Nat.cast_nonneg _
    have hBn : (0 : ℝ) ≤ B := Nat.cast_nonneg _
    have e1 : (l.length : ℝ) * (4 * (B * 2 ^ e) / 2 ^ 53) ^ 2 = (4 * B / 2 ^ 53) ^ 2 * l.length * (2 ^ e) ^ 2 := by ring
    have e2 : (4 * (l.length * B : ℝ) / 2 ^ 53) ^ 2 * (l.map fun p => d p ^ 2).sum =
        (4 * B / 2 ^ 53) ^ 2 * l.length * (l.length * (l.map fun p => d p ^ 2).sum) := by ring
    rw [e1, e2]
    exact mul_le_mul_of_nonneg_left hs (by positivity)

/-! ## The correlation -/

theorem sqs_float_ne (l : List α) (f : α → ℝ) (hl : l.length ≤ 2 ^ 45) :
    sumFloat (l.map fun p => toFloat (f p ^ 2)) ≠ 0 ↔ (l.map fun p => f p ^ 2).sum ≠ 0 := by
  have e := sumFloat_rounded_error (l.map fun p => f p ^ 2)
    (by intro x hx; obtain ⟨p, _, rfl⟩ := List.mem_map.1 hx; positivity) (by rw [List.length_map]; omega)
  rw [List.length_map, List.map_map] at e
  change |sumFloat (l.map fun p => toFloat (f p ^ 2)) - _| ≤ _ at e
  have hS := sqs_nonneg l f
  have hl' : (l.length : ℝ) ≤ 2 ^ 45 := by exact_mod_cast hl
  generalize (l.map fun p => f p ^ 2).sum = S at *
  generalize sumFloat (l.map fun p => toFloat (f p ^ 2)) = S' at *
  rw [not_iff_not]
  constructor
  · rintro rfl
    rw [zero_sub, abs_neg, abs_of_nonneg hS, le_div_iff₀ (by positivity)] at e
    by_contra hne
    have : 0 < S := lt_of_le_of_ne hS (Ne.symm hne)
    nlinarith
  · rintro rfl
    rw [sub_zero, mul_zero, zero_div] at e
    exact abs_nonpos_iff.1 e

/-- The last step: all relative errors are small. -/
theorem pearson_algebra {n b d ρ : ℝ} (hn : 1 ≤ n) (hb : 1 ≤ b) (hnb : n * b ≤ 2 ^ 40) (hd : d = (n + 1) / 2 ^ 52)
    (hρ : ρ = 4 * (n * b) / 2 ^ 53) : 1 / 2 ^ 52 ≤ d ∧ 0 ≤ ρ ∧ ρ ≤ 1 / 1000 ∧ 2 * d + 3 * ρ ≤ 1 / 100 ∧
      6 * (2 * d + 3 * ρ) ≤ n * b / 2 ^ 46 ∧ d ≤ 1 / 1000 := by
  have h1 : n ≤ n * b := by nlinarith
  have h2 : d ≤ 2 * (n * b) / 2 ^ 52 := by
    rw [hd]
    exact div_le_div_of_nonneg_right (by linarith) (by positivity)
  have h3 : 1 / 2 ^ 52 ≤ d := by
    rw [hd]
    exact div_le_div_of_nonneg_right (by linarith) (by positivity)
  generalize n * b = t at *
  subst hρ
  norm_num at *
  refine ⟨h3, by linarith, by linarith, by linarith, by linarith, by linarith⟩

theorem pearson_close (l : List α) (hne : l ≠ []) (z w : α → ℤ) (e : ℤ) {B : ℕ} (hz : ∀ p ∈ l, |z p| ≤ B)
    (hw : ∀ p ∈ l, |w p| ≤ B) (hl : l.length * B ≤ 2 ^ 40) (hl' : l.length ≤ 2 ^ 45) (d d' f f' : α → ℝ)
    (hd : d = fun p => (z p : ℝ) * 2 ^ e - (l.map fun p => (z p : ℝ) * 2 ^ e).sum / l.length)
    (hd' : d' = fun p => toFloat ((z p : ℝ) * 2 ^ e - toFloat (sumFloat (l.map fun p => (z p : ℝ) * 2 ^ e) / l.length)))
    (hf : f = fun p => (w p : ℝ) * 2 ^ e - (l.map fun p => (w p : ℝ) * 2 ^ e).sum / l.length)
    (hf' : f' = fun p => toFloat ((w p : ℝ) * 2 ^ e - toFloat (sumFloat (l.map fun p => (w p : ℝ) * 2 ^ e) / l.length))) :
    (sumFloat (l.map fun p => toFloat (d' p ^ 2)) ≠ 0 ↔ (l.map fun p => d p ^ 2).sum ≠ 0) ∧
    (sumFloat (l.map fun p => toFloat (f' p ^ 2)) ≠ 0 ↔ (l.map fun p => f p ^ 2).sum ≠ 0) ∧
    ((l.map fun p => d p ^ 2).sum ≠ 0 → (l.map fun p => f p ^ 2).sum ≠ 0 →
      |cosFloat (l.map fun p => (d' p, f' p)) - cosOf (l.map fun p => (d p, f p))| ≤ l.length * B / 2 ^ 46) := by
  have h1 := centre_norm l hne z e hz (hl.trans (by norm_num))
  have h2 := centre_norm l hne w e hw (hl.trans (by norm_num))
  have hn1 : (1 : ℝ) ≤ l.length := by exact_mod_cast List.length_pos_of_ne_nil hne
  have hlr : (l.length : ℝ) * B ≤ 2 ^ 40 := by exact_mod_cast hl
  have hρ : (0 : ℝ) ≤ 4 * (l.length * B) / 2 ^ 53 := by positivity
  have hρ1 : (4 : ℝ) * (l.length * B) / 2 ^ 53 ≤ 1 / 2 := by
    rw [div_le_div_iff₀ (by positivity) (by positivity)]
    linarith
  change √(l.map fun p => ((fun p => toFloat ((z p : ℝ) * 2 ^ e - toFloat (sumFloat (l.map fun p => (z p : ℝ) * 2 ^ e) / l.length))) p -
    (fun p => (z p : ℝ) * 2 ^ e - (l.map fun p => (z p : ℝ) * 2 ^ e).sum / l.length) p) ^ 2).sum ≤ _ *
    √(l.map fun p => (fun p => (z p : ℝ) * 2 ^ e - (l.map fun p => (z p : ℝ) * 2 ^ e).sum / l.length) p ^ 2).sum at h1
  change √(l.map fun p => ((fun p => toFloat ((w p : ℝ) * 2 ^ e - toFloat (sumFloat (l.map fun p => (w p : ℝ) * 2 ^ e) / l.length))) p -
    (fun p => (w p : ℝ) * 2 ^ e - (l.map fun p => (w p : ℝ) * 2 ^ e).sum / l.length) p) ^ 2).sum ≤ _ *
    √(l.map fun p => (fun p => (w p : ℝ) * 2 ^ e - (l.map fun p => (w p : ℝ) * 2 ^ e).sum / l.length) p ^ 2).sum at h2
  rw [← hd, ← hd'] at h1
  rw [← hf, ← hf'] at h2
  have hB1 : (l.map fun p => d p ^ 2).sum ≠ 0 → (1 : ℝ) ≤ B := by
    intro h
    rcases Nat.eq_zero_or_pos B with h0 | h0
    · exfalso
      apply h
      rw [sqs_zero]
      have hz0 : ∀ p ∈ l, z p = 0 := by
        intro p hp
        have := hz p hp
        rw [h0] at this
        exact abs_nonpos_iff.1 (by exact_mod_cast this)
      have hs : (l.map fun p => (z p : ℝ) * 2 ^ e).sum = 0 := by
        apply List.sum_eq_zero
        intro x hx
        obtain ⟨p, hp, rfl⟩ := List.mem_map.1 hx
        rw [hz0 p hp]; simp
      intro p hp
      rw [hd]
      beta_reduce
      rw [hs, hz0 p hp]; simp
    · exact_mod_cast h0
  clear hd hd' hf hf' hz hw
  have n1 := norm_change l d d' h1
  have n2 := norm_change l f f' h2
  have zero : ∀ g g' : α → ℝ, |√(l.map fun p => g' p ^ 2).sum - √(l.map fun p => g p ^ 2).sum| ≤
      4 * (l.length * B) / 2 ^ 53 * √(l.map fun p => g p ^ 2).sum →
      (sumFloat (l.map fun p => toFloat (g' p ^ 2)) ≠ 0 ↔ (l.map fun p => g p ^ 2).sum ≠ 0) := by
    intro g g' h
    rw [sqs_float_ne l g' hl', not_iff_not, ← Real.sqrt_eq_zero (sqs_nonneg l g'), ← Real.sqrt_eq_zero (sqs_nonneg l g)]
    have p1 := Real.sqrt_nonneg (l.map fun p => g p ^ 2).sum
    generalize √(l.map fun p => g p ^ 2).sum = G at *
    generalize √(l.map fun p => g' p ^ 2).sum = G' at *
    constructor
    · rintro rfl
      rw [zero_sub, abs_neg, abs_of_nonneg p1] at h
      nlinarith
    · rintro rfl
      rw [sub_zero, mul_zero] at h
      exact abs_nonpos_iff.1 h
  refine ⟨zero d d' n1, zero f f' n2, fun hD hF => ?_⟩
  have a : 0 < √(l.map fun p => d p ^ 2).sum := Real.sqrt_pos.2 (lt_of_le_of_ne (sqs_nonneg l d) (Ne.symm hD))
  have b : 0 < √(l.map fun p => f p ^ 2).sum := Real.sqrt_pos.2 (lt_of_le_of_ne (sqs_nonneg l f) (Ne.symm hF))
  have hpr := prods_change l d d' f f' hρ h1 h2
  have r1 := root_error (l.map fun p => (d' p, f' p)) (fun p => p.1) (by rwa [List.length_map])
  have r2 := root_error (l.map fun p => (d' p, f' p)) (fun p => p.2) (by rwa [List.length_map])
  have nu := numerator_error (l.map fun p => (d' p, f' p)) (by rwa [List.length_map])
  have le := prods_le l d f
  unfold cosFloat cosOf
  simp only [List.map_map, Function.comp_def, List.length_map] at *
  obtain ⟨k1, k2, k3, k4, k5, k6⟩ := pearson_algebra hn1 (hB1 hD) hlr rfl rfl
  generalize ((l.length : ℝ) + 1) / 2 ^ 52 = δ at *
  generalize 4 * ((l.length : ℝ) * B) / 2 ^ 53 = ρ at *
  refine (cosQuotient (k := 2 * δ + 3 * ρ) a b le ?_ ?_ ?_ ?_ k4).trans k5
  · have n1' := (abs_le.1 n1).2
    have n2' := (abs_le.1 n2).2
    have g1 := Real.sqrt_nonneg (l.map fun p => f' p ^ 2).sum
    have e : ∀ x y w : ℝ, x - y = (x - w) + (w - y) := fun x y w => by ring
    rw [e _ _ (l.map fun p => d' p * f' p).sum]
    refine (abs_add_le _ _).trans ((add_le_add nu hpr).trans ?_)
    generalize √(l.map fun p => d p ^ 2).sum = D at *
    generalize √(l.map fun p => f p ^ 2).sum = F at *
    generalize √(l.map fun p => d' p ^ 2).sum = D' at *
    generalize √(l.map fun p => f' p ^ 2).sum = F' at *
    have q1 : D' * F' ≤ ((1 + ρ) * D) * ((1 + ρ) * F) := mul_le_mul (by linarith) (by linarith) g1 (by positivity)
    have q2 : δ * (D' * F') ≤ δ * (((1 + ρ) * D) * ((1 + ρ) * F)) := mul_le_mul_of_nonneg_left q1 (by linarith)
    have q3 : δ * (((1 + ρ) * D) * ((1 + ρ) * F)) = (δ * (1 + ρ) ^ 2) * (D * F) := by ring
    have q4 : δ * (1 + ρ) ^ 2 + (2 * ρ + ρ ^ 2) ≤ 2 * δ + 3 * ρ := by nlinarith
    have := mul_le_mul_of_nonneg_right q4 (mul_pos a b).le
    linarith
  · have n1' := (abs_le.1 n1).2
    have e : ∀ x y w : ℝ, x - y = (x - w) + (w - y) := fun x y w => by ring
    rw [e _ _ √(l.map fun p => d' p ^ 2).sum]
    refine (abs_add_le _ _).trans ((add_le_add r1 n1).trans ?_)
    generalize √(l.map fun p => d p ^ 2).sum = D at *
    generalize √(l.map fun p => d' p ^ 2).sum = D' at *
    have q1 : 3 / 2 * δ * D' ≤ 3 / 2 * δ * ((1 + ρ) * D) := mul_le_mul_of_nonneg_left (by linarith) (by linarith)
    have q4 : 3 / 2 * δ * (1 + ρ) + ρ ≤ 2 * δ + 3 * ρ := by nlinarith
    have := mul_le_mul_of_nonneg_right q4 a.le
    linarith
  · have n1' := (abs_le.1 n2).2
    have e : ∀ x y w : ℝ, x - y = (x - w) + (w - y) := fun x y w => by ring
    rw [e _ _ √(l.map fun p => f' p ^ 2).sum]
    refine (abs_add_le _ _).trans ((add_le_add r2 n2).trans ?_)
    generalize √(l.map fun p => f p ^ 2).sum = D at *
    generalize √(l.map fun p => f' p ^ 2).sum = D' at *
    have q1 : 3 / 2 * δ * D' ≤ 3 / 2 * δ * ((1 + ρ) * D) := mul_le_mul_of_nonneg_left (by linarith) (by linarith)
    have q4 : 3 / 2 * δ * (1 + ρ) + ρ ≤ 2 * δ + 3 * ρ := by nlinarith
    have := mul_le_mul_of_nonneg_right q4 b.le
    linarith
  · have : (1 : ℝ) / 2 ^ 53 ≤ 1 / 2 ^ 52 := by norm_num
    linarith

end DRec
