import Verif.Lemmas.FloatPearson
import Verif.Model.FloatCosine

/-! # How far the cosine of whole rows computed in doubles is from the exact one -/

namespace DRec

open DRec.Spec

/-- The norm of a row of numbers. -/
noncomputable def normFloat (ci : List Nat) (f : Nat → ℝ) : ℝ :=
  if sumFloat (ci.map fun c => toFloat (f c ^ 2)) = 0 then 1 else toFloat √(sumFloat (ci.map fun c => toFloat (f c ^ 2)))

/-- A number divided by the norm. -/
noncomputable def unitFloat (ci : List Nat) (f : Nat → ℝ) (c : Nat) : ℝ := toFloat (f c / normFloat ci f)

/-- The value of a cosine in doubles. -/
noncomputable def cosFullFloat (ci cj cs : List Nat) (f g : Nat → ℝ) : ℝ :=
  sumFloat (cs.map fun c => toFloat (unitFloat ci f c * unitFloat cj g c))

theorem unitRow_rowOf (ci : List Nat) (f : Nat → ℝ) : unitRowFloat (rowOf ci f) = rowOf ci (unitFloat ci f) := by
  have e : rowNormFloat (rowOf ci f) = normFloat ci f := by
    unfold rowNormFloat normFloat
    rw [show (rowOf ci f).map (fun e => toFloat (e.2 ^ 2)) = ci.map fun c => toFloat (f c ^ 2) by
      rw [rowOf, List.map_map]; rfl]
  unfold unitRowFloat
  rw [e, rowOf, List.map_map]
  rfl

theorem dotFloat_rowOf {ci cj : List Nat} (hj : cj.Nodup) (f g : Nat → ℝ) : dotFloat (rowOf ci f) (rowOf cj g) =
    sumFloat ((ci.filter fun c => decide (c ∈ cj)).map fun c => toFloat (f c * g c)) := by
  unfold dotFloat
  have e : (rowOf ci f).filter (fun e => (rowOf cj g).any fun e' => e.1 == e'.1) =
      (ci.filter fun c => decide (c ∈ cj)).map fun c => (c, f c) := by
    unfold rowOf
    rw [List.filter_map]
    congr 1
    apply List.filter_congr
    intro c _
    simp only [Function.comp, List.any_map]
    rw [Bool.eq_iff_iff, List.any_eq_true, decide_eq_true_eq]
    simp
  rw [e, List.map_map]
  congr 1
  apply List.map_congr_left
  intro c hc
  rw [List.mem_filter, decide_eq_true_eq] at hc
  simp only [Function.comp]
  rw [rowOf_lookup hj, if_pos hc.2]

/-- One pair of rows, in functional form. -/
theorem cosineRowFloat_rowOf {ci cj cs : List Nat} (hj : cj.Nodup) (h : Both ci cj cs) (f g : Nat → ℝ) (s : ℝ) :
    cosineRowFloat (rowOf ci f) (rowOf cj g) = some s ↔
      cs ≠ [] ∧ s = cosFullFloat ci cj (ci.filter fun c => decide (c ∈ cj)) f g := by
  unfold cosineRowFloat
  by_cases hs : share (rowOf ci f) (rowOf cj g) = true
  · rw [if_pos hs, Option.some.injEq, unitRow_rowOf, unitRow_rowOf, dotFloat_rowOf hj]
    have := (share_rowOf h f g).1 hs
    exact ⟨fun h => ⟨this, h.symm⟩, fun h => h.2.symm⟩
  · rw [if_neg hs]
    have := mt (share_rowOf h f g).2 hs
    simp only [reduceCtorEq, false_iff, not_and]
    exact fun h => absurd h this

/-- In ascending order the common columns do not depend on which row is looked at first. -/
theorem filter_common {ci cj : List Nat} (h1 : ci.Pairwise (· < ·)) (h2 : cj.Pairwise (· < ·)) :
    (ci.filter fun c => decide (c ∈ cj)) = cj.filter fun c => decide (c ∈ ci) := by
  apply List.Perm.eq_of_pairwise (le := (· < ·))
  · intro a b _ _ h h'; exact absurd h (lt_asymm h')
  · exact h1.filter _
  · exact h2.filter _
  · apply (List.perm_ext_iff_of_nodup ((h1.imp fun h => h.ne).filter _) ((h2.imp fun h => h.ne).filter _)).2
    intro c
    simp only [List.mem_filter, decide_eq_true_eq]
    tauto

theorem cosFullFloat_symm (ci cj cs : List Nat) (f g : Nat → ℝ) : cosFullFloat ci cj cs f g = cosFullFloat cj ci cs g f := by
  unfold cosFullFloat
  congr 1
  exact List.map_congr_left fun c _ => by rw [mul_comm]

/-! ## Errors -/

/-- A number divided by the norm, when the numbers and the norm have small errors. -/
theorem unit_algebra {x x' A N ρ κ : ℝ} (hA : 0 < A) (hx : |x' - x| ≤ ρ * |x|) (hN : |N - A| ≤ κ * A) (hρ : 0 ≤ ρ)
    (hρ' : ρ ≤ 1 / 100) (hκ : 1 / 2 ^ 52 ≤ κ) (hκ' : κ ≤ 1 / 100) :
    |toFloat (x' / N) - x / A| ≤ 2 * (ρ + κ) * |x / A| := by
  have hk0 : 0 < κ := lt_of_lt_of_le (by positivity) hκ
  obtain ⟨n1, n2⟩ := abs_le.1 hN
  have hNlow : 99 / 100 * A ≤ N := by nlinarith
  have hNpos : 0 < N := lt_of_lt_of_le (by positivity) hNlow
  have hq : |x' / N - x / A| ≤ 101 / 99 * (ρ + κ) * |x / A| := by
    have e : x' / N - x / A = ((x' - x) * A - x * (N - A)) / (N * A) := by
      field_simp
      ring
    rw [e, abs_div, abs_of_pos (mul_pos hNpos hA), div_le_iff₀ (mul_pos hNpos hA), abs_div, abs_of_pos hA]
    have h1 : |(x' - x) * A| ≤ ρ * |x| * A := by
      rw [abs_mul, abs_of_pos hA]
      exact mul_le_mul_of_nonneg_right hx hA.le
    have h2 : |x * (N - A)| ≤ |x| * (κ * A) := by
      rw [abs_mul]
      exact mul_le_mul_of_nonneg_left hN (abs_nonneg _)
    have h3 := abs_sub ((x' - x) * A) (x * (N - A))
    have e2 : 101 / 99 * (ρ + κ) * (|x| / A) * (N * A) = 101 / 99 * ((ρ + κ) * |x|) * N := by
      field_simp
    rw [e2]
    have h4 : 0 ≤ (ρ + κ) * |x| := mul_nonneg (by linarith) (abs_nonneg _)
    have h5 := mul_le_mul_of_nonneg_left hNlow h4
    have h6 := mul_nonneg h4 hA.le
    nlinarith
  have hX : 0 ≤ |x / A| := abs_nonneg _
  have t := toFloat_error (x' / N)
  have h1 := abs_add_le (x' / N - x / A) (x / A)
  rw [sub_add_cancel] at h1
  have h2 : |x' / N| ≤ 11 / 10 * |x / A| := by
    have : 101 / 99 * (ρ + κ) * |x / A| ≤ 1 / 10 * |x / A| := mul_le_mul_of_nonneg_right (by linarith) hX
    linarith
  have h3 : |x' / N| / 2 ^ 53 ≤ κ / 2 * (11 / 10 * |x / A|) := by
    rw [div_eq_mul_one_div, mul_comm]
    refine mul_le_mul ?_ h2 (abs_nonneg _) (by positivity)
    have : (1 : ℝ) / 2 ^ 53 = 1 / 2 ^ 52 / 2 := by norm_num
    rw [this]
    linarith
  have e : toFloat (x' / N) - x / A = (toFloat (x' / N) - x' / N) + (x' / N - x / A) := by ring
  rw [e]
  refine (abs_add_le _ _).trans ?_
  have h4 : 0 ≤ κ * |x / A| := mul_nonneg hk0.le hX
  have h5 : 0 ≤ ρ * |x / A| := mul_nonneg hρ hX
  nlinarith

/-- Sums of squares of numbers with small relative errors. -/
theorem change_of_rel (l : List Nat) (f f' : Nat → ℝ) {ρ : ℝ} (hρ : 0 ≤ ρ) (h : ∀ c ∈ l, |f' c - f c| ≤ ρ * |f c|) :
    √(l.map fun c => (f' c - f c) ^ 2).sum ≤ ρ * √(l.map fun c => f c ^ 2).sum := by
  rw [Real.sqrt_le_left (mul_nonneg hρ (Real.sqrt_nonneg _)), mul_pow, Real.sq_sqrt (sqs_nonneg l f)]
  induction l with
  | nil => simp
  | cons c l ih =>
    simp only [List.map_cons, List.sum_cons]
    have h1 := ih fun c hc => h c (List.mem_cons_of_mem _ hc)
    have h2 := h c List.mem_cons_self
    have h3 : (f' c - f c) ^ 2 ≤ ρ ^ 2 * f c ^ 2 := by
      rw [← sq_abs (f' c - f c), ← sq_abs (f c), ← mul_pow]
      exact pow_le_pow_left₀ (abs_nonneg _) h2 2
    linarith

/-- The norm in doubles. -/
theorem normFloat_close (ci : List Nat) (f f' : Nat → ℝ) {ρ d : ℝ} (hρ : 0 ≤ ρ) (hρ' : ρ ≤ 1 / 1000)
    (hd : (ci.length + 1) / 2 ^ 52 ≤ d) (hd' : d ≤ 1 / 1000) (h : ∀ c ∈ ci, |f' c - f c| ≤ ρ * |f c|)
    (hA : 0 < √(ci.map fun c => f c ^ 2).sum) :
    |normFloat ci f' - √(ci.map fun c => f c ^ 2).sum| ≤ (ρ + 2 * d) * √(ci.map fun c => f c ^ 2).sum := by
  have hlen : ci.length ≤ 2 ^ 45 := by
    have h1 : ((ci.length : ℝ) + 1) / 2 ^ 52 ≤ 1 / 1000 := hd.trans hd'
    rw [div_le_div_iff₀ (by positivity) (by norm_num)] at h1
    have h2 : (ci.length : ℝ) ≤ 2 ^ 45 := by linarith
    exact_mod_cast h2
  have h1 := norm_change ci f f' (change_of_rel ci f f' hρ h)
  have h2 := root_error ci f' hlen
  have hd0 : 0 < d := lt_of_lt_of_le (by positivity) hd
  generalize √(ci.map fun c => f c ^ 2).sum = A at *
  have hA' : 0 < √(ci.map fun c => f' c ^ 2).sum := by
    have := (abs_le.1 h1).1
    nlinarith
  have hz : sumFloat (ci.map fun c => toFloat (f' c ^ 2)) ≠ 0 := by
    rw [sqs_float_ne ci f' hlen]
    intro h0
    rw [h0, Real.sqrt_zero] at hA'
    exact lt_irrefl _ hA'
  unfold normFloat
  rw [if_neg hz]
  generalize √(ci.map fun c => f' c ^ 2).sum = A' at *
  generalize toFloat √(sumFloat (ci.map fun c => toFloat (f' c ^ 2))) = N at *
  have h3 : 3 / 2 * (((ci.length : ℝ) + 1) / 2 ^ 52) * A' ≤ 3 / 2 * d * A' :=
    mul_le_mul_of_nonneg_right (by linarith) hA'.le
  obtain ⟨a1, a2⟩ := abs_le.1 h1
  obtain ⟨b1, b2⟩ := abs_le.1 (h2.trans h3)
  have h4 : A' ≤ 11 / 10 * A := by nlinarith
  have h5 : d * A' ≤ d * (11 / 10 * A) := mul_le_mul_of_nonneg_left h4 hd0.le
  have h6 : 0 ≤ d * A := mul_nonneg hd0.le hA.le
  rw [abs_le]
  constructor <;> nlinarith

/-- Sums of products of numbers with small relative errors. -/
theorem prods_rel (cs : List Nat) (x y F G : Nat → ℝ) {σ : ℝ} (hσ : 0 ≤ σ) (hF : ∀ c ∈ cs, |F c - x c| ≤ σ * |x c|)
    (hG : ∀ c ∈ cs, |G c - y c| ≤ σ * |y c|) :
    |(cs.map fun c => F c * G c).sum - (cs.map fun c => x c * y c).sum| ≤
      (2 * σ + σ ^ 2) * (cs.map fun c => |x c * y c|).sum ∧
    (cs.map fun c => |F c * G c|).sum ≤ (1 + σ) ^ 2 * (cs.map fun c => |x c * y c|).sum := by
  induction cs with
  | nil => simp
  | cons c l ih =>
    obtain ⟨i1, i2⟩ := ih (fun c hc => hF c (List.mem_cons_of_mem _ hc)) fun c hc => hG c (List.mem_cons_of_mem _ hc)
    have h1 := hF c List.mem_cons_self
    have h2 := hG c List.mem_cons_self
    simp only [List.map_cons, List.sum_cons]
    have hxy : |x c * y c| = |x c| * |y c| := abs_mul _ _
    have hc1 : |F c * G c - x c * y c| ≤ (2 * σ + σ ^ 2) * |x c * y c| := by
      have e : F c * G c - x c * y c = (F c - x c) * y c + x c * (G c - y c) + (F c - x c) * (G c - y c) := by ring
      rw [e, hxy]
      have a1 : |(F c - x c) * y c| ≤ σ * |x c| * |y c| := by
        rw [abs_mul]; exact mul_le_mul_of_nonneg_right h1 (abs_nonneg _)
      have a2 : |x c * (G c - y c)| ≤ |x c| * (σ * |y c|) := by
        rw [abs_mul]; exact mul_le_mul_of_nonneg_left h2 (abs_nonneg _)
      have a3 : |(F c - x c) * (G c - y c)| ≤ σ * |x c| * (σ * |y c|) := by
        rw [abs_mul]; exact mul_le_mul h1 h2 (abs_nonneg _) (by positivity)
      have a4 := abs_add_le ((F c - x c) * y c + x c * (G c - y c)) ((F c - x c) * (G c - y c))
      have a5 := abs_add_le ((F c - x c) * y c) (x c * (G c - y c))
      nlinarith
    constructor
    · have e : F c * G c + (l.map fun c => F c * G c).sum - (x c * y c + (l.map fun c => x c * y c).sum) =
        (F c * G c - x c * y c) + ((l.map fun c => F c * G c).sum - (l.map fun c => x c * y c).sum) := by ring
      rw [e]
      have := abs_add_le (F c * G c - x c * y c) ((l.map fun c => F c * G c).sum - (l.map fun c => x c * y c).sum)
      linarith
    · have a1 := abs_add_le (F c * G c - x c * y c) (x c * y c)
      rw [sub_add_cancel] at a1
      nlinarith

/-- The cosine of two rows in doubles is close to the exact one, also when the numbers had small relative errors before. -/
theorem cosFullFloat_close {ci cj cs : List Nat} (hi : ci.Nodup) (hj : cj.Nodup) (hb : Both ci cj cs) (f g f' g' : Nat → ℝ)
    {ρ d : ℝ} (hρ : 0 ≤ ρ) (hρ' : ρ ≤ 1 / 1000) (hdi : (ci.length + 1) / 2 ^ 52 ≤ d) (hdj : (cj.length + 1) / 2 ^ 52 ≤ d)
    (hd' : d ≤ 1 / 1000) (hf : ∀ c ∈ ci, |f' c - f c| ≤ ρ * |f c|) (hg : ∀ c ∈ cj, |g' c - g c| ≤ ρ * |g c|) :
    |cosFullFloat ci cj cs f' g' - cosFull ci cj cs f g| ≤ 10 * (ρ + d) := by
  have hd0 : 1 / 2 ^ 52 ≤ d := by
    refine le_trans (div_le_div_of_nonneg_right ?_ (by positivity)) hdi
    have : (0 : ℝ) ≤ ci.length := Nat.cast_nonneg _
    linarith
  have hdpos : 0 < d := lt_of_lt_of_le (by positivity) hd0
  have zero : ∀ {ci : List Nat} {f f' : Nat → ℝ}, (∀ c ∈ ci, |f' c - f c| ≤ ρ * |f c|) →
      √(ci.map fun c => f c ^ 2).sum = 0 → ∀ c ∈ ci, f c = 0 ∧ f' c = 0 := by
    intro ci f f' hf h0 c hc
    have h1 := sqsum_zero ((Real.sqrt_eq_zero (sqsum_nonneg _ _)).1 h0) c hc
    have h2 := hf c hc
    rw [h1, abs_zero, mul_zero, sub_zero] at h2
    exact ⟨h1, abs_nonpos_iff.1 h2⟩
  have zeros : ∀ l : List Nat, sumFloat (l.map fun _ => (0 : ℝ)) = 0 := by
    intro l
    unfold sumFloat
    induction l with
    | nil => rfl
    | cons c l ih => rw [List.map_cons, List.foldl_cons, add_zero, toFloat_zero]; exact ih
  have hpos : 0 ≤ 10 * (ρ + d) := by linarith
  rcases (Real.sqrt_nonneg (ci.map fun c => f c ^ 2).sum).lt_or_eq with hA | hA
  · rcases (Real.sqrt_nonneg (cj.map fun c => g c ^ 2).sum).lt_or_eq with hB | hB
    · have nA := normFloat_close ci f f' hρ hρ' hdi hd' hf hA
      have nB := normFloat_close cj g g' hρ hρ' hdj hd' hg hB
      have c1 := cauchy_cs cs f g
      have s1 := sum_sub_le hi hb f
      have s2 := sum_sub_le hj (both_symm hb) g
      have k1 := pairs_cauchy (cs.map fun c => (f c, g c))
      simp only [List.map_map, Function.comp_def] at k1
      have k2 : (cs.map fun c => |f c * g c|).sum ≤ √(ci.map fun c => f c ^ 2).sum * √(cj.map fun c => g c ^ 2).sum :=
        k1.trans (mul_le_mul (Real.sqrt_le_sqrt s1) (Real.sqrt_le_sqrt s2) (Real.sqrt_nonneg _) hA.le)
      unfold cosFull
      set A := √(ci.map fun c => f c ^ 2).sum with hAdef
      set B := √(cj.map fun c => g c ^ 2).sum with hBdef
      have uF : ∀ c ∈ cs, |unitFloat ci f' c - f c / A| ≤ 2 * (ρ + (ρ + 2 * d)) * |f c / A| := fun c hc =>
        unit_algebra hA (hf c ((hb.2 c).1 hc).1) nA hρ (by linarith) (by linarith) (by linarith)
      have uG : ∀ c ∈ cs, |unitFloat cj g' c - g c / B| ≤ 2 * (ρ + (ρ + 2 * d)) * |g c / B| := fun c hc =>
        unit_algebra hB (hg c ((hb.2 c).1 hc).2) nB hρ (by linarith) (by linarith) (by linarith)
      have hσ : 2 * (ρ + (ρ + 2 * d)) = 4 * (ρ + d) := by ring
      rw [hσ] at uF uG
      obtain ⟨p1, p2⟩ := prods_rel cs (fun c => f c / A) (fun c => g c / B) (unitFloat ci f') (unitFloat cj g')
        (by linarith) uF uG
      have hT : (cs.map fun c => |f c / A * (g c / B)|).sum ≤ 1 := by
        have e : (fun c => |f c / A * (g c / B)|) = fun c => |f c * g c| * (A * B)⁻¹ := by
          funext c
          rw [div_mul_div_comm, abs_div, abs_of_pos (mul_pos hA hB), div_eq_mul_inv]
        rw [e, List.sum_map_mul_right, ← div_eq_mul_inv]
        exact div_le_one_of_le₀ k2 (mul_pos hA hB).le
      have hE : (cs.map fun c => f c / A * (g c / B)).sum = (cs.map fun c => f c * g c).sum / (A * B) := by
        have e : (fun c => f c / A * (g c / B)) = fun c => f c * g c * (A * B)⁻¹ := by
          funext c
          rw [div_mul_div_comm, div_eq_mul_inv]
        rw [e, List.sum_map_mul_right, ← div_eq_mul_inv]
      have hcl : cs.length ≤ ci.length := (List.subperm_of_subset hb.1 fun c hc => ((hb.2 c).1 hc).1).length_le
      have hcs52 : cs.length ≤ 2 ^ 52 := by
        have h1 : ((ci.length : ℝ) + 1) / 2 ^ 52 ≤ 1 / 1000 := hdi.trans hd'
        rw [div_le_div_iff₀ (by positivity) (by norm_num)] at h1
        have h2 : (ci.length : ℝ) ≤ 2 ^ 52 := by linarith
        exact hcl.trans (by exact_mod_cast h2)
      have q := signedSum_rounded_error (cs.map fun c => unitFloat ci f' c * unitFloat cj g' c)
        (by rw [List.length_map]; exact hcs52)
      rw [List.length_map, List.map_map, List.map_map] at q
      change |cosFullFloat ci cj cs f' g' - _| ≤ _ * (cs.map fun c => |unitFloat ci f' c * unitFloat cj g' c|).sum / _ at q
      rw [hE] at p1
      have hT0 : 0 ≤ (cs.map fun c => |f c / A * (g c / B)|).sum := sum_abs_nonneg cs fun c => f c / A * (g c / B)
      generalize (cs.map fun c => |f c / A * (g c / B)|).sum = T at *
      have hW0 : 0 ≤ (cs.map fun c => |unitFloat ci f' c * unitFloat cj g' c|).sum :=
        sum_abs_nonneg cs fun c => unitFloat ci f' c * unitFloat cj g' c
      generalize (cs.map fun c => |unitFloat ci f' c * unitFloat cj g' c|).sum = W at *
      generalize (cs.map fun c => unitFloat ci f' c * unitFloat cj g' c).sum = U at *
      generalize (cs.map fun c => f c * g c).sum / (A * B) = V at *
      generalize cosFullFloat ci cj cs f' g' = S at *
      have hdc : ((cs.length : ℝ) + 1) / 2 ^ 52 ≤ d := by
        refine le_trans (div_le_div_of_nonneg_right ?_ (by positivity)) hdi
        have : (cs.length : ℝ) ≤ ci.length := by exact_mod_cast hcl
        linarith
      have q1 : |S - U| ≤ d * W := by
        refine q.trans ?_
        rw [mul_div_right_comm]
        exact mul_le_mul_of_nonneg_right hdc hW0
      have e0 : ρ + d ≤ 1 / 500 := by linarith
      have e1 : 0 ≤ ρ + d := by linarith
      generalize hτ : ρ + d = τ at *
      have w1 : W ≤ 11 / 10 := by
        refine p2.trans ?_
        have : (1 + 4 * τ) ^ 2 ≤ 11 / 10 := by nlinarith
        nlinarith
      have q2 : d * W ≤ d * (11 / 10) := mul_le_mul_of_nonneg_left w1 hdpos.le
      have q3 : (2 * (4 * τ) + (4 * τ) ^ 2) * T ≤ 2 * (4 * τ) + (4 * τ) ^ 2 := by
        have : 0 ≤ 2 * (4 * τ) + (4 * τ) ^ 2 := by positivity
        nlinarith
      have q4 : (4 * τ) ^ 2 ≤ 4 / 100 * τ := by nlinarith
      have e : S - V = (S - U) + (U - V) := by ring
      rw [e]
      refine (abs_add_le _ _).trans ?_
      linarith
    · have hz := zero hg hB.symm
      have z1 : cosFull ci cj cs f g = 0 := by
        unfold cosFull; rw [← hB, mul_zero, div_zero]
      have z2 : cosFullFloat ci cj cs f' g' = 0 := by
        unfold cosFullFloat
        rw [← zeros cs]
        congr 1
        apply List.map_congr_left
        intro c hc
        unfold unitFloat
        rw [(hz c ((hb.2 c).1 hc).2).2, zero_div, toFloat_zero, mul_zero, toFloat_zero]
      rw [z1, z2, sub_zero, abs_zero]
      exact hpos
  · have hz := zero hf hA.symm
    have z1 : cosFull ci cj cs f g = 0 := by
      unfold cosFull; rw [← hA, zero_mul, div_zero]
    have z2 : cosFullFloat ci cj cs f' g' = 0 := by
      unfold cosFullFloat
      rw [← zeros cs]
      congr 1
      apply List.map_congr_left
      intro c hc
      unfold unitFloat
      rw [(hz c ((hb.2 c).1 hc).1).2, zero_div, toFloat_zero, zero_mul, toFloat_zero]
    rw [z1, z2, sub_zero, abs_zero]
    exact hpos

/-! ## Rows minus their means -/

/-- What is left of a number after subtracting the mean of its row. -/
noncomputable def devFloat (ci : List Nat) (f : Nat → ℝ) (c : Nat) : ℝ :=
  toFloat (f c - toFloat (sumFloat (ci.map f) / ci.length))

theorem subtractMeanFloat_rowOf (ci : List Nat) (f : Nat → ℝ) :
    subtractMeanFloat (rowOf ci f) = rowOf (ci.filter fun c => decide (devFloat ci f c ≠ 0)) (devFloat ci f) := by
  unfold subtractMeanFloat
  rw [rowOf_vals, show (rowOf ci f).length = ci.length by rw [rowOf, List.length_map], rowOf_map]
  unfold rowOf
  rw [List.filter_map]
  rfl

/-- On a grid, what is left has a small relative error, and vanishes exactly when it should. -/
theorem devFloat_close (ci : List Nat) (z : Nat → ℤ) (e : ℤ) {B : ℕ} (hB : ∀ c ∈ ci, |z c| ≤ B)
    (hl : ci.length * B ≤ 2 ^ 53) {c : Nat} (hc : c ∈ ci) :
    |devFloat ci (fun c => (z c : ℝ) * 2 ^ e) c - ((z c : ℝ) * 2 ^ e - (ci.map fun c => (z c : ℝ) * 2 ^ e).sum / ci.length)| ≤
      4 * (ci.length * B) / 2 ^ 53 * |(z c : ℝ) * 2 ^ e - (ci.map fun c => (z c : ℝ) * 2 ^ e).sum / ci.length| := by
  by_cases h0 : (z c : ℝ) * 2 ^ e - (ci.map fun c => (z c : ℝ) * 2 ^ e).sum / ci.length = 0
  · have := centre_const ci z e hB hl hc h0
    unfold devFloat
    rw [h0, this]
    simp
  · have h1 := centre_error ci (List.ne_nil_of_mem hc) z e hB hl hc
    have hn : (0 : ℝ) < ci.length := by exact_mod_cast List.length_pos_of_mem hc
    have he : (0 : ℝ) < 2 ^ e := by positivity
    have h2 : (2 : ℝ) ^ e ≤ ci.length * |(z c : ℝ) * 2 ^ e - (ci.map fun c => (z c : ℝ) * 2 ^ e).sum / ci.length| := by
      have e1 : (ci.map fun c => (z c : ℝ) * 2 ^ e).sum = ((ci.map z).sum : ℤ) * 2 ^ e := by
        rw [List.sum_map_mul_right]
        congr 1
        clear h1 h0 hc hB hl hn
        induction ci with
        | nil => simp
        | cons a l ih => simp only [List.map_cons, List.sum_cons, ih]; push_cast; ring
      rw [e1] at h0 ⊢
      have e2 : (z c : ℝ) * 2 ^ e - ((ci.map z).sum : ℤ) * 2 ^ e / ci.length =
          (((ci.length : ℤ) * z c - (ci.map z).sum : ℤ) : ℝ) * 2 ^ e / ci.length := by
        push_cast
        field_simp
      rw [e2] at h0 ⊢
      have h3 : (ci.length : ℤ) * z c - (ci.map z).sum ≠ 0 := by
        intro h
        rw [h] at h0
        simp at h0
      have h4 : (1 : ℝ) ≤ |(((ci.length : ℤ) * z c - (ci.map z).sum : ℤ) : ℝ)| := by
        exact_mod_cast Int.one_le_abs h3
      rw [abs_div, abs_mul, abs_of_pos he, abs_of_pos hn, mul_div_cancel₀ _ hn.ne']
      nlinarith
    refine h1.trans ?_
    have h3 : (0 : ℝ) ≤ B := Nat.cast_nonneg _
    have h4 : 4 * (B * (2 : ℝ) ^ e) / 2 ^ 53 ≤
        4 * (B * (ci.length * |(z c : ℝ) * 2 ^ e - (ci.map fun c => (z c : ℝ) * 2 ^ e).sum / ci.length|)) / 2 ^ 53 :=
      div_le_div_of_nonneg_right (by nlinarith [mul_le_mul_of_nonneg_left h2 h3]) (by positivity)
    refine h4.trans (le_of_eq ?_)
    ring

end DRec
