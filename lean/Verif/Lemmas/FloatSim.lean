import Verif.Lemmas.FloatKnnFit
import Mathlib.Algebra.Order.BigOperators.Ring.List
import Mathlib.Tactic.Linarith
import Mathlib.Tactic.FieldSimp

/-! # Similarity metrics in doubles -/

namespace DRec

open DRec.Spec

variable {K : Type} [Field K] [LinearOrder K] [FloorRing K] [IsStrictOrderedRing K]

theorem roundHalfEven_neg (x : K) : roundHalfEven (-x) = -roundHalfEven x := by
  have h0 := Int.floor_le x
  have h1 := Int.lt_floor_add_one x
  rcases h0.lt_or_eq with h | h
  · have e : ⌊-x⌋ = -⌊x⌋ - 1 := by
      rw [Int.floor_eq_iff]
      push_cast
      constructor <;> linarith
    unfold roundHalfEven
    rw [e]
    push_cast
    rcases lt_trichotomy (x - ⌊x⌋) (1 / 2) with g | g | g
    · rw [if_neg (by linarith), if_pos (by linarith), if_pos g]; ring
    · rw [if_neg (by linarith), if_neg (by linarith), if_neg (by linarith : ¬ x - (⌊x⌋ : K) < 1 / 2),
        if_neg (by linarith : ¬ 1 / 2 < x - (⌊x⌋ : K))]
      rcases Int.emod_two_eq_zero_or_one ⌊x⌋ with k | k
      · rw [if_pos k, if_neg (by omega : ¬ (-⌊x⌋ - 1) % 2 = 0)]; ring
      · rw [if_neg (by omega : ¬ ⌊x⌋ % 2 = 0), if_pos (by omega : (-⌊x⌋ - 1) % 2 = 0)]; ring
    · rw [if_pos (by linarith), if_neg (by linarith), if_pos g]; ring
  · have e : ⌊-x⌋ = -⌊x⌋ := by
      rw [Int.floor_eq_iff]
      push_cast
      constructor <;> linarith
    unfold roundHalfEven
    rw [e]
    push_cast
    rw [if_pos (by linarith), if_pos (by linarith)]

theorem toFloat_neg (x : K) : toFloat (-x) = -toFloat x := by
  unfold toFloat lastPlace
  rw [abs_neg, neg_div, roundHalfEven_neg]
  push_cast
  ring

theorem abs_toFloat (x : K) : |toFloat x| = toFloat |x| := by
  rcases le_total 0 x with h | h
  · rw [abs_of_nonneg h, abs_of_nonneg (toFloat_nonneg h)]
  · rw [abs_of_nonpos h, toFloat_neg, abs_of_nonpos]
    have := toFloat_mono h
    rwa [toFloat_zero] at this

theorem toFloat_one : toFloat (1 : K) = 1 := by
  have := toFloat_of_isDouble (isDouble_nat (K := K) (n := 1) (by norm_num))
  simpa using this

theorem toFloat_le_one {x : K} (h : x ≤ 1) : toFloat x ≤ 1 := by
  have := toFloat_mono h
  rwa [toFloat_one] at this

/-! ## Mean squared difference -/

theorem sumFloat_le_aux (l : List K) (h : ∀ x ∈ l, 0 ≤ x ∧ x ≤ 1) : ∀ (k : ℕ) (s : K), 0 ≤ s → s ≤ k →
    k + l.length ≤ 2 ^ 53 → 0 ≤ l.foldl (fun s x => toFloat (s + x)) s ∧
      l.foldl (fun s x => toFloat (s + x)) s ≤ ((k + l.length : ℕ) : K) := by
  induction l with
  | nil => intro k s h0 h1 _; exact ⟨h0, by simpa using h1⟩
  | cons x l ih =>
    intro k s h0 h1 hk
    rw [List.length_cons] at hk
    obtain ⟨hx0, hx1⟩ := h x List.mem_cons_self
    have := ih (fun x hx => h x (List.mem_cons_of_mem _ hx)) (k + 1) (toFloat (s + x))
      (toFloat_nonneg (by linarith)) (by
        have h2 := toFloat_mono (show s + x ≤ ((k + 1 : ℕ) : K) by push_cast; linarith)
        rwa [toFloat_of_isDouble (isDouble_nat (by omega))] at h2) (by omega)
    rw [List.foldl_cons, List.length_cons]
    rwa [show k + 1 + l.length = k + (l.length + 1) by omega] at this

theorem sumFloat_le (l : List K) (h : ∀ x ∈ l, 0 ≤ x ∧ x ≤ 1) (hl : l.length ≤ 2 ^ 53) :
    0 ≤ sumFloat l ∧ sumFloat l ≤ (l.length : K) := by
  have := sumFloat_le_aux l h 0 0 le_rfl (by simp) (by omega)
  rwa [Nat.zero_add] at this

theorem msdRow_range {D : K} {a b : SRow K} (hD : 0 ≤ D) (h : ∀ p ∈ pairsOf a b, |p.1 - p.2| ≤ D)
    (hl : (pairsOf a b).length ≤ 2 ^ 53) {s : K} (hs : msdRowFloat (toFloat D) a b = some s) : 0 ≤ s ∧ s ≤ 1 := by
  unfold msdRowFloat at hs
  simp only at hs
  split at hs
  · cases hs
  rename_i h0
  split at hs
  · cases hs
  rename_i hD0
  have hDp : 0 < toFloat D := lt_of_le_of_ne (toFloat_nonneg hD) (Ne.symm hD0)
  have hn : (0 : K) < (pairsOf a b).length := by exact_mod_cast Nat.pos_of_ne_zero h0
  obtain ⟨s1, s2⟩ := sumFloat_le ((pairsOf a b).map fun p => toFloat (toFloat (toFloat (p.1 - p.2) / toFloat D) ^ 2)) (by
    intro x hx
    obtain ⟨p, hp, rfl⟩ := List.mem_map.1 hx
    refine ⟨toFloat_nonneg (sq_nonneg _), toFloat_le_one ?_⟩
    rw [sq_le_one_iff_abs_le_one, abs_toFloat, abs_div, abs_of_pos hDp, abs_toFloat]
    exact toFloat_le_one ((div_le_one hDp).2 (toFloat_mono (h p hp)))) (by rwa [List.length_map])
  rw [List.length_map] at s2
  rw [← Option.some.inj hs]
  have q1 : 0 ≤ toFloat (sumFloat ((pairsOf a b).map fun p => toFloat (toFloat (toFloat (p.1 - p.2) / toFloat D) ^ 2)) /
      (pairsOf a b).length) := toFloat_nonneg (div_nonneg s1 hn.le)
  have q2 := toFloat_le_one ((div_le_one hn).2 s2)
  exact ⟨toFloat_nonneg (by linarith), toFloat_le_one (by linarith)⟩

omit [Field K] [LinearOrder K] [FloorRing K] [IsStrictOrderedRing K] in
theorem common_length {es : List (Nat × Nat × K)} {i j : Nat} {cs : List Nat} (h : Common es i j cs) :
    cs.length ≤ es.length := by
  have := (List.subperm_of_subset h.1 (l₂ := es.map fun e => e.2.1) (by
    intro c hc
    obtain ⟨⟨v, hv⟩, _⟩ := (h.2 c).1 hc
    exact List.mem_map.2 ⟨_, hv, rfl⟩)).length_le
  rwa [List.length_map] at this

omit [LinearOrder K] [FloorRing K] [IsStrictOrderedRing K] in
theorem pairs_length (es : List (Nat × Nat × K)) {i j : Nat} (hi : i < (csrRows es).length) (hj : j < (csrRows es).length) :
    (pairsOf ((csrRows es).getD i []) ((csrRows es).getD j [])).length ≤ es.length := by
  obtain ⟨cs, hcs⟩ := exists_common es i j
  have := (pairsOf_csr es i j hi hj cs hcs).length_eq
  rw [this, List.length_map]
  exact common_length hcs

/-! ## Cosines -/

theorem abs_sumFloat_aux (l : List K) : ∀ s t : K, |s| ≤ t →
    |l.foldl (fun s x => toFloat (s + x)) s| ≤ (l.map abs).foldl (fun s x => toFloat (s + x)) t := by
  induction l with
  | nil => intro s t h; exact h
  | cons x l ih =>
    intro s t h
    rw [List.foldl_cons, List.map_cons, List.foldl_cons]
    refine ih _ _ ?_
    rw [abs_toFloat]
    exact toFloat_mono ((abs_add_le _ _).trans (by linarith))

theorem abs_sumFloat (l : List K) : |sumFloat l| ≤ sumFloat (l.map abs) := abs_sumFloat_aux l 0 0 (by simp)

/-- Cauchy-Schwarz for lists of pairs. -/
theorem pairs_cauchy (l : List (ℝ × ℝ)) : (l.map fun p => |p.1 * p.2|).sum ≤
    √(l.map fun p => p.1 ^ 2).sum * √(l.map fun p => p.2 ^ 2).sum := by
  induction l with
  | nil => simp
  | cons p l ih =>
    simp only [List.map_cons, List.sum_cons]
    set A := (l.map fun p : ℝ × ℝ => p.1 ^ 2).sum
    set B := (l.map fun p : ℝ × ℝ => p.2 ^ 2).sum
    have hA : 0 ≤ A := List.sum_nonneg (by intro x hx; obtain ⟨p, _, rfl⟩ := List.mem_map.1 hx; positivity)
    have hB : 0 ≤ B := List.sum_nonneg (by intro x hx; obtain ⟨p, _, rfl⟩ := List.mem_map.1 hx; positivity)
    refine le_trans (add_le_add le_rfl ih) ?_
    rw [← Real.sqrt_mul (by positivity : 0 ≤ p.1 ^ 2 + A)]
    apply Real.le_sqrt_of_sq_le
    have h1 : (√A * √B) ^ 2 = A * B := by rw [mul_pow, Real.sq_sqrt hA, Real.sq_sqrt hB]
    have h2 : |p.1 * p.2| ^ 2 = p.1 ^ 2 * p.2 ^ 2 := by rw [sq_abs]; ring
    have h3 : 2 * |p.1 * p.2| * (√A * √B) ≤ p.1 ^ 2 * B + p.2 ^ 2 * A := by
      rw [abs_mul]
      have := sq_nonneg (|p.1| * √B - |p.2| * √A)
      have e1 : (|p.1| * √B) ^ 2 = p.1 ^ 2 * B := by rw [mul_pow, sq_abs, Real.sq_sqrt hB]
      have e2 : (|p.2| * √A) ^ 2 = p.2 ^ 2 * A := by rw [mul_pow, sq_abs, Real.sq_sqrt hA]
      nlinarith
    nlinarith

theorem cos_factor {u d : ℝ} (hu : 0 < u) (h1 : 4 * u ≤ d) (h2 : d ≤ 1 / 8) :
    (1 + u) * (1 + d) ≤ (1 + 8 * d) * ((1 - u) * ((1 - d) * (1 - u)) ^ 2) := by
  have k1 : 1 - 2 * d ≤ (1 - d) ^ 2 := by linarith [sq_nonneg d, show (1 - d) ^ 2 = 1 - 2 * d + d ^ 2 by ring]
  have k2 : 1 - 3 * u ≤ (1 - u) ^ 3 := by
    have e : (1 - u) ^ 3 = 1 - 3 * u + u ^ 2 * (3 - u) := by ring
    have : 0 ≤ u ^ 2 * (3 - u) := mul_nonneg (sq_nonneg _) (by linarith)
    linarith
  have k3 : (1 - 2 * d) * (1 - 3 * u) ≤ (1 - u) * ((1 - d) * (1 - u)) ^ 2 := by
    have := mul_le_mul k1 k2 (by linarith) (sq_nonneg _)
    linarith [show (1 - u) * ((1 - d) * (1 - u)) ^ 2 = (1 - d) ^ 2 * (1 - u) ^ 3 by ring]
  have k4 : 1 - 2 * d - 3 / 4 * d ≤ (1 - 2 * d) * (1 - 3 * u) := by
    have : 0 ≤ d * u := mul_nonneg (by linarith) hu.le
    linarith [show (1 - 2 * d) * (1 - 3 * u) = 1 - 2 * d - 3 * u + 6 * (d * u) by ring]
  have k5 : (1 + 8 * d) * (1 - 2 * d - 3 / 4 * d) ≤ (1 + 8 * d) * ((1 - u) * ((1 - d) * (1 - u)) ^ 2) :=
    mul_le_mul_of_nonneg_left (k4.trans k3) (by linarith)
  have k6 : (1 + u) * (1 + d) ≤ (1 + d / 4) * (1 + d) := mul_le_mul_of_nonneg_right (by linarith) (by linarith)
  refine k6.trans (le_trans ?_ k5)
  have : d * d ≤ d * (1 / 8) := mul_le_mul_of_nonneg_left h2 (by linarith)
  linarith [show (1 + d / 4) * (1 + d) = 1 + 5 / 4 * d + 1 / 4 * (d * d) by ring,
    show (1 + 8 * d) * (1 - 2 * d - 3 / 4 * d) = 1 + 21 / 4 * d - 22 * (d * d) by ring]

/-- A cosine computed in doubles exceeds 1 at most by rounding. -/
theorem abs_cosFloat (l : List (ℝ × ℝ)) (hl : l.length ≤ 2 ^ 48) : |cosFloat l| ≤ 1 + (l.length + 1) / 2 ^ 49 := by
  by_cases hnil : l = []
  · subst hnil
    have : cosFloat [] = 0 := by simp [cosFloat, sumFloat, toFloat_zero]
    rw [this, abs_zero]
    positivity
  have hn1 : (1 : ℝ) ≤ l.length := by exact_mod_cast List.length_pos_of_ne_nil hnil
  have hn2 : (l.length : ℝ) ≤ 2 ^ 48 := by exact_mod_cast hl
  set A := (l.map fun p : ℝ × ℝ => p.1 ^ 2).sum with hA'
  set B := (l.map fun p : ℝ × ℝ => p.2 ^ 2).sum with hB'
  have hA : 0 ≤ A := List.sum_nonneg (by intro x hx; obtain ⟨p, _, rfl⟩ := List.mem_map.1 hx; positivity)
  have hB : 0 ≤ B := List.sum_nonneg (by intro x hx; obtain ⟨p, _, rfl⟩ := List.mem_map.1 hx; positivity)
  have hC : 0 ≤ (l.map fun p : ℝ × ℝ => |p.1 * p.2|).sum :=
    List.sum_nonneg (by intro x hx; obtain ⟨p, _, rfl⟩ := List.mem_map.1 hx; positivity)
  have hcs := pairs_cauchy l
  -- the numerator
  have num : |sumFloat (l.map fun p => toFloat (p.1 * p.2))| ≤ (1 + (l.length + 1) / 2 ^ 52) * (√A * √B) := by
    refine (abs_sumFloat _).trans ?_
    have e : (l.map fun p : ℝ × ℝ => toFloat (p.1 * p.2)).map abs = (l.map fun p : ℝ × ℝ => |p.1 * p.2|).map toFloat := by
      rw [List.map_map, List.map_map]
      exact List.map_congr_left fun p _ => abs_toFloat _
    rw [e]
    have := sumFloat_rounded_error (l.map fun p : ℝ × ℝ => |p.1 * p.2|)
      (by intro x hx; obtain ⟨p, _, rfl⟩ := List.mem_map.1 hx; positivity) (by rw [List.length_map]; omega)
    rw [List.length_map] at this
    have := (abs_le.1 this).2
    have h2 : ((l.length : ℝ) + 1) * (l.map fun p : ℝ × ℝ => |p.1 * p.2|).sum / 2 ^ 52 ≤
        ((l.length : ℝ) + 1) / 2 ^ 52 * (√A * √B) := by
      rw [mul_div_right_comm]
      exact mul_le_mul_of_nonneg_left hcs (by positivity)
    linarith
  -- the roots
  have root : ∀ f : ℝ × ℝ → ℝ, √(l.map fun p => f p ^ 2).sum * ((1 - (l.length + 1) / 2 ^ 52) * (1 - 1 / 2 ^ 53)) ≤
      toFloat √(sumFloat (l.map fun p => toFloat (f p ^ 2))) := by
    intro f
    have hS : 0 ≤ (l.map fun p => f p ^ 2).sum :=
      List.sum_nonneg (by intro x hx; obtain ⟨p, _, rfl⟩ := List.mem_map.1 hx; positivity)
    have e := sumFloat_rounded_error (l.map fun p => f p ^ 2)
      (by intro x hx; obtain ⟨p, _, rfl⟩ := List.mem_map.1 hx; positivity) (by rw [List.length_map]; omega)
    rw [List.length_map, List.map_map] at e
    have e1 := (abs_le.1 e).1
    have e2 : (1 - (l.length + 1) / 2 ^ 52) * (l.map fun p => f p ^ 2).sum ≤ sumFloat (l.map fun p => toFloat (f p ^ 2)) := by
      have : sumFloat (l.map (toFloat ∘ fun p => f p ^ 2)) = sumFloat (l.map fun p => toFloat (f p ^ 2)) := rfl
      rw [this] at e1
      have h3 : (1 - ((l.length : ℝ) + 1) / 2 ^ 52) * (l.map fun p => f p ^ 2).sum =
        (l.map fun p => f p ^ 2).sum - (l.length + 1) * (l.map fun p => f p ^ 2).sum / 2 ^ 52 := by ring
      rw [h3]
      linarith
    have e3 : √(sumFloat (l.map fun p => toFloat (f p ^ 2))) * (1 - 1 / 2 ^ 53) ≤
        toFloat √(sumFloat (l.map fun p => toFloat (f p ^ 2))) := by
      have h4 := (abs_le.1 (toFloat_error √(sumFloat (l.map fun p => toFloat (f p ^ 2))))).1
      rw [abs_of_nonneg (Real.sqrt_nonneg _)] at h4
      linarith
    have h5 : (1 - ((l.length : ℝ) + 1) / 2 ^ 52) * √(l.map fun p => f p ^ 2).sum ≤
        √(sumFloat (l.map fun p => toFloat (f p ^ 2))) := by
      apply Real.le_sqrt_of_sq_le
      rw [mul_pow, Real.sq_sqrt hS]
      refine le_trans (mul_le_mul_of_nonneg_right ?_ hS) e2
      have h6 : ((l.length : ℝ) + 1) / 2 ^ 52 ≤ 1 := by
        rw [div_le_one (by positivity)]
        linarith
      have h7 : 0 ≤ ((l.length : ℝ) + 1) / 2 ^ 52 := by positivity
      nlinarith
    have h8 : (0 : ℝ) ≤ 1 - 1 / 2 ^ 53 := by norm_num
    rw [← mul_assoc, mul_comm √_]
    exact le_trans (mul_le_mul_of_nonneg_right h5 h8) e3
  have r1 := root (·.1)
  have r2 := root (·.2)
  rw [← hA'] at r1
  rw [← hB'] at r2
  unfold cosFloat
  set N := sumFloat (l.map fun p : ℝ × ℝ => toFloat (p.1 * p.2))
  set P := toFloat √(sumFloat (l.map fun p : ℝ × ℝ => toFloat (p.1 ^ 2)))
  set Q := toFloat √(sumFloat (l.map fun p : ℝ × ℝ => toFloat (p.2 ^ 2)))
  have hbound : (1 : ℝ) + (l.length + 1) / 2 ^ 49 = 1 + 8 * ((l.length + 1) / 2 ^ 52) := by ring
  rw [hbound]
  have hd1 : 4 * (1 / 2 ^ 53 : ℝ) ≤ ((l.length : ℝ) + 1) / 2 ^ 52 := by
    rw [le_div_iff₀ (by positivity)]
    norm_num
    linarith
  have hd2 : ((l.length : ℝ) + 1) / 2 ^ 52 ≤ 1 / 8 := by
    rw [div_le_div_iff₀ (by positivity) (by norm_num)]
    linarith
  have hu0 : (0 : ℝ) < 1 / 2 ^ 53 := by positivity
  clear_value N P Q A B
  clear root hbound
  generalize hu : (1 / 2 ^ 53 : ℝ) = u at *
  generalize ((l.length : ℝ) + 1) / 2 ^ 52 = d at *
  set a := √A
  set b := √B
  have ha : 0 ≤ a := Real.sqrt_nonneg _
  have hb : 0 ≤ b := Real.sqrt_nonneg _
  have hg : 0 < (1 - d) * (1 - u) := by
    apply mul_pos <;> linarith
  set g := (1 - d) * (1 - u) with hgd
  have hround : ∀ x : ℝ, |toFloat x| ≤ (1 + u) * |x| := by
    intro x
    have := toFloat_error x
    have h2 := abs_sub_abs_le_abs_sub (toFloat x) x
    rw [div_eq_mul_one_div, hu] at this
    linarith
  have hlow : ∀ x : ℝ, 0 ≤ x → (1 - u) * x ≤ toFloat x := by
    intro x hx
    have := (abs_le.1 (toFloat_error x)).1
    rw [div_eq_mul_one_div, hu, abs_of_nonneg hx] at this
    linarith
  rcases (mul_nonneg ha hb).lt_or_eq with hR | hR
  · have hP : 0 ≤ P := le_trans (by positivity) r1
    have hQ : 0 ≤ Q := le_trans (by positivity) r2
    have hPQ : a * b * g ^ 2 ≤ P * Q := by
      have := mul_le_mul r1 r2 (by positivity) hP
      nlinarith
    have hden : (1 - u) * (a * b * g ^ 2) ≤ toFloat (P * Q) :=
      le_trans (mul_le_mul_of_nonneg_left hPQ (by linarith)) (hlow _ (mul_nonneg hP hQ))
    have hdp : 0 < (1 - u) * (a * b * g ^ 2) := by
      have : 0 < 1 - u := by linarith
      positivity
    refine (hround _).trans ?_
    rw [abs_div, abs_of_pos (lt_of_lt_of_le hdp hden)]
    have h1 : |N| / toFloat (P * Q) ≤ (1 + d) * (a * b) / ((1 - u) * (a * b * g ^ 2)) :=
      div_le_div₀ (by nlinarith) num hdp hden
    have hgp : 0 < (1 - u) * g ^ 2 := by
      have : 0 < 1 - u := by linarith
      positivity
    have h2 : (1 + d) * (a * b) / ((1 - u) * (a * b * g ^ 2)) = (1 + d) / ((1 - u) * g ^ 2) := by
      rw [show (1 - u) * (a * b * g ^ 2) = (1 - u) * g ^ 2 * (a * b) by ring, mul_div_mul_right _ _ hR.ne']
    rw [h2] at h1
    refine (mul_le_mul_of_nonneg_left h1 (by linarith)).trans ?_
    rw [← mul_div_assoc, div_le_iff₀ hgp]
    exact cos_factor hu0 hd1 hd2
  · rw [← hR, mul_zero] at num
    have : N = 0 := abs_nonpos_iff.1 num
    rw [this, zero_div, toFloat_zero, abs_zero]
    linarith

end DRec
