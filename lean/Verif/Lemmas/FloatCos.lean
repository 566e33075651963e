import Verif.Lemmas.FloatSim

/-! # How far a cosine computed in doubles is from the exact one -/

namespace DRec

open DRec.Spec

section
variable {K : Type} [Field K] [LinearOrder K] [FloorRing K] [IsStrictOrderedRing K]

omit [FloorRing K] in
theorem sum_abs_nonneg {α : Type} (l : List α) (f : α → K) : 0 ≤ (l.map fun x => |f x|).sum :=
  List.sum_nonneg (by intro x hx; obtain ⟨p, _, rfl⟩ := List.mem_map.1 hx; positivity)

theorem signedSum_error_aux (xs : List K) : ∀ (s t T : K) (i : Nat), i + xs.length ≤ 2 ^ 52 → |t| ≤ T →
    |s - t| ≤ 2 * i * T / 2 ^ 53 →
    |xs.foldl (fun s x => toFloat (s + x)) s - (t + xs.sum)| ≤
      2 * ((i + xs.length : Nat) : K) * (T + (xs.map fun x => |x|).sum) / 2 ^ 53 := by
  induction xs with
  | nil => intro s t T i _ _ h; simpa using h
  | cons x xs ih =>
    intro s t T i hi hT hst
    rw [List.foldl_cons, List.sum_cons, List.map_cons, List.sum_cons]
    rw [List.length_cons] at hi
    have hT0 : 0 ≤ T := le_trans (abs_nonneg _) hT
    have hi' : ((i : Nat) : K) ≤ 2 ^ 52 := by
      have : i ≤ 2 ^ 52 := by omega
      exact_mod_cast this
    have hx0 : 0 ≤ |x| := abs_nonneg x
    have h1 := toFloat_error (s + x)
    have h2 : 2 * (i : K) * T / 2 ^ 53 ≤ T := by
      rw [div_le_iff₀ (by positivity)]
      nlinarith
    have hu : |s + x| ≤ 2 * (T + |x|) := by
      have e : s + x = (s - t) + t + x := by ring
      rw [e]
      have := abs_add_le ((s - t) + t) x
      have := abs_add_le (s - t) t
      linarith [hst.trans h2]
    have hstep : |toFloat (s + x) - (t + x)| ≤ 2 * ((i + 1 : Nat) : K) * (T + |x|) / 2 ^ 53 := by
      have h4 : toFloat (s + x) - (t + x) = (toFloat (s + x) - (s + x)) + (s - t) := by ring
      rw [h4]
      refine (abs_add_le _ _).trans ?_
      have h5 : |s + x| / 2 ^ 53 ≤ 2 * (T + |x|) / 2 ^ 53 := div_le_div_of_nonneg_right hu (by positivity)
      have h6 : 2 * (i : K) * T / 2 ^ 53 ≤ 2 * (i : K) * (T + |x|) / 2 ^ 53 := by
        refine div_le_div_of_nonneg_right ?_ (by positivity)
        have : (0 : K) ≤ i := Nat.cast_nonneg i
        nlinarith [mul_nonneg this hx0]
      calc _ ≤ 2 * (T + |x|) / 2 ^ 53 + 2 * (i : K) * (T + |x|) / 2 ^ 53 := add_le_add (h1.trans h5) (hst.trans h6)
        _ = _ := by push_cast; ring
    have := ih (toFloat (s + x)) (t + x) (T + |x|) (i + 1) (by omega)
      ((abs_add_le _ _).trans (by linarith)) hstep
    rw [← add_assoc, ← add_assoc, List.length_cons]
    have e : i + (xs.length + 1) = i + 1 + xs.length := by omega
    rw [e]
    exact this

/-- The error of a sum of numbers of any sign. -/
theorem signedSum_error (xs : List K) (hl : xs.length ≤ 2 ^ 52) :
    |sumFloat xs - xs.sum| ≤ xs.length * (xs.map fun x => |x|).sum / 2 ^ 52 := by
  have := signedSum_error_aux xs 0 0 0 0 (by omega) (by simp) (by simp)
  simp only [zero_add] at this
  refine this.trans (le_of_eq ?_)
  have : (2 : K) ^ 53 = 2 * 2 ^ 52 := by norm_num
  rw [this, mul_assoc, mul_div_mul_left _ _ (by norm_num)]

/-- The error of a sum of rounded numbers of any sign. -/
theorem signedSum_rounded_error (xs : List K) (hl : xs.length ≤ 2 ^ 52) :
    |sumFloat (xs.map toFloat) - xs.sum| ≤ (xs.length + 1) * (xs.map fun x => |x|).sum / 2 ^ 52 := by
  have h1 := signedSum_error (xs.map toFloat) (by simpa using hl)
  rw [List.length_map, List.map_map] at h1
  have hS : 0 ≤ (xs.map fun x => |x|).sum := sum_abs_nonneg xs id
  have h2 : ∀ ys : List K, |(ys.map toFloat).sum - ys.sum| ≤ (ys.map fun x => |x|).sum / 2 ^ 53 := by
    intro ys
    induction ys with
    | nil => simp
    | cons y ys ih =>
      simp only [List.map_cons, List.sum_cons]
      have e : toFloat y + (ys.map toFloat).sum - (y + ys.sum) = (toFloat y - y) + ((ys.map toFloat).sum - ys.sum) := by ring
      rw [e, add_div]
      exact (abs_add_le _ _).trans (add_le_add (toFloat_error y) ih)
  have h3 : ∀ ys : List K, (ys.map ((fun x : K => |x|) ∘ toFloat)).sum ≤
      (ys.map fun x => |x|).sum + (ys.map fun x => |x|).sum / 2 ^ 53 := by
    intro ys
    induction ys with
    | nil => simp
    | cons y ys ih =>
      simp only [List.map_cons, List.sum_cons, Function.comp] at ih ⊢
      have h4 := toFloat_error y
      have h5 := abs_sub_abs_le_abs_sub (toFloat y) y
      rw [add_div]
      linarith
  have h2' := h2 xs
  have h3' := h3 xs
  have hn : (0 : K) ≤ xs.length := Nat.cast_nonneg _
  have hn' : (xs.length : K) ≤ 2 ^ 52 := by exact_mod_cast hl
  have e : sumFloat (xs.map toFloat) - xs.sum =
      (sumFloat (xs.map toFloat) - (xs.map toFloat).sum) + ((xs.map toFloat).sum - xs.sum) := by ring
  rw [e]
  refine (abs_add_le _ _).trans ((add_le_add h1 h2').trans ?_)
  generalize (xs.map fun x => |x|).sum = S at *
  generalize (xs.map ((fun x : K => |x|) ∘ toFloat)).sum = S' at *
  have h4 : (xs.length : K) * S' ≤ xs.length * (S + S / 2 ^ 53) := mul_le_mul_of_nonneg_left h3' hn
  have h5 : (xs.length : K) * (S / 2 ^ 53) ≤ S / 2 := by
    rw [mul_div_assoc', div_le_div_iff₀ (by positivity) (by positivity)]
    nlinarith
  have h6 : (xs.length : K) * S' / 2 ^ 52 ≤ (xs.length * S + S / 2) / 2 ^ 52 := by
    refine div_le_div_of_nonneg_right ?_ (by positivity)
    linarith
  have h7 : S / 2 ^ 53 = (S / 2) / 2 ^ 52 := by rw [div_div]; norm_num
  rw [h7]
  refine (add_le_add_left h6 _).trans (le_of_eq ?_)
  ring

end

/-! ## The quotient -/

/-- The quotient at the end, from numbers with small relative errors. -/
theorem cosQuotient {N N' a b P Q k : ℝ} (ha : 0 < a) (hb : 0 < b) (hN : |N| ≤ a * b) (hN' : |N' - N| ≤ k * (a * b))
    (hP : |P - a| ≤ k * a) (hQ : |Q - b| ≤ k * b) (hk : 1 / 2 ^ 53 ≤ k) (hk' : k ≤ 1 / 100) :
    |toFloat (N' / toFloat (P * Q)) - N / (a * b)| ≤ 6 * k := by
  have hk0 : 0 < k := lt_of_lt_of_le (by positivity) hk
  have hab : 0 < a * b := mul_pos ha hb
  set R := toFloat (P * Q) with hR
  have hPQ : |P * Q - a * b| ≤ (2 * k + k ^ 2) * (a * b) := by
    have e : P * Q - a * b = (P - a) * b + a * (Q - b) + (P - a) * (Q - b) := by ring
    rw [e]
    have h1 : |(P - a) * b| ≤ k * (a * b) := by
      rw [abs_mul, abs_of_pos hb]
      nlinarith
    have h2 : |a * (Q - b)| ≤ k * (a * b) := by
      rw [abs_mul, abs_of_pos ha]
      nlinarith
    have h3 : |(P - a) * (Q - b)| ≤ k ^ 2 * (a * b) := by
      rw [abs_mul]
      have := mul_le_mul hP hQ (abs_nonneg _) (by positivity)
      nlinarith
    have h4 := abs_add_le ((P - a) * b + a * (Q - b)) ((P - a) * (Q - b))
    have h5 := abs_add_le ((P - a) * b) (a * (Q - b))
    nlinarith
  have hPQ2 : |P * Q - a * b| ≤ 21 / 10 * k * (a * b) := by
    refine hPQ.trans (mul_le_mul_of_nonneg_right ?_ hab.le)
    nlinarith
  have hPQabs : |P * Q| ≤ 11 / 10 * (a * b) := by
    have h1 := abs_add_le (P * Q - a * b) (a * b)
    rw [sub_add_cancel, abs_of_pos hab] at h1
    nlinarith
  have hRab : |R - a * b| ≤ 16 / 5 * k * (a * b) := by
    have e : R - a * b = (toFloat (P * Q) - P * Q) + (P * Q - a * b) := by rw [hR]; ring
    rw [e]
    refine (abs_add_le _ _).trans ?_
    have h1 : |toFloat (P * Q) - P * Q| ≤ k * (11 / 10 * (a * b)) := by
      refine (toFloat_error _).trans ?_
      rw [div_eq_mul_one_div, mul_comm]
      exact mul_le_mul hk hPQabs (abs_nonneg _) hk0.le
    linarith
  have hRlow : 24 / 25 * (a * b) ≤ R := by
    have h1 := (abs_le.1 hRab).1
    nlinarith
  have hRpos : 0 < R := lt_of_lt_of_le (by positivity) hRlow
  have hq : |N' / R - N / (a * b)| ≤ 35 / 8 * k := by
    have e : N' / R - N / (a * b) = ((N' - N) * (a * b) - N * (R - a * b)) / (R * (a * b)) := by
      field_simp
      ring
    rw [e, abs_div, abs_of_pos (mul_pos hRpos hab), div_le_iff₀ (mul_pos hRpos hab)]
    have h1 : |(N' - N) * (a * b)| ≤ k * (a * b) * (a * b) := by
      rw [abs_mul, abs_of_pos hab]
      exact mul_le_mul_of_nonneg_right hN' hab.le
    have h2 : |N * (R - a * b)| ≤ 16 / 5 * k * (a * b) * (a * b) := by
      rw [abs_mul]
      have := mul_le_mul hN hRab (abs_nonneg _) hab.le
      nlinarith
    have h3 := abs_sub ((N' - N) * (a * b)) (N * (R - a * b))
    have h4 : 35 / 8 * k * (24 / 25 * (a * b) * (a * b)) ≤ 35 / 8 * k * (R * (a * b)) :=
      mul_le_mul_of_nonneg_left (mul_le_mul_of_nonneg_right hRlow hab.le) (by positivity)
    nlinarith [mul_nonneg hk0.le (mul_nonneg hab.le hab.le)]
  have hq2 : |N / (a * b)| ≤ 1 := by
    rw [abs_div, abs_of_pos hab]
    exact (div_le_one hab).2 hN
  have hq3 : |N' / R| ≤ 11 / 10 := by
    have h1 := abs_add_le (N' / R - N / (a * b)) (N / (a * b))
    rw [sub_add_cancel] at h1
    linarith
  have e : toFloat (N' / R) - N / (a * b) = (toFloat (N' / R) - N' / R) + (N' / R - N / (a * b)) := by ring
  rw [e]
  refine (abs_add_le _ _).trans ?_
  have h1 : |toFloat (N' / R) - N' / R| ≤ k * (11 / 10) := by
    refine (toFloat_error _).trans ?_
    rw [div_eq_mul_one_div, mul_comm]
    exact mul_le_mul hk hq3 (abs_nonneg _) hk0.le
  linarith

/-- The root of a sum of squares. -/
theorem root_error {α : Type} (l : List α) (f : α → ℝ) (hl : l.length ≤ 2 ^ 45) :
    |toFloat √(sumFloat (l.map fun p => toFloat (f p ^ 2))) - √(l.map fun p => f p ^ 2).sum| ≤
      3 / 2 * ((l.length + 1) / 2 ^ 52) * √(l.map fun p => f p ^ 2).sum := by
  have hS : 0 ≤ (l.map fun p => f p ^ 2).sum :=
    List.sum_nonneg (by intro x hx; obtain ⟨p, _, rfl⟩ := List.mem_map.1 hx; positivity)
  have e := sumFloat_rounded_error (l.map fun p => f p ^ 2)
    (by intro x hx; obtain ⟨p, _, rfl⟩ := List.mem_map.1 hx; positivity) (by rw [List.length_map]; omega)
  rw [List.length_map, List.map_map] at e
  change |sumFloat (l.map fun p => toFloat (f p ^ 2)) - _| ≤ _ at e
  have hl' : (l.length : ℝ) ≤ 2 ^ 45 := by exact_mod_cast hl
  have hn0 : (0 : ℝ) ≤ l.length := Nat.cast_nonneg _
  generalize (l.map fun p => f p ^ 2).sum = S at *
  generalize sumFloat (l.map fun p => toFloat (f p ^ 2)) = S' at *
  have hd0 : 1 / 2 ^ 52 ≤ ((l.length : ℝ) + 1) / 2 ^ 52 := div_le_div_of_nonneg_right (by linarith) (by positivity)
  have hd1 : ((l.length : ℝ) + 1) / 2 ^ 52 ≤ 1 / 100 := by
    rw [div_le_div_iff₀ (by positivity) (by norm_num)]
    nlinarith
  rw [mul_div_right_comm] at e
  generalize ((l.length : ℝ) + 1) / 2 ^ 52 = d at *
  have hdp : 0 < d := lt_of_lt_of_le (by positivity) hd0
  obtain ⟨e1, e2⟩ := abs_le.1 e
  have hS' : 0 ≤ S' := by nlinarith
  -- the root before rounding
  have r1 : (1 - d) * √S ≤ √S' := by
    apply Real.le_sqrt_of_sq_le
    rw [mul_pow, Real.sq_sqrt hS]
    nlinarith
  have r2 : √S' ≤ (1 + d / 2) * √S := by
    rw [Real.sqrt_le_left (by positivity), mul_pow, Real.sq_sqrt hS]
    nlinarith
  have hr : 0 ≤ √S := Real.sqrt_nonneg _
  have t := toFloat_error √S'
  rw [abs_of_nonneg (Real.sqrt_nonneg _)] at t
  have t2 : √S' / 2 ^ 53 ≤ d / 2 * ((1 + d / 2) * √S) := by
    rw [div_eq_mul_one_div, mul_comm]
    refine mul_le_mul ?_ r2 (Real.sqrt_nonneg _) (by positivity)
    have : (1 : ℝ) / 2 ^ 53 = 1 / 2 ^ 52 / 2 := by norm_num
    rw [this]
    linarith
  obtain ⟨t3, t4⟩ := abs_le.1 t
  have hdr : d * d * √S ≤ d * (1 / 100) * √S :=
    mul_le_mul_of_nonneg_right (mul_le_mul_of_nonneg_left hd1 hdp.le) hr
  have hdr0 : 0 ≤ d * √S := mul_nonneg hdp.le hr
  rw [abs_le]
  constructor <;> nlinarith

/-- The numerator. -/
theorem numerator_error (l : List (ℝ × ℝ)) (hl : l.length ≤ 2 ^ 45) :
    |sumFloat (l.map fun p => toFloat (p.1 * p.2)) - (l.map fun p => p.1 * p.2).sum| ≤
      (l.length + 1) / 2 ^ 52 * (√(l.map fun p => p.1 ^ 2).sum * √(l.map fun p => p.2 ^ 2).sum) := by
  have e := signedSum_rounded_error (l.map fun p => p.1 * p.2) (by rw [List.length_map]; omega)
  rw [List.length_map, List.map_map, List.map_map] at e
  change |sumFloat (l.map fun p => toFloat (p.1 * p.2)) - _| ≤ _ * (l.map fun p => |p.1 * p.2|).sum / _ at e
  refine e.trans ?_
  rw [mul_div_right_comm]
  exact mul_le_mul_of_nonneg_left (pairs_cauchy l) (by positivity)

theorem abs_sum_le {α : Type} (l : List α) (f : α → ℝ) : |(l.map f).sum| ≤ (l.map fun x => |f x|).sum := by
  induction l with
  | nil => simp
  | cons x l ih =>
    simp only [List.map_cons, List.sum_cons]
    exact (abs_add_le _ _).trans (by linarith)

theorem numerator_le (l : List (ℝ × ℝ)) :
    |(l.map fun p => p.1 * p.2).sum| ≤ √(l.map fun p => p.1 ^ 2).sum * √(l.map fun p => p.2 ^ 2).sum :=
  (abs_sum_le l fun p => p.1 * p.2).trans (pairs_cauchy l)

/-- A cosine computed in doubles is close to the exact cosine. -/
theorem cosFloat_close (l : List (ℝ × ℝ)) (hl : l.length ≤ 2 ^ 44) : |cosFloat l - cosOf l| ≤ (l.length + 1) / 2 ^ 48 := by
  have hl' : (l.length : ℝ) ≤ 2 ^ 44 := by exact_mod_cast hl
  have hn0 : (0 : ℝ) ≤ l.length := Nat.cast_nonneg _
  have hnum := numerator_error l (by omega)
  have hle := numerator_le l
  have h1 := root_error l (fun p => p.1) (by omega)
  have h2 := root_error l (fun p => p.2) (by omega)
  unfold cosFloat cosOf
  rcases (mul_nonneg (Real.sqrt_nonneg (l.map fun p : ℝ × ℝ => p.1 ^ 2).sum)
    (Real.sqrt_nonneg (l.map fun p : ℝ × ℝ => p.2 ^ 2).sum)).lt_or_eq with hR | hR
  · have ha : 0 < √(l.map fun p : ℝ × ℝ => p.1 ^ 2).sum := by
      rcases (Real.sqrt_nonneg (l.map fun p : ℝ × ℝ => p.1 ^ 2).sum).lt_or_eq with h | h
      · exact h
      · rw [← h, zero_mul] at hR; exact absurd hR (lt_irrefl _)
    have hb : 0 < √(l.map fun p : ℝ × ℝ => p.2 ^ 2).sum := by
      rcases (Real.sqrt_nonneg (l.map fun p : ℝ × ℝ => p.2 ^ 2).sum).lt_or_eq with h | h
      · exact h
      · rw [← h, mul_zero] at hR; exact absurd hR (lt_irrefl _)
    refine (cosQuotient (k := 3 / 2 * ((l.length + 1) / 2 ^ 52)) ha hb hle (hnum.trans ?_) h1 h2 ?_ ?_).trans ?_
    · refine mul_le_mul_of_nonneg_right ?_ hR.le
      have : (0 : ℝ) ≤ (l.length + 1) / 2 ^ 52 := by positivity
      linarith
    · have : (1 : ℝ) / 2 ^ 52 ≤ (l.length + 1) / 2 ^ 52 := div_le_div_of_nonneg_right (by linarith) (by positivity)
      have h53 : (1 : ℝ) / 2 ^ 53 ≤ 1 / 2 ^ 52 := by norm_num
      have : (0 : ℝ) ≤ (l.length + 1) / 2 ^ 52 := by positivity
      linarith
    · have : ((l.length : ℝ) + 1) / 2 ^ 52 ≤ 1 / 200 := by
        rw [div_le_div_iff₀ (by positivity) (by norm_num)]
        nlinarith
      linarith
    · have : (0 : ℝ) ≤ (l.length + 1) / 2 ^ 52 := by positivity
      have e : ((l.length : ℝ) + 1) / 2 ^ 48 = 16 * ((l.length + 1) / 2 ^ 52) := by ring
      rw [e]
      linarith
  · rw [← hR, mul_zero] at hnum
    rw [← hR] at hle
    have z1 : (l.map fun p : ℝ × ℝ => p.1 * p.2).sum = 0 := abs_nonpos_iff.1 hle
    rw [z1, sub_zero] at hnum
    have z2 := abs_nonpos_iff.1 hnum
    rw [z1, z2, zero_div, zero_div, toFloat_zero, sub_zero, abs_zero]
    positivity

end DRec
