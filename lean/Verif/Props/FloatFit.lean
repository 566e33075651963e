import Verif.Lemmas.FloatFit
import Verif.Lemmas.FloatMsd

/-!
# C132: standardised values, rescaled predictions and the mean loss in floating point
-/

namespace DRec

open DRec.Spec

/-! ## Rounding -/

theorem toFloat_roundTo {K : Type} [Field K] [LinearOrder K] [FloorRing K] (x : K) : toFloat x = roundTo 52 x := rfl

/-- C132: rounding gives the nearest number of the precision, doubles are the ones with 53 digits, and numbers of the
precision stay what they are. -/
theorem C132_rounding {K : Type} [Field K] [LinearOrder K] [FloorRing K] [IsStrictOrderedRing K] (q : Nat) (x : K) :
    Nearest q x (roundTo q x) ∧ toFloat x = roundTo 52 x ∧ (Digits q x → roundTo q x = x) :=
  ⟨roundTo_nearest x, rfl, roundTo_of_digits⟩

/-! ## Standardising -/

/-- C132: the standardised value in doubles lies in [0, 1], is 0 and 1 at the ends of the range, does not decrease, and is
within four roundings of the exact one. -/
theorem C132_standardized (lo hi x : ℚ) (hlt : lo < hi) (h1 : lo ≤ x) (h2 : x ≤ hi) :
    ∃ y, standardizeFloat lo hi x = .ok y ∧ 0 ≤ y ∧ y ≤ 1 ∧ (x = lo → y = 0) ∧ (x = hi → y = 1) ∧
      |y - (x - lo) / (hi - lo)| ≤ 4 * ((x - lo) / (hi - lo)) / 2 ^ 53 ∧
      ∀ x' y', x ≤ x' → standardizeFloat lo hi x' = .ok y' → y ≤ y' := by
  have hR : 0 < hi - lo := sub_pos.2 hlt
  have hR' := toFloat_pos hR
  have hn0 : 0 ≤ toFloat (x - lo) := toFloat_nonneg (sub_nonneg.2 h1)
  refine ⟨_, if_neg hR'.ne', toFloat_nonneg (div_nonneg hn0 hR'.le), ?_, ?_, ?_, ?_, ?_⟩
  · exact toFloat_le_one ((div_le_one hR').2 (toFloat_mono (by linarith)))
  · rintro rfl
    rw [sub_self, toFloat_zero, zero_div, toFloat_zero]
  · rintro rfl
    rw [div_self hR'.ne', toFloat_one]
  · refine (roundedQuotient_error hR).trans (le_of_eq ?_)
    rw [abs_of_nonneg (div_nonneg (sub_nonneg.2 h1) hR.le)]
    ring
  · intro x' y' hx h
    rw [standardizeFloat, if_neg hR'.ne'] at h
    rw [← Except.ok.inj h]
    exact toFloat_mono (div_le_div_of_nonneg_right (toFloat_mono (by linarith)) hR'.le)

/-! ## Rescaling -/

theorem single_mono {x y : ℚ} (h : x ≤ y) : single x ≤ single y := roundTo_mono h

theorem single_nonneg {x : ℚ} (h : 0 ≤ x) : 0 ≤ single x := roundTo_nonneg h

theorem single_grid {z : ℤ} (e : ℤ) (h : |z| ≤ 2 ^ 24) : single ((z : ℚ) * 2 ^ e) = z * 2 ^ e := by
  apply roundTo_of_digits
  rcases h.lt_or_eq with h | h
  · exact ⟨z, e, h, rfl⟩
  · rcases (abs_eq (by norm_num)).1 h with g | g
    · exact ⟨2 ^ 23, e + 1, by norm_num, by rw [g, zpow_add_one₀ (by norm_num)]; push_cast; ring⟩
    · exact ⟨-2 ^ 23, e + 1, by norm_num, by rw [g, zpow_add_one₀ (by norm_num)]; push_cast; ring⟩

theorem toFloat_gridPoint {z : ℤ} (e : ℤ) (h : |z| < 2 ^ 53) : toFloat ((z : ℚ) * 2 ^ e) = z * 2 ^ e :=
  toFloat_of_isDouble ⟨z, e, h, rfl⟩

/-- The full claim for predictions: rescaled from [0, 1] they lie within the interaction range.  `C132_rescaled_refuted`
shows it false. -/
def RescaledInRange : Prop := ∀ lo hi v : ℚ, IsDouble lo → IsDouble hi → lo < hi → Digits 23 v → 0 ≤ v → v ≤ 1 →
  lo ≤ rescaleSingle lo hi v ∧ rescaleSingle lo hi v ≤ hi

/-- C132: when the ends of the range are whole multiples of a power of two (stars, half stars), not too large, a prediction
rescaled in single precision lies within the range, is the lower end for 0 and the upper end for 1, and does not decrease.
Missing: other ranges, where it is false. -/
theorem C132_rescaled_partial (e a b : ℤ) (hab : a < b) (ha : |a| ≤ 2 ^ 24) (hb : |b| ≤ 2 ^ 24) (hd : b - a ≤ 2 ^ 24) (v : ℚ)
    (h0 : 0 ≤ v) (h1 : v ≤ 1) :
    let lo : ℚ := a * 2 ^ e
    let hi : ℚ := b * 2 ^ e
    lo ≤ rescaleSingle lo hi v ∧ rescaleSingle lo hi v ≤ hi ∧ rescaleSingle lo hi 0 = lo ∧ rescaleSingle lo hi 1 = hi ∧
      ∀ w, v ≤ w → rescaleSingle lo hi v ≤ rescaleSingle lo hi w := by
  intro lo hi
  have hR : hi - lo = ((b - a : ℤ) : ℚ) * 2 ^ e := by push_cast; ring
  have hRa : |b - a| ≤ 2 ^ 24 := by rw [abs_of_pos (by omega)]; exact hd
  have e1 : toFloat (hi - lo) = hi - lo := by
    rw [hR]
    exact toFloat_gridPoint e (lt_of_le_of_lt hRa (by norm_num))
  have e2 : single (hi - lo) = hi - lo := by
    rw [hR]
    exact single_grid e hRa
  have e3 : single lo = lo := single_grid e ha
  have e4 : single hi = hi := single_grid e hb
  have hp : (0 : ℚ) < 2 ^ e := by positivity
  have hpos : 0 ≤ hi - lo := by
    rw [hR]
    have : (0 : ℚ) ≤ ((b - a : ℤ) : ℚ) := by exact_mod_cast (by omega : 0 ≤ b - a)
    positivity
  have r : ∀ v, rescaleSingle lo hi v = single (lo + single ((hi - lo) * v)) := by
    intro v
    rw [rescaleSingle, e1, e2, e3]
  have mono : ∀ v w, v ≤ w → rescaleSingle lo hi v ≤ rescaleSingle lo hi w := by
    intro v w h
    rw [r, r]
    exact single_mono (add_le_add le_rfl (single_mono (mul_le_mul_of_nonneg_left h hpos)))
  have z0 : rescaleSingle lo hi 0 = lo := by
    rw [r, mul_zero]
    have : single (0 : ℚ) = 0 := roundTo_zero
    rw [this, add_zero, e3]
  have z1 : rescaleSingle lo hi 1 = hi := by
    rw [r, mul_one, e2, add_sub_cancel, e4]
  exact ⟨z0.symm.trans_le (mono 0 v h0), (mono v 1 h1).trans_eq z1, z0, z1, mono v⟩

/-- Interactions between 0 and 5 in half steps. -/
example : rescaleSingle (0 * 2 ^ (-1 : ℤ)) (10 * 2 ^ (-1 : ℤ)) (3 / 4 : ℚ) = 15 / 4 ∧
    (|(10 : ℤ)| ≤ 2 ^ 24 ∧ (10 : ℤ) - 0 ≤ 2 ^ 24) := by decide +kernel

/-- C132 (witness): with the largest interaction 0.1 the highest prediction is 0.10000000149011612. -/
theorem C132_rescaled_refuted : ¬ RescaledInRange := by
  intro h
  have := (h 0 (toFloat (1 / 10)) 1 ⟨0, 0, by norm_num, by simp⟩ (toFloat_isDouble _) (by decide +kernel)
    ⟨1, 0, by norm_num, by simp⟩ (by norm_num) le_rfl).2
  revert this
  decide +kernel

theorem single_error (x : ℚ) : |single x - x| ≤ |x| * (1 / 2 ^ 24) := by
  have := roundTo_error (q := 23) x
  rw [div_eq_mul_one_div] at this
  exact this

theorem error_times {x x' y y' a b m n : ℚ} (hx : |x' - x| ≤ a) (hy : |y' - y| ≤ b) (hxm : |x| ≤ m) (hyn : |y| ≤ n) :
    |x' * y' - x * y| ≤ a * n + m * b + a * b := by
  have e : x' * y' - x * y = (x' - x) * y + x * (y' - y) + (x' - x) * (y' - y) := by ring
  rw [e]
  have ha := le_trans (abs_nonneg _) hx
  have hm := le_trans (abs_nonneg _) hxm
  have h1 : |(x' - x) * y| ≤ a * n := by rw [abs_mul]; exact mul_le_mul hx hyn (abs_nonneg _) ha
  have h2 : |x * (y' - y)| ≤ m * b := by rw [abs_mul]; exact mul_le_mul hxm hy (abs_nonneg _) hm
  have h3 : |(x' - x) * (y' - y)| ≤ a * b := by rw [abs_mul]; exact mul_le_mul hx hy (abs_nonneg _) ha
  have := abs_add_le ((x' - x) * y + x * (y' - y)) ((x' - x) * (y' - y))
  have := abs_add_le ((x' - x) * y) (x * (y' - y))
  linarith

theorem error_trans {a b c m n : ℚ} (h1 : |a - b| ≤ m) (h2 : |b - c| ≤ n) : |a - c| ≤ m + n := by
  have e : a - c = (a - b) + (b - c) := by ring
  rw [e]
  exact (abs_add_le _ _).trans (add_le_add h1 h2)

theorem error_size {a b m n : ℚ} (h1 : |a - b| ≤ m) (h2 : |b| ≤ n) : |a| ≤ m + n := by
  have := abs_add_le (a - b) b
  rw [sub_add_cancel] at this
  linarith

/-- A rounding after an error. -/
theorem error_step {ε a b c m n : ℚ} (hε : 0 ≤ ε) (h1 : |a - b| ≤ |b| * ε) (h2 : |b - c| ≤ m) (h3 : |c| ≤ n) :
    |a - c| ≤ (m + n) * ε + m :=
  error_trans (h1.trans (mul_le_mul_of_nonneg_right (error_size h2 h3) hε)) h2

theorem learned_factors {ε R t y v Rf Rs : ℚ} (hε0 : 0 < ε) (hε : ε ≤ 1 / 1000) (hR : 0 < R) (ht0 : 0 ≤ t) (ht1 : t ≤ 1)
    (hy : |y - t| ≤ ε / 1000) (hv : |v - y| ≤ |y| * ε) (hRf : |Rf - R| ≤ R * (ε / 1000)) (hRs : |Rs - Rf| ≤ |Rf| * ε) :
    |v - t| ≤ 101 / 100 * ε ∧ |Rs - R| ≤ 101 / 100 * ε * R := by
  have h1 := error_step hε0.le hv hy (by rw [abs_of_nonneg ht0]; exact ht1 : |t| ≤ 1)
  have h2 := error_step hε0.le hRs hRf (le_of_eq (abs_of_pos hR))
  have h3 : ε * ε ≤ 1 / 1000 * ε := mul_le_mul_of_nonneg_right hε hε0.le
  constructor
  · refine h1.trans ?_
    linarith
  · refine h2.trans ?_
    have := mul_le_mul_of_nonneg_right h3 hR.le
    have := mul_pos hε0 hR
    linarith

theorem learned_product {ε R t v Rs P : ℚ} (hε0 : 0 < ε) (hε : ε ≤ 1 / 1000) (hR : 0 < R) (ht0 : 0 ≤ t) (ht1 : t ≤ 1)
    (hv : |v - t| ≤ 101 / 100 * ε) (hRs : |Rs - R| ≤ 101 / 100 * ε * R) (hP : |P - Rs * v| ≤ |Rs * v| * ε) :
    |P - R * t| ≤ 32 / 10 * ε * R := by
  have h1 := error_times hRs hv (le_of_eq (abs_of_pos hR)) (by rw [abs_of_nonneg ht0]; exact ht1 : |t| ≤ 1)
  have h3 : ε * ε ≤ 1 / 1000 * ε := mul_le_mul_of_nonneg_right hε hε0.le
  have h4 := mul_le_mul_of_nonneg_right h3 hR.le
  have h5 := mul_pos hε0 hR
  have h2 : |Rs * v - R * t| ≤ 21 / 10 * ε * R := h1.trans (by linarith)
  have hRt : |R * t| ≤ R := by
    rw [abs_mul, abs_of_pos hR, abs_of_nonneg ht0]
    exact mul_le_of_le_one_right hR.le ht1
  refine (error_step hε0.le hP h2 hRt).trans ?_
  linarith

theorem learned_sum {ε R t lo x M L P s : ℚ} (hε0 : 0 < ε) (hε : ε ≤ 1 / 1000) (hM : 0 < M) (hRM : R ≤ 2 * M)
    (hx : x = lo + R * t) (hxM : |x| ≤ M) (hlo : |lo| ≤ M) (hL : |L - lo| ≤ |lo| * ε) (hP : |P - R * t| ≤ 32 / 10 * ε * R)
    (hs : |s - (L + P)| ≤ |L + P| * ε) : |s - x| ≤ 10 * M * ε := by
  have l1 : |L - lo| ≤ M * ε := hL.trans (mul_le_mul_of_nonneg_right hlo hε0.le)
  have h5 := mul_pos hε0 hM
  have h6 := mul_le_mul_of_nonneg_left hRM hε0.le
  have q1 : |L + P - x| ≤ 75 / 10 * M * ε := by
    have e : L + P - x = (L - lo) + (P - R * t) := by rw [hx]; ring
    rw [e]
    refine (abs_add_le _ _).trans ?_
    linarith
  have h3 : ε * ε ≤ 1 / 1000 * ε := mul_le_mul_of_nonneg_right hε hε0.le
  have h4 := mul_le_mul_of_nonneg_left h3 hM.le
  refine (error_step hε0.le hs q1 hxM).trans ?_
  linarith

/-- C132: a network that has learned the standardised interaction (as a single precision number) predicts the interaction
up to `10 M / 2 ^ 24`, with `M` the largest absolute value of the range. -/
theorem C132_learned (lo hi x M : ℚ) (hlt : lo < hi) (h1 : lo ≤ x) (h2 : x ≤ hi) (hM1 : |lo| ≤ M) (hM2 : |hi| ≤ M) :
    ∃ y, standardizeFloat lo hi x = .ok y ∧ |rescaleSingle lo hi (single y) - x| ≤ 10 * M / 2 ^ 24 := by
  obtain ⟨y, hy, -, -, -, -, herr, -⟩ := C132_standardized lo hi x hlt h1 h2
  refine ⟨y, hy, ?_⟩
  clear hy
  have hR : 0 < hi - lo := sub_pos.2 hlt
  have a1 := (abs_le.1 hM1).1
  have a2 := (abs_le.1 hM2).2
  have hRM : hi - lo ≤ 2 * M := by linarith
  have hM : 0 < M := by linarith
  have ht0 : 0 ≤ (x - lo) / (hi - lo) := div_nonneg (sub_nonneg.2 h1) hR.le
  have ht1 : (x - lo) / (hi - lo) ≤ 1 := (div_le_one hR).2 (by linarith)
  have hx : x = lo + (hi - lo) * ((x - lo) / (hi - lo)) := by
    rw [mul_div_cancel₀ _ hR.ne']; ring
  have hxM : |x| ≤ M := abs_le.2 ⟨by linarith, by linarith⟩
  have hε : (1 : ℚ) / 2 ^ 24 ≤ 1 / 1000 := by norm_num
  have hε0 : (0 : ℚ) < 1 / 2 ^ 24 := by positivity
  have fR : |toFloat (hi - lo) - (hi - lo)| ≤ (hi - lo) * (1 / 2 ^ 24 / 1000) := by
    refine (toFloat_error _).trans ?_
    rw [abs_of_pos hR, div_eq_mul_one_div]
    exact mul_le_mul_of_nonneg_left (by norm_num) hR.le
  have herr' : |y - (x - lo) / (hi - lo)| ≤ 1 / 2 ^ 24 / 1000 := by
    refine herr.trans ((div_le_div_of_nonneg_right (by linarith : _ ≤ (4 : ℚ)) (by positivity)).trans ?_)
    norm_num
  have hf := learned_factors hε0 hε hR ht0 ht1 herr' (single_error y) fR (single_error _)
  have hp := learned_product hε0 hε hR ht0 ht1 hf.1 hf.2 (single_error _)
  rw [div_eq_mul_one_div]
  exact learned_sum hε0 hε hM hRM hx hxM hM1 (single_error lo) hp (single_error _)

/-- Three stars out of five, with the range lowered to 0. -/
example : ∃ y, standardizeFloat 0 5 3 = .ok y ∧ y ≠ 3 / 5 ∧ rescaleSingle 0 5 (single y) = 3 :=
  ⟨toFloat (3 / 5), by decide +kernel, by decide +kernel, by decide +kernel⟩

/-! ## The mean loss -/

/-- The state after some losses: their number and the average. -/
theorem lossState (q : Nat) (l : List ℚ) : l.foldl (addLossTo q) (0, 0) = (l.length, meanLossTo q l) := by
  have : ∀ (l : List ℚ) (s : Nat × ℚ), (l.foldl (addLossTo q) s).1 = s.1 + l.length := by
    intro l
    induction l with
    | nil => intro s; rfl
    | cons x l ih => intro s; rw [List.foldl_cons, ih, List.length_cons, addLossTo]; dsimp only; omega
  refine Prod.ext ?_ rfl
  rw [this, zero_add]

theorem meanLossTo_snoc (q : Nat) (l : List ℚ) (x : ℚ) : meanLossTo q (l ++ [x]) =
    roundTo q (meanLossTo q l + roundTo q (roundTo q (x - meanLossTo q l) / ((l.length + 1 : Nat) : ℚ))) := by
  rw [meanLossTo, List.foldl_append, lossState]
  rfl

theorem mean_snoc (l : List ℚ) (x : ℚ) : (l ++ [x]).sum / ((l ++ [x]).length : ℚ) =
    l.sum / (l.length : ℚ) + (x - l.sum / (l.length : ℚ)) / ((l.length + 1 : Nat) : ℚ) := by
  rw [List.sum_append, List.length_append, List.sum_singleton, List.length_singleton]
  have h1 : ((l.length + 1 : Nat) : ℚ) ≠ 0 := by exact_mod_cast Nat.succ_ne_zero l.length
  rcases Nat.eq_zero_or_pos l.length with h | h
  · have : l = [] := List.eq_nil_of_length_eq_zero h
    subst this
    simp
  · have h2 : (l.length : ℚ) ≠ 0 := by exact_mod_cast h.ne'
    push_cast at h1 ⊢
    field_simp
    ring

theorem mean_bound {l : List ℚ} {M : ℚ} (hM : 0 ≤ M) (h : ∀ x ∈ l, |x| ≤ M) : |l.sum / (l.length : ℚ)| ≤ M := by
  have hs : |l.sum| ≤ l.length * M := by
    induction l with
    | nil => simp
    | cons x l ih =>
      have h1 := h x (List.mem_cons_self ..)
      have h2 := ih fun y hy => h y (List.mem_cons_of_mem _ hy)
      rw [List.sum_cons, List.length_cons]
      have := abs_add_le x l.sum
      push_cast
      linarith
  rcases Nat.eq_zero_or_pos l.length with h0 | h0
  · rw [h0]
    simpa using hM
  · have h2 : (0 : ℚ) < l.length := by exact_mod_cast h0
    rw [abs_div, abs_of_pos h2, div_le_iff₀ h2]
    linarith

/-- One more loss adds an error of at most six roundings. -/
theorem lossStep {u A m x n d g s M E : ℚ} (hu0 : 0 < u) (hu : u ≤ 1 / 60) (hn : 1 ≤ n) (hM : 0 ≤ M) (hx : |x| ≤ M)
    (hm : |m + (x - m) / n| ≤ M) (hm0 : |m| ≤ M) (hE : E ≤ M / 10) (hA : |A - m| ≤ E) (hd : |d - (x - A)| ≤ |x - A| * u)
    (hg : |g - d / n| ≤ |d / n| * u) (hs : |s - (A + g)| ≤ |A + g| * u) :
    |s - (m + (x - m) / n)| ≤ E + 6 * M * u := by
  have hn0 : 0 < n := by linarith
  have hE0 : 0 ≤ E := le_trans (abs_nonneg _) hA
  have hMu : 0 ≤ M * u := mul_nonneg hM hu0.le
  have hMuu : M * u * u ≤ M * u * (1 / 60) := mul_le_mul_of_nonneg_left hu hMu
  have hA' : |A| ≤ 11 / 10 * M := (error_size hA hm0).trans (by linarith)
  have hxA : |x - A| ≤ 21 / 10 * M := by
    have := abs_sub x A
    linarith
  have hd' : |d - (x - A)| ≤ 21 / 10 * M * u := hd.trans (mul_le_mul_of_nonneg_right hxA hu0.le)
  have hn' : ∀ z : ℚ, |z / n| ≤ |z| := fun z => by
    rw [abs_div, abs_of_pos hn0]
    exact div_le_self (abs_nonneg _) hn
  have hdn : |d / n - (x - A) / n| ≤ 21 / 10 * M * u := by
    rw [← sub_div]
    exact (hn' _).trans hd'
  have hg' := error_step hu0.le hg hdn ((hn' _).trans hxA)
  have hg'' : |g - (x - A) / n| ≤ 43 / 10 * M * u := hg'.trans (by linarith)
  have hc : |(A - m) * (1 - 1 / n)| ≤ E := by
    have h1 : (1 : ℚ) / n ≤ 1 := (div_le_one hn0).2 hn
    have h2 : 0 < (1 : ℚ) / n := by positivity
    rw [abs_mul, abs_of_nonneg (by linarith : (0 : ℚ) ≤ 1 - 1 / n)]
    calc |A - m| * (1 - 1 / n) ≤ |A - m| * 1 := mul_le_mul_of_nonneg_left (by linarith) (abs_nonneg _)
      _ ≤ E := by rw [mul_one]; exact hA
  have hsum : |A + g - (m + (x - m) / n)| ≤ E + 43 / 10 * M * u := by
    have e : A + g - (m + (x - m) / n) = (A - m) * (1 - 1 / n) + (g - (x - A) / n) := by
      field_simp
      ring
    rw [e]
    exact (abs_add_le _ _).trans (add_le_add hc hg'')
  refine (error_step hu0.le hs hsum hm).trans ?_
  have : E * u ≤ M / 10 * u := mul_le_mul_of_nonneg_right hE hu0.le
  linarith

theorem roundTo_error' (q : Nat) (x : ℚ) : |roundTo q x - x| ≤ |x| * (1 / 2 ^ (q + 1)) := by
  have := roundTo_error (q := q) x
  rw [div_eq_mul_one_div] at this
  exact this

/-- C132: the running average of the losses, every operation rounded to `q + 1` binary digits, differs from their mean by
at most six roundings of the largest loss for each epoch. -/
theorem C132_mean_loss (q : Nat) (losses : List ℚ) (M : ℚ) (hM : ∀ x ∈ losses, |x| ≤ M)
    (hlen : 60 * losses.length ≤ 2 ^ (q + 1)) :
    |meanLossTo q losses - losses.sum / losses.length| ≤ 6 * losses.length * M / 2 ^ (q + 1) := by
  induction losses using List.reverseRecOn with
  | nil => simp [meanLossTo]
  | append_singleton l x ih =>
    have hx := hM x (by simp)
    have hM0 : 0 ≤ M := le_trans (abs_nonneg _) hx
    have hl : ∀ y ∈ l, |y| ≤ M := fun y hy => hM y (by simp [hy])
    have hlen' : 60 * l.length + 60 ≤ 2 ^ (q + 1) := by
      rw [List.length_append, List.length_singleton] at hlen
      omega
    have ih' := ih hl (by omega)
    have hp : (0 : ℚ) < 2 ^ (q + 1) := by positivity
    have hq : (60 * (l.length : ℚ) + 60) ≤ 2 ^ (q + 1) := by exact_mod_cast hlen'
    have hm := mean_bound hM0 hM
    rw [mean_snoc] at hm ⊢
    rw [meanLossTo_snoc]
    have hu : (1 : ℚ) / 2 ^ (q + 1) ≤ 1 / 60 := by
      apply one_div_le_one_div_of_le (by norm_num)
      have : (0 : ℚ) ≤ l.length := by positivity
      linarith
    have hE : 6 * (l.length : ℚ) * M / 2 ^ (q + 1) ≤ M / 10 := by
      rw [div_le_iff₀ hp]
      have := mul_le_mul_of_nonneg_left hq hM0
      linarith
    have hn : (1 : ℚ) ≤ ((l.length + 1 : Nat) : ℚ) := by exact_mod_cast Nat.succ_le_succ (Nat.zero_le _)
    refine (lossStep (by positivity) hu hn hM0 hx hm (mean_bound hM0 hl) hE ih' (roundTo_error' q _) (roundTo_error' q _)
      (roundTo_error' q _)).trans (le_of_eq ?_)
    rw [List.length_append, List.length_singleton]
    push_cast
    ring

/-- C132: when every epoch has the same loss, the average is that loss. -/
theorem C132_same_loss (q n : Nat) (c : ℚ) (hc : Digits q c) : meanLossTo q (List.replicate (n + 1) c) = c := by
  induction n with
  | zero =>
    have := meanLossTo_snoc q [] c
    rw [List.nil_append] at this
    rw [List.replicate_one, this]
    have h0 : meanLossTo q [] = 0 := rfl
    simp [h0, roundTo_of_digits hc]
  | succ n ih =>
    rw [List.replicate_succ', meanLossTo_snoc, ih, sub_self, roundTo_zero, zero_div, roundTo_zero, add_zero,
      roundTo_of_digits hc]

/-- The full claim for the average: it is the mean of the losses, rounded once.  `C132_mean_refuted` shows it false. -/
def MeanRounded : Prop := ∀ losses : List ℚ, (∀ x ∈ losses, Digits 23 x) →
  meanLossTo 23 losses = single (losses.sum / losses.length)

/-- C132 (witness): the losses 1, 1, 3 give 1.66666675, their mean rounded once is 1.66666663. -/
theorem C132_mean_refuted : ¬ MeanRounded := by
  intro h
  have := h [1, 1, 3] (by
    intro x hx
    simp only [List.mem_cons, List.not_mem_nil, or_false] at hx
    rcases hx with rfl | rfl | rfl
    · exact ⟨1, 0, by norm_num, by simp⟩
    · exact ⟨1, 0, by norm_num, by simp⟩
    · exact ⟨3, 0, by norm_num, by simp⟩)
  revert this
  decide +kernel

/-- Three epochs: the number of losses is far below the bound of single precision. -/
example : meanLossTo 23 [1, 1, 3] ≠ 5 / 3 ∧ 60 * [(1 : ℚ), 1, 3].length ≤ 2 ^ (23 + 1) ∧
    meanLossTo 23 [1 / 2, 1 / 2, 1 / 2] = 1 / 2 := by decide +kernel

/-- A range of stars, and the rounding of 0.1. -/
example : standardizeFloat 1 5 4 = .ok (3 / 4) ∧ standardizeFloat 1 5 1 = .ok 0 ∧ standardizeFloat 1 5 5 = .ok 1 ∧
    single (1 / 10 : ℚ) = 13421773 / 2 ^ 27 := by decide +kernel

end DRec
