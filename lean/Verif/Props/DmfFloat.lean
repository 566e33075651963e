import Verif.Lemmas.DmfFloat

/-!
# C136: DMF's scores in single precision

The representations, their size (up to 65536), the order of all sums and the rounding of the reciprocal root (within its bound) are
arbitrary.
-/

namespace DRec.Dm

open Spec

/-- C136: whatever the order of the sums, a score differs from the exact one by at most (3n + 16) / 2^24. -/
theorem C136_close (x y : List ℝ) (v : ℝ) (hlen : x.length = y.length) (hn : x.length ≤ 2 ^ 16) (h : Scored Rsqrt x y v) :
    |v - exactScore x y| ≤ scoreError x.length := by
  obtain ⟨x', y', d, hx, hy, hd, rfl⟩ := h
  obtain ⟨f, rfl, hf⟩ := normalised_error hn hx
  obtain ⟨g, rfl, hg⟩ := normalised_error (hlen ▸ hn) hy
  have e1 : (x.zip y).map (·.1) = x := List.map_fst_zip hlen.le
  have e2 : (x.zip y).map (·.2) = y := List.map_snd_zip hlen.ge
  have e3 : (x.zip y).length = x.length := by rw [List.length_zip, hlen, min_self]
  have ez : List.zipWith (fun a b => single (a * b)) (x.map f) (y.map g) =
      (x.zip y).map fun p => single (f p.1 * g p.2) := by
    rw [List.zipWith_map, List.zip, List.map_zipWith]
  rw [ez] at hd
  have em : (x.zip y).map (fun p => p.1 * p.2) = List.zipWith (· * ·) x y := by
    rw [List.zip, List.map_zipWith]
  have key := (dot_close (x.zip y) f g d (e3 ▸ hn) (by rw [e1, e3]; exact hf) (by rw [e2, e3, hlen]; exact hg) hd).1
  rw [e1, e2, e3, em] at key
  refine (abs_max_sub_max_le_max _ _ _ _).trans (max_le ?_ key)
  refine (single_err _).trans ?_
  rw [abs_of_pos (by norm_num)]
  unfold scoreError
  have : (0 : ℝ) ≤ 3 * x.length / 2 ^ 24 := by positivity
  rw [add_div]
  norm_num at this ⊢
  linarith

theorem exactScore_le (x y : List ℝ) (hlen : x.length = y.length) : exactScore x y ≤ 1 := by
  have e1 : (x.zip y).map (·.1) = x := List.map_fst_zip hlen.le
  have e2 : (x.zip y).map (·.2) = y := List.map_snd_zip hlen.ge
  have em : (x.zip y).map (fun p => p.1 * p.2) = List.zipWith (· * ·) x y := by
    rw [List.zip, List.map_zipWith]
  have hA := vecLen_pos x
  have hB := vecLen_pos y
  have hc : ((x.zip y).map fun p => p.1 * p.2).sum ≤ vecLen ((x.zip y).map (·.1)) * vecLen ((x.zip y).map (·.2)) :=
    (le_abs_self _).trans ((abs_sum_le _ _).trans ((pairs_cauchy _).trans
      (mul_le_mul (lens _ (·.1)) (lens _ (·.2)) (Real.sqrt_nonneg _) (vecLen_pos _).le)))
  rw [e1, e2, em] at hc
  exact max_le (by norm_num) ((div_le_one (mul_pos hA hB)).2 hc)

theorem exactScore_pos (x y : List ℝ) : 0 < exactScore x y := lt_of_lt_of_le (by norm_num) (le_max_left _ _)

/-- C136: there is a score, it is at least 1e-6 in single precision, and exceeds 1 by no more than the error. -/
theorem C136_range (x y : List ℝ) (hlen : x.length = y.length) (hn : x.length ≤ 2 ^ 16) :
    (∃ v, Scored Rsqrt x y v) ∧ ∀ v, Scored Rsqrt x y v → 0 < v ∧ single (1 / 10 ^ 6) ≤ v ∧ v ≤ 1 + scoreError x.length := by
  refine ⟨(scored_exists x y).imp fun v => scored_best, fun v h => ?_⟩
  have hc := (abs_le.1 (C136_close x y v hlen hn h)).2
  have he := exactScore_le x y hlen
  obtain ⟨x', y', d, _, _, _, hv⟩ := h
  have hm : single (1 / 10 ^ 6) ≤ v := by rw [hv]; exact le_max_left _ _
  exact ⟨lt_of_lt_of_le (single_pos (by norm_num)) hm, hm, by linarith⟩

/-- C136: two items are ranked as by the exact scores when these differ by more than twice the error. -/
theorem C136_order (u x y : List ℝ) (v w : ℝ) (hx : u.length = x.length) (hy : u.length = y.length) (hn : u.length ≤ 2 ^ 16)
    (hv : Scored Rsqrt u x v) (hw : Scored Rsqrt u y w) (h : exactScore u x + 2 * scoreError u.length < exactScore u y) : v < w := by
  have h1 := (abs_le.1 (C136_close u x v hx hn hv)).2
  have h2 := (abs_le.1 (C136_close u y w hy hn hw)).1
  linarith

/-- C136: the same pair scored again, in another order of the sums, changes by at most twice the error. -/
theorem C136_again (x y : List ℝ) (v w : ℝ) (hlen : x.length = y.length) (hn : x.length ≤ 2 ^ 16) (hv : Scored Rsqrt x y v)
    (hw : Scored Rsqrt x y w) : |v - w| ≤ 2 * scoreError x.length := by
  have h1 := abs_le.1 (C136_close x y v hlen hn hv)
  have h2 := abs_le.1 (C136_close x y w hlen hn hw)
  rw [abs_le]
  constructor <;> linarith [h1.1, h1.2, h2.1, h2.2]

/-- C136: each number of a normalised vector has a relative error of at most (n + 8) / 2^24. -/
theorem C136_normalised (x y : List ℝ) (hn : x.length ≤ 2 ^ 16) (h : Normalised Rsqrt x y) :
    y.length = x.length ∧ ∀ (k : Nat) (a b : ℝ), x[k]? = some a → y[k]? = some b →
      |b - a / vecLen x| ≤ (x.length + 8) / 2 ^ 24 * |a / vecLen x| := by
  obtain ⟨f, rfl, hf⟩ := normalised_error hn h
  refine ⟨List.length_map f, fun k a b ha hb => ?_⟩
  rw [List.getElem?_map, ha, Option.map_some, Option.some.injEq] at hb
  subst hb
  have hp := vecLen_pos x
  have := hf a
  have hg : normError x.length ≤ (x.length + 8) / 2 ^ 24 := by
    have h0 : (0 : ℝ) ≤ x.length := Nat.cast_nonneg _
    unfold normError
    have e : ((x.length : ℝ) + 8) / 2 ^ 24 - (9 / 16 * ((x.length + 1) / 2 ^ 24) + 11 / 2 / 2 ^ 24) =
        (7 / 16 * x.length + 31 / 16) / 2 ^ 24 := by ring
    have : (0 : ℝ) ≤ (7 / 16 * x.length + 31 / 16) / 2 ^ 24 := by positivity
    linarith
  have e : f a - a / vecLen x = (f a * vecLen x - a) / vecLen x := by field_simp
  rw [e, abs_div, abs_div, abs_of_pos hp, ← mul_div_assoc]
  exact div_le_div_of_nonneg_right (this.trans (mul_le_mul_of_nonneg_right hg (abs_nonneg a))) hp.le

theorem added_zero {l : List ℝ} {s : ℝ} (h : Added l s) (hz : ∀ a ∈ l, a = 0) : s = 0 := by
  induction h with
  | nil => rfl
  | one x => exact hz x (by simp)
  | add _ _ _ _ ih1 ih2 =>
    rw [ih1 fun a ha => hz a (by simp [ha]), ih2 fun a ha => hz a (by simp [ha]), add_zero]
    exact roundTo_zero
  | perm hp _ ih => exact ih fun a ha => hz a (hp.mem_iff.1 ha)

/-- C136: when one of the representations is all 0, the score is 1e-6 in single precision, without any further error. -/
theorem C136_dead (x y : List ℝ) (v : ℝ) (R : ℝ → ℝ → Prop) (hz : (∀ a ∈ x, a = 0) ∨ ∀ a ∈ y, a = 0) (h : Scored R x y v) :
    v = single (1 / 10 ^ 6) := by
  obtain ⟨x', y', d, ⟨s, r, _, _, rfl⟩, ⟨t, q, _, _, rfl⟩, hd, rfl⟩ := h
  have s0 : single (0 : ℝ) = 0 := roundTo_zero
  have : d = 0 := by
    refine added_zero hd fun a ha => ?_
    rw [List.zipWith_map, List.mem_iff_getElem] at ha
    obtain ⟨k, hk, rfl⟩ := ha
    rw [List.getElem_zipWith]
    rcases hz with hz | hz
    · rw [hz _ (List.getElem_mem _), zero_mul, s0, zero_mul, s0]
    · rw [hz _ (List.getElem_mem _), zero_mul, s0, mul_zero, s0]
  rw [this]
  exact max_eq_left (single_pos (by norm_num)).le

theorem toFloat_err (x : ℝ) : |toFloat x - x| ≤ 1 / 2 ^ 53 * |x| := by
  have := roundTo_error (q := 52) x
  rw [div_eq_mul_one_div, mul_comm] at this
  exact this

/-- C136: the prediction, rescaled in single precision to interactions of absolute value at most `M`. -/
theorem C136_prediction (lo hi M : ℝ) (x y : List ℝ) (p : ℝ) (hlo : |lo| ≤ M) (hhi : |hi| ≤ M) (hlen : x.length = y.length)
    (hn : x.length ≤ 2 ^ 16) (h : Predicted Rsqrt lo hi x y p) :
    |p - (lo + (hi - lo) * exactScore x y)| ≤ M * (2 * scoreError x.length + 10 / 2 ^ 24) := by
  obtain ⟨v, hv, rfl⟩ := h
  have hc := C136_close x y v hlen hn hv
  obtain ⟨v0, _, v1⟩ := (C136_range x y hlen hn).2 v hv
  have hM : 0 ≤ M := (abs_nonneg _).trans hlo
  have hR : |hi - lo| ≤ 2 * M := (abs_sub _ _).trans (by linarith)
  have hs1 : scoreError x.length ≤ 1 / 64 := by
    have hn1 : (x.length : ℝ) ≤ 2 ^ 16 := by exact_mod_cast hn
    unfold scoreError
    rw [div_le_div_iff₀ (by positivity) (by norm_num)]
    nlinarith
  have hs0 : 0 ≤ scoreError x.length := (abs_nonneg _).trans hc
  unfold rescaleSingle
  generalize exactScore x y = E at *
  generalize scoreError x.length = ε at *
  have vv : v ≤ 65 / 64 := by linarith
  have a1 := single_err lo
  have a2 := toFloat_err (hi - lo)
  have a3 := single_err (toFloat (hi - lo))
  have a4 := single_err (single (toFloat (hi - lo)) * v)
  have a5 := single_err (single lo + single (single (toFloat (hi - lo)) * v))
  generalize single (single lo + single (single (toFloat (hi - lo)) * v)) = p at *
  generalize single (single (toFloat (hi - lo)) * v) = P at *
  generalize single (toFloat (hi - lo)) = R1 at *
  generalize toFloat (hi - lo) = R0 at *
  generalize single lo = L at *
  generalize hi - lo = R at *
  -- the sizes of all intermediate results
  have b2 : |R0 - R| ≤ M / 2 ^ 50 := a2.trans (by norm_num; linarith)
  have c2 : |R0| ≤ 2 * M + M / 2 ^ 50 := by
    have := abs_add_le (R0 - R) R
    rw [sub_add_cancel] at this
    linarith
  have b3 : |R1 - R0| ≤ 17 / 8 * (M / 2 ^ 24) := a3.trans (by norm_num at c2 ⊢; linarith)
  have c3 : |R1| ≤ 33 / 16 * M := by
    have := abs_add_le (R1 - R0) R0
    rw [sub_add_cancel] at this
    norm_num at b3 c2
    linarith
  have c4 : |R1 * v| ≤ 135 / 64 * M := by
    rw [abs_mul, abs_of_pos v0]
    calc |R1| * v ≤ 33 / 16 * M * (65 / 64) := mul_le_mul c3 vv v0.le (by positivity)
      _ ≤ 135 / 64 * M := by linarith
  have b4 : |P - R1 * v| ≤ 135 / 64 * (M / 2 ^ 24) := a4.trans (by norm_num at c4 ⊢; linarith)
  have b1 : |L - lo| ≤ M / 2 ^ 24 := a1.trans (by norm_num at hlo ⊢; linarith)
  have c5 : |L + P| ≤ 25 / 8 * M := by
    have t1 := abs_add_le L P
    have t2 := abs_add_le (L - lo) lo
    have t3 := abs_add_le (P - R1 * v) (R1 * v)
    rw [sub_add_cancel] at t2 t3
    norm_num at b1 b4
    linarith
  have b5 : |p - (L + P)| ≤ 25 / 8 * (M / 2 ^ 24) := a5.trans (by norm_num at c5 ⊢; linarith)
  have b6 : |(R1 - R) * v| ≤ 36 / 16 * (M / 2 ^ 24) := by
    have t := abs_add_le (R1 - R0) (R0 - R)
    rw [sub_add_sub_cancel] at t
    have t' : |R1 - R| ≤ 35 / 16 * (M / 2 ^ 24) := by norm_num at b2 b3 ⊢; linarith
    rw [abs_mul, abs_of_pos v0]
    have : |R1 - R| * v ≤ 35 / 16 * (M / 2 ^ 24) * (65 / 64) := mul_le_mul t' vv v0.le (by positivity)
    have h0 : (0 : ℝ) ≤ M / 2 ^ 24 := by positivity
    linarith
  have b7 : |R * (v - E)| ≤ 2 * M * ε := by
    rw [abs_mul]
    exact mul_le_mul hR hc (abs_nonneg _) (by positivity)
  have e : p - (lo + R * E) = (p - (L + P)) + (L - lo) + (P - R1 * v) + (R1 - R) * v + R * (v - E) := by ring
  rw [e]
  have u1 := abs_add_le ((p - (L + P)) + (L - lo) + (P - R1 * v) + (R1 - R) * v) (R * (v - E))
  have u2 := abs_add_le ((p - (L + P)) + (L - lo) + (P - R1 * v)) ((R1 - R) * v)
  have u3 := abs_add_le ((p - (L + P)) + (L - lo)) (P - R1 * v)
  have u4 := abs_add_le (p - (L + P)) (L - lo)
  have h0 : (0 : ℝ) ≤ M / 2 ^ 24 := by positivity
  have e2 : M * (2 * ε + 10 / 2 ^ 24) = 2 * M * ε + 10 * (M / 2 ^ 24) := by ring
  rw [e2]
  linarith

/-- The claim that scores are at most 1, with every operation rounded as well as possible. -/
def ScoresAtMostOne : Prop := ∀ (x y : List ℝ) (v : ℝ), (∀ a ∈ x, 0 ≤ a) → (∀ a ∈ y, 0 ≤ a) → x.length = y.length →
  Scored RsqrtBest x y v → v ≤ 1

/-- The claim that predictions do not exceed the largest interaction, with every operation rounded as well as possible.
`C136_range_refuted` shows both false. -/
def PredictionsAtMostMax : Prop := ∀ (lo hi : ℝ) (x y : List ℝ) (p : ℝ), lo < hi → (∀ a ∈ x, 0 ≤ a) → (∀ a ∈ y, 0 ≤ a) →
  x.length = y.length → Predicted RsqrtBest lo hi x y p → p ≤ hi

/-- C136: a prediction leaves the range of the interactions by no more than this error.  Missing: that it does not leave it
(`PredictionsAtMostMax`), which is false. -/
theorem C136_outside_partial (lo hi M : ℝ) (x y : List ℝ) (p : ℝ) (hle : lo ≤ hi) (hlo : |lo| ≤ M) (hhi : |hi| ≤ M)
    (hlen : x.length = y.length) (hn : x.length ≤ 2 ^ 16) (h : Predicted Rsqrt lo hi x y p) :
    lo - M * (2 * scoreError x.length + 10 / 2 ^ 24) ≤ p ∧ p ≤ hi + M * (2 * scoreError x.length + 10 / 2 ^ 24) := by
  obtain ⟨h1, h2⟩ := abs_le.1 (C136_prediction lo hi M x y p hlo hhi hlen hn h)
  have e0 := exactScore_pos x y
  have e1 := exactScore_le x y hlen
  have r0 : 0 ≤ (hi - lo) * exactScore x y := mul_nonneg (by linarith) e0.le
  have r1 : (hi - lo) * exactScore x y ≤ (hi - lo) * 1 := mul_le_mul_of_nonneg_left e1 (by linarith)
  constructor <;> linarith

theorem added_three (a b c : ℚ) : Added [(a : ℝ), b, c] ((single (single (a + b) + c) : ℚ) : ℝ) := by
  have h1 : Added [(a : ℝ), b] ((single (a + b) : ℚ) : ℝ) := by
    have := Added.add (by simp) (by simp) (.one (a : ℝ)) (.one (b : ℝ))
    rwa [← Rat.cast_add, single_cast] at this
  have := Added.add (by simp) (by simp) h1 (.one (c : ℝ))
  rwa [← Rat.cast_add, single_cast] at this

/-- The vector (2, 3, 6) after normalisation. -/
def wx : List ℚ := [single (2 * single (1 / 7)), single (3 * single (1 / 7)), single (6 * single (1 / 7))]

theorem normalised_236 : Normalised RsqrtBest [2, 3, 6] (wx.map fun (q : ℚ) => (q : ℝ)) := by
  refine ⟨49, ((single (1 / 7) : ℚ) : ℝ), ?_, ?_, ?_⟩
  · have := added_three (single (2 * 2)) (single (3 * 3)) (single (6 * 6))
    have e : single (single (single (2 * 2) + single (3 * 3)) + single (6 * 6)) = (49 : ℚ) := by decide +kernel
    rw [e] at this
    simp only [← single_cast] at this
    norm_num at this ⊢
    exact this
  · have hm : max (49 : ℝ) (single (1 / 10 ^ 12)) = 49 := by
      refine max_eq_left ?_
      have : single (1 / 10 ^ 12 : ℝ) ≤ 1 := by
        have := (abs_le.1 (single_err (1 / 10 ^ 12 : ℝ))).2
        rw [abs_of_pos (by norm_num)] at this
        norm_num at this ⊢
        linarith
      linarith
    rw [hm, RsqrtBest, show (49 : ℝ) = 7 ^ 2 by norm_num, Real.sqrt_sq (by norm_num), ← single_cast]
    norm_num
  · simp only [wx, List.map_cons, List.map_nil, ← single_cast, Rat.cast_mul]
    norm_num

theorem scored_236 : Scored RsqrtBest [2, 3, 6] [2, 3, 6] ((1 + 1 / 2 ^ 22 : ℚ) : ℝ) := by
  refine ⟨_, _, ((1 + 1 / 2 ^ 22 : ℚ) : ℝ), normalised_236, normalised_236, ?_, ?_⟩
  · obtain ⟨a, b, c, hw⟩ : ∃ a b c : ℚ, wx = [a, b, c] := ⟨_, _, _, rfl⟩
    have := added_three (single (wx.getD 0 0 * wx.getD 0 0)) (single (wx.getD 1 0 * wx.getD 1 0)) (single (wx.getD 2 0 * wx.getD 2 0))
    have e : single (single (single (wx.getD 0 0 * wx.getD 0 0) + single (wx.getD 1 0 * wx.getD 1 0)) +
        single (wx.getD 2 0 * wx.getD 2 0)) = (1 + 1 / 2 ^ 22 : ℚ) := by decide +kernel
    rw [e, hw] at this
    rw [hw]
    simp only [← single_cast, Rat.cast_mul, List.getD_cons_zero, List.getD_cons_succ] at this
    exact this
  · refine (max_eq_right ?_).symm
    have : single (1 / 10 ^ 6 : ℝ) ≤ 1 := by
      have := (abs_le.1 (single_err (1 / 10 ^ 6 : ℝ))).2
      rw [abs_of_pos (by norm_num)] at this
      norm_num at this ⊢
      linarith
    refine this.trans ?_
    norm_num

/-- C136 (witness): a user and an item with the representation (2, 3, 6) get a score above 1, although every operation rounds
correctly, and with stars from 1 to 5 a prediction above 5. -/
theorem C136_range_refuted : ¬ ScoresAtMostOne ∧ ¬ PredictionsAtMostMax := by
  have hx : ∀ a ∈ ([2, 3, 6] : List ℝ), 0 ≤ a := by
    intro a ha
    simp only [List.mem_cons, List.not_mem_nil, or_false] at ha
    rcases ha with rfl | rfl | rfl <;> norm_num
  constructor
  · intro h
    have := h _ _ _ hx hx rfl scored_236
    norm_num at this
  · intro h
    have := h ((1 : ℚ) : ℝ) ((5 : ℚ) : ℝ) _ _ _ (by norm_num) hx hx rfl ⟨_, scored_236, rfl⟩
    rw [rescaleSingle_cast, Rat.cast_le] at this
    revert this
    decide +kernel

/-- A pair of this size meets the hypotheses. -/
example : ∃ v, Scored Rsqrt [2, 3, 6] [2, 3, 6] v ∧ v ≠ 1 ∧ |v - exactScore [2, 3, 6] [2, 3, 6]| ≤ 25 / 2 ^ 24 := by
  refine ⟨_, scored_best scored_236, by norm_num, ?_⟩
  have := C136_close [2, 3, 6] [2, 3, 6] _ rfl (by norm_num) (scored_best scored_236)
  unfold scoreError at this
  norm_num at this ⊢
  exact this

/-- Two items whose order is certain. -/
example : exactScore [1, 0] [0, 1] + 2 * scoreError 2 < exactScore [1, 0] [1, 0] := by
  unfold exactScore vecLen scoreError
  norm_num

end DRec.Dm
