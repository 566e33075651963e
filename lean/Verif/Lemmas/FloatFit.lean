import Verif.Lemmas.Float
import Verif.Lemmas.FloatKnn
import Verif.Model.FloatFit
import Verif.Spec.FloatFit

/-! # Rounding to a number of binary digits -/

namespace DRec

open DRec.Spec

variable {K : Type} [Field K] [LinearOrder K] [FloorRing K] [IsStrictOrderedRing K] {q : Nat}

theorem roundTo_zero : roundTo q (0 : K) = 0 := by
  have : roundHalfEven (0 : K) = 0 := by
    unfold roundHalfEven
    simp
  simp [roundTo, this]

theorem digit_bounds {x : K} (hx : x ≠ 0) :
    (2 : K) ^ q * 2 ^ lastDigit q x ≤ |x| ∧ |x| < 2 ^ (q + 1) * 2 ^ lastDigit q x := by
  have h1 := Int.zpow_log_le_self (b := 2) (by norm_num) (abs_pos.2 hx)
  have h2 := Int.lt_zpow_succ_log_self (b := 2) (by norm_num) |x|
  have e1 : (2 : K) ^ q * 2 ^ lastDigit q x = 2 ^ Int.log 2 |x| := by
    rw [lastDigit, ← zpow_natCast, ← zpow_add₀ (by norm_num)]
    congr 1
    ring
  have e2 : (2 : K) ^ (q + 1) * 2 ^ lastDigit q x = 2 ^ (Int.log 2 |x| + 1) := by
    rw [lastDigit, ← zpow_natCast, ← zpow_add₀ (by norm_num)]
    congr 1
    push_cast
    ring
  rw [e1, e2]
  exact ⟨by simpa using h1, by simpa using h2⟩

theorem roundTo_digits (x : K) : Digits q (roundTo q x) := by
  rcases eq_or_ne x 0 with rfl | hx
  · exact ⟨0, 0, by norm_num, by simp [roundTo_zero]⟩
  · have hp : (0 : K) < 2 ^ lastDigit q x := two_zpow_pos _
    obtain ⟨_, h2⟩ := digit_bounds hx
    set y := x / 2 ^ lastDigit q x with hy
    have hy2 : |y| < 2 ^ (q + 1) := by
      rw [hy, abs_div, abs_of_pos hp, div_lt_iff₀ hp]
      exact h2
    have hn := roundHalfEven_close y
    have hle : |roundHalfEven y| ≤ 2 ^ (q + 1) := by
      have h3 : |(roundHalfEven y : K)| < 2 ^ (q + 1) + 1 := by
        have : |(roundHalfEven y : K)| ≤ |(roundHalfEven y : K) - y| + |y| := by
          have e : (roundHalfEven y : K) = ((roundHalfEven y : K) - y) + y := by ring
          calc |(roundHalfEven y : K)| = |((roundHalfEven y : K) - y) + y| := by rw [← e]
            _ ≤ _ := abs_add_le _ _
        linarith
      have h4 : ((|roundHalfEven y| : Int) : K) < ((2 ^ (q + 1) + 1 : Int) : K) := by
        rw [Int.cast_abs]; push_cast; exact h3
      have := Int.cast_lt.1 h4
      omega
    rcases hle.lt_or_eq with hlt | heq
    · exact ⟨roundHalfEven y, lastDigit q x, hlt, rfl⟩
    · rcases (abs_eq (by norm_num)).1 heq with e | e
      · refine ⟨2 ^ q, lastDigit q x + 1, by rw [abs_of_pos (by positivity), pow_succ]; nlinarith [pow_pos (show (0 : ℤ) < 2 by norm_num) q], ?_⟩
        show ((roundHalfEven y : Int) : K) * _ = _
        rw [e, zpow_add_one₀ (by norm_num)]
        push_cast
        ring
      · refine ⟨-2 ^ q, lastDigit q x + 1, by rw [abs_neg, abs_of_pos (by positivity), pow_succ]; nlinarith [pow_pos (show (0 : ℤ) < 2 by norm_num) q], ?_⟩
        show ((roundHalfEven y : Int) : K) * _ = _
        rw [e, zpow_add_one₀ (by norm_num)]
        push_cast
        ring

/-- Among the multiples of the last place there is none closer. -/
theorem roundTo_nearest_multiple (x : K) (n : Int) :
    |roundTo q x - x| ≤ |(n : K) * 2 ^ lastDigit q x - x| := by
  have hp : (0 : K) < 2 ^ lastDigit q x := two_zpow_pos _
  have h := roundHalfEven_nearest (x / 2 ^ lastDigit q x) n
  have e : ∀ m : Int, |(m : K) * 2 ^ lastDigit q x - x| = |(m : K) - x / 2 ^ lastDigit q x| * 2 ^ lastDigit q x := by
    intro m
    rw [← abs_of_pos hp, ← abs_mul, abs_of_pos hp, sub_mul, div_mul_cancel₀ _ hp.ne']
  rw [roundTo, e, e]
  exact mul_le_mul_of_nonneg_right h hp.le

theorem roundTo_nearest (x : K) : Nearest q x (roundTo q x) := by
  refine ⟨roundTo_digits x, ?_⟩
  rintro z ⟨m, k, hm, rfl⟩
  rcases eq_or_ne x 0 with rfl | hx
  · rw [roundTo_zero, sub_zero, abs_zero]
    exact abs_nonneg _
  have hp : (0 : K) < 2 ^ lastDigit q x := two_zpow_pos _
  rcases le_or_gt (lastDigit q x) k with hk | hk
  · have e : (m : K) * 2 ^ k = ((m * 2 ^ (k - lastDigit q x).toNat : Int) : K) * 2 ^ lastDigit q x := by
      push_cast
      rw [mul_assoc, ← zpow_natCast, ← zpow_add₀ (by norm_num)]
      congr 2
      omega
    rw [e]
    exact roundTo_nearest_multiple x _
  · obtain ⟨h1, _⟩ := digit_bounds hx
    have hz : |(m : K) * 2 ^ k| ≤ 2 ^ q * 2 ^ lastDigit q x := by
      rw [abs_mul, abs_of_pos (two_zpow_pos (K := K) k)]
      have hm' : |(m : K)| ≤ 2 ^ (q + 1) := by
        have : ((|m| : Int) : K) ≤ ((2 ^ (q + 1) : Int) : K) := Int.cast_le.2 hm.le
        rw [Int.cast_abs] at this
        norm_num at this ⊢
        exact this
      have hk' : (2 : K) ^ k * 2 ≤ 2 ^ lastDigit q x := by
        rw [← zpow_add_one₀ (by norm_num)]
        exact zpow_le_zpow_right₀ (by norm_num) (by omega)
      have h2k : (0 : K) < 2 ^ k := two_zpow_pos k
      calc |(m : K)| * 2 ^ k ≤ 2 ^ (q + 1) * 2 ^ k := mul_le_mul_of_nonneg_right hm' h2k.le
        _ = 2 ^ q * (2 ^ k * 2) := by ring
        _ ≤ 2 ^ q * 2 ^ lastDigit q x := mul_le_mul_of_nonneg_left hk' (by positivity)
    rcases lt_or_gt_of_ne hx with hneg | hpos
    · refine (roundTo_nearest_multiple x (-2 ^ q)).trans ?_
      rw [abs_of_neg hneg] at h1
      have := (abs_le.1 hz).1
      push_cast
      rw [abs_of_nonneg (by linarith), abs_of_nonneg (by linarith)]
      linarith
    · refine (roundTo_nearest_multiple x (2 ^ q)).trans ?_
      rw [abs_of_pos hpos] at h1
      have := (abs_le.1 hz).2
      push_cast
      rw [abs_of_nonpos (by linarith), abs_of_nonpos (by linarith)]
      linarith

theorem roundTo_of_digits {x : K} (h : Digits q x) : roundTo q x = x := by
  have := (roundTo_nearest x).2 x h
  rw [sub_self, abs_zero] at this
  have := abs_nonpos_iff.1 this
  linarith

theorem nearestTo_mono {x y a b : K} (ha : Nearest q x a) (hb : Nearest q y b) (h : x < y) : a ≤ b := by
  by_contra hlt
  rw [not_le] at hlt
  have h1 := ha.2 b hb.1
  have h2 := hb.2 a ha.1
  have k1 : (a + b) / 2 ≤ x := by
    by_contra hc
    rw [not_le] at hc
    have : |b - x| < |a - x| := by
      rw [abs_of_pos (show 0 < a - x by linarith), abs_lt]
      constructor <;> linarith
    linarith
  have k2 : y ≤ (a + b) / 2 := by
    by_contra hc
    rw [not_le] at hc
    have : |a - y| < |b - y| := by
      rw [abs_of_neg (show b - y < 0 by linarith), abs_lt]
      constructor <;> linarith
    linarith
  linarith

theorem roundTo_mono {x y : K} (h : x ≤ y) : roundTo q x ≤ roundTo q y := by
  rcases h.lt_or_eq with h | rfl
  · exact nearestTo_mono (roundTo_nearest x) (roundTo_nearest y) h
  · exact le_rfl

theorem roundTo_nonneg {x : K} (h : 0 ≤ x) : 0 ≤ roundTo q x := by
  have := roundTo_mono (q := q) h
  rwa [roundTo_zero] at this

/-- Half a unit in the last place. -/
theorem roundTo_error (x : K) : |roundTo q x - x| ≤ |x| / 2 ^ (q + 1) := by
  rcases eq_or_ne x 0 with rfl | hx
  · simp [roundTo_zero]
  · have hp : (0 : K) < 2 ^ lastDigit q x := two_zpow_pos _
    obtain ⟨h1, _⟩ := digit_bounds hx
    have h := roundHalfEven_close (x / 2 ^ lastDigit q x)
    have e : |roundTo q x - x| = |(roundHalfEven (x / 2 ^ lastDigit q x) : K) - x / 2 ^ lastDigit q x| * 2 ^ lastDigit q x := by
      rw [← abs_of_pos hp, ← abs_mul, abs_of_pos hp, sub_mul, div_mul_cancel₀ _ hp.ne', roundTo]
    rw [e, le_div_iff₀ (by positivity)]
    calc |(roundHalfEven (x / 2 ^ lastDigit q x) : K) - x / 2 ^ lastDigit q x| * 2 ^ lastDigit q x * 2 ^ (q + 1)
        ≤ 1 / 2 * 2 ^ lastDigit q x * 2 ^ (q + 1) := by gcongr
      _ = 2 ^ q * 2 ^ lastDigit q x := by ring
      _ ≤ |x| := h1


end DRec
