import Mathlib.Tactic.Linarith
import Mathlib.Tactic.Positivity
import Mathlib.Tactic.FieldSimp
import Mathlib.Tactic.NormNum
import Mathlib.Tactic.Ring
import Verif.Model.Float
import Verif.Spec.Float

/-! # Doubles: nearest, monotone, error bound -/

namespace DRec

open DRec.Spec

variable {K : Type} [Field K] [LinearOrder K] [FloorRing K] [IsStrictOrderedRing K]

theorem roundHalfEven_close (x : K) : |(roundHalfEven x : K) - x| ≤ 1 / 2 := by
  have h1 : (⌊x⌋ : K) ≤ x := Int.floor_le x
  have h2 : x < ⌊x⌋ + 1 := Int.lt_floor_add_one x
  unfold roundHalfEven
  rw [abs_le]
  split
  · constructor <;> linarith
  · split
    · push_cast; constructor <;> linarith
    · split
      · constructor <;> linarith
      · push_cast; constructor <;> linarith

/-- No whole number is closer. -/
theorem roundHalfEven_nearest (x : K) (n : Int) : |(roundHalfEven x : K) - x| ≤ |(n : K) - x| := by
  rcases eq_or_ne n (roundHalfEven x) with rfl | hne
  · exact le_rfl
  · have h := roundHalfEven_close x
    have h1 : (1 : K) ≤ |(n : K) - roundHalfEven x| := by
      have : (1 : Int) ≤ |n - roundHalfEven x| := Int.one_le_abs (sub_ne_zero.2 hne)
      have h2 : ((1 : Int) : K) ≤ ((|n - roundHalfEven x| : Int) : K) := Int.cast_le.2 this
      rw [Int.cast_abs] at h2
      simpa using h2
    have h3 : |(n : K) - roundHalfEven x| ≤ |(n : K) - x| + |(roundHalfEven x : K) - x| := by
      have e : (n : K) - roundHalfEven x = ((n : K) - x) - ((roundHalfEven x : K) - x) := by ring
      rw [e]
      exact abs_sub _ _
    linarith

theorem two_zpow_pos (e : Int) : (0 : K) < 2 ^ e := zpow_pos (by norm_num) e

theorem toFloat_zero : toFloat (0 : K) = 0 := by
  have : roundHalfEven (0 : K) = 0 := by
    unfold roundHalfEven
    simp
  simp [toFloat, this]

theorem log_bounds {x : K} (hx : x ≠ 0) :
    (2 : K) ^ 52 * 2 ^ lastPlace x ≤ |x| ∧ |x| < 2 ^ 53 * 2 ^ lastPlace x := by
  have h1 := Int.zpow_log_le_self (b := 2) (by norm_num) (abs_pos.2 hx)
  have h2 := Int.lt_zpow_succ_log_self (b := 2) (by norm_num) |x|
  have e1 : (2 : K) ^ 52 * 2 ^ lastPlace x = 2 ^ Int.log 2 |x| := by
    rw [lastPlace, ← zpow_natCast, ← zpow_add₀ (by norm_num)]
    congr 1
    push_cast
    ring
  have e2 : (2 : K) ^ 53 * 2 ^ lastPlace x = 2 ^ (Int.log 2 |x| + 1) := by
    rw [lastPlace, ← zpow_natCast, ← zpow_add₀ (by norm_num)]
    congr 1
    push_cast
    ring
  rw [e1, e2]
  exact ⟨by simpa using h1, by simpa using h2⟩

theorem toFloat_isDouble (x : K) : IsDouble (toFloat x) := by
  rcases eq_or_ne x 0 with rfl | hx
  · exact ⟨0, 0, by norm_num, by simp [toFloat_zero]⟩
  · have hp : (0 : K) < 2 ^ lastPlace x := two_zpow_pos _
    obtain ⟨_, h2⟩ := log_bounds hx
    set y := x / 2 ^ lastPlace x with hy
    have hy2 : |y| < 2 ^ 53 := by
      rw [hy, abs_div, abs_of_pos hp, div_lt_iff₀ hp]
      exact h2
    have hn := roundHalfEven_close y
    have hle : |roundHalfEven y| ≤ 2 ^ 53 := by
      have h3 : |(roundHalfEven y : K)| < 2 ^ 53 + 1 := by
        have : |(roundHalfEven y : K)| ≤ |(roundHalfEven y : K) - y| + |y| := by
          have e : (roundHalfEven y : K) = ((roundHalfEven y : K) - y) + y := by ring
          calc |(roundHalfEven y : K)| = |((roundHalfEven y : K) - y) + y| := by rw [← e]
            _ ≤ _ := abs_add_le _ _
        linarith
      have h4 : ((|roundHalfEven y| : Int) : K) < ((2 ^ 53 + 1 : Int) : K) := by
        rw [Int.cast_abs]; push_cast; norm_num at h3 ⊢; exact h3
      have := Int.cast_lt.1 h4
      omega
    rcases hle.lt_or_eq with hlt | heq
    · exact ⟨roundHalfEven y, lastPlace x, hlt, rfl⟩
    · rcases (abs_eq (by norm_num)).1 heq with e | e
      · refine ⟨2 ^ 52, lastPlace x + 1, by norm_num, ?_⟩
        show ((roundHalfEven y : Int) : K) * _ = _
        rw [e, zpow_add_one₀ (by norm_num)]
        push_cast
        ring
      · refine ⟨-2 ^ 52, lastPlace x + 1, by norm_num, ?_⟩
        show ((roundHalfEven y : Int) : K) * _ = _
        rw [e, zpow_add_one₀ (by norm_num)]
        push_cast
        ring

/-- Among the multiples of the last place there is none closer. -/
theorem toFloat_nearest_multiple (x : K) (n : Int) :
    |toFloat x - x| ≤ |(n : K) * 2 ^ lastPlace x - x| := by
  have hp : (0 : K) < 2 ^ lastPlace x := two_zpow_pos _
  have h := roundHalfEven_nearest (x / 2 ^ lastPlace x) n
  have e : ∀ m : Int, |(m : K) * 2 ^ lastPlace x - x| = |(m : K) - x / 2 ^ lastPlace x| * 2 ^ lastPlace x := by
    intro m
    rw [← abs_of_pos hp, ← abs_mul, abs_of_pos hp, sub_mul, div_mul_cancel₀ _ hp.ne']
  rw [toFloat, e, e]
  exact mul_le_mul_of_nonneg_right h hp.le

theorem toFloat_nearest (x : K) : NearestDouble x (toFloat x) := by
  refine ⟨toFloat_isDouble x, ?_⟩
  rintro z ⟨m, k, hm, rfl⟩
  rcases eq_or_ne x 0 with rfl | hx
  · rw [toFloat_zero, sub_zero, abs_zero]
    exact abs_nonneg _
  have hp : (0 : K) < 2 ^ lastPlace x := two_zpow_pos _
  rcases le_or_gt (lastPlace x) k with hk | hk
  · have e : (m : K) * 2 ^ k = ((m * 2 ^ (k - lastPlace x).toNat : Int) : K) * 2 ^ lastPlace x := by
      push_cast
      rw [mul_assoc, ← zpow_natCast, ← zpow_add₀ (by norm_num)]
      congr 2
      omega
    rw [e]
    exact toFloat_nearest_multiple x _
  · obtain ⟨h1, _⟩ := log_bounds hx
    have hz : |(m : K) * 2 ^ k| ≤ 2 ^ 52 * 2 ^ lastPlace x := by
      rw [abs_mul, abs_of_pos (two_zpow_pos (K := K) k)]
      have hm' : |(m : K)| ≤ 2 ^ 53 := by
        have : ((|m| : Int) : K) ≤ ((2 ^ 53 : Int) : K) := Int.cast_le.2 hm.le
        rw [Int.cast_abs] at this
        norm_num at this ⊢
        exact this
      have hk' : (2 : K) ^ k * 2 ≤ 2 ^ lastPlace x := by
        rw [← zpow_add_one₀ (by norm_num)]
        exact zpow_le_zpow_right₀ (by norm_num) (by omega)
      have h2k : (0 : K) < 2 ^ k := two_zpow_pos k
      calc |(m : K)| * 2 ^ k ≤ 2 ^ 53 * 2 ^ k := mul_le_mul_of_nonneg_right hm' h2k.le
        _ = 2 ^ 52 * (2 ^ k * 2) := by ring
        _ ≤ 2 ^ 52 * 2 ^ lastPlace x := mul_le_mul_of_nonneg_left hk' (by positivity)
    rcases lt_or_gt_of_ne hx with hneg | hpos
    · refine (toFloat_nearest_multiple x (-2 ^ 52)).trans ?_
      rw [abs_of_neg hneg] at h1
      have := (abs_le.1 hz).1
      push_cast
      rw [abs_of_nonneg (by linarith), abs_of_nonneg (by linarith)]
      linarith
    · refine (toFloat_nearest_multiple x (2 ^ 52)).trans ?_
      rw [abs_of_pos hpos] at h1
      have := (abs_le.1 hz).2
      push_cast
      rw [abs_of_nonpos (by linarith), abs_of_nonpos (by linarith)]
      linarith

theorem toFloat_of_isDouble {x : K} (h : IsDouble x) : toFloat x = x := by
  have := (toFloat_nearest x).2 x h
  rw [sub_self, abs_zero] at this
  have := abs_nonpos_iff.1 this
  linarith

theorem nearest_mono {x y a b : K} (ha : NearestDouble x a) (hb : NearestDouble y b) (h : x < y) : a ≤ b := by
  by_contra hlt
  rw [not_le] at hlt
  have h1 := ha.2 b hb.1
  have h2 := hb.2 a ha.1
  have k1 : (a + b) / 2 ≤ x := by
    by_contra hc
    rw [not_le] at hc
    have : |b - x| < |a - x| := by
      rw [abs_of_pos (show 0 < a - x by linarith), abs_lt]
      constructor <;> linarith
    linarith
  have k2 : y ≤ (a + b) / 2 := by
    by_contra hc
    rw [not_le] at hc
    have : |a - y| < |b - y| := by
      rw [abs_of_neg (show b - y < 0 by linarith), abs_lt]
      constructor <;> linarith
    linarith
  linarith

theorem toFloat_mono {x y : K} (h : x ≤ y) : toFloat x ≤ toFloat y := by
  rcases h.lt_or_eq with h | rfl
  · exact nearest_mono (toFloat_nearest x) (toFloat_nearest y) h
  · exact le_rfl

omit [LinearOrder K] [FloorRing K] [IsStrictOrderedRing K] in
theorem isDouble_int {n : Int} (h : |n| ≤ 2 ^ 53) : IsDouble (n : K) := by
  rcases h.lt_or_eq with h | h
  · exact ⟨n, 0, h, by simp⟩
  · rcases (abs_eq (by norm_num)).1 h with e | e
    · exact ⟨2 ^ 52, 1, by norm_num, by rw [e]; push_cast; norm_num⟩
    · exact ⟨-2 ^ 52, 1, by norm_num, by rw [e]; push_cast; norm_num⟩

omit [LinearOrder K] [FloorRing K] [IsStrictOrderedRing K] in
theorem isDouble_nat {n : Nat} (h : n ≤ 2 ^ 53) : IsDouble (n : K) := by
  have := isDouble_int (K := K) (n := n) (by rw [abs_of_nonneg (by omega)]; exact_mod_cast h)
  simpa using this

theorem toFloat_nonneg {x : K} (h : 0 ≤ x) : 0 ≤ toFloat x := by
  have := toFloat_mono h
  rwa [toFloat_zero] at this

/-- Half a unit in the last place. -/
theorem toFloat_error (x : K) : |toFloat x - x| ≤ |x| / 2 ^ 53 := by
  rcases eq_or_ne x 0 with rfl | hx
  · simp [toFloat_zero]
  · have hp : (0 : K) < 2 ^ lastPlace x := two_zpow_pos _
    obtain ⟨h1, _⟩ := log_bounds hx
    have h := roundHalfEven_close (x / 2 ^ lastPlace x)
    have e : |toFloat x - x| = |(roundHalfEven (x / 2 ^ lastPlace x) : K) - x / 2 ^ lastPlace x| * 2 ^ lastPlace x := by
      rw [← abs_of_pos hp, ← abs_mul, abs_of_pos hp, sub_mul, div_mul_cancel₀ _ hp.ne', toFloat]
    rw [e, le_div_iff₀ (by positivity)]
    calc |(roundHalfEven (x / 2 ^ lastPlace x) : K) - x / 2 ^ lastPlace x| * 2 ^ lastPlace x * 2 ^ 53
        ≤ 1 / 2 * 2 ^ lastPlace x * 2 ^ 53 := by gcongr
      _ = 2 ^ 52 * 2 ^ lastPlace x := by ring
      _ ≤ |x| := h1

/-- Doubles are multiples of the last place of every number they are not smaller than. -/
theorem isDouble_multiple {x z : K} (hz : IsDouble z) (hx : x ≠ 0) (h : |x| ≤ |z|) :
    ∃ n : Int, z = n * 2 ^ lastPlace x := by
  obtain ⟨m, k, hm, rfl⟩ := hz
  obtain ⟨h1, _⟩ := log_bounds hx
  rcases le_or_gt (lastPlace x) k with hk | hk
  · refine ⟨m * 2 ^ (k - lastPlace x).toNat, ?_⟩
    push_cast
    rw [mul_assoc, ← zpow_natCast, ← zpow_add₀ (by norm_num)]
    congr 2
    omega
  · exfalso
    rw [abs_mul, abs_of_pos (two_zpow_pos (K := K) k)] at h
    have hm' : |(m : K)| < 2 ^ 53 := by
      have : ((|m| : Int) : K) < ((2 ^ 53 : Int) : K) := Int.cast_lt.2 hm
      rw [Int.cast_abs] at this
      norm_num at this ⊢
      exact this
    have hk' : (2 : K) ^ k * 2 ≤ 2 ^ lastPlace x := by
      rw [← zpow_add_one₀ (by norm_num)]
      exact zpow_le_zpow_right₀ (by norm_num) (by omega)
    have h2k : (0 : K) < 2 ^ k := two_zpow_pos k
    have : |(m : K)| * 2 ^ k < 2 ^ 53 * 2 ^ k := mul_lt_mul_of_pos_right hm' h2k
    have : (2 : K) ^ 53 * 2 ^ k = 2 ^ 52 * (2 ^ k * 2) := by ring
    have : (2 : K) ^ 52 * (2 ^ k * 2) ≤ 2 ^ 52 * 2 ^ lastPlace x := mul_le_mul_of_nonneg_left hk' (by positivity)
    linarith

/-- The largest double below 1. -/
theorem isDouble_lt_one {q : K} (hq : IsDouble q) (h0 : 0 < q) (h1 : q < 1) : q ≤ 1 - 1 / 2 ^ 53 := by
  rcases lt_or_ge q (1 / 2) with h | h
  · have : (1 : K) / 2 ^ 53 ≤ 1 / 2 := by norm_num
    linarith
  · have hl : lastPlace (1 / 2 : K) = -53 := by
      have : Int.log 2 (2 ^ (-1 : Int) : K) = -1 := Int.log_zpow (by norm_num) _
      have e : (|1 / 2| : K) = 2 ^ (-1 : Int) := by rw [abs_of_pos (by norm_num)]; norm_num
      rw [lastPlace, e, this]
      norm_num
    obtain ⟨n, hn⟩ := isDouble_multiple hq (x := (1 / 2 : K)) (by norm_num)
      (by rw [abs_of_pos h0, abs_of_pos (by norm_num)]; exact h)
    rw [hl] at hn
    have e53 : (2 : K) ^ (-53 : Int) = 1 / 2 ^ 53 := by
      rw [zpow_neg, one_div]; norm_cast
    rw [e53] at hn
    have hlt : (n : K) < 2 ^ 53 := by
      rw [hn] at h1
      rw [mul_one_div, div_lt_one (by positivity)] at h1
      exact h1
    have hn' : n < 2 ^ 53 := by
      have : (n : K) < ((2 ^ 53 : Int) : K) := by push_cast; norm_num at hlt ⊢; exact hlt
      exact Int.cast_lt.1 this
    have hle : (n : K) ≤ 2 ^ 53 - 1 := by
      have : n ≤ 2 ^ 53 - 1 := by omega
      have : (n : K) ≤ ((2 ^ 53 - 1 : Int) : K) := Int.cast_le.2 this
      push_cast at this
      norm_num at this ⊢
      exact this
    rw [hn]
    have h53 : (0 : K) < 1 / 2 ^ 53 := by positivity
    calc (n : K) * (1 / 2 ^ 53) ≤ (2 ^ 53 - 1) * (1 / 2 ^ 53) := mul_le_mul_of_nonneg_right hle h53.le
      _ = 1 - 1 / 2 ^ 53 := by norm_num

/-- A share below 1 of something is less than it, also after rounding. -/
theorem toFloat_share_lt {q : K} (hq : IsDouble q) (h0 : 0 < q) (h1 : q < 1) {n : Nat} (hn : 0 < n) :
    toFloat ((n : K) * q) < n := by
  have hn' : (0 : K) < n := by exact_mod_cast hn
  have hx : 0 < (n : K) * q := mul_pos hn' h0
  have he := toFloat_error ((n : K) * q)
  have hl := isDouble_lt_one hq h0 h1
  rw [abs_of_pos hx] at he
  have h2 : (n : K) * q < n := by
    calc (n : K) * q < n * 1 := (mul_lt_mul_iff_right₀ hn').2 h1
      _ = n := mul_one _
  have h3 : (n : K) * q ≤ n - n / 2 ^ 53 := by
    calc (n : K) * q ≤ n * (1 - 1 / 2 ^ 53) := mul_le_mul_of_nonneg_left hl hn'.le
      _ = n - n / 2 ^ 53 := by ring
  have h4 : (n : K) * q / 2 ^ 53 < n / 2 ^ 53 := div_lt_div_of_pos_right h2 (by positivity)
  have := (abs_le.1 he).2
  linarith

theorem toFloat_share_le {q : K} (h1 : q ≤ 1) {n : Nat} (hn : n ≤ 2 ^ 53) : toFloat ((n : K) * q) ≤ n := by
  have h : (n : K) * q ≤ n := by
    calc (n : K) * q ≤ n * 1 := mul_le_mul_of_nonneg_left h1 (Nat.cast_nonneg n)
      _ = n := mul_one _
  have := toFloat_mono h
  rwa [toFloat_of_isDouble (isDouble_nat hn)] at this

theorem shareOf_cast {n : Nat} {q : ℚ} (h0 : 0 ≤ q) : ((shareOf n q : Nat) : Int) = (toFloat (n * q : ℚ)).floor := by
  have h : 0 ≤ toFloat ((n : ℚ) * q) := toFloat_nonneg (mul_nonneg (Nat.cast_nonneg n) h0)
  have : 0 ≤ (toFloat ((n : ℚ) * q)).floor := Rat.le_floor_iff.2 (by simpa using h)
  rw [shareOf, Int.toNat_of_nonneg this]

theorem shareOf_iff {n : Nat} {q : ℚ} (h0 : 0 ≤ q) (m : Nat) :
    m = shareOf n q ↔ (m : ℚ) ≤ toFloat (n * q : ℚ) ∧ toFloat (n * q : ℚ) < m + 1 := by
  have h := shareOf_cast (n := n) h0
  constructor
  · rintro rfl
    have e : ((shareOf n q : Nat) : ℚ) = ((toFloat (n * q : ℚ)).floor : ℚ) := by exact_mod_cast h
    rw [e]
    exact ⟨Rat.floor_le _, Int.lt_floor_add_one (toFloat ((n : ℚ) * q))⟩
  · rintro ⟨h1, h2⟩
    have : (toFloat (n * q : ℚ)).floor = (m : Int) := by
      change ⌊toFloat (n * q : ℚ)⌋ = (m : Int)
      rw [Int.floor_eq_iff]
      exact ⟨by exact_mod_cast h1, by exact_mod_cast h2⟩
    rw [this] at h
    exact_mod_cast h.symm

theorem shareOf_le {n : Nat} {q : ℚ} (h0 : 0 ≤ q) (h1 : q ≤ 1) (hn : n ≤ 2 ^ 53) : shareOf n q ≤ n := by
  have h := shareOf_cast (n := n) h0
  have h2 : ((toFloat (n * q : ℚ)).floor : ℚ) ≤ n := (Rat.floor_le _).trans (toFloat_share_le h1 hn)
  have h3 : ((shareOf n q : Nat) : ℚ) ≤ n := by
    have : ((shareOf n q : Nat) : ℚ) = ((toFloat (n * q : ℚ)).floor : ℚ) := by exact_mod_cast h
    rw [this]; exact h2
  exact_mod_cast h3

theorem shareOf_lt {n : Nat} {q : ℚ} (hq : IsDouble q) (h0 : 0 < q) (h1 : q < 1) (hn : 0 < n) : shareOf n q < n := by
  have h := shareOf_cast (n := n) h0.le
  have h2 : ((toFloat (n * q : ℚ)).floor : ℚ) < n := (Rat.floor_le _).trans_lt (toFloat_share_lt hq h0 h1 hn)
  have h3 : ((shareOf n q : Nat) : ℚ) < n := by
    have : ((shareOf n q : Nat) : ℚ) = ((toFloat (n * q : ℚ)).floor : ℚ) := by exact_mod_cast h
    rw [this]; exact h2
  exact_mod_cast h3

theorem shareOf_zero (q : ℚ) : shareOf 0 q = 0 := by
  simp only [shareOf, Nat.cast_zero, zero_mul, toFloat_zero]
  decide

end DRec
