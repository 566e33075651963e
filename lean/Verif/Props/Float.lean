import Verif.Props.RandomSplit

/-! # C121: shares in floating point -/

namespace DRec

open DRec.Spec

/-- **C121**, the rounding: what an operation returns is a double, and none is closer to the exact result. -/
theorem C121_nearest (x : ℚ) : NearestDouble x (toFloat x) := toFloat_nearest x

example : ¬ IsDouble (1 / 3 : ℚ) ∧ toFloat (1 / 3 : ℚ) ≠ 1 / 3 := by
  have h : toFloat (1 / 3 : ℚ) ≠ 1 / 3 := by decide +kernel
  exact ⟨fun hd => h (toFloat_of_isDouble hd), h⟩

theorem floor_nat {x : ℚ} (h : 0 ≤ x) : ((x.floor.toNat : Nat) : ℚ) ≤ x ∧ x < (x.floor.toNat : Nat) + 1 := by
  have h0 : 0 ≤ x.floor := Rat.le_floor_iff.2 (by simpa using h)
  have e : ((x.floor.toNat : Nat) : ℚ) = (x.floor : ℚ) := by exact_mod_cast Int.toNat_of_nonneg h0
  rw [e]
  exact ⟨Rat.floor_le _, Int.lt_floor_add_one x⟩

/-- **C121** (partial: up to one unit; the full property is that the number is the whole part of the product and fails,
see `C121_ratio_fails`, `C121_third_fails`).  The number of records taken as a share `q` of `n` records is the whole
part of the exact product or one more, and one more only if the product is this number up to one part in `2^53`. -/
theorem C121_share_partial (n : Nat) (q : ℚ) (h0 : 0 < q) (h1 : q ≤ 1) (hn : n ≤ 2 ^ 53) :
    shareOf n q = (n * q).floor.toNat ∨
    (shareOf n q = (n * q).floor.toNat + 1 ∧ (shareOf n q : ℚ) - n * q ≤ n * q / 2 ^ 53) := by
  have hx : 0 ≤ (n : ℚ) * q := mul_nonneg (Nat.cast_nonneg n) h0.le
  obtain ⟨f1, f2⟩ := floor_nat hx
  obtain ⟨s1, s2⟩ := (shareOf_iff (n := n) h0.le _).1 rfl
  set f := (n * q).floor.toNat
  have hfn : f ≤ n := by
    have : (n : ℚ) * q ≤ n := mul_le_of_le_one_right (Nat.cast_nonneg _) h1
    have : (f : ℚ) ≤ n := by linarith
    exact_mod_cast this
  have lo : (f : ℚ) ≤ toFloat (n * q : ℚ) := by
    have := toFloat_mono f1
    rwa [toFloat_of_isDouble (isDouble_nat (hfn.trans hn))] at this
  have lower : f ≤ shareOf n q := by
    have : (f : ℚ) < shareOf n q + 1 := by linarith
    have : f < shareOf n q + 1 := by exact_mod_cast this
    omega
  rcases lower.lt_or_eq with hlt | heq
  · right
    have hle : shareOf n q ≤ f + 1 := by
      rcases hfn.lt_or_eq with hf | hf
      · have hi : toFloat (n * q : ℚ) ≤ ((f + 1 : Nat) : ℚ) := by
          have h : (n : ℚ) * q ≤ ((f + 1 : Nat) : ℚ) := by push_cast; linarith
          have := toFloat_mono h
          rwa [toFloat_of_isDouble (isDouble_nat (by omega))] at this
        have : (shareOf n q : ℚ) ≤ ((f + 1 : Nat) : ℚ) := by linarith
        exact_mod_cast this
      · have := shareOf_le h0.le h1 hn
        omega
    refine ⟨by omega, ?_⟩
    have he := toFloat_error ((n : ℚ) * q)
    rw [abs_of_nonneg hx] at he
    have := (abs_le.1 he).2
    linarith
  · exact .inl heq.symm

example : (0 : ℚ) < toFloat (7 / 10) ∧ toFloat (7 / 10 : ℚ) ≤ 1 ∧ 90 ≤ 2 ^ 53 := by
  refine ⟨?_, ?_, ?_⟩ <;> decide +kernel

/-- **C121**: shares whose product needs no rounding, like halves and quarters, are exact. -/
theorem C121_exact (n : Nat) (q : ℚ) (h : IsDouble ((n : ℚ) * q)) : shareOf n q = (n * q).floor.toNat := by
  rw [shareOf, toFloat_of_isDouble h]

example : IsDouble (((7 : Nat) : ℚ) * (1 / 2)) := ⟨7, -1, by decide, by decide +kernel⟩

/-- **C121**, a ratio written as a decimal number (partial: up to one unit).  The ratio that arrives is the double
nearest to it; the number of records taken is at most one off the whole part of the intended product. -/
theorem C121_written_partial (n : Nat) (q : ℚ) (h0 : 0 < q) (h1 : q < 1) (hn : n ≤ 2 ^ 51) :
    (n * q).floor.toNat ≤ shareOf n (toFloat q) + 1 ∧ shareOf n (toFloat q) ≤ (n * q).floor.toNat + 1 := by
  have hx : 0 ≤ (n : ℚ) * q := mul_nonneg (Nat.cast_nonneg n) h0.le
  have hq0 : 0 ≤ toFloat q := toFloat_nonneg h0.le
  have hn' : (n : ℚ) ≤ 2 ^ 51 := by exact_mod_cast hn
  have hxn : (n : ℚ) * q ≤ n := mul_le_of_le_one_right (Nat.cast_nonneg _) h1.le
  obtain ⟨f1, f2⟩ := floor_nat hx
  obtain ⟨s1, s2⟩ := (shareOf_iff (n := n) hq0 _).1 rfl
  set f := (n * q).floor.toNat
  have hfn : f ≤ n := by
    have : (f : ℚ) ≤ n := by linarith
    exact_mod_cast this
  have he := toFloat_error q
  rw [abs_of_pos h0] at he
  have hprod : |(n : ℚ) * toFloat q - n * q| ≤ 1 / 4 := by
    rw [← mul_sub, abs_mul, abs_of_nonneg (Nat.cast_nonneg n)]
    have hq53 : q / 2 ^ 53 ≤ 1 / 2 ^ 53 := div_le_div_of_nonneg_right h1.le (by positivity)
    calc (n : ℚ) * |toFloat q - q| ≤ 2 ^ 51 * (1 / 2 ^ 53) := by
          apply mul_le_mul hn' (he.trans hq53) (abs_nonneg _) (by positivity)
      _ = 1 / 4 := by norm_num
  obtain ⟨p1, p2⟩ := abs_le.1 hprod
  have hf52 : f ≤ 2 ^ 51 := hfn.trans hn
  constructor
  · rcases Nat.eq_zero_or_pos f with h | h
    · omega
    · have hl : (((f - 1 : Nat)) : ℚ) ≤ toFloat ((n : ℚ) * toFloat q) := by
        have h : ((f - 1 : Nat) : ℚ) ≤ (n : ℚ) * toFloat q := by
          rw [Nat.cast_sub h]; push_cast; linarith
        have := toFloat_mono h
        rwa [toFloat_of_isDouble (isDouble_nat (by omega))] at this
      have : ((f - 1 : Nat) : ℚ) < (shareOf n (toFloat q) : ℚ) + 1 := by linarith
      have : f - 1 < shareOf n (toFloat q) + 1 := by exact_mod_cast this
      omega
  · have hy : 0 ≤ (n : ℚ) * toFloat q := mul_nonneg (Nat.cast_nonneg n) hq0
    have he' := toFloat_error ((n : ℚ) * toFloat q)
    rw [abs_of_nonneg hy] at he'
    have hu := (abs_le.1 he').2
    have hsm : (n : ℚ) * toFloat q / 2 ^ 53 ≤ 1 / 2 := by
      rw [div_le_iff₀ (by positivity)]
      have e : (1 / 2 : ℚ) * 2 ^ 53 = 2 ^ 51 + 2 ^ 51 := by norm_num
      have e2 : (1 : ℚ) ≤ 2 ^ 51 := by norm_num
      rw [e]
      linarith
    have : (shareOf n (toFloat q) : ℚ) < (f : ℚ) + 2 := by linarith
    have : shareOf n (toFloat q) < f + 2 := by exact_mod_cast this
    omega

example : (0 : ℚ) < 7 / 10 ∧ (7 / 10 : ℚ) < 1 ∧ 90 ≤ 2 ^ 51 := by
  refine ⟨?_, ?_, ?_⟩ <;> decide +kernel

/-- **C121** fails for the ratio as written: 0.7 of 90 records are 62, 0.29 of 100 are 28. -/
theorem C121_ratio_fails :
    ((90 : ℚ) * (7 / 10) = 63 ∧ shareOf 90 (toFloat (7 / 10)) = 62) ∧
    ((100 : ℚ) * (29 / 100) = 29 ∧ shareOf 100 (toFloat (29 / 100)) = 28) := by
  decide +kernel

/-- **C121** fails for the double that arrives, too: the double for 1/3 is less than it, three times it is less than 1,
but one of three records is taken. -/
theorem C121_third_fails : 3 * toFloat (1 / 3 : ℚ) < 1 ∧ shareOf 3 (toFloat (1 / 3)) = 1 := by
  decide +kernel

/-- **C121** fails: `random_split` with `test_ratio=0.7` puts 62 of 90 records into the test set, whatever the dataset
and the random outcome. -/
theorem C121_split_fails (ds : Mem) (hu : RidsUnique ds) (hl : ds.rows.length = 90) (rng : Nat → Nat) :
    ∃ train test, randomSplit ds (toFloat (7 / 10)) rng = .ok (train, test) ∧ test.rows.length = 62 := by
  obtain ⟨h1, h2⟩ := C32_random_split ds hu (by rw [hl]; norm_num) (toFloat (7 / 10)) rng
  have e : (toFloat ((90 : Nat) * toFloat (7 / 10) : ℚ)).floor = 62 := by decide +kernel
  rw [hl, e] at h1 h2
  have hr : (0 : ℚ) < toFloat (7 / 10) ∧ toFloat (7 / 10 : ℚ) < 1 := by constructor <;> decide +kernel
  cases hs : randomSplit ds (toFloat (7 / 10)) rng with
  | error err =>
    have := h1.1 ⟨err, hs⟩
    simp [hr.1, hr.2] at this
  | ok p =>
    obtain ⟨train, test⟩ := p
    have := (h2 train test hs).2.2.1
    exact ⟨train, test, rfl, by omega⟩

example : ∃ ds : Mem, RidsUnique ds ∧ ds.rows.length = 90 := by
  refine ⟨mkMem .int ((List.range 90).map fun i => (.num i, .num 0, 1)), ?_, ?_⟩
  · unfold RidsUnique; decide +kernel
  · decide +kernel

end DRec
