import Verif.Lemmas.FloatKnnFit
import Mathlib.Tactic.Positivity
import Mathlib.Tactic.FieldSimp

/-! # Stored similarities in doubles -/

namespace DRec

open DRec.Spec

theorem addSimFloat_keeps (cfg : KnnCfg) (rs : List Rating) (sims : Nat × Nat → Option ℚ) (e : Nat × Nat × ℚ) (a b : Nat)
    (h : (e.1, e.2.1) = (a, b) → ¬(b < a ∧ cfg.m ≤ coRated cfg.kind rs a b)) : addSimFloat cfg rs sims e (a, b) = sims (a, b) := by
  unfold addSimFloat
  split
  · rfl
  · split
    · rfl
    · rename_i h1 h2
      simp only
      rw [if_neg]
      intro hp
      have h3 := h hp.symm
      obtain ⟨rfl, rfl⟩ := Prod.mk.inj hp
      apply h3
      constructor
      · omega
      · by_contra hc
        exact h2 ⟨by omega, by omega⟩

/-- Cells no entry counts for keep what they had. -/
theorem foldl_addSimFloat_keeps (cfg : KnnCfg) (rs : List Rating) : ∀ (l : List (Nat × Nat × ℚ))
    (old : Nat × Nat → Option ℚ) (a b : Nat),
    (∀ raw, (a, b, raw) ∈ l → ¬(b < a ∧ cfg.m ≤ coRated cfg.kind rs a b)) →
    l.foldl (addSimFloat cfg rs) old (a, b) = old (a, b)
  | [], _, _, _, _ => rfl
  | e :: l, old, a, b, h => by
    rw [List.foldl_cons, foldl_addSimFloat_keeps cfg rs l _ a b fun raw hr => h raw (List.mem_cons_of_mem _ hr)]
    refine addSimFloat_keeps cfg rs old e a b fun he => h e.2.2 ?_
    obtain ⟨h1, h2⟩ := Prod.mk.inj he
    rw [← h1, ← h2]
    exact List.mem_cons_self

theorem foldl_addSimFloat_stores (cfg : KnnCfg) (rs : List Rating) : ∀ (l : List (Nat × Nat × ℚ))
    (old : Nat × Nat → Option ℚ) (a b : Nat) (raw : ℚ), (a, b, raw) ∈ l →
    (∀ s s', (a, b, s) ∈ l → (a, b, s') ∈ l → s = s') → b < a → cfg.m ≤ coRated cfg.kind rs a b →
    l.foldl (addSimFloat cfg rs) old (a, b) = some (shrinkFloat cfg.shrinkage (coRated cfg.kind rs a b) raw)
  | e :: l, old, a, b, raw, hm, hu, hlt, hc => by
    rw [List.foldl_cons]
    by_cases hin : (a, b, raw) ∈ l
    · exact foldl_addSimFloat_stores cfg rs l _ a b raw hin
        (fun s s' h h' => hu s s' (List.mem_cons_of_mem _ h) (List.mem_cons_of_mem _ h')) hlt hc
    · have he : e = (a, b, raw) := by
        rcases List.mem_cons.1 hm with h | h
        · exact h.symm
        · exact absurd h hin
      rw [foldl_addSimFloat_keeps]
      · subst he
        unfold addSimFloat
        rw [if_neg (by simp only; omega), if_neg (by simp only; omega)]
        simp
      · intro raw' hr'
        have := hu raw' raw (List.mem_cons_of_mem _ hr') hm
        subst this
        exact absurd hr' hin

theorem shrink_error {z s : ℚ} (hz : 0 ≤ z) (c : Nat) :
    |shrinkFloat (some z) c s - s * ((c : ℚ) / (c + z + 1 / 1000000))| ≤ 8 * |s| / 2 ^ 53 := by
  unfold shrinkFloat
  simp only
  have hc : (0 : ℚ) ≤ c := Nat.cast_nonneg c
  have e1 := toFloat_error ((c : ℚ) + z)
  have e2 := toFloat_error (1 / 1000000 : ℚ)
  rw [abs_of_nonneg (by linarith : 0 ≤ (c : ℚ) + z)] at e1
  rw [abs_of_pos (by norm_num : (0 : ℚ) < 1 / 1000000)] at e2
  have hDp : (0 : ℚ) < c + z + 1 / 1000000 := by linarith
  have hcD : (c : ℚ) ≤ c + z + 1 / 1000000 := by linarith
  have e3 : |toFloat ((c : ℚ) + z) + toFloat (1 / 1000000) - (c + z + 1 / 1000000)| ≤ (c + z + 1 / 1000000) / 2 ^ 53 := by
    have e : toFloat ((c : ℚ) + z) + toFloat (1 / 1000000) - (c + z + 1 / 1000000) =
        (toFloat ((c : ℚ) + z) - (c + z)) + (toFloat (1 / 1000000) - 1 / 1000000) := by ring
    rw [e]
    refine (abs_add_le _ _).trans ?_
    rw [add_div (c + z : ℚ)]
    linarith
  have e4 := toFloat_error (toFloat ((c : ℚ) + z) + toFloat (1 / 1000000))
  generalize toFloat ((c : ℚ) + z) + toFloat (1 / 1000000) = X at *
  generalize (c : ℚ) + z + 1 / 1000000 = D at *
  generalize toFloat X = D' at *
  clear e1 e2
  have hu : (1 : ℚ) / 2 ^ 53 ≤ 1 / 1000 := by norm_num
  have hu0 : (0 : ℚ) < 1 / 2 ^ 53 := by positivity
  have t : ∀ x : ℚ, |toFloat x - x| ≤ 1 / 2 ^ 53 * |x| := fun x => (toFloat_error x).trans (le_of_eq (by ring))
  have h8 : 8 * |s| / 2 ^ 53 = 8 * (1 / 2 ^ 53) * |s| := by ring
  rw [div_eq_mul_one_div, mul_comm] at e3 e4
  rw [h8]
  generalize (1 : ℚ) / 2 ^ 53 = u at *
  -- the denominator
  have hX : |X| ≤ (1 + u) * D := by
    have := abs_add_le (X - D) D
    rw [sub_add_cancel, abs_of_pos hDp] at this
    linarith
  have hDD : |D' - D| ≤ 21 / 10 * u * D := by
    have e : D' - D = (D' - X) + (X - D) := by ring
    rw [e]
    refine (abs_add_le _ _).trans ?_
    have : u * |X| ≤ u * ((1 + u) * D) := mul_le_mul_of_nonneg_left hX hu0.le
    nlinarith [mul_nonneg hu0.le hDp.le]
  have hD'low : 99 / 100 * D ≤ D' := by
    have := (abs_le.1 hDD).1
    nlinarith
  have hD'pos : 0 < D' := lt_of_lt_of_le (by positivity) hD'low
  have hw0 : 0 ≤ (c : ℚ) / D := div_nonneg hc hDp.le
  have hw1 : (c : ℚ) / D ≤ 1 := (div_le_one hDp).2 hcD
  have hq : |(c : ℚ) / D' - c / D| ≤ 5 / 2 * u := by
    have e : (c : ℚ) / D' - c / D = c * (D - D') / (D' * D) := by
      field_simp
    rw [e, abs_div, abs_of_pos (mul_pos hD'pos hDp), div_le_iff₀ (mul_pos hD'pos hDp), abs_mul, abs_of_nonneg hc, abs_sub_comm]
    have h1 : (c : ℚ) * |D' - D| ≤ D * (21 / 10 * u * D) := mul_le_mul hcD hDD (abs_nonneg _) hDp.le
    have h2 : 5 / 2 * u * (99 / 100 * D * D) ≤ 5 / 2 * u * (D' * D) :=
      mul_le_mul_of_nonneg_left (mul_le_mul_of_nonneg_right hD'low hDp.le) (by positivity)
    nlinarith [mul_nonneg hu0.le (mul_nonneg hDp.le hDp.le)]
  generalize (c : ℚ) / D = w at *
  generalize (c : ℚ) / D' = w' at *
  have hw' : |w'| ≤ 11 / 10 := by
    have := abs_le.1 hq
    rw [abs_le]
    constructor <;> linarith [this.1, this.2]
  have hf := t w'
  have hfw : |toFloat w' - w| ≤ 4 * u := by
    have e : toFloat w' - w = (toFloat w' - w') + (w' - w) := by ring
    rw [e]
    refine (abs_add_le _ _).trans ?_
    have : u * |w'| ≤ u * (11 / 10) := mul_le_mul_of_nonneg_left hw' hu0.le
    linarith
  have hfa : |toFloat w'| ≤ 11 / 10 := by
    have := abs_le.1 hfw
    rw [abs_le]
    constructor <;> linarith [this.1, this.2]
  have hg := t (s * toFloat w')
  have e : toFloat (s * toFloat w') - s * w = (toFloat (s * toFloat w') - s * toFloat w') + s * (toFloat w' - w) := by ring
  rw [e]
  refine (abs_add_le _ _).trans ?_
  rw [abs_mul s (toFloat w' - w)]
  rw [abs_mul] at hg
  have h1 : |s| * |toFloat w' - w| ≤ |s| * (4 * u) := mul_le_mul_of_nonneg_left hfw (abs_nonneg _)
  have h2 : u * (|s| * |toFloat w'|) ≤ u * (|s| * (11 / 10)) :=
    mul_le_mul_of_nonneg_left (mul_le_mul_of_nonneg_left hfa (abs_nonneg _)) hu0.le
  nlinarith [mul_nonneg hu0.le (abs_nonneg s)]

end DRec
