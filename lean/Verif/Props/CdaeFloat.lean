import Verif.Lemmas.CdaeFloat
import Verif.Model.Recommender
import Mathlib.Analysis.Complex.ExponentialBounds

/-!
# C139: CDAE's scores in single precision

Weights, inputs, sizes (up to 65534 items and 65535 hidden units) and the order of all sums are arbitrary.
-/

namespace DRec.Cd

open Spec Dm

/-- C139: the input of a prediction, zeros and ones, is not changed by rounding. -/
theorem C139_input (t : ℚ) (v : List ℚ) : ∀ a ∈ desired t v, single (a : ℝ) = (a : ℝ) := by
  intro a ha
  obtain ⟨x, _, rfl⟩ := List.mem_map.1 ha
  split
  · rw [single_cast, show single (1 : ℚ) = 1 by decide +kernel]
  · rw [single_cast, show single (0 : ℚ) = 0 by decide +kernel]

/-- C139: whatever the order of the sums, each score differs from the exact one by at most `cdaeError`. -/
theorem C139_close (m : Cdae) (uid : Nat) (x y : List ℝ) (hn : m.items + 2 ≤ 2 ^ 16) (hk : m.hidden + 1 ≤ 2 ^ 16)
    (h : ReconstructF SigF m uid x y) :
    ∃ l, m.reconstruct uid x = .ok l ∧ y.length = l.length ∧ ∀ j, j < l.length → |y.getD j 0 - l.getD j 0| ≤ cdaeError m uid x j := by
  obtain ⟨hu, hx, g, hh, hy⟩ := h
  refine ⟨_, reconstruct_eq m uid x hu hx, by simpa using hy.1, fun j hj => ?_⟩
  have hj : j < m.items := by simpa using hj
  have e := output_close hx hn hk hh hy j hj
  simpa [hj] using e

/-- C139: two items are ordered as by the exact scores when these differ by more than both errors. -/
theorem C139_order (m : Cdae) (uid : Nat) (x y l : List ℝ) (hn : m.items + 2 ≤ 2 ^ 16) (hk : m.hidden + 1 ≤ 2 ^ 16)
    (h : ReconstructF SigF m uid x y) (hl : m.reconstruct uid x = .ok l) (i j : Nat) (hi : i < m.items) (hj : j < m.items)
    (hd : l.getD i 0 + cdaeError m uid x i + cdaeError m uid x j < l.getD j 0) : y.getD i 0 < y.getD j 0 := by
  obtain ⟨l', h1, h2, h3⟩ := C139_close m uid x y hn hk h
  rw [hl] at h1
  cases h1
  have hy : y.length = m.items := by obtain ⟨_, _, _, _, h⟩ := h; exact h.1
  have a := h3 i (by omega)
  have b := h3 j (by omega)
  linarith [(abs_le.1 a).2, (abs_le.1 b).1]

/-- C139: the same user scored again, in another order of the sums, changes by at most twice the error. -/
theorem C139_again (m : Cdae) (uid : Nat) (x y z : List ℝ) (hn : m.items + 2 ≤ 2 ^ 16) (hk : m.hidden + 1 ≤ 2 ^ 16)
    (hy : ReconstructF SigF m uid x y) (hz : ReconstructF SigF m uid x z) (j : Nat) (hj : j < m.items) :
    |y.getD j 0 - z.getD j 0| ≤ 2 * cdaeError m uid x j := by
  obtain ⟨l, h1, h2, h3⟩ := C139_close m uid x y hn hk hy
  obtain ⟨l', g1, g2, g3⟩ := C139_close m uid x z hn hk hz
  rw [h1] at g1
  cases g1
  have hl : y.length = m.items := by obtain ⟨_, _, _, _, h⟩ := hy; exact h.1
  have a := abs_le.1 (h3 j (by omega))
  have b := abs_le.1 (g3 j (by omega))
  rw [abs_le]
  constructor <;> linarith [a.1, a.2, b.1, b.2]

theorem single_one : single (1 : ℝ) = 1 := by
  have := single_cast 1
  rw [show single (1 : ℚ) = 1 by decide +kernel] at this
  simpa using this

/-- C139: there are scores for every known user; they are positive and at most 1, up to the error of the sigmoid. -/
theorem C139_range (m : Cdae) (uid : Nat) (x : List ℝ) (hu : uid < m.users) (hx : x.length = m.items) :
    (∃ y, ReconstructF SigBest m uid x y) ∧
    (∀ y, ReconstructF SigF m uid x y → y.length = m.items ∧ ∀ a ∈ y, 0 < a ∧ a ≤ 1 + 4 / 2 ^ 24) ∧
    ∀ y, ReconstructF SigBest m uid x y → ∀ a ∈ y, a ≤ 1 := by
  have at_ : ∀ (S : ℝ → ℝ → Prop) (y : List ℝ), ReconstructF S m uid x y → ∀ a ∈ y, ∃ z, S z a := by
    rintro S y ⟨_, _, _, _, h1, h2⟩ a ha
    obtain ⟨j, hj, rfl⟩ := List.mem_iff_getElem.1 ha
    obtain ⟨d, _, hs⟩ := h2 j (h1 ▸ hj)
    rw [List.getD_eq_getElem?_getD, List.getElem?_eq_getElem hj] at hs
    exact ⟨_, hs⟩
  refine ⟨reconstruct_exists m uid x hu hx, fun y h => ⟨?_, fun a ha => ?_⟩, fun y h a ha => ?_⟩
  · obtain ⟨_, _, _, _, h⟩ := h
    exact h.1
  · obtain ⟨z, hz⟩ := at_ _ y h a ha
    obtain ⟨b0, b1⟩ := sigmoid_bounds z
    obtain ⟨c0, c1⟩ := abs_le.1 hz
    constructor
    · norm_num at c0
      linarith
    · nlinarith
  · obtain ⟨z, rfl⟩ := at_ _ y h a ha
    rw [← single_one]
    exact roundTo_mono (sigmoid_bounds z).2.le

/-- The claim that scores stay below 1 (as C81 has it for real numbers), with every operation rounded as well as possible. -/
def ScoresBelowOne : Prop := ∀ (m : Cdae) (uid : Nat) (x y : List ℝ), ReconstructF SigBest m uid x y → ∀ a ∈ y, a < 1

/-- The claim that items with different exact scores are ordered by them. -/
def OrderKept : Prop := ∀ (m : Cdae) (uid : Nat) (x y l : List ℝ) (i j : Nat), i < m.items → j < m.items →
  m.reconstruct uid x = .ok l → ReconstructF SigBest m uid x y → l.getD i 0 < l.getD j 0 → y.getD i 0 < y.getD j 0

/-- Two items, one hidden unit; the arguments of the last sigmoid are 40 and 30. -/
noncomputable def sureNet : Cdae :=
  ⟨1, 2, 1, fun _ _ => 0, fun _ j => if j = 0 then 80 else 60, fun _ _ => 0, fun _ => 0, fun _ => 0⟩

theorem saturated {x : ℝ} (h : 30 ≤ x) : single (sigmoid x) = 1 := by
  refine le_antisymm ?_ ?_
  · rw [← single_one]
    exact roundTo_mono (sigmoid_bounds x).2.le
  · have e : Real.exp (-x) ≤ 1 / 2 ^ 26 := by
      have h1 : (2 : ℝ) ^ 30 ≤ Real.exp x := by
        have h2 : (2 : ℝ) ≤ Real.exp 1 := by linarith [Real.exp_one_gt_d9]
        have h3 : Real.exp 30 = Real.exp 1 ^ 30 := by rw [← Real.exp_nat_mul]; norm_num
        calc (2 : ℝ) ^ 30 ≤ Real.exp 1 ^ 30 := pow_le_pow_left₀ (by norm_num) h2 30
          _ = Real.exp 30 := h3.symm
          _ ≤ Real.exp x := Real.exp_le_exp.2 h
      rw [Real.exp_neg, ← one_div]
      exact one_div_le_one_div_of_le (by norm_num) (le_trans (by norm_num) h1)
    have hs : ((1 - 1 / 2 ^ 26 : ℚ) : ℝ) ≤ sigmoid x := by
      unfold sigmoid
      rw [le_div_iff₀ (by positivity)]
      push_cast
      nlinarith [Real.exp_pos (-x)]
    have := roundTo_mono (q := 23) hs
    change single _ ≤ single _ at this
    rw [single_cast, show single (1 - 1 / 2 ^ 26 : ℚ) = 1 by decide +kernel] at this
    simpa using this

theorem single_half : single (1 / 2 : ℝ) = 1 / 2 :=
  (by
    have := single_cast (1 / 2)
    rw [show single (1 / 2 : ℚ) = 1 / 2 by decide +kernel] at this
    push_cast at this
    exact this)

theorem single_nat (n : ℕ) (h : single (n : ℚ) = n) : single (n : ℝ) = n := by
  have := single_cast (n : ℚ)
  rw [h] at this
  simpa using this

theorem sure_scores : ReconstructF SigBest sureNet 0 [1, 0] [1, 1] := by
  have s0 : single (0 : ℝ) = 0 := roundTo_zero
  have s40 : single (40 : ℝ) = 40 := by exact_mod_cast single_nat 40 (by decide +kernel)
  have s30 : single (30 : ℝ) = 30 := by exact_mod_cast single_nat 30 (by decide +kernel)
  refine ⟨by simp [sureNet], by simp [sureNet], [1 / 2], ⟨by simp [sureNet], fun k hk => ⟨0, ?_, ?_⟩⟩, by simp [sureNet],
    fun j hj => ⟨if j = 0 then 40 else 30, ?_, ?_⟩⟩
  · have := Dotted.fma 1 0 (Dotted.mul 0 0)
    rw [mul_zero, mul_zero, s0, add_zero, s0] at this
    simpa [sureNet] using this
  · obtain rfl : k = 0 := by simp [sureNet] at hk; exact hk
    have e : sigmoid 0 = 1 / 2 := by norm_num [sigmoid]
    simp only [SigBest, sureNet, add_zero, s0, e, single_half]
    rfl
  · have := Dotted.mul (1 / 2) (if j = 0 then 80 else 60)
    have e : (1 / 2 : ℝ) * (if j = 0 then 80 else 60) = if j = 0 then 40 else 30 := by split <;> norm_num
    rw [e, apply_ite single, s40, s30] at this
    simpa [sureNet] using this
  · have hj : j = 0 ∨ j = 1 := by
      simp [sureNet] at hj
      omega
    rcases hj with rfl | rfl
    · simp [SigBest, sureNet, s40, saturated (show (30 : ℝ) ≤ 40 by norm_num)]
    · simp [SigBest, sureNet, s30, saturated]

/-- C139 (witness): two items with different exact scores get the score 1 in single precision, although every operation rounds
correctly; the ranking then lists the item with the lower exact score first. -/
theorem C139_saturated_refuted : ¬ ScoresBelowOne ∧ ¬ OrderKept ∧
    (∃ l, sureNet.reconstruct 0 [1, 0] = .ok l ∧ l.getD 1 0 < l.getD 0 0) ∧
    ∀ ds : Mem, cdaeRank ds (fun _ => [1, 1]) 0 [0, 1] 2 false = .ok [(1, 1), (1, 0)] := by
  have hlt : ∃ l, sureNet.reconstruct 0 [1, 0] = .ok l ∧ l.getD 1 0 < l.getD 0 0 := by
    refine ⟨_, reconstruct_eq sureNet 0 [1, 0] (by simp [sureNet]) (by simp [sureNet]), ?_⟩
    have e : ∀ j : Nat, j < 2 → ((List.range sureNet.items).map fun j =>
        sigmoid (∑ k ∈ Finset.range sureNet.hidden, exactHidden sureNet 0 [1, 0] k * sureNet.W' k j + sureNet.b' j)).getD j 0 =
        Real.sigmoid (if j = 0 then 40 else 30) := by
      intro j hj
      have h2 : exactHidden sureNet 0 [1, 0] 0 = 1 / 2 := by norm_num [exactHidden, sureNet, sigmoid]
      rw [← sigmoid_eq]
      have hj' : j < sureNet.items := hj
      simp only [List.getD_eq_getElem?_getD, List.getElem?_map, List.getElem?_range hj', Option.map_some, Option.getD_some]
      congr 1
      show ∑ k ∈ Finset.range 1, _ + (0 : ℝ) = _
      rw [Finset.sum_range_one, h2]
      simp only [sureNet]
      split <;> norm_num
    rw [e 1 (by norm_num), e 0 (by norm_num), Real.sigmoid_lt_iff]
    norm_num
  refine ⟨fun h => ?_, fun h => ?_, hlt, fun ds => ?_⟩
  · exact lt_irrefl _ (h sureNet 0 [1, 0] [1, 1] sure_scores 1 (by simp))
  · obtain ⟨l, hl, hd⟩ := hlt
    have := h sureNet 0 [1, 0] [1, 1] l 1 0 (by simp [sureNet]) (by simp [sureNet]) hl sure_scores hd
    simp at this
  · show Except.ok _ = _
    congr 1

/-- The hypotheses hold for this network and its bound is below 2e-5. -/
example : sureNet.items + 2 ≤ 2 ^ 16 ∧ sureNet.hidden + 1 ≤ 2 ^ 16 ∧ ReconstructF SigF sureNet 0 [1, 0] [1, 1] ∧
    cdaeError sureNet 0 [1, 0] 0 ≤ 2 / 10 ^ 5 := by
  refine ⟨by simp [sureNet], by simp [sureNet], best_reconstruct sure_scores, ?_⟩
  norm_num [cdaeError, hiddenError, hiddenReach, stepError, sureNet]

end DRec.Cd
