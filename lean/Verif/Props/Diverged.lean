import Verif.Model.Diverged
import Verif.Lemmas.Fit
import Mathlib.Tactic.FieldSimp
import Mathlib.Tactic.Ring

/-!
# C150: validation values and losses that are NaN

A NaN is never preferred to a number, unless it is the first value: then no number is preferred to it.
-/

namespace DRec.Div

theorem bestGo_nan (l : List (Option ℚ)) (i bi : Nat) : bestGo l i none bi = bi := by
  induction l generalizing i with
  | nil => rfl
  | cons x l ih => simp [bestGo, above, ih]

theorem bestGo_some (all : List (Option ℚ)) : ∀ (l : List (Option ℚ)) (i : Nat) (b : ℚ) (bi : Nat), all.drop i = l →
    all[bi]? = some (some b) → (bi < i ∨ i = 0 ∧ bi = 0) → (∀ j x, j < i → all[j]? = some (some x) → x ≤ b ∧ (j < bi → x < b)) →
    ∃ v, all[bestGo l i (some b) bi]? = some (some v) ∧ ∀ j x, all[j]? = some (some x) → x ≤ v ∧ (j < bestGo l i (some b) bi → x < v)
  | [], i, b, bi, hl, hb, _, hall => by
    refine ⟨b, hb, fun j x hj => hall j x ?_ hj⟩
    have := List.drop_eq_nil_iff.1 hl
    have := (List.getElem?_eq_some_iff.1 hj).1
    omega
  | x :: xs, i, b, bi, hl, hb, hbi, hall => by
    have hx : all[i]? = some x := by
      have := congrArg List.head? hl
      simpa [List.head?_drop] using this
    have hxs : all.drop (i + 1) = xs := by
      rw [← List.drop_drop, hl]; rfl
    unfold bestGo
    cases x with
    | none =>
      simp only [above, Bool.false_eq_true, if_false]
      apply bestGo_some all xs (i + 1) b bi hxs hb (.inl (by omega))
      intro j y hj hy
      rcases Nat.lt_succ_iff_lt_or_eq.1 hj with hji | rfl
      · exact hall j y hji hy
      · rw [hx] at hy; cases hy
    | some x =>
      simp only [above, decide_eq_true_eq]
      split
      · rename_i hlt
        apply bestGo_some all xs (i + 1) x i hxs hx (.inl (by omega))
        intro j y hj hy
        rcases Nat.lt_succ_iff_lt_or_eq.1 hj with hji | rfl
        · exact ⟨le_trans (hall j y hji hy).1 hlt.le, fun _ => lt_of_le_of_lt (hall j y hji hy).1 hlt⟩
        · rw [hx] at hy; cases hy; exact ⟨le_refl _, fun h => absurd h (by omega)⟩
      · rename_i hle
        apply bestGo_some all xs (i + 1) b bi hxs hb (.inl (by omega))
        intro j y hj hy
        rcases Nat.lt_succ_iff_lt_or_eq.1 hj with hji | rfl
        · exact hall j y hji hy
        · rw [hx] at hy; cases hy
          exact ⟨not_lt.1 hle, fun h => absurd h (by omega)⟩

/-- The epoch that should be chosen: the first one with the largest number, when there is a number. -/
def Chosen (vals : List (Option ℚ)) (epochs : List Nat) (e : Nat) : Prop :=
  ∃ (j : Nat) (v : ℚ), epochs[j]? = some e ∧ vals[j]? = some (some v) ∧ ∀ (k : Nat) (x : ℚ), vals[k]? = some (some x) → x ≤ v ∧ (k < j → x < v)

/-- C150 (partial: the first value is a number; the full property asks only for some number among the values, and fails, see
`C150_first_refuted`).  The chosen epoch is the first one with the largest number; NaN values are passed over. -/
theorem C150_chosen_partial (vals : List (Option ℚ)) (epochs : List Nat) (hl : vals.length ≤ epochs.length) (x : ℚ) (h : vals.head? = some (some x)) :
    ∃ e, maxBest vals epochs = .ok e ∧ Chosen vals epochs e := by
  obtain ⟨ys, rfl⟩ : ∃ ys, vals = some x :: ys := by
    cases vals with
    | nil => simp at h
    | cons y ys => exact ⟨ys, by simpa using h⟩
  obtain ⟨v, hv, hmax⟩ := bestGo_some (some x :: ys) (some x :: ys) 0 x 0 (by simp) (by simp) (.inr ⟨rfl, rfl⟩)
    (by intro j y hj; exact absurd hj (Nat.not_lt_zero _))
  have hj := (List.getElem?_eq_some_iff.1 hv).1
  have he : epochs[bestGo (some x :: ys) 0 (some x) 0]? = some (epochs[bestGo (some x :: ys) 0 (some x) 0]'(by omega)) := List.getElem?_eq_getElem _
  refine ⟨_, ?_, _, v, he, hv, hmax⟩
  unfold maxBest
  simp only [he]

/-- When the first value is NaN, the first validated epoch is chosen, whatever the others are. -/
theorem C150_first (vals : List (Option ℚ)) (e : Nat) (es : List Nat) : maxBest (none :: vals) (e :: es) = .ok e := by
  unfold maxBest
  simp only [bestGo_nan]
  rfl

/-- With numbers only the rule is that of `Model/Fit`. -/
theorem C150_numbers (vals : List ℚ) (epochs : List Nat) : maxBest (vals.map some) epochs = DRec.maxBest (some vals) epochs := by
  have go : ∀ (l : List ℚ) (i : Nat) (b : ℚ) (bi : Nat), bestGo (l.map some) i (some b) bi = DRec.bestGo l i b bi := by
    intro l
    induction l with
    | nil => intros; rfl
    | cons x l ih =>
      intro i b bi
      simp only [List.map_cons, bestGo, above, DRec.bestGo, decide_eq_true_eq, ih]
  cases vals with
  | nil => rfl
  | cons x xs =>
    unfold maxBest DRec.maxBest
    simp only [List.map_cons]
    rw [← List.map_cons (f := some), go]
    cases epochs[DRec.bestGo (x :: xs) 0 x 0]? <;> rfl

/-- The full property fails: one NaN in front hides all other values. -/
theorem C150_first_refuted : ¬ ∀ (vals : List (Option ℚ)) (epochs : List Nat), vals.length ≤ epochs.length → (∃ x : ℚ, some x ∈ vals) →
    ∃ e, maxBest vals epochs = .ok e ∧ Chosen vals epochs e := by
  intro h
  obtain ⟨e, h1, j, v, h2, h3, _⟩ := h [none, some 1] [0, 5] (by decide) ⟨1, by simp⟩
  rw [C150_first] at h1
  obtain rfl : (0 : Nat) = e := by injection h1
  match j, h2, h3 with
  | 0, _, h3 => simp at h3
  | 1, h2, _ => simp at h2
  | j + 2, h2, _ => simp at h2

theorem fold_nan (l : List (Option ℚ)) (n : Nat) : (l.foldl addLoss (n, none)).2 = none := by
  induction l generalizing n with
  | nil => rfl
  | cons x l ih => exact ih _

/-- The average loss is NaN from the first NaN on; before it is the mean. -/
theorem C150_average (l : List (Option ℚ)) : (none ∈ l → avgLoss l = none) ∧ ∀ xs : List ℚ, l = xs.map some → xs ≠ [] → avgLoss l = some (xs.sum / xs.length) := by
  constructor
  · intro h
    obtain ⟨s, t, rfl⟩ := List.append_of_mem h
    unfold avgLoss
    rw [List.foldl_append, List.foldl_cons]
    have : ∀ p : Nat × Option ℚ, addLoss p none = (p.1 + 1, none) := by
      rintro ⟨n, _ | a⟩ <;> rfl
    rw [this, fold_nan]
  · rintro xs rfl hne
    have go : ∀ (xs : List ℚ) (n : Nat) (a : ℚ), (xs.map some).foldl addLoss (n, some a) =
        (n + xs.length, some (if n + xs.length = 0 then a else (n * a + xs.sum) / ((n + xs.length : Nat) : ℚ))) := by
      intro xs
      induction xs with
      | nil =>
        intro n a
        by_cases h : n = 0
        · simp [h]
        · have : (n : ℚ) ≠ 0 := by exact_mod_cast h
          simp [h]
      | cons x xs ih =>
        intro n a
        rw [List.map_cons, List.foldl_cons]
        have : addLoss (n, some a) (some x) = (n + 1, some (a + (x - a) / ((n + 1 : Nat) : ℚ))) := rfl
        rw [this, ih]
        have h1 : ((n : ℚ) + 1) ≠ 0 := by positivity
        have h2 : n + 1 + xs.length = n + (x :: xs).length := by simp; omega
        rw [h2, if_neg (by simp), if_neg (by simp)]
        congr 3
        rw [List.sum_cons]
        push_cast
        field_simp
        ring
    unfold avgLoss
    rw [go, if_neg (by simpa using hne)]
    simp

/-- NaN at the second of four validations: the third one is best. -/
example : maxBest [some 1, none, some 3, some 3] [5, 10, 15, 20] = .ok 15 := by rfl

/-- The hypotheses of `C150_chosen_partial` for it. -/
example : ∃ e, maxBest [some 1, none, some 3, some 3] [5, 10, 15, 20] = .ok e ∧ Chosen [some 1, none, some 3, some 3] [5, 10, 15, 20] e :=
  C150_chosen_partial _ _ (by decide) 1 rfl

/-- Losses 1 and 3 have the average 2, a NaN afterwards makes it NaN. -/
example : avgLoss [some 1, some 3] = some 2 ∧ avgLoss [some 1, some 3, none, some 1] = none :=
  ⟨((C150_average [some 1, some 3]).2 [1, 3] rfl (by simp)).trans (by norm_num), (C150_average _).1 (by simp)⟩

end DRec.Div
