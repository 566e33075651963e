import Verif.Model.Mem

/-! # Lemmas about column maxima and minima -/

namespace DRec

theorem foldNum_max (l : List Val) (hnum : ∀ v ∈ l, ∃ q, v = .num q) (hne : l ≠ []) :
    ∃ m, foldNum Max.max l = some m ∧ .num m ∈ l ∧ ∀ q, Val.num q ∈ l → q ≤ m := by
  induction l with
  | nil => exact absurd rfl hne
  | cons a l ih =>
    obtain ⟨q, rfl⟩ := hnum a (by simp)
    by_cases hl : l = []
    · subst hl; exact ⟨q, by simp [foldNum], by simp, by simp⟩
    · obtain ⟨m, h1, h2, h3⟩ := ih (fun v hv => hnum v (by simp [hv])) hl
      refine ⟨Max.max q m, by simp [foldNum, h1], ?_, ?_⟩
      · rcases max_choice q m with h | h <;> rw [h]
        · simp
        · simp [h2]
      · intro p hp
        simp only [List.mem_cons, Val.num.injEq] at hp
        rcases hp with rfl | hp
        · exact le_max_left _ _
        · exact (h3 p hp).trans (le_max_right _ _)

theorem foldNum_min (l : List Val) (hnum : ∀ v ∈ l, ∃ q, v = .num q) (hne : l ≠ []) :
    ∃ m, foldNum Min.min l = some m ∧ .num m ∈ l ∧ ∀ q, Val.num q ∈ l → m ≤ q := by
  induction l with
  | nil => exact absurd rfl hne
  | cons a l ih =>
    obtain ⟨q, rfl⟩ := hnum a (by simp)
    by_cases hl : l = []
    · subst hl; exact ⟨q, by simp [foldNum], by simp, by simp⟩
    · obtain ⟨m, h1, h2, h3⟩ := ih (fun v hv => hnum v (by simp [hv])) hl
      refine ⟨Min.min q m, by simp [foldNum, h1], ?_, ?_⟩
      · rcases min_choice q m with h | h <;> rw [h]
        · simp
        · simp [h2]
      · intro p hp
        simp only [List.mem_cons, Val.num.injEq] at hp
        rcases hp with rfl | hp
        · exact min_le_left _ _
        · exact (min_le_right _ _).trans (h3 p hp)

end DRec
