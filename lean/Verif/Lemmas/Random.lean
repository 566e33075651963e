import Verif.Model.Random
import Mathlib.Data.List.Perm.Subperm

/-! # Facts about sampling -/

namespace DRec

variable {α : Type}

theorem randint0_le (n d : Nat) : randint0 n d ≤ n := by
  unfold randint0; have := Nat.mod_lt d (show 0 < n + 1 by omega); omega

theorem randint0_of_le {n d : Nat} (h : d ≤ n) : randint0 n d = d := by
  unfold randint0; exact Nat.mod_eq_of_lt (by omega)

theorem pySample_length (xs : List α) (k : Nat) (s : Nat → Nat) (h : k ≤ xs.length) :
    (pySample xs k s).length = k := by
  induction k generalizing xs s with
  | zero => simp [pySample]
  | succ k ih =>
    have hlt : s 0 % xs.length < xs.length := Nat.mod_lt _ (by omega)
    simp only [pySample, List.getElem?_eq_getElem hlt, List.length_cons]
    rw [ih]
    rw [List.length_eraseIdx_of_lt hlt]; omega

theorem cons_eraseIdx_perm (xs : List α) (i : Nat) (h : i < xs.length) :
    (xs[i] :: xs.eraseIdx i).Perm xs := by
  exact List.getElem_cons_eraseIdx_perm h

theorem pySample_subperm (xs : List α) (k : Nat) (s : Nat → Nat) :
    (pySample xs k s).Subperm xs := by
  induction k generalizing xs s with
  | zero => simp [pySample, List.nil_subperm]
  | succ k ih =>
    unfold pySample
    split
    · exact List.nil_subperm
    · rename_i x hx
      obtain ⟨hlt, rfl⟩ := List.getElem?_eq_some_iff.1 hx
      exact ((List.subperm_cons _).2 (ih _ _)).trans (cons_eraseIdx_perm xs _ hlt).subperm

theorem pySample_subset (xs : List α) (k : Nat) (s : Nat → Nat) : pySample xs k s ⊆ xs :=
  (pySample_subperm xs k s).subset

theorem pySample_nodup (xs : List α) (k : Nat) (s : Nat → Nat) (h : xs.Nodup) :
    (pySample xs k s).Nodup := by
  obtain ⟨l, hp, hs⟩ := pySample_subperm xs k s
  exact hp.nodup_iff.1 (hs.nodup h)

/-- Every arrangement of distinct positions can be drawn. -/
theorem pySample_reach (ys xs : List α) (h : ys.Subperm xs) : ∃ s, pySample xs ys.length s = ys := by
  induction ys generalizing xs with
  | nil => exact ⟨fun _ => 0, rfl⟩
  | cons y ys ih =>
    have hy : y ∈ xs := h.subset (by simp)
    obtain ⟨i, hi, rfl⟩ := List.getElem_of_mem hy
    have h2 : (xs[i] :: ys).Subperm (xs[i] :: xs.eraseIdx i) :=
      h.trans (cons_eraseIdx_perm xs i hi).symm.subperm
    obtain ⟨s, hs⟩ := ih (xs.eraseIdx i) ((List.subperm_cons _).1 h2)
    refine ⟨fun n => match n with | 0 => i | n + 1 => s n, ?_⟩
    simp only [List.length_cons, pySample, Nat.mod_eq_of_lt hi, List.getElem?_eq_getElem hi, hs]

end DRec
