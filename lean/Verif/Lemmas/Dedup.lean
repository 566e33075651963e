import Verif.Model.Mem
import Mathlib.Data.List.Dedup
import Mathlib.Data.List.Nodup
import Mathlib.Data.List.Perm.Basic

/-! # Lemmas about `drop_duplicates` -/

namespace DRec

theorem dedupGo_sublist (key : Row → List Val) (rs : List Row) (seen : List (List Val)) :
    (dedupGo key rs seen).Sublist rs := by
  induction rs generalizing seen with
  | nil => simp [dedupGo]
  | cons r rs ih =>
    unfold dedupGo
    split
    · exact (ih _).trans (List.sublist_cons_self _ _)
    · exact (ih _).cons_cons _

theorem mem_dedupGo_notSeen (key : Row → List Val) (rs : List Row) (seen : List (List Val))
    (r : Row) (h : r ∈ dedupGo key rs seen) : key r ∉ seen := by
  induction rs generalizing seen with
  | nil => simp [dedupGo] at h
  | cons a rs ih =>
    unfold dedupGo at h
    split at h
    · exact ih _ h
    · rcases List.mem_cons.1 h with rfl | h
      · assumption
      · have := ih _ h
        simp only [List.mem_cons, not_or] at this
        exact this.2

theorem dedupGo_keys_nodup (key : Row → List Val) (rs : List Row) (seen : List (List Val)) :
    ((dedupGo key rs seen).map key).Nodup := by
  induction rs generalizing seen with
  | nil => simp [dedupGo]
  | cons a rs ih =>
    unfold dedupGo
    split
    · exact ih _
    · simp only [List.map_cons, List.nodup_cons, List.mem_map, not_exists, not_and]
      refine ⟨?_, ih _⟩
      intro r hr he
      have := mem_dedupGo_notSeen key rs _ r hr
      simp [he] at this

theorem dedupGo_covers (key : Row → List Val) (rs : List Row) (seen : List (List Val))
    (r : Row) (h : r ∈ rs) (hs : key r ∉ seen) : ∃ r' ∈ dedupGo key rs seen, key r' = key r := by
  induction rs generalizing seen with
  | nil => simp at h
  | cons a rs ih =>
    unfold dedupGo
    split
    · next hseen =>
      rcases List.mem_cons.1 h with rfl | h
      · exact absurd hseen hs
      · exact ih _ h hs
    · by_cases hk : key r = key a
      · exact ⟨a, by simp, hk.symm⟩
      · rcases List.mem_cons.1 h with rfl | h
        · exact absurd rfl hk
        · obtain ⟨r', h1, h2⟩ := ih (key a :: seen) h (by simp [hk, hs])
          exact ⟨r', by simp [h1], h2⟩

theorem dedupGo_first (key : Row → List Val) (pre post : List Row) (r : Row)
    (seen : List (List Val)) (h : key r ∉ pre.map key) (hs : key r ∉ seen) :
    r ∈ dedupGo key (pre ++ r :: post) seen := by
  induction pre generalizing seen with
  | nil => simp [dedupGo, hs]
  | cons a pre ih =>
    simp only [List.map_cons, List.mem_cons, not_or] at h
    rw [List.cons_append]
    unfold dedupGo
    split
    · exact ih _ h.2 hs
    · refine List.mem_cons_of_mem _ (ih _ h.2 ?_)
      simp [h.1, hs]

theorem dedupGo_length (key : Row → List Val) (rs : List Row) :
    (dedupGo key rs []).length = (rs.map key).dedup.length := by
  rw [← List.length_map (f := key)]
  apply List.Perm.length_eq
  rw [List.perm_ext_iff_of_nodup (dedupGo_keys_nodup _ _ _) (List.nodup_dedup _)]
  intro k
  rw [List.mem_dedup]
  constructor
  · intro h
    obtain ⟨r, hr, rfl⟩ := List.mem_map.1 h
    exact List.mem_map_of_mem ((dedupGo_sublist key rs []).subset hr)
  · intro h
    obtain ⟨r, hr, rfl⟩ := List.mem_map.1 h
    obtain ⟨r', h1, h2⟩ := dedupGo_covers key rs [] r hr (by simp)
    exact h2 ▸ List.mem_map_of_mem h1

/-- On rows whose keys are distinct and unseen nothing is removed. -/
theorem dedupGo_id (key : Row → List Val) (rs : List Row) (seen : List (List Val))
    (h1 : (rs.map key).Nodup) (h2 : ∀ r ∈ rs, key r ∉ seen) : dedupGo key rs seen = rs := by
  induction rs generalizing seen with
  | nil => rfl
  | cons a rs ih =>
    simp only [List.map_cons, List.nodup_cons] at h1
    unfold dedupGo
    rw [if_neg (h2 a (by simp)), ih _ h1.2]
    intro r hr
    simp only [List.mem_cons, not_or]
    refine ⟨?_, h2 r (by simp [hr])⟩
    intro he
    exact h1.1 (he ▸ List.mem_map_of_mem hr)

end DRec
