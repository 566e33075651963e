import Verif.Model.Mem
import Verif.Spec.Mem
import Mathlib.Data.List.Dedup
import Mathlib.Data.List.Perm.Basic
import Mathlib.Data.List.Nodup

/-! # Lemmas about assigning internal ids -/

namespace DRec

open Spec

theorem mem_distinctVals (l : List Val) (v : Val) : v ∈ distinctVals l ↔ v ∈ l := by
  induction l with
  | nil => simp [distinctVals]
  | cons a l ih =>
    simp only [distinctVals, List.mem_cons, List.mem_filter, ih, decide_eq_true_eq]
    by_cases h : v = a <;> simp [h]

theorem nodup_distinctVals (l : List Val) : (distinctVals l).Nodup := by
  induction l with
  | nil => simp [distinctVals]
  | cons a l ih =>
    simp only [distinctVals, List.nodup_cons, List.mem_filter, decide_eq_true_eq, not_and,
      not_not]
    exact ⟨fun _ => trivial, ih.filter _⟩

theorem length_distinctVals (l : List Val) : (distinctVals l).length = l.dedup.length := by
  apply List.Perm.length_eq
  rw [List.perm_ext_iff_of_nodup (nodup_distinctVals l) (List.nodup_dedup l)]
  intro a
  rw [mem_distinctVals, List.mem_dedup]

theorem distinctVals_append (a b : List Val) :
    distinctVals (a ++ b) = distinctVals a ++ (distinctVals b).filter (· ∉ a) := by
  induction a with
  | nil => simp [distinctVals]
  | cons x a ih =>
    simp only [List.cons_append, distinctVals, ih, List.filter_append, List.filter_filter]
    congr 2
    apply List.filter_congr
    intro v _
    by_cases h1 : v = x <;> by_cases h2 : v ∈ a <;> simp [h1, h2]

/-- The code of a value at its first appearance is the number of distinct values before it. -/
theorem idxOf_distinctVals_first (pre post : List Val) (v : Val) (h : v ∉ pre) :
    (distinctVals (pre ++ v :: post)).idxOf v = pre.dedup.length := by
  rw [distinctVals_append, List.idxOf_append_of_notMem (by rwa [mem_distinctVals]),
    length_distinctVals]
  simp [distinctVals, h]

theorem Row.get_set (r : Row) (c d : String) (v : Val) (hc : c ≠ "rid") :
    (r.set c v).get d = if d = c then v else r.get d := by
  unfold Row.get Row.set
  by_cases h : d = "rid"
  · subst h; simp [Ne.symm hc]
  · simp [h]

theorem Row.rid_set (r : Row) (c : String) (v : Val) : (r.set c v).rid = r.rid := rfl

/-- Rows after assigning ids. -/
def stamp (users items : List Val) (r : Row) : Row :=
  (r.set "uid" (codeOf users (r.get "user"))).set "iid" (codeOf items (r.get "item"))

theorem stamp_get (users items : List Val) (r : Row) (c : String) :
    (stamp users items r).get c =
      if c = "iid" then codeOf items (r.get "item")
      else if c = "uid" then codeOf users (r.get "user") else r.get c := by
  unfold stamp
  rw [Row.get_set _ _ _ _ (by decide), Row.get_set _ _ _ _ (by decide)]

/-- Result of a successful assignment. -/
theorem assignIds_eq (ds : Mem) (hu : "user" ∈ ds.cols) (hi : "item" ∈ ds.cols) :
    ds.assignIds = ({ ds with
      cols := addCol (addCol ds.cols "uid") "iid"
      dtype := fun c => if c = "iid" then .int else if c = "uid" then .int else ds.dtype c
      rows := ds.rows.map (stamp (distinctVals (ds.rows.map (·.get "user")))
        (distinctVals (ds.rows.map (·.get "item"))))
      hasIds := true
      userMap := distinctVals (ds.rows.map (·.get "user"))
      itemMap := distinctVals (ds.rows.map (·.get "item")) }, none) := by
  unfold Mem.assignIds
  simp only [hu, hi, if_true, List.map_map]
  congr 2

theorem mem_addCol (cols : List String) (c d : String) : d ∈ addCol cols c ↔ d = c ∨ d ∈ cols := by
  unfold addCol
  split
  · constructor
    · exact Or.inr
    · rintro (rfl | h) <;> assumption
  · simp [or_comm]

/-- A successful assignment makes the id columns consistent. -/
theorem assignIds_idsOk (ds : Mem) (hu : "user" ∈ ds.cols) (hi : "item" ∈ ds.cols) :
    IdsOk ds.assignIds.1 := by
  rw [assignIds_eq ds hu hi]
  refine ⟨rfl, ⟨nodup_distinctVals _, ?_, ?_, ?_⟩, ⟨nodup_distinctVals _, ?_, ?_, ?_⟩⟩
  · simp [mem_addCol, hu]
  · simp [mem_addCol]
  · intro r hr
    obtain ⟨r0, h0, rfl⟩ := List.mem_map.1 hr
    rw [stamp_get, stamp_get]
    simp only [if_neg (show "user" ≠ "iid" by decide), if_neg (show "user" ≠ "uid" by decide),
      if_neg (show "uid" ≠ "iid" by decide), if_true]
    exact ⟨(mem_distinctVals _ _).2 (List.mem_map_of_mem h0), rfl⟩
  · simp [mem_addCol, hi]
  · simp [mem_addCol]
  · intro r hr
    obtain ⟨r0, h0, rfl⟩ := List.mem_map.1 hr
    rw [stamp_get, stamp_get]
    simp only [if_neg (show "item" ≠ "iid" by decide), if_neg (show "item" ≠ "uid" by decide),
      if_true]
    exact ⟨(mem_distinctVals _ _).2 (List.mem_map_of_mem h0), rfl⟩

/-- Consistency is kept by any operation that only removes rows. -/
theorem idsOk_sub {a b : Mem} (h : IdsOk a) (hcols : b.cols = a.cols) (hids : b.hasIds = a.hasIds)
    (hu : b.userMap = a.userMap) (hi : b.itemMap = a.itemMap) (hr : b.rows ⊆ a.rows) : IdsOk b := by
  refine ⟨hids ▸ h.has, ⟨hu ▸ h.user.nodup, hcols ▸ h.user.hasRaw, hcols ▸ h.user.hasCol, ?_⟩,
    ⟨hi ▸ h.item.nodup, hcols ▸ h.item.hasRaw, hcols ▸ h.item.hasCol, ?_⟩⟩
  · intro r hr'; rw [hu]; exact h.user.code r (hr hr')
  · intro r hr'; rw [hi]; exact h.item.code r (hr hr')

end DRec
