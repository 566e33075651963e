import Verif.Model.KnnMem
import Verif.Spec.Knn
import Verif.Lemmas.Recommender
import Verif.Lemmas.Knn

/-!
# The records read by the nearest neighbour recommenders
-/

namespace DRec

open Spec

theorem idCell_nat (k : Nat) : idCell (.num (k : ℚ)) = k := by simp [idCell]

/-- The cells of a record of a dataset with ids. -/
theorem fresh_cells {ds : Mem} (h : Fresh ds) {r : Row} (hr : r ∈ ds.rows) :
    r.get "uid" = .num (idCell (r.get "uid") : ℚ) ∧ r.get "iid" = .num (idCell (r.get "iid") : ℚ) ∧
      r.get "interaction" = .num (ratCell (r.get "interaction")) := by
  obtain ⟨q, hq⟩ := h.numeric r hr
  rw [(h.ids.user.code r hr).2, (h.ids.item.code r hr).2, hq, idCell_nat, idCell_nat]
  exact ⟨rfl, rfl, rfl⟩

theorem idCell_iff {v : Val} (hv : v = .num (idCell v : ℚ)) (k : Nat) : v = .num (k : ℚ) ↔ idCell v = k := by
  constructor
  · rintro rfl; exact idCell_nat k
  · intro e; rw [hv, e]

/-- The record as a rating. -/
def ratingOf (r : Row) : Rating := ⟨idCell (r.get "uid"), idCell (r.get "iid"), ratCell (r.get "interaction")⟩

theorem ratingsOf_eq (ds : Mem) : ratingsOf ds = ds.rows.map ratingOf := rfl

theorem rowsWith_uid {ds : Mem} (h : Fresh ds) (k : Nat) :
    (rowsWith "uid" k ds.rows).map ratingOf = (ratingsOf ds).filter fun r => r.uid = k := by
  rw [ratingsOf_eq, List.filter_map]
  congr 1
  apply List.filter_congr
  intro r hr
  simp only [Function.comp_apply, decide_eq_decide]
  exact idCell_iff (fresh_cells h hr).1 k

theorem rowsWith_iid {ds : Mem} (h : Fresh ds) (k : Nat) :
    (rowsWith "iid" k ds.rows).map ratingOf = (ratingsOf ds).filter fun r => r.iid = k := by
  rw [ratingsOf_eq, List.filter_map]
  congr 1
  apply List.filter_congr
  intro r hr
  simp only [Function.comp_apply, decide_eq_decide]
  exact idCell_iff (fresh_cells h hr).2.1 k

theorem idSelect_ok {ds : Mem} {c : String} (hc : c ∈ ds.cols) (hid : c = "uid" ∨ c = "iid") (k : Nat) :
    idSelect ds c k = .ok { ds.copy with rows := rowsWith c k ds.rows } := by
  have hn : NameOk c := by rcases hid with rfl | rfl <;> decide
  unfold idSelect Mem.select
  rw [applyQuery_copy, idRows hc hn hid k]
  rfl

theorem pairRows {ds : Mem} (hu : "uid" ∈ ds.cols) (hi : "iid" ∈ ds.cols) (u i : Nat) :
    ds.applyQuery (pairQuery u i) =
      .ok (ds.rows.filter fun r => decide (r.get "uid" = .num (u : ℚ)) && decide (r.get "iid" = .num (i : ℚ))) := by
  have nu : NameOk "uid" := by decide
  have ni : NameOk "iid" := by decide
  have hw : WellWritten [([], ⟨"uid", .eq, .int u⟩, []), ([' '], ⟨"iid", .eq, .int i⟩, [])] := by
    refine ⟨by simp, ?_⟩
    intro w hw
    simp only [List.mem_cons, List.not_mem_nil, or_false] at hw
    rcases hw with rfl | rfl
    · exact ⟨by simp [Blank], by simp [Blank], nu, trivial⟩
    · exact ⟨by simp [Blank], by simp [Blank], ni, trivial⟩
  have hm := applyQuery_means ds [([], ⟨"uid", .eq, .int u⟩, []), ([' '], ⟨"iid", .eq, .int i⟩, [])] hw (by
    intro w hw
    simp only [List.mem_cons, List.not_mem_nil, or_false] at hw
    rcases hw with rfl | rfl
    · exact segMeans_direct ds _ _ _ (by simp [Blank]) (by simp [Blank]) nu trivial hu
        (by simp [Fits, SLit.isInt]) (.inr (.inr (by simp))) (by simp [Comparable])
    · exact segMeans_direct ds _ _ _ (by simp [Blank]) (by simp [Blank]) ni trivial hi
        (by simp [Fits, SLit.isInt]) (.inr (.inr (by simp))) (by simp [Comparable]))
  have e : pairQuery u i = queryText [([], ⟨"uid", .eq, .int u⟩, []), ([' '], ⟨"iid", .eq, .int i⟩, [])] := by
    unfold pairQuery
    rw [cellText_nat, cellText_nat]
    simp [queryText, SCond.text, Op.text]
  rw [e, hm]
  simp only [Except.ok.injEq]
  apply List.filter_congr
  intro r _
  rw [Bool.eq_iff_iff]
  simp [Sat, Holds, SLit.value]

theorem lookup_toRec (r : Row) (c : String) (cs : List String) (h : c ∈ cs) :
    (Row.toRec cs r).lookup c = some (r.get c) := by
  induction cs with
  | nil => simp at h
  | cons d cs ih =>
    simp only [Row.toRec, List.map_cons, List.lookup_cons]
    by_cases e : c = d
    · subst e; simp
    · rw [beq_false_of_ne e]
      exact ih ((List.mem_cons.1 h).resolve_left e)

theorem head?_filter_map {α β : Type} (f : α → β) (p : α → Bool) (l : List α) :
    (l.filter p).head?.map f = ((l.find? p).map f) := by
  rw [List.head?_filter]

end DRec
