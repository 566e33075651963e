import Verif.Lemmas.MemHeap
import Verif.Props.QueryIds

/-!
# C09: in-memory copies are independent
-/

namespace DRec

open Spec

/-- **C09.** Starting from a loaded dataset, for every history of operations on any of the datasets
created along the way, what each dataset shows is what it would show if the datasets were separate
values and each operation changed only the dataset it is called on (or appended a new one). -/
theorem C09_histories (m : Mem) (ops : List HOp) :
    ((Heap.load m).run ops).views = ops.foldl stepValues [m] := by
  have gen : ∀ (h : Heap), HeapOk h → (h.run ops).views = ops.foldl stepValues h.views := by
    induction ops with
    | nil => intro h _; rfl
    | cons op ops ih =>
      intro h w
      obtain ⟨w', hv⟩ := step_spec w op
      simp only [Heap.run, List.foldl_cons]
      have := ih _ w'
      rw [hv] at this
      exact this
  have := gen _ (load_ok m).1
  rwa [(load_ok m).2] at this

/-- One operation on separate values leaves every other value alone. -/
theorem stepValues_other (ms : List Mem) (op : HOp) (j : Nat) (hj : j < ms.length)
    (hne : op.target ≠ j) : (stepValues ms op)[j]? = ms[j]? ∧ ms.length ≤ (stepValues ms op).length := by
  unfold stepValues
  cases hm : ms[op.target]? with
  | none => exact ⟨rfl, le_refl _⟩
  | some m =>
    have app : ∀ x : Mem, (ms ++ [x])[j]? = ms[j]? ∧ ms.length ≤ (ms ++ [x]).length :=
      fun x => ⟨List.getElem?_append_left hj, by simp⟩
    have upd : ∀ (i : Nat) (x : Mem), i ≠ j → (ms.set i x)[j]? = ms[j]? ∧ ms.length ≤ (ms.set i x).length :=
      fun i x hi => ⟨List.getElem?_set_ne hi, by simp⟩
    have app' : ∀ x : Except Err Mem, (appendOk ms x)[j]? = ms[j]? ∧ ms.length ≤ (appendOk ms x).length := by
      intro x; cases x
      · exact ⟨rfl, le_refl _⟩
      · exact app _
    have upd' : ∀ (i : Nat) (x : Except Err Mem), i ≠ j →
        (setOk ms i x)[j]? = ms[j]? ∧ ms.length ≤ (setOk ms i x).length := by
      intro i x hi; cases x
      · exact ⟨rfl, le_refl _⟩
      · exact upd _ _ hi
    cases op with
    | copy i => exact app _
    | select i q c =>
      cases c
      · exact upd' _ _ hne
      · exact app' _
    | drop i ids k c =>
      cases c
      · exact upd _ _ hne
      · exact app _
    | unique i cs c =>
      cases c
      · exact upd' _ _ hne
      · exact app' _
    | apply i c f => exact upd _ _ hne
    | assign i => exact upd _ _ hne
    | remove i => exact upd _ _ hne
    | userVec i u => exact upd _ _ hne
    | itemVec i u => exact upd _ _ hne

/-- **C09.** After any history, no further operations on other datasets change the records, columns,
id mappings or caches seen through dataset `j`. -/
theorem C09_copies_independent (m : Mem) (before after : List HOp) (j : Nat)
    (hj : j < ((Heap.load m).run before).objs.length) (hne : ∀ op ∈ after, op.target ≠ j) :
    (((Heap.load m).run before).run after).views[j]? = ((Heap.load m).run before).views[j]? := by
  have hrun : ((Heap.load m).run before).run after = (Heap.load m).run (before ++ after) := by
    simp [Heap.run, List.foldl_append]
  have hl : j < (before.foldl stepValues [m]).length := by
    rw [← C09_histories]; simpa [Heap.views] using hj
  rw [hrun, C09_histories, C09_histories, List.foldl_append]
  clear hrun hj
  generalize before.foldl stepValues [m] = ms at hl
  induction after generalizing ms with
  | nil => rfl
  | cons op after ih =>
    obtain ⟨h1, h2⟩ := stepValues_other ms op j hl (hne op (by simp))
    rw [List.foldl_cons, ih (fun o ho => hne o (by simp [ho])) _ (lt_of_lt_of_le hl h2), h1]

/-- A copy, then id assignment and an in-place drop on the copy: the original is unchanged, the copy
is not. -/
example :
    let h := (Heap.load exUnsorted).run [.copy 0, .assign 1, .drop 1 [0] false false]
    h.objs.length = 2 ∧ (h.views.map fun v => (v.cols, v.rows.map (·.rid), v.hasIds)) =
      [(["user", "item", "interaction", "rid"], [0, 1, 2], false),
       (["user", "item", "interaction", "rid", "uid", "iid"], [1, 2], true)] := by
  decide +kernel

end DRec
