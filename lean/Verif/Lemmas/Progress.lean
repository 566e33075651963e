import Verif.Spec.Progress
import Mathlib.Data.Finset.Card
import Mathlib.Data.Fintype.Basic
import Mathlib.Algebra.BigOperators.Group.Finset.Basic
import Mathlib.Algebra.Order.BigOperators.Group.Finset
import Mathlib.Data.List.Nodup
import Mathlib.Data.List.Range
import Mathlib.Tactic.SplitIfs

/-! # Lemmas about calls that share a counter -/

namespace DRec.Prog

variable {N : Nat} {n : Fin N → Nat} {verbose : Fin N → Bool}

/-- Number of submitted tasks of a call. -/
def subs (n : Fin N → Nat) (s : St N) (i : Fin N) : Nat :=
  match s.main i with
  | .start => 0
  | .submit k => k
  | _ => n i

/-- What holds in every state. -/
structure Inv (n : Fin N → Nat) (verbose : Fin N → Bool) (s : St N) : Prop where
  subs_le : ∀ i, subs n s i ≤ n i
  new_iff : ∀ i j, s.task i j = .new ↔ subs n s i ≤ j
  log_iff : ∀ i j, j ∈ s.log i ↔ s.task i j = .worked ∨ s.task i j = .done
  log_nodup : ∀ i, (s.log i).Nodup
  locked : ∀ i j ph, s.lock = some (i, j, ph) → s.task i j = .worked
  silent : ∀ i, verbose i = false → s.main i ≠ .test ∧ s.main i ≠ .compare
  returned : ∀ i, s.main i = .returned → ∀ j < n i, s.task i j = .done

theorem inv_init : Inv n verbose (init N) where
  subs_le i := by simp [subs, init]
  new_iff i j := by simp [subs, init]
  log_iff i j := by simp [init]
  log_nodup i := by simp [init]
  locked i j ph h := by simp [init] at h
  silent i h := by simp [init]
  returned i h := by simp [init] at h

theorem subs_update_ne {s : St N} {i a : Fin N} (h : a ≠ i) (m : MPc) (c : Nat) (tk : Fin N → Nat → TPc) :
    subs n { s with counter := c, task := tk, main := Function.update s.main i m } a = subs n s a := by
  simp [subs, Function.update_of_ne h]

/-- A step of the calling thread that only moves on, without changing the number of submitted tasks. -/
theorem inv_move {s : St N} (h : Inv n verbose s) (i : Fin N) (m : MPc) (c : Nat)
    (hs : subs n { s with counter := c, main := Function.update s.main i m } i = subs n s i)
    (hv : verbose i = false → m ≠ .test ∧ m ≠ .compare)
    (hr : m = .returned → ∀ j < n i, s.task i j = .done) :
    Inv n verbose { s with counter := c, main := Function.update s.main i m } := by
  have hsub : ∀ a, subs n { s with counter := c, main := Function.update s.main i m } a = subs n s a := by
    intro a
    by_cases ha : a = i
    · subst ha; exact hs
    · simp [subs, Function.update_of_ne ha]
  refine ⟨fun a => by rw [hsub]; exact h.subs_le a, fun a j => by rw [hsub]; exact h.new_iff a j,
    h.log_iff, h.log_nodup, h.locked, fun a ha => ?_, fun a ha => ?_⟩
  · by_cases e : a = i
    · subst e; simpa using hv ha
    · simpa [Function.update_of_ne e] using h.silent a ha
  · by_cases e : a = i
    · subst e; exact hr (by simpa using ha)
    · exact h.returned a (by simpa [Function.update_of_ne e] using ha)

theorem inv_main {s : St N} (h : Inv n verbose s) (i : Fin N) : Inv n verbose (mainStep n verbose s i) := by
  unfold mainStep
  split
  · rename_i hm
    exact inv_move h i _ _ (by simp [subs, hm]) (by simp) (by simp)
  · rename_i k hm
    split_ifs with hk hv
    · have hsub : ∀ a, subs n { s with
          task := Function.update s.task i (Function.update (s.task i) k .ready)
          main := Function.update s.main i (.submit (k + 1)) } a = if a = i then k + 1 else subs n s a := by
        intro a
        by_cases ha : a = i
        · subst ha; simp [subs]
        · simp [subs, ha]
      have hk0 : subs n s i = k := by simp [subs, hm]
      have hnew : s.task i k = .new := (h.new_iff i k).2 (by omega)
      have htask : ∀ a j, (Function.update s.task i (Function.update (s.task i) k .ready)) a j =
          if a = i ∧ j = k then .ready else s.task a j := by
        intro a j
        by_cases ha : a = i
        · subst ha
          by_cases hj : j = k
          · subst hj; simp
          · simp [hj]
        · simp [ha]
      refine ⟨fun a => ?_, fun a j => ?_, fun a j => ?_, h.log_nodup, fun a j ph hl => ?_, fun a ha => ?_,
        fun a ha => ?_⟩
      · rw [hsub]; split_ifs with e
        · subst e; omega
        · exact h.subs_le a
      · rw [hsub]
        simp only [htask]
        by_cases ha : a = i
        · subst ha
          by_cases hj : j = k
          · subst hj; simp
          · simp only [hj, and_false, if_false, if_true, h.new_iff, hk0]; omega
        · simp [ha, h.new_iff]
      · simp only [htask]
        rw [h.log_iff]
        by_cases e : a = i ∧ j = k
        · obtain ⟨rfl, rfl⟩ := e; simp [hnew]
        · simp [e]
      · have := h.locked a j ph hl
        simp only [htask]
        rw [if_neg]
        · exact this
        · rintro ⟨rfl, rfl⟩; rw [hnew] at this; cases this
      · by_cases e : a = i
        · subst e; simp
        · simpa [Function.update_of_ne e] using h.silent a ha
      · by_cases e : a = i
        · subst e; simp at ha
        · intro j hj
          simp only [htask]
          rw [if_neg (fun x => e x.1)]
          exact h.returned a (by simpa [Function.update_of_ne e] using ha) j hj
    · have := h.subs_le i
      have hk0 : subs n s i = k := by simp [subs, hm]
      exact inv_move h i _ _ (by simp [subs, hm] at *; omega) (by simp [hv]) (by simp)
    · have := h.subs_le i
      have hk0 : subs n s i = k := by simp [subs, hm]
      exact inv_move h i _ _ (by simp [subs, hm] at *; omega) (by simp) (by simp)
  · rename_i hm
    have hv : verbose i = true := by
      by_contra hv
      exact (h.silent i (by simpa using hv)).1 hm
    split_ifs
    · exact inv_move h i _ _ (by simp [subs, hm]) (by simp [hv]) (by simp)
    · exact inv_move h i _ _ (by simp [subs, hm]) (by simp) (by simp)
  · rename_i hm
    have hv : verbose i = true := by
      by_contra hv
      exact (h.silent i (by simpa using hv)).2 hm
    split_ifs
    · exact inv_move h i _ _ (by simp [subs, hm]) (by simp) (by simp)
    · exact inv_move h i _ _ (by simp [subs, hm]) (by simp [hv]) (by simp)
  · rename_i hm
    split_ifs with hj
    · exact inv_move h i _ _ (by simp [subs, hm]) (by simp) (fun _ => hj)
    · exact h
  · exact h

theorem task_update {s : St N} (i : Fin N) (k : Nat) (p : TPc) (a : Fin N) (j : Nat) :
    (Function.update s.task i (Function.update (s.task i) k p)) a j =
      if a = i ∧ j = k then p else s.task a j := by
  by_cases ha : a = i
  · subst ha
    by_cases hj : j = k
    · subst hj; simp
    · simp [hj]
  · simp [ha]

theorem inv_task {s : St N} (h : Inv n verbose s) (i : Fin N) (j : Nat) : Inv n verbose (taskStep s i j) := by
  unfold taskStep
  split
  · exact h
  · rename_i hr
    refine ⟨h.subs_le, fun a b => ?_, fun a b => ?_, fun a => ?_, fun a b ph hl => ?_, h.silent, fun a ha b hb => ?_⟩
    · simp only [task_update]
      refine Iff.trans ?_ (h.new_iff a b)
      split_ifs with e
      · obtain ⟨rfl, rfl⟩ := e; simp [hr]
      · rfl
    · simp only [task_update]
      by_cases ha : a = i
      · subst ha
        by_cases hb : b = j
        · subst hb; simp
        · simp [hb, h.log_iff]
      · simp [ha, h.log_iff]
    · by_cases ha : a = i
      · subst ha
        simp only [Function.update_self]
        rw [List.nodup_append]
        refine ⟨h.log_nodup a, by simp, ?_⟩
        intro x hx y hy
        simp only [List.mem_singleton] at hy
        subst hy
        rintro rfl
        have := (h.log_iff a x).1 hx
        rw [hr] at this
        simp at this
      · simp [Function.update_of_ne ha, h.log_nodup]
    · simp only [task_update]
      split_ifs
      · rfl
      · exact h.locked a b ph hl
    · simp only [task_update]
      have := h.returned a ha b hb
      rw [if_neg]
      · exact this
      · rintro ⟨rfl, rfl⟩; rw [hr] at this; cases this
  · rename_i hw
    split
    · exact ⟨h.subs_le, h.new_iff, h.log_iff, h.log_nodup, fun a b ph hl => by cases hl; exact hw, h.silent,
        h.returned⟩
    · split_ifs with e
      · split
        · exact ⟨h.subs_le, h.new_iff, h.log_iff, h.log_nodup, fun a b ph hl => by cases hl; exact hw,
            h.silent, h.returned⟩
        · exact ⟨h.subs_le, h.new_iff, h.log_iff, h.log_nodup, fun a b ph hl => by cases hl; exact hw,
            h.silent, h.returned⟩
        · refine ⟨h.subs_le, fun a b => ?_, fun a b => ?_, h.log_nodup, fun a b ph hl => (by cases hl), h.silent,
            fun a ha b hb => ?_⟩
          · simp only [task_update]
            refine Iff.trans ?_ (h.new_iff a b)
            split_ifs with e
            · obtain ⟨rfl, rfl⟩ := e; simp [hw]
            · rfl
          · simp only [task_update]
            rw [h.log_iff]
            split_ifs with e
            · obtain ⟨rfl, rfl⟩ := e; simp [hw]
            · rfl
          · simp only [task_update]
            split_ifs
            · rfl
            · exact h.returned a ha b hb
      · exact h
  · exact h

theorem inv_step {s : St N} (h : Inv n verbose s) (a : Agent N) : Inv n verbose (step n verbose s a) := by
  cases a with
  | main i => exact inv_main h i
  | task i j => exact inv_task h i j

theorem inv_run (sched : Nat → Agent N) (t : Nat) : Inv n verbose (run n verbose sched t) := by
  induction t with
  | zero => exact inv_init
  | succ t ih => exact inv_step ih _

end DRec.Prog
