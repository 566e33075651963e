import Verif.Lemmas.DbIso
import Verif.Lemmas.DbHistory

/-! # Whether the file is temporary, and datasets that stand directly on their table -/

namespace DRec

open Spec

theorem temp_shrink (w : World) (i : Nat) (x : Inst) (t : Table) : (w.shrink i x t).1.temp = w.temp := by
  unfold World.shrink
  split
  · rfl
  · split
    · rfl
    · split <;> rfl

theorem temp_split (w : World) (i : Nat) (x : Inst) (t : Table) (us : List Nat) :
    (w.split i x t us).1.temp = w.temp := by
  unfold World.split
  split
  · rfl
  · split
    · rfl
    · split <;> rfl

theorem temp_optimize (w : World) (i : Nat) (b : Bool) : (w.optimize i b).1.temp = w.temp := by
  unfold World.optimize
  split
  · rfl
  · split
    · rfl
    · split
      · rfl
      · split
        · split
          · exact temp_shrink _ _ _ _
          · exact temp_split _ _ _ _ _
        · rfl

theorem temp_record (w : World) (i : Nat) : (w.record i).1.temp = w.temp := by
  unfold World.record
  split
  · rfl
  · split
    · exact temp_optimize _ _ _
    · rfl

theorem temp_update (w : World) (i : Nat) (s : Src) : (w.update i s).1.temp = w.temp := by
  unfold World.update
  split
  · rfl
  · split
    · rfl
    · split
      · rfl
      · dsimp only
        split
        · exact temp_optimize _ _ _
        · rfl

theorem temp_copy (w : World) (i : Nat) : (w.copy i).1.temp = w.temp := by
  unfold World.copy
  split
  · rfl
  · split <;> rfl

theorem temp_leaveTable (w : World) (i n : Nat) : (w.leaveTable i n).1.temp = w.temp := by
  unfold World.leaveTable
  split
  · rfl
  · split
    · split
      · split <;> rfl
      · rfl
    · rfl

theorem temp_leaveFile (w : World) (i : Nat) : (w.leaveFile i).1.temp = w.temp := by
  unfold World.leaveFile
  split
  · rfl
  · split
    · split
      · split <;> rfl
      · rfl
    · rfl

theorem temp_close (w : World) (i : Nat) : (w.close i).1.temp = w.temp := by
  unfold World.close
  split
  · rfl
  · rename_i x hx
    have := temp_leaveTable w i x.table
    split
    · rename_i w1 e he; rw [he] at this; exact this
    · rename_i w1 he
      rw [he] at this
      exact (temp_leaveFile w1 i).trans this

theorem temp_onCopy (w : World) (i : Nat) (f : World → Nat → World × Option Err)
    (hf : ∀ w j, (f w j).1.temp = w.temp) : (w.onCopy i f).1.temp = w.temp := by
  have hc := temp_copy w i
  unfold World.onCopy
  split
  · rename_i w1 e he; rw [he] at hc; exact hc
  · rename_i w1 he
    rw [he] at hc
    have hr := (temp_record w1 i).trans hc
    split
    · rename_i w2 e hr2
      rw [hr2] at hr
      exact (temp_close _ _).trans hr
    · rename_i w2 hr2
      rw [hr2] at hr
      have h3 := (hf w2 w.nextI).trans hr
      split
      · rename_i w3 e hw3
        rw [hw3] at h3
        exact (temp_close _ _).trans h3
      · rename_i w3 hw3
        rw [hw3] at h3
        exact h3

theorem temp_inPlaceOrCopy (w : World) (i : Nat) (c : Bool) (f : World → Nat → World × Option Err)
    (hf : ∀ w j, (f w j).1.temp = w.temp) : (w.inPlaceOrCopy i c f).1.temp = w.temp := by
  unfold World.inPlaceOrCopy
  split
  · exact temp_onCopy w i f hf
  · have := hf w i
    split
    · rename_i w1 e he; rw [he] at this; exact this
    · rename_i w1 he; rw [he] at this; exact this

theorem temp_selectOn (w : World) (i : Nat) (q : List Char) : (w.selectOn i q).1.temp = w.temp := by
  unfold World.selectOn
  split
  · rfl
  · split
    · rfl
    · exact temp_update _ _ _

theorem temp_dropOn (w : World) (i : Nat) (ids : List Nat) (b : Bool) : (w.dropOn i ids b).1.temp = w.temp := by
  unfold World.dropOn
  split
  · rfl
  · exact temp_update _ _ _

theorem temp_uniqueOn (w : World) (i : Nat) (l : List String) : (w.uniqueOn i l).1.temp = w.temp := by
  unfold World.uniqueOn
  split
  · rfl
  · exact temp_update _ _ _

theorem temp_read (w : World) (i : Nat) (op : ReadOp) : (w.read i op).1.temp = w.temp := by
  unfold World.read
  have := temp_record w i
  split
  · rename_i w1 e he; rw [he] at this; exact this
  · rename_i w1 he; rw [he] at this; exact this

theorem temp_assign (w : World) (i : Nat) : (w.assign i).1.temp = w.temp := by
  unfold World.assign
  have := temp_optimize w i true
  split
  · rename_i w1 e he; rw [he] at this; exact this
  · rename_i w1 he
    rw [he] at this
    split
    · exact this
    · split <;> exact this

theorem temp_applySame (w : World) (i : Nat) (c : String) (f : Val → Option Lit) (d : DType) :
    (w.applySame i c f d).1.temp = w.temp := by
  unfold World.applySame
  have := temp_optimize w i false
  split
  · rename_i w1 e he; rw [he] at this; exact this
  · rename_i w1 he
    rw [he] at this
    split
    · exact this
    · split
      · exact this
      · split <;> exact this

theorem temp_applyNew (w : World) (i : Nat) (c : String) (f : Val → Option Lit) (d : DType) :
    (w.applyNew i c f d).1.temp = w.temp := by
  unfold World.applyNew
  split
  · rfl
  · split
    · split
      · rfl
      · dsimp only
        split
        · rfl
        · split
          · rfl
          · split <;> rfl
    · rfl

theorem temp_apply (w : World) (i : Nat) (c : String) (f : Val → Option Lit) :
    (w.apply i c f).1.temp = w.temp := by
  unfold World.apply
  split
  · rfl
  · split
    · split
      · rfl
      · have hk := temp_read w i (.values (some [c]))
        split
        · rename_i w1 e he; rw [he] at hk; exact hk
        · rename_i w1 r0 rest he
          rw [he] at hk
          split
          · exact hk
          · split
            · split
              · exact (temp_applySame _ _ _ _ _).trans hk
              · exact (temp_applyNew _ _ _ _ _).trans hk
            · exact hk
        · rename_i w1 r _ he; rw [he] at hk; exact hk
    · rfl

theorem temp_runOp (w : World) (op : DbOp) : (runOp w op).1.temp = w.temp := by
  cases op with
  | select i ws c => exact temp_inPlaceOrCopy _ _ _ _ fun _ _ => temp_selectOn _ _ _
  | drop i ids k c => exact temp_inPlaceOrCopy _ _ _ _ fun _ _ => temp_dropOn _ _ _ _
  | unique i cs c =>
    simp only [runOp, World.unique]
    split
    · rfl
    · split
      · rfl
      · exact temp_inPlaceOrCopy _ _ _ _ fun _ _ => temp_uniqueOn _ _ _
  | copy i => exact temp_copy w i
  | close i => exact temp_close w i
  | read i o => exact temp_read w i o
  | assign i => exact temp_assign w i
  | removeIds i =>
    simp only [runOp, outcome, World.removeIds]
    split
    · rfl
    · split
      · split <;> rfl
      · rfl
  | apply i c f => exact temp_apply w i c f
  | openGen i => exact temp_record w i
  | closeGen => rfl
  | reopen =>
    simp only [runOp, outcome, World.reopen]
    split <;> rfl

theorem temp_runOps (w : World) (ops : List DbOp) : (runOps w ops).temp = w.temp := by
  induction ops generalizing w with
  | nil => rfl
  | cons op ops ih => exact (ih _).trans (temp_runOp w op)

/-! ## Datasets standing directly on their table -/

/-- Object `i` stands directly on table `n`, whose content is `t`. -/
def Stands (w : World) (i n : Nat) (t : Table) : Prop :=
  (∃ x, w.insts i = some x ∧ x.state = .table ∧ x.table = n) ∧ w.tables n = some t

theorem Stands.keep {w w' : World} {i k n : Nat} {t : Table} (h : Stands w i n t) (hk : Keep k w w') (hne : i ≠ k) :
    Stands w' i n t := by
  obtain ⟨⟨x, h1, h2, h3⟩, h4⟩ := h
  obtain ⟨g1, g2⟩ := hk i x hne h1
  exact ⟨⟨x, g1, h2, h3⟩, by rw [← h3, g2, h3]; exact h4⟩

theorem Stands.record {w : World} {i n : Nat} {t : Table} (h : Stands w i n t) :
    Stands (w.record i).1 i n t := by
  obtain ⟨⟨x, h1, h2, h3⟩, h4⟩ := h
  unfold World.record
  simp only [h1]
  split
  · unfold World.optimize
    simp only [put_self, h2, true_and, if_true]
    exact ⟨⟨_, put_self _ _ _, rfl, h3⟩, h4⟩
  · exact ⟨⟨_, put_self _ _ _, h2, h3⟩, h4⟩

theorem Stands.copy {w : World} (hr : Reg w) {i n : Nat} {t : Table} (h : Stands w i n t) (k : Nat) :
    Stands (w.copy k).1 i n t := by
  obtain ⟨⟨x, h1, h2, h3⟩, h4⟩ := h
  obtain ⟨g1, g2⟩ := copy_keep hr k i x h1
  exact ⟨⟨x, g1, h2, h3⟩, by rw [← h3, g2, h3]; exact h4⟩

theorem Stands.onCopy {w : World} (hr : Reg w) {i n : Nat} {t : Table} (h : Stands w i n t)
    (f : World → Nat → World × Option Err) (hf : ∀ w j, Reg w → Reg (f w j).1 ∧ Keep j w (f w j).1) :
    Stands (w.onCopy i f).1 i n t := by
  have hne : i ≠ w.nextI := by
    obtain ⟨⟨x, h1, _, _⟩, _⟩ := h
    rintro rfl
    rw [hr.freshI _ (le_refl _)] at h1; cases h1
  have hc := hr.copy i
  have kc := h.copy hr i
  unfold World.onCopy
  split
  · rename_i w1 e he; rw [he] at kc; exact kc
  · rename_i w1 he
    rw [he] at kc hc
    have kr := Stands.record kc
    have hr' := Reg.record hc i
    split
    · rename_i w2 e hr2
      rw [hr2] at kr hr'
      exact kr.keep (keep_close hr' _) hne
    · rename_i w2 hr2
      rw [hr2] at kr hr'
      obtain ⟨f1, f2⟩ := hf w2 w.nextI hr'
      have k3 := kr.keep f2 hne
      split
      · rename_i w3 e hw3
        rw [hw3] at f1 k3
        exact k3.keep (keep_close f1 _) hne
      · rename_i w3 hw3
        rw [hw3] at k3
        exact k3

end DRec
