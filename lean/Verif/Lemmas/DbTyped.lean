import Verif.Lemmas.DbHistory

/-! # Internal ids are integers -/

namespace DRec

open Spec

/-- A condition on the flag and the column types of an object that every operation keeps that does not open the file
again. -/
class TyKeep (P : Bool → Option (String → DType) → Prop) : Prop where
  off : ∀ {h t}, P h t → P false t
  ids : ∀ {h t}, P h (some t) → P true (some fun c => if c = "uid" ∨ c = "iid" then .int else t c)
  col : ∀ {h t c d}, c ∉ ["rid", "uid", "iid", "user", "item"] → P h (some t) →
    P h (some fun c' => if c' = c then d else t c')

/-- One that every operation keeps. -/
class TyInv (P : Bool → Option (String → DType) → Prop) : Prop extends TyKeep P where
  fresh : P false none

/-- All objects meet it. -/
def EachTy (P : Bool → Option (String → DType) → Prop) (w : World) : Prop :=
  ∀ i x, w.insts i = some x → P x.hasIds x.types

/-- An object with internal ids has integer id columns. -/
def IdTypes (h : Bool) (t : Option (String → DType)) : Prop :=
  h = true → ∀ ty, t = some ty → ty "uid" = .int ∧ ty "iid" = .int

instance : TyInv IdTypes where
  off := by intro h t _ e; cases e
  ids := by rintro h t _ _ ty ⟨⟩; simp
  col := by
    rintro h t c d hc k e ty ⟨⟩
    have h1 : "uid" ≠ c := fun e => hc (by simp [← e])
    have h2 : "iid" ≠ c := fun e => hc (by simp [← e])
    simpa [h1, h2] using k e t rfl
  fresh := by intro e; cases e

/-- All objects have. -/
abbrev Typed (w : World) : Prop := EachTy IdTypes w

/-- An object has column types. -/
def HasTypes (_ : Bool) (t : Option (String → DType)) : Prop := t.isSome

instance : TyKeep HasTypes where
  off h := h
  ids _ := rfl
  col _ _ := rfl

/-- An object has no column types. -/
def NoTypes (_ : Bool) (t : Option (String → DType)) : Prop := t = none

instance : TyInv NoTypes where
  off h := h
  ids h := by cases h
  col _ h := by cases h
  fresh := rfl

variable {P : Bool → Option (String → DType) → Prop}

theorem EachTy.put {w : World} (h : EachTy P w) {i : Nat} {x : Inst} (hx : P x.hasIds x.types) : EachTy P (w.put i x) := by
  intro j y hy
  simp only [World.put] at hy
  split at hy
  · cases hy; exact hx
  · exact h j y hy

/-- Same fields, as far as this is concerned. -/
theorem EachTy.putSame {w : World} (h : EachTy P w) {i j : Nat} {x y : Inst} (hx : w.insts j = some x)
    (h1 : y.hasIds = x.hasIds) (h2 : y.types = x.types) : EachTy P (w.put i y) := by
  apply h.put
  rw [h1, h2]
  exact h j x hx

theorem typed_shrink {w : World} (h : EachTy P w) {i : Nat} {x : Inst} {t : Table} (hx : w.insts i = some x) :
    EachTy P (w.shrink i x t).1 := by
  unfold World.shrink
  split
  · exact h
  · split
    · exact h
    · split
      · exact EachTy.putSame (w := w.putT x.table _) h hx rfl rfl
      · exact h

theorem typed_split {w : World} (h : EachTy P w) {i : Nat} {x : Inst} {t : Table} (us : List Nat)
    (hx : w.insts i = some x) : EachTy P (w.split i x t us).1 := by
  unfold World.split
  split
  · exact h
  · split
    · exact h
    · split
      · exact EachTy.putSame (w := ((w.putT w.nextT _).putU x.table _).putU w.nextT _) h hx rfl rfl
      · exact h

theorem typed_optimize {w : World} (h : EachTy P w) (i : Nat) (b : Bool) : EachTy P (w.optimize i b).1 := by
  unfold World.optimize
  split
  · exact h
  · rename_i x hx
    have hp : EachTy P (w.put i x.reset) := h.putSame hx rfl rfl
    split
    · exact hp
    · split
      · exact hp
      · split
        · split
          · exact typed_shrink hp (put_self _ _ _)
          · exact typed_split hp _ (put_self _ _ _)
        · exact hp

theorem typed_record {w : World} (h : EachTy P w) (i : Nat) : EachTy P (w.record i).1 := by
  unfold World.record
  split
  · exact h
  · rename_i x hx
    have hp : EachTy P (w.put i { x with direct := x.direct + 1 }) := h.putSame hx rfl rfl
    split
    · exact typed_optimize hp _ _
    · exact hp

theorem typed_update {w : World} (h : EachTy P w) (i : Nat) (s : Src) : EachTy P (w.update i s).1 := by
  unfold World.update
  split
  · exact h
  · rename_i x hx
    split
    · exact h.putSame hx rfl rfl
    · split
      · exact h.putSame hx rfl rfl
      · dsimp only
        split
        · apply typed_optimize
          exact h.putSame hx rfl rfl
        · exact h.putSame hx rfl rfl

theorem typed_copy {w : World} (h : EachTy P w) (i : Nat) : EachTy P (w.copy i).1 := by
  unfold World.copy
  split
  · exact h
  · rename_i x hx
    split
    · exact h
    · exact h.putSame hx rfl rfl

theorem typed_leaveTable {w : World} (h : EachTy P w) (i n : Nat) : EachTy P (w.leaveTable i n).1 := by
  unfold World.leaveTable
  split
  · exact h
  · split
    · split
      · split <;> exact h
      · exact h
    · exact h

theorem typed_leaveFile {w : World} (h : EachTy P w) (i : Nat) : EachTy P (w.leaveFile i).1 := by
  unfold World.leaveFile
  split
  · exact h
  · split
    · split
      · split <;> exact h
      · exact h
    · exact h

theorem EachTy.remove {w : World} (h : EachTy P w) (i : Nat) :
    EachTy P { w with insts := fun j => if j = i then none else w.insts j } := by
  intro j y hy
  simp only at hy
  split at hy
  · cases hy
  · exact h j y hy

theorem typed_close {w : World} (h : EachTy P w) (i : Nat) : EachTy P (w.close i).1 := by
  unfold World.close
  split
  · exact h
  · rename_i x hx
    have := typed_leaveTable h i x.table
    split
    · rename_i w1 e he; rw [he] at this; exact this.remove i
    · rename_i w1 he
      rw [he] at this
      exact (typed_leaveFile this i).remove i

theorem typed_onCopy {w : World} (h : EachTy P w) (i : Nat) (f : World → Nat → World × Option Err)
    (hf : ∀ w j, EachTy P w → EachTy P (f w j).1) : EachTy P (w.onCopy i f).1 := by
  have hc := typed_copy h i
  unfold World.onCopy
  split
  · rename_i w1 e he; rw [he] at hc; exact hc
  · rename_i w1 he
    rw [he] at hc
    have hr := typed_record hc i
    split
    · rename_i w2 e hr2
      rw [hr2] at hr
      exact typed_close hr _
    · rename_i w2 hr2
      rw [hr2] at hr
      have h3 := hf w2 w.nextI hr
      split
      · rename_i w3 e hw3
        rw [hw3] at h3
        exact typed_close h3 _
      · rename_i w3 hw3
        rw [hw3] at h3
        exact h3

theorem typed_inPlaceOrCopy {w : World} (h : EachTy P w) (i : Nat) (c : Bool) (f : World → Nat → World × Option Err)
    (hf : ∀ w j, EachTy P w → EachTy P (f w j).1) : EachTy P (w.inPlaceOrCopy i c f).1 := by
  unfold World.inPlaceOrCopy
  split
  · exact typed_onCopy h i f hf
  · have := hf w i h
    split
    · rename_i w1 e he; rw [he] at this; exact this
    · rename_i w1 he; rw [he] at this; exact this

theorem typed_selectOn {w : World} (h : EachTy P w) (i : Nat) (q : List Char) : EachTy P (w.selectOn i q).1 := by
  unfold World.selectOn
  split
  · exact h
  · split
    · exact h
    · exact typed_update h _ _

theorem typed_dropOn {w : World} (h : EachTy P w) (i : Nat) (ids : List Nat) (b : Bool) :
    EachTy P (w.dropOn i ids b).1 := by
  unfold World.dropOn
  split
  · exact h
  · exact typed_update h _ _

theorem typed_uniqueOn {w : World} (h : EachTy P w) (i : Nat) (l : List String) : EachTy P (w.uniqueOn i l).1 := by
  unfold World.uniqueOn
  split
  · exact h
  · rename_i x hx
    apply typed_update
    exact h.putSame hx rfl rfl

theorem typed_read {w : World} (h : EachTy P w) (i : Nat) (op : ReadOp) : EachTy P (w.read i op).1 := by
  unfold World.read
  have := typed_record h i
  split
  · rename_i w1 e he; rw [he] at this; exact this
  · rename_i w1 he; rw [he] at this; exact this


theorem typed_assign [TyKeep P] {w : World} (h : EachTy P w) (i : Nat) : EachTy P (w.assign i).1 := by
  unfold World.assign
  have := typed_optimize h i true
  split
  · rename_i w1 e he; rw [he] at this; exact this
  · rename_i w1 he
    rw [he] at this
    split
    · exact this
    · rename_i x hx
      split
      · rename_i ty t hty ht
        have hp := this i x hx
        rw [hty] at hp
        exact EachTy.put (w := w1.putT x.table _) this (TyKeep.ids hp)
      · exact this.putSame hx rfl rfl

theorem typed_removeIds [TyKeep P] {w : World} (h : EachTy P w) (i : Nat) : EachTy P (w.removeIds i).1 := by
  unfold World.removeIds
  split
  · exact h
  · rename_i x hx
    have hp := TyKeep.off (h i x hx)
    split
    · split
      · exact h.put hp
      · exact h.put hp
    · exact h.put hp

theorem typed_applySame {w : World} (h : EachTy P w) (i : Nat) (c : String) (f : Val → Option Lit) (d : DType) :
    EachTy P (w.applySame i c f d).1 := by
  unfold World.applySame
  have := typed_optimize h i false
  split
  · rename_i w1 e he; rw [he] at this; exact this
  · rename_i w1 he
    rw [he] at this
    split
    · exact this
    · split
      · exact this
      · split <;> exact this

theorem typed_applyNew [TyKeep P] {w : World} (h : EachTy P w) (i : Nat) (c : String) (f : Val → Option Lit) (d : DType)
    (hc : c ∉ ["rid", "uid", "iid", "user", "item"]) : EachTy P (w.applyNew i c f d).1 := by
  unfold World.applyNew
  split
  · exact h
  · rename_i x0 hx0
    split
    · rename_i ty t us hty ht hus
      have hk : P x0.hasIds (some fun c' => if c' = c then d else ty c') := by
        have := h i x0 hx0
        rw [hty] at this
        exact TyKeep.col hc this
      split
      · exact h
      · dsimp only
        split
        · exact h.put hk
        · split
          · exact h.put hk
          · split
            · exact EachTy.put (w := ((w.putT w.nextT _).putU x0.table _).putU w.nextT _) h hk
            · exact h.put hk
    · exact h

theorem typed_apply [TyKeep P] {w : World} (h : EachTy P w) (i : Nat) (c : String) (f : Val → Option Lit) :
    EachTy P (w.apply i c f).1 := by
  unfold World.apply
  split
  · exact h
  · split
    · split
      · exact h
      · rename_i hc
        have hk := typed_read h i (.values (some [c]))
        split
        · rename_i w1 e he; rw [he] at hk; exact hk
        · rename_i w1 r0 rest he
          rw [he] at hk
          split
          · exact hk
          · split
            · split
              · exact typed_applySame hk _ _ _ _
              · exact typed_applyNew hk _ _ _ _ hc
            · exact hk
        · rename_i w1 r _ he; rw [he] at hk; exact hk
    · exact h

theorem typed_runOp_keep [TyKeep P] {w : World} (h : EachTy P w) (op : DbOp) (hf : op = .reopen → P false none) :
    EachTy P (runOp w op).1 := by
  cases op with
  | select i ws c => exact typed_inPlaceOrCopy h _ _ _ fun _ _ h => typed_selectOn h _ _
  | drop i ids k c => exact typed_inPlaceOrCopy h _ _ _ fun _ _ h => typed_dropOn h _ _ _
  | unique i cs c =>
    simp only [runOp, World.unique]
    split
    · exact h
    · split
      · exact h
      · exact typed_inPlaceOrCopy h _ _ _ fun _ _ h => typed_uniqueOn h _ _
  | copy i => exact typed_copy h i
  | close i => exact typed_close h i
  | read i o => exact typed_read h i o
  | assign i => exact typed_assign h i
  | removeIds i => exact typed_removeIds h i
  | apply i c f => exact typed_apply h i c f
  | openGen i => exact typed_record h i
  | closeGen => exact h
  | reopen =>
    simp only [runOp, outcome, World.reopen]
    split
    · exact h.put (hf rfl)
    · exact h

theorem typed_runOp [TyInv P] {w : World} (h : EachTy P w) (op : DbOp) : EachTy P (runOp w op).1 :=
  typed_runOp_keep h op fun _ => TyInv.fresh

theorem typed_runOps [TyInv P] {w : World} (h : EachTy P w) (ops : List DbOp) : EachTy P (runOps w ops) := by
  induction ops generalizing w with
  | nil => exact h
  | cons op ops ih => exact ih (typed_runOp h op)

theorem typed_ofCsv (cols : List String) (types : String → DType) (rows : List Row) :
    Typed (World.ofCsv cols types rows) := by
  intro i x hx
  simp only [World.ofCsv] at hx
  split at hx
  · cases hx; exact fun h => by cases h
  · cases hx

end DRec
