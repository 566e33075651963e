import Verif.Model.Mem
import Verif.Lemmas.Text

/-! # Lemmas about `_apply_query` of the in-memory dataset -/

namespace DRec

open Spec

/-- The element-wise comparison is the specified relation. -/
theorem cmpPy_eq (op : Op) (a b : Val) :
    cmpPy op a b = if Comparable op a b then .ok (decide (Holds op a b)) else .error .typeError := by
  cases op <;> cases a <;> cases b <;>
    simp [cmpPy, Comparable, SameKind, Holds, Less, Op.onRat, Op.onStr, not_lt]

theorem mapM_ok_iff {α β : Type} (f : α → Except Err β) (l : List α) (m : List β) :
    l.mapM f = .ok m ↔ l.map f = m.map .ok := by
  induction l generalizing m with
  | nil =>
    cases m <;> simp [pure, Except.pure]
  | cons a l ih =>
    rw [List.mapM_cons]
    cases h : f a with
    | error e => cases m <;> simp [bind, Except.bind, h]
    | ok b =>
      cases hl : l.mapM f with
      | error e =>
        cases m with
        | nil => simp [bind, Except.bind]
        | cons b' m' =>
          simp only [bind, Except.bind, List.map_cons, h, List.cons.injEq]
          constructor
          · intro hh; cases hh
          · rintro ⟨_, h2⟩
            have := (ih m').2 h2
            rw [hl] at this; cases this
      | ok bs =>
        have h2 := (ih bs).1 hl
        cases m with
        | nil => simp [bind, Except.bind, pure, Except.pure]
        | cons b' m' =>
          simp only [bind, Except.bind, pure, Except.pure, List.map_cons, h, h2, List.cons.injEq,
            Except.ok.injEq]
          constructor
          · rintro ⟨rfl, rfl⟩; exact ⟨rfl, rfl⟩
          · rintro ⟨rfl, h3⟩
            refine ⟨rfl, ?_⟩
            have inj : Function.Injective (Except.ok : β → Except Err β) := fun x y h => by cases h; rfl
            exact List.map_injective_iff.2 inj h3

/-- What one text segment tests on a row. -/
def Mem.segTest (ds : Mem) (seg : List Char) : Except Err (Row → Except Err Bool) := do
  let rc ← parseSegment seg
  let c ← ds.readCond rc
  let (col, v) ← ds.target c
  if col ∈ ds.cols then .ok fun r => cmpPy c.op (r.get col) v else .error .missingColumn

/-- Truth of one segment on a row. -/
def Mem.segHolds (ds : Mem) (seg : List Char) (r : Row) : Bool :=
  match ds.segTest seg with
  | .ok t => match t r with
    | .ok b => b
    | .error _ => false
  | .error _ => false

/-- The segment can be evaluated on every row. -/
def Mem.SegOk (ds : Mem) (seg : List Char) : Prop :=
  ∃ t, ds.segTest seg = .ok t ∧ ∀ r ∈ ds.rows, ∃ b, t r = .ok b

/-- One iteration of the loop in terms of the segment test. -/
theorem Mem.maskLoop_cons (ds : Mem) (seg : List Char) (segs : List (List Char))
    (acc : Option (List Bool)) :
    ds.maskLoop (seg :: segs) acc = (do
      let t ← ds.segTest seg
      let m ← ds.rows.mapM t
      ds.maskLoop segs (some (match acc with
        | none => m
        | some a => List.zipWith (· && ·) a m))) := by
  rw [Mem.maskLoop]
  unfold Mem.segTest
  cases h1 : parseSegment seg with
  | error e => rfl
  | ok rc =>
    cases h2 : ds.readCond rc with
    | error e => simp [bind, Except.bind, h2]
    | ok c =>
      cases h3 : ds.target c with
      | error e => simp [bind, Except.bind, Mem.condMask, h2, h3]
      | ok p =>
        obtain ⟨col, v⟩ := p
        by_cases h4 : col ∈ ds.cols
        · simp [bind, Except.bind, Mem.condMask, Mem.column, h2, h3, h4, List.mapM_map, Function.comp_def]
          rfl
        · simp [bind, Except.bind, Mem.condMask, Mem.column, h2, h3, h4]

theorem mapM_test_ok {t : Row → Except Err Bool} {rs : List Row}
    (h : ∀ r ∈ rs, ∃ b, t r = .ok b) :
    rs.mapM t = .ok (rs.map fun r => match t r with | .ok b => b | .error _ => false) := by
  rw [mapM_ok_iff]
  rw [List.map_map]
  apply List.map_congr_left
  intro r hr
  obtain ⟨b, hb⟩ := h r hr
  simp [hb]

theorem mapM_test_fail {t : Row → Except Err Bool} {rs : List Row}
    (h : ¬ ∀ r ∈ rs, ∃ b, t r = .ok b) : ∃ e, rs.mapM t = .error e := by
  cases hm : rs.mapM t with
  | error e => exact ⟨e, rfl⟩
  | ok m =>
    exfalso; apply h
    rw [mapM_ok_iff] at hm
    intro r hr
    have : t r ∈ m.map Except.ok := hm ▸ List.mem_map_of_mem hr
    obtain ⟨b, _, hb⟩ := List.mem_map.1 this
    exact ⟨b, hb.symm⟩

theorem Mem.segHolds_eq (ds : Mem) (seg : List Char) (t) (h : ds.segTest seg = .ok t) :
    (fun r => match t r with | .ok b => b | .error _ => false) = ds.segHolds seg := by
  funext r; simp [Mem.segHolds, h]

theorem zipWith_map_and (p q : Row → Bool) (rs : List Row) :
    List.zipWith (· && ·) (rs.map p) (rs.map q) = rs.map fun r => p r && q r := by
  induction rs with
  | nil => rfl
  | cons r rs ih => simp [ih]

theorem Mem.maskLoop_ok (ds : Mem) (segs : List (List Char)) (h : ∀ s ∈ segs, ds.SegOk s)
    (p : Row → Bool) :
    ds.maskLoop segs (some (ds.rows.map p)) =
      .ok (some (ds.rows.map fun r => p r && segs.all (ds.segHolds · r))) := by
  induction segs generalizing p with
  | nil => simp [Mem.maskLoop]
  | cons s segs ih =>
    obtain ⟨t, ht, hr⟩ := h s (by simp)
    rw [Mem.maskLoop_cons, ht]
    simp only [bind, Except.bind, mapM_test_ok hr, zipWith_map_and]
    rw [ih (fun s' hs' => h s' (by simp [hs']))]
    simp only [List.all_cons, ← Mem.segHolds_eq ds s t ht, Bool.and_assoc]

theorem Mem.maskLoop_ok_none (ds : Mem) (segs : List (List Char)) (hne : segs ≠ [])
    (h : ∀ s ∈ segs, ds.SegOk s) :
    ds.maskLoop segs none = .ok (some (ds.rows.map fun r => segs.all (ds.segHolds · r))) := by
  cases segs with
  | nil => exact absurd rfl hne
  | cons s segs =>
    obtain ⟨t, ht, hr⟩ := h s (by simp)
    rw [Mem.maskLoop_cons, ht]
    simp only [bind, Except.bind, mapM_test_ok hr]
    rw [Mem.maskLoop_ok ds segs (fun s' hs' => h s' (by simp [hs']))]
    simp only [List.all_cons, ← Mem.segHolds_eq ds s t ht]

theorem Mem.maskLoop_fail (ds : Mem) (segs : List (List Char)) (acc : Option (List Bool))
    (h : ¬ ∀ s ∈ segs, ds.SegOk s) : ∃ e, ds.maskLoop segs acc = .error e := by
  induction segs generalizing acc with
  | nil => simp at h
  | cons s segs ih =>
    rw [Mem.maskLoop_cons]
    by_cases hs : ds.SegOk s
    · obtain ⟨t, ht, hr⟩ := hs
      rw [ht]
      simp only [bind, Except.bind, mapM_test_ok hr]
      apply ih
      intro hall
      apply h
      intro s' hs'
      simp only [List.mem_cons] at hs'
      rcases hs' with rfl | hs'
      · exact ⟨t, ht, hr⟩
      · exact hall s' hs'
    · cases ht : ds.segTest s with
      | error e => exact ⟨e, by simp [bind, Except.bind]⟩
      | ok t =>
        have : ¬ ∀ r ∈ ds.rows, ∃ b, t r = .ok b := fun hh => hs ⟨t, ht, hh⟩
        obtain ⟨e, he⟩ := mapM_test_fail this
        exact ⟨e, by simp [bind, Except.bind, he]⟩

theorem keepMask_map (p : Row → Bool) (rs : List Row) : keepMask rs (rs.map p) = rs.filter p := by
  induction rs with
  | nil => rfl
  | cons r rs ih =>
    simp only [List.map_cons, keepMask, ih, List.filter_cons]

/-- A query succeeds exactly when every segment can be evaluated on every row, and then it keeps the
rows on which all segments hold. -/
theorem Mem.applyQuery_ok (ds : Mem) (q : List Char) (h : ∀ s ∈ pySplit ',' q, ds.SegOk s) :
    ds.applyQuery q = .ok (ds.rows.filter fun r => (pySplit ',' q).all (ds.segHolds · r)) := by
  unfold Mem.applyQuery
  rw [Mem.maskLoop_ok_none ds _ (pySplit_ne_nil _ _) h]
  simp [bind, Except.bind, keepMask_map]

theorem Mem.applyQuery_fail (ds : Mem) (q : List Char) (h : ¬ ∀ s ∈ pySplit ',' q, ds.SegOk s) :
    ∃ e, ds.applyQuery q = .error e := by
  unfold Mem.applyQuery
  obtain ⟨e, he⟩ := Mem.maskLoop_fail ds _ none h
  exact ⟨e, by simp [bind, Except.bind, he]⟩

theorem Mem.applyQuery_iff (ds : Mem) (q : List Char) (rs : List Row) :
    ds.applyQuery q = .ok rs ↔ (∀ s ∈ pySplit ',' q, ds.SegOk s) ∧
      rs = ds.rows.filter fun r => (pySplit ',' q).all (ds.segHolds · r) := by
  by_cases h : ∀ s ∈ pySplit ',' q, ds.SegOk s
  · rw [Mem.applyQuery_ok ds q h]
    constructor
    · intro hh; cases hh; exact ⟨h, rfl⟩
    · rintro ⟨_, rfl⟩; rfl
  · obtain ⟨e, he⟩ := Mem.applyQuery_fail ds q h
    rw [he]
    constructor
    · intro hh; cases hh
    · rintro ⟨h2, _⟩; exact absurd h2 h

/-- Two datasets with the same columns, types and id mappings read segments alike. -/
def SameSchema (a b : Mem) : Prop :=
  a.cols = b.cols ∧ a.dtype = b.dtype ∧ a.hasIds = b.hasIds ∧ a.userMap = b.userMap ∧
    a.itemMap = b.itemMap

theorem Mem.segTest_congr {a b : Mem} (h : SameSchema a b) (s : List Char) :
    a.segTest s = b.segTest s := by
  obtain ⟨h1, h2, h3, h4, h5⟩ := h
  unfold Mem.segTest Mem.readCond Mem.parseValue Mem.colDType Mem.target Mem.userToUid Mem.itemToIid
  rw [h1, h2, h3, h4, h5]

theorem Mem.segHolds_congr {a b : Mem} (h : SameSchema a b) (s : List Char) :
    a.segHolds s = b.segHolds s := by
  funext r; simp [Mem.segHolds, Mem.segTest_congr h]

/-- The copy of a dataset with other rows. -/
def Mem.withRows (ds : Mem) (rs : List Row) : Mem := { ds.copy with rows := rs }

theorem Mem.withRows_schema (ds : Mem) (rs : List Row) : SameSchema (ds.withRows rs) ds :=
  ⟨rfl, rfl, rfl, rfl, rfl⟩

theorem Mem.select_iff (x y : Mem) (q : List Char) : x.select q = .ok y ↔
    (∀ s ∈ pySplit ',' q, x.SegOk s) ∧
      y = x.withRows (x.rows.filter fun r => (pySplit ',' q).all (x.segHolds · r)) := by
  have hs : SameSchema x.copy x := ⟨rfl, rfl, rfl, rfl, rfl⟩
  have hok : ∀ s, x.copy.SegOk s ↔ x.SegOk s := by
    intro s; unfold Mem.SegOk; rw [Mem.segTest_congr hs]; rfl
  unfold Mem.select
  cases hq : x.copy.applyQuery q with
  | error e =>
    simp only [Except.map]
    constructor
    · intro h; cases h
    · rintro ⟨h, _⟩
      have := Mem.applyQuery_ok x.copy q fun s hs => (hok s).2 (h s hs)
      rw [hq] at this; cases this
  | ok rs =>
    rw [Mem.applyQuery_iff] at hq
    obtain ⟨g1, g2⟩ := hq
    have g3 : rs = x.rows.filter fun r => (pySplit ',' q).all (x.segHolds · r) := by
      rw [g2]; simp only [Mem.segHolds_congr hs]; rfl
    simp only [Except.map, Except.ok.injEq]
    constructor
    · rintro rfl
      exact ⟨fun s hs => (hok s).1 (g1 s hs), by rw [g3]; rfl⟩
    · rintro ⟨_, rfl⟩; rw [g3]; rfl

theorem Mem.SegOk_sub {x y : Mem} {s : List Char} (hs : SameSchema y x) (hr : y.rows ⊆ x.rows)
    (h : x.SegOk s) : y.SegOk s := by
  obtain ⟨t, ht, h⟩ := h
  exact ⟨t, by rw [Mem.segTest_congr hs]; exact ht, fun r hr' => h r (hr hr')⟩

theorem pySplit_append_sep (sep : Char) (a b : List Char) :
    pySplit sep (a ++ sep :: b) = pySplit sep a ++ pySplit sep b := by
  induction a with
  | nil => simp [pySplit]
  | cons c cs ih =>
    by_cases hc : c = sep
    · simp [pySplit, hc, ih]
    · simp only [List.cons_append, pySplit, hc, if_false, ih]
      cases h : pySplit sep cs with
      | nil => exact absurd h (pySplit_ne_nil _ _)
      | cons p ps => simp

end DRec
