import Verif.Props.Query
import Verif.Lemmas.MemIds
import Verif.Lemmas.MemRead

/-!
# C04, C08: filters on id columns after assigning internal ids; readers
-/

namespace DRec

open Spec

/-! ## C04 -/

/-- Conditions on `user`/`item` for which C04 is proved: any comparison on integer columns, and
(in)equality with a string on text columns. -/
def IdFilterOk (ds : Mem) (c : SCond) : Prop :=
  (c.col = "user" ∨ c.col = "item") ∧
    ((ds.dtype c.col = .int ∧ c.lit.isStr = false) ∨
     (ds.dtype c.col = .obj ∧ (c.op = .eq ∨ c.op = .ne) ∧ c.lit.isStr = true))

instance (ds : Mem) (c : SCond) : Decidable (IdFilterOk ds c) := by
  unfold IdFilterOk; infer_instance

/-- **C04** (partial).  Full property: *every* condition on `user` or `item` selects the same records
before and after `assign_internal_ids`.  Proved for every query made of conditions on integer id
columns (all operators) and `==`/`!=` with a string on text id columns.  What is missing is false, see
`C04_ordering_changes`, `C04_number_changes` and `C04_float_column_changes`. -/
theorem C04_ids_do_not_change_filters_partial (ds : Mem)
    (hu : "user" ∈ ds.cols) (hi : "item" ∈ ds.cols) (hno : ds.hasIds = false)
    (ws : List (List Char × SCond × List Char)) (hw : WellWritten ws)
    (hc : ∀ w ∈ ws, IdFilterOk ds w.2.1)
    (hcmp : ∀ w ∈ ws, ∀ r ∈ ds.rows, Comparable w.2.1.op (r.get w.2.1.col) w.2.1.lit.value) :
    ∃ before after, ds.select (queryText ws) = .ok before ∧
      ds.assignIds.1.select (queryText ws) = .ok after ∧
      after.rows.map (·.rid) = before.rows.map (·.rid) ∧
      ∀ c, c ≠ "uid" → c ≠ "iid" →
        after.rows.map (·.get c) = before.rows.map (·.get c) := by
  obtain ⟨before, hb, hbr, _⟩ := (C01_select_exact ds ws hw (by
    intro w hw'
    obtain ⟨h1, h2⟩ := hc w hw'
    have hcol : w.2.1.col ∈ ds.cols := by rcases h1 with h | h <;> rw [h] <;> assumption
    refine ⟨hcol, ?_, Or.inl hno⟩
    unfold Fits
    rw [if_neg (by rcases h1 with h | h <;> rw [h] <;> decide)]
    rcases h2 with h2 | h2
    · exact Or.inr h2.2
    · exact Or.inl h2.1) hcmp).1
  have hok := assignIds_idsOk ds hu hi
  have heq := assignIds_eq ds hu hi
  set da := ds.assignIds.1 with hda
  have hrows : da.rows = ds.rows.map (stamp (distinctVals (ds.rows.map (·.get "user")))
        (distinctVals (ds.rows.map (·.get "item")))) := by rw [hda, heq]
  have hcols : ∀ c, c ∈ ds.cols → c ∈ da.cols := by
    intro c h; rw [hda, heq]; simp [mem_addCol, h]
  have hdt : ∀ c, c ≠ "uid" → c ≠ "iid" → da.dtype c = ds.dtype c := by
    intro c h1 h2; rw [hda, heq]; simp [h1, h2]
  have hmean : ∀ w ∈ ws, da.copy.SegMeans (w.1 ++ w.2.1.text ++ w.2.2)
      fun r => Holds w.2.1.op (r.get w.2.1.col) w.2.1.lit.value := by
    intro w hw'
    obtain ⟨h1, h2⟩ := hc w hw'
    obtain ⟨g1, g2, g3, g4⟩ := hw.2 w hw'
    have hne : w.2.1.col ≠ "uid" ∧ w.2.1.col ≠ "iid" := by
      rcases h1 with h | h <;> rw [h] <;> decide
    have hcol : w.2.1.col ∈ ds.cols := by rcases h1 with h | h <;> rw [h] <;> assumption
    rcases h2 with h2 | h2
    · apply segMeans_direct da.copy _ _ _ g1 g2 g3 g4 (hcols _ hcol)
      · unfold Fits
        rw [if_neg (by rcases h1 with h | h <;> rw [h] <;> decide)]
        exact Or.inr h2.2
      · right; left
        exact (hdt _ hne.1 hne.2).trans h2.1
      · intro r hr
        have hr' : r ∈ da.rows := hr
        rw [hrows] at hr'
        obtain ⟨r0, h0, rfl⟩ := List.mem_map.1 hr'
        rw [stamp_get, if_neg hne.2, if_neg hne.1]
        exact hcmp w hw' r0 h0
    · obtain ⟨s, hs⟩ : ∃ s, w.2.1.lit = .str s := by
        cases hl : w.2.1.lit <;> simp_all [SLit.isStr]
      rcases h1 with h1 | h1
      · apply segMeans_user da.copy _ _ _ g1 g2 s h1 hs h2.2.1 g4
        · rw [h1] at h2
          exact (hdt _ (by decide) (by decide)).trans h2.1
        · exact hok.has
        · exact ⟨hok.user.nodup, hok.user.hasRaw, hok.user.hasCol, hok.user.code⟩
      · apply segMeans_item da.copy _ _ _ g1 g2 s h1 hs h2.2.1 g4
        · rw [h1] at h2
          exact (hdt _ (by decide) (by decide)).trans h2.1
        · exact hok.has
        · exact ⟨hok.item.nodup, hok.item.hasRaw, hok.item.hasCol, hok.item.code⟩
  have hsel := applyQuery_means da.copy ws hw hmean
  have hfil : da.copy.rows.filter (fun r => decide (Sat ws r)) =
      before.rows.map (stamp (distinctVals (ds.rows.map (·.get "user")))
        (distinctVals (ds.rows.map (·.get "item")))) := by
    rw [hbr]
    have : da.copy.rows = da.rows := rfl
    rw [this, hrows, List.filter_map]
    congr 1
    apply List.filter_congr
    intro r _
    simp only [Function.comp_apply, decide_eq_decide]
    unfold Sat
    apply forall_congr'
    intro w
    apply forall_congr'
    intro hw'
    obtain ⟨h1, _⟩ := hc w hw'
    have hne : w.2.1.col ≠ "uid" ∧ w.2.1.col ≠ "iid" := by
      rcases h1 with h | h <;> rw [h] <;> decide
    rw [stamp_get, if_neg hne.2, if_neg hne.1]
  refine ⟨before, { da.copy with rows := before.rows.map (stamp (distinctVals (ds.rows.map (·.get "user")))
        (distinctVals (ds.rows.map (·.get "item")))) }, hb, ?_, ?_, ?_⟩
  · unfold Mem.select
    rw [hsel, hfil]; rfl
  · simp only [List.map_map]
    apply List.map_congr_left
    intro r _; rfl
  · intro c h1 h2
    simp only [List.map_map]
    apply List.map_congr_left
    intro r _
    simp only [Function.comp_apply, stamp_get, if_neg h1, if_neg h2]

/-- A dataset whose text items do not first appear in alphabetical order. -/
def exUnsorted : Mem := mkMem .obj
  [(.str "u", .str "z", 3), (.str "v", .str "b", 1), (.str "u", .str "c", 5)]

/-- The hypotheses of C04 are met by a concrete dataset and a two-condition query. -/
example : "user" ∈ exUnsorted.cols ∧ "item" ∈ exUnsorted.cols ∧ exUnsorted.hasIds = false ∧
    (let ws := [([], (⟨"user", .eq, .str "u"⟩ : SCond), []), ([], ⟨"item", .ne, .str "c"⟩, [' '])]
     WellWritten ws ∧ (∀ w ∈ ws, IdFilterOk exUnsorted w.2.1) ∧
     ∀ w ∈ ws, ∀ r ∈ exUnsorted.rows, Comparable w.2.1.op (r.get w.2.1.col) w.2.1.lit.value) := by
  refine ⟨by decide, by decide, by decide, by decide, by decide, by decide⟩

/-- The record ids a selection returns. -/
def ridsOf (r : Except Err Mem) : Option (List Nat) :=
  match r with
  | .ok d => some (d.rows.map (·.rid))
  | .error _ => none

/-- **C04 fails** for orderings on text ids: `item > 'b'` compares internal ids afterwards. -/
theorem C04_ordering_changes : ∃ ds : Mem, ds.hasIds = false ∧
    ridsOf (ds.select "item > 'b'".toList) = some [0, 2] ∧
    ridsOf (ds.assignIds.1.select "item > 'b'".toList) = some [2] :=
  ⟨exUnsorted, by decide, by decide +kernel, by decide +kernel⟩

/-- **C04 fails** when a text id is compared with a number: `user == 3` selects nothing before and the
user `'3'` afterwards. -/
theorem C04_number_changes : ∃ ds : Mem, ds.hasIds = false ∧
    ridsOf (ds.select "user == 3".toList) = some [] ∧
    ridsOf (ds.assignIds.1.select "user == 3".toList) = some [0] :=
  ⟨mkMem .obj [(.str "3", .str "a", 1), (.str "v", .str "a", 1)],
    by decide, by decide +kernel, by decide +kernel⟩

/-- **C04 fails** on a float id column: afterwards nobody is found. -/
theorem C04_float_column_changes : ∃ ds : Mem, ds.hasIds = false ∧
    ridsOf (ds.select "user == 3".toList) = some [0] ∧
    ridsOf (ds.assignIds.1.select "user == 3".toList) = some [] :=
  ⟨mkMem .float [(.num 3, .num 1, 1), (.num 4, .num 2, 1)],
    by decide, by decide +kernel, by decide +kernel⟩

/-- **C04 fails** with an unknown user in an ordering: an error instead of a result. -/
theorem C04_unknown_ordering_raises : ∃ ds : Mem, ds.hasIds = false ∧
    ridsOf (ds.select "user < 'q'".toList) = some [] ∧
    ridsOf (ds.assignIds.1.select "user < 'q'".toList) = none :=
  ⟨exUnsorted, by decide, by decide +kernel, by decide +kernel⟩

/-! ## C01 on datasets with internal ids -/

/-- **C01** (partial).  Full property: `select` returns exactly the matching records for every conjunction of conditions.
Proved for every dataset and every written conjunction, except that after `assign_internal_ids` the conditions on
`user`/`item` columns that are not integer columns must be `==`/`!=` with a text on a text column.  What is missing is
false: `C01_fails_with_ids`. -/
theorem C01_select_partial (ds : Mem) (ws : List (List Char × SCond × List Char)) (hw : WellWritten ws)
    (hc : ∀ w ∈ ws, w.2.1.col ∈ ds.cols ∧ Fits ds w.2.1 ∧ (Direct ds w.2.1 ∨ IdsOk ds ∧ IdFilterOk ds w.2.1))
    (hcmp : ∀ w ∈ ws, ∀ r ∈ ds.rows, Comparable w.2.1.op (r.get w.2.1.col) w.2.1.lit.value) :
    (∃ d, ds.select (queryText ws) = .ok d ∧
      d.rows = ds.rows.filter (fun r => Sat ws r) ∧ d.cols = ds.cols) ∧
    (∃ d, ds.selectInPlace (queryText ws) = .ok d ∧
      d.rows = ds.rows.filter (fun r => Sat ws r) ∧ d.cols = ds.cols) := by
  have key : ∀ ds' : Mem, SameSchema ds' ds → ds'.rows = ds.rows →
      ds'.applyQuery (queryText ws) = .ok (ds.rows.filter fun r => Sat ws r) := by
    intro ds' hs hr
    rw [← hr]
    apply applyQuery_means ds' ws hw
    intro w hw'
    obtain ⟨h1, h2, h3⟩ := hc w hw'
    obtain ⟨g1, g2, g3, g4⟩ := hw.2 w hw'
    have direct : Direct ds w.2.1 → ds'.SegMeans (w.1 ++ w.2.1.text ++ w.2.2)
        fun r => Holds w.2.1.op (r.get w.2.1.col) w.2.1.lit.value := by
      intro h3
      apply segMeans_direct ds' _ _ _ g1 g2 g3 g4 (hs.1 ▸ h1)
      · unfold Fits at h2 ⊢; rw [hs.2.1]; exact h2
      · unfold Direct at h3 ⊢; rw [hs.2.1, hs.2.2.1]; exact h3
      · rw [hr]; exact hcmp w hw'
    rcases h3 with h3 | ⟨hok, hcol, h3⟩
    · exact direct h3
    rcases h3 with h3 | h3
    · exact direct (Or.inr (Or.inl h3.1))
    obtain ⟨s, hs'⟩ : ∃ s, w.2.1.lit = .str s := by
      cases hl : w.2.1.lit <;> simp_all [SLit.isStr]
    rcases hcol with hcol | hcol
    · apply segMeans_user ds' _ _ _ g1 g2 s hcol hs' h3.2.1 g4
      · rw [hs.2.1, ← hcol]; exact h3.1
      · rw [hs.2.2.1]; exact hok.has
      · rw [hs.2.2.2.1]
        exact ⟨hok.user.nodup, hs.1 ▸ hok.user.hasRaw, hs.1 ▸ hok.user.hasCol, hr ▸ hok.user.code⟩
    · apply segMeans_item ds' _ _ _ g1 g2 s hcol hs' h3.2.1 g4
      · rw [hs.2.1, ← hcol]; exact h3.1
      · rw [hs.2.2.1]; exact hok.has
      · rw [hs.2.2.2.2]
        exact ⟨hok.item.nodup, hs.1 ▸ hok.item.hasRaw, hs.1 ▸ hok.item.hasCol, hr ▸ hok.item.code⟩
  constructor
  · refine ⟨{ ds.copy with rows := ds.rows.filter fun r => Sat ws r }, ?_, rfl, rfl⟩
    unfold Mem.select
    rw [key ds.copy ⟨rfl, rfl, rfl, rfl, rfl⟩ rfl]
    rfl
  · refine ⟨{ ds with rows := ds.rows.filter fun r => Sat ws r }, ?_, rfl, rfl⟩
    unfold Mem.selectInPlace
    rw [key ds ⟨rfl, rfl, rfl, rfl, rfl⟩ rfl]
    rfl

/-- A query mixing a condition on a text id column and one on a value column, on a dataset with internal ids. -/
example : (let ws := [([], (⟨"user", .eq, .str "u"⟩ : SCond), []), ([], ⟨"interaction", .gt, .int 3⟩, [' '])]
     WellWritten ws ∧ (∀ w ∈ ws, w.2.1.col ∈ exUnsorted.assignIds.1.cols ∧ Fits exUnsorted.assignIds.1 w.2.1 ∧
       (Direct exUnsorted.assignIds.1 w.2.1 ∨ IdFilterOk exUnsorted.assignIds.1 w.2.1)) ∧
     ∀ w ∈ ws, ∀ r ∈ exUnsorted.assignIds.1.rows, Comparable w.2.1.op (r.get w.2.1.col) w.2.1.lit.value) ∧
    IdsOk exUnsorted.assignIds.1 := by
  refine ⟨by decide +kernel, assignIds_idsOk _ (by decide) (by decide)⟩

/-- **C01 fails** for orderings on text ids after `assign_internal_ids`: `item > 'b'` leaves out item `'z'`, which was
numbered first. -/
theorem C01_fails_with_ids : ∃ (ds d : Mem) (c : SCond), IdsOk ds ∧ WellWritten [([], c, [])] ∧ c.col ∈ ds.cols ∧
    Fits ds c ∧ (∀ r ∈ ds.rows, Comparable c.op (r.get c.col) c.lit.value) ∧
    ds.select (queryText [([], c, [])]) = .ok d ∧
    d.rows.map (·.rid) = [2] ∧ (ds.rows.filter fun r => Sat [([], c, [])] r).map (·.rid) = [0, 2] := by
  have h : ∃ d, exUnsorted.assignIds.1.select (queryText [([], (⟨"item", .gt, .str "b"⟩ : SCond), [])]) = .ok d ∧
      d.rows.map (·.rid) = [2] := by
    have h1 : ridsOf (exUnsorted.assignIds.1.select (queryText [([], (⟨"item", .gt, .str "b"⟩ : SCond), [])])) = some [2] := by
      decide +kernel
    cases h2 : exUnsorted.assignIds.1.select (queryText [([], (⟨"item", .gt, .str "b"⟩ : SCond), [])]) with
    | error e => rw [h2] at h1; cases h1
    | ok d => rw [h2] at h1; exact ⟨d, rfl, Option.some.inj h1⟩
  obtain ⟨d, hd, hr⟩ := h
  exact ⟨exUnsorted.assignIds.1, d, ⟨"item", .gt, .str "b"⟩, assignIds_idsOk _ (by decide) (by decide), by decide,
    by decide +kernel, by decide +kernel, by decide +kernel, hd, hr, by decide +kernel⟩

/-! ## C08 -/

/-- **C08.** For every query that can be evaluated: `exists` is true exactly when the selection is
non-empty, `select_one` is the first selected record (with the requested columns, its own values) or
`None`, and `len` is the number of records. -/
theorem C08_readers_agree (ds d : Mem) (q : List Char) (h : ds.select q = .ok d)
    (cs : List String) (hcs : ∀ c ∈ cs, c ∈ ds.cols) :
    ds.exists_ q = .ok (decide (d.rows ≠ [])) ∧
    ds.selectOne q (some cs) =
      .ok (match d.rows with | [] => none | r :: _ => some (cs.map fun c => (c, r.get c))) ∧
    d.len = d.rows.length ∧ ds.len = ds.rows.length := by
  rw [Mem.select_iff] at h
  obtain ⟨h1, rfl⟩ := h
  have haq := Mem.applyQuery_ok ds q h1
  refine ⟨?_, ?_, rfl, rfl⟩
  · unfold Mem.exists_ Mem.selectOne
    simp only [handleColumns, haq, bind, Except.bind, Except.map, Mem.withRows]
    cases ds.rows.filter fun r => (pySplit ',' q).all (ds.segHolds · r) <;> simp
  · unfold Mem.selectOne
    have : cs.all (· ∈ ds.cols) = true := by simpa using hcs
    simp only [handleColumns, this, if_true, haq, bind, Except.bind, Mem.withRows]
    cases ds.rows.filter fun r => (pySplit ',' q).all (ds.segHolds · r) <;> simp [Row.toRec]

/-- **C08.** A query that raises in `select` raises in `exists` too. -/
theorem C08_exists_raises (ds : Mem) (q : List Char) (e : Err) (h : ds.select q = .error e) :
    ∃ e', ds.exists_ q = .error e' := by
  by_cases hall : ∀ s ∈ pySplit ',' q, ds.SegOk s
  · have := (Mem.select_iff ds _ q).2 ⟨hall, rfl⟩
    rw [h] at this; cases this
  · obtain ⟨e', he⟩ := Mem.applyQuery_fail ds q hall
    exact ⟨e', by simp [Mem.exists_, Mem.selectOne, handleColumns, he, bind, Except.bind,
      Except.map]⟩

/-- **C08.** `max` and `min` of a numeric column of a non-empty dataset are values of that column and
bound all of them. -/
theorem C08_max_min (ds : Mem) (c : String) (hc : c ∈ ds.cols) (hne : ds.rows ≠ [])
    (hnum : ∀ r ∈ ds.rows, ∃ q, r.get c = .num q) :
    (∃ m, ds.max c = .ok (some m) ∧ (∃ r ∈ ds.rows, r.get c = .num m) ∧
      ∀ r ∈ ds.rows, ∀ q, r.get c = .num q → q ≤ m) ∧
    (∃ m, ds.min c = .ok (some m) ∧ (∃ r ∈ ds.rows, r.get c = .num m) ∧
      ∀ r ∈ ds.rows, ∀ q, r.get c = .num q → m ≤ q) := by
  have h1 : ∀ v ∈ ds.rows.map (·.get c), ∃ q, v = .num q := by
    intro v hv
    obtain ⟨r, hr, rfl⟩ := List.mem_map.1 hv
    exact hnum r hr
  have h2 : ds.rows.map (·.get c) ≠ [] := by simpa using hne
  constructor
  · obtain ⟨m, g1, g2, g3⟩ := foldNum_max _ h1 h2
    refine ⟨m, by simp [Mem.max, hc, g1], ?_, ?_⟩
    · obtain ⟨r, hr, he⟩ := List.mem_map.1 g2
      exact ⟨r, hr, he⟩
    · intro r hr q hq
      exact g3 q (hq ▸ List.mem_map_of_mem hr)
  · obtain ⟨m, g1, g2, g3⟩ := foldNum_min _ h1 h2
    refine ⟨m, by simp [Mem.min, hc, g1], ?_, ?_⟩
    · obtain ⟨r, hr, he⟩ := List.mem_map.1 g2
      exact ⟨r, hr, he⟩
    · intro r hr q hq
      exact g3 q (hq ▸ List.mem_map_of_mem hr)

/-- Instances: a query that can be evaluated, and a numeric column. -/
example : (∃ d, exText.select "interaction > 2".toList = .ok d) ∧
    "interaction" ∈ exText.cols ∧ exText.rows ≠ [] ∧
    (exText.rows.map (·.get "interaction")) = [.num 3, .num 1, .num 5] := by
  refine ⟨?_, by decide, by decide, by decide⟩
  obtain ⟨d, hd, _⟩ := (C01_select_exact exText [([], ⟨"interaction", .gt, .int 2⟩, [])]
      (by decide) (by decide) (by decide)).1
  exact ⟨d, hd⟩

end DRec
