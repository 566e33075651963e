import Verif.Model.DbSave
import Verif.Lemmas.DbTyped
import Verif.Lemmas.DbTemp
import Verif.Props.DbHistory

/-!
# C76, C77: saving a database dataset as a SQLite file

C76: saving any dataset to a `.sqlite` file returns, opening the file gives the same records, internal ids are not in
the file, and saving changes no dataset.  It is false: `C76_ids_are_written`, `C76_opened_is_never_saved`.
`C76_reopen_partial`, `C76_returns_partial` and `C76_unchanged_partial` are what holds for datasets that go back to an
import.

C77: `save()` without a path writes the dataset back to the file it was opened from.  It is false:
`C77_never_written_back`.  What holds is that the file is left alone (`C77_file_left_alone_partial`).
-/

namespace DRec

open Spec

namespace Spec

/-- A dataset after saving and opening again: the record ids count from 0, there are no internal ids. -/
def Plain.saved (p : Plain) : Plain :=
  let l := p.cols.filter fun c => c ∉ ["rid", "uid", "iid"]
  ⟨"rid" :: l, p.recs.mapIdx fun k r => ("rid", .num (k : ℚ)) :: project l r, false⟩

end Spec

theorem copyRecords_eq {size : Nat} (h0 : 0 < size) (cols : List String) (rs : List Rec) (n : Nat)
    (waiting table : List Row) :
    copyRecords size cols rs n waiting table =
      .ok (table ++ waiting ++ rs.mapIdx fun k r => savedRow cols (n + k) r) := by
  induction rs generalizing n waiting table with
  | nil =>
    simp only [copyRecords, List.mapIdx_nil, List.append_nil]
    split
    · rfl
    · rename_i h
      have : waiting = [] := List.length_eq_zero_iff.1 (by omega)
      rw [this, List.append_nil]
  | cons r rs ih =>
    simp only [copyRecords]
    rw [if_neg (by omega)]
    have e : (fun k r => savedRow cols (n + 1 + k) r) = fun k r => savedRow cols (n + (k + 1)) r := by
      funext k r; congr 1; omega
    split
    · rw [ih, List.mapIdx_cons, e]
      simp
    · rw [ih, List.mapIdx_cons, e]
      simp

/-- What is known about a save that returns. -/
theorem saveTable_ok {names : List String} (hn : NamesOk names) {w : World} (h : Good names w) {i size : Nat} (h0 : 0 < size)
    {t : Table} (hs : (w.saveTable i size).2 = .ok t) :
    ∃ p, plainOf w i = some p ∧
      t = ⟨["rid", "uid", "iid"] ++ p.cols.filter (· ∉ ["rid", "uid", "iid"]),
        p.recs.mapIdx fun k r => savedRow p.cols k r⟩ := by
  unfold World.saveTable at hs
  cases hx : w.insts i with
  | none => rw [hx] at hs; cases hs
  | some x =>
    obtain ⟨p, hp, hpc, _⟩ := plain_some h hx
    obtain ⟨x', t', rows, hx', _, _, hpe⟩ := plain_inv h hp
    rw [hx] at hs hx'
    cases hx'
    refine ⟨p, hp, ?_⟩
    simp only at hs
    split at hs
    · cases hs
    · rename_i cols hb
      have hcols : cols = ["rid", "uid", "iid"] ++ x.columns.filter (· ∉ ["rid", "uid", "iid"]) := by
        unfold Inst.buildTable at hb
        split at hb
        · split at hb
          · split at hb
            · exact (Except.ok.inj hb).symm
            · cases hb
          · cases hb
        · cases hb
      split at hs
      · rename_i w1 l hr
        have hl := read_good hn h hx hp (op := .values (some (x.columns.erase "rid" ++ ["rid"]))) (res := .recs l)
          (by rw [hr])
        simp only [ReadSpec, Option.getD_some] at hl
        have hl' : l = p.recs := by
          rw [hl]
          conv_rhs => rw [← List.map_id p.recs]
          apply List.map_congr_left
          intro r hr
          rw [hpe] at hr
          obtain ⟨ro, _, rfl⟩ := List.mem_map.1 hr
          apply List.filter_eq_self.2
          intro q hq
          obtain ⟨c, hc, rfl⟩ := List.mem_map.1 hq
          by_cases hcr : c = "rid"
          · simp [hcr]
          · simp [(List.mem_erase_of_ne hcr).2 hc]
        rw [copyRecords_eq h0] at hs
        have := (Except.ok.inj hs).symm
        rw [this, hcols, hl', hpc]
        simp
      · cases hs
      · cases hs

/-- Opening a file whose table was made from a dataset. -/
theorem reopen_saved {names : List String} {w : World} (h : Good names w) {i : Nat} {p : Plain}
    (hp : plainOf w i = some p) :
    plainOf (World.ofFile ⟨["rid", "uid", "iid"] ++ p.cols.filter (· ∉ ["rid", "uid", "iid"]),
        p.recs.mapIdx fun k r => savedRow p.cols k r⟩) 0 = some p.saved := by
  obtain ⟨x, t, rows, hx, ht, hs, rfl⟩ := plain_inv h hp
  have hf : (["rid", "uid", "iid"] ++ x.columns.filter (· ∉ ["rid", "uid", "iid"])).filter (· ∉ ["uid", "iid"]) =
      "rid" :: x.columns.filter (· ∉ ["rid", "uid", "iid"]) := by
    rw [List.filter_append]
    have : (x.columns.filter (· ∉ ["rid", "uid", "iid"])).filter (· ∉ ["uid", "iid"]) =
        x.columns.filter (· ∉ ["rid", "uid", "iid"]) := by
      apply List.filter_eq_self.2
      intro a ha
      have := (List.mem_filter.1 ha).2
      simp at this ⊢
      exact ⟨this.2.1, this.2.2⟩
    rw [this]
    rfl
  have hx' : (World.ofFile ⟨["rid", "uid", "iid"] ++ x.columns.filter (· ∉ ["rid", "uid", "iid"]),
      (rows.map (Row.toRec x.columns)).mapIdx fun k r => savedRow x.columns k r⟩).insts 0 =
      some ⟨"rid" :: x.columns.filter (· ∉ ["rid", "uid", "iid"]), .table, 0, false, none, rows.length, rows.length, 0, 0⟩ := by
    simp only [World.ofFile, if_true, hf]
    simp
  have hev : evalSrc ⟨["rid", "uid", "iid"] ++ x.columns.filter (· ∉ ["rid", "uid", "iid"]),
      (rows.map (Row.toRec x.columns)).mapIdx fun k r => savedRow x.columns k r⟩
      (.sub ("rid" :: x.columns.filter (· ∉ ["rid", "uid", "iid"])) .table []) =
      .ok ("rid" :: x.columns.filter (· ∉ ["rid", "uid", "iid"]),
        (rows.map (Row.toRec x.columns)).mapIdx fun k r => savedRow x.columns k r) := by
    rw [evalSrc_mk rfl (by simp) _ (by simp)]
    · simp
    · intro a ha
      rcases List.mem_cons.1 ha with rfl | ha
      · simp
      · exact List.mem_append_right _ ha
  unfold plainOf World.view
  rw [hx']
  simp only [World.ofFile, if_true, query_table, hev, Except.map]
  simp only [Plain.saved, Option.some.injEq, Plain.mk.injEq, true_and, and_true]
  apply List.ext_getElem
  · simp
  intro k h1 h2
  simp only [List.getElem_map, List.getElem_mapIdx]
  rw [decode_eq (List.prefix_refl _)]
  simp only [Row.toRec, List.map_cons, project, List.cons.injEq, Prod.mk.injEq, true_and]
  refine ⟨by simp [Row.get, savedRow], ?_⟩
  apply List.map_congr_left
  intro c hc
  obtain ⟨h3, h4⟩ := List.mem_filter.1 hc
  have h5 : c ≠ "rid" := by rintro rfl; simp at h4
  simp [Row.get, savedRow, h3, h5, cellOf]

theorem saveTable_unchanged {names : List String} (hn : NamesOk names) {w : World} (h : Good names w) (i size : Nat) :
    plainOf (w.saveTable i size).1 = plainOf w := by
  unfold World.saveTable
  cases hx : w.insts i with
  | none => rfl
  | some x =>
    have hr : plainOf (w.read i (.values (some (x.columns.erase "rid" ++ ["rid"])))).1 = plainOf w := by
      rw [← (record_good hn h hx).2.1]
      unfold World.read
      cases he : (w.record i).2 with
      | some e =>
        have er : w.record i = ((w.record i).1, some e) := by rw [← he]
        rw [er]
      | none =>
        have er : w.record i = ((w.record i).1, none) := by rw [← he]
        rw [er]
    simp only
    split
    · rfl
    · split <;> (rename_i e; rw [← hr, e])

theorem saveTable_works {names : List String} (hn : NamesOk names) {w : World} (h : Good names w) {i size : Nat}
    (h0 : 0 < size) {p : Plain} (hp : plainOf w i = some p) (hf : FullCols p.cols) :
    ∃ t, (w.saveTable i size).2 = .ok t := by
  obtain ⟨x, t, rows, hx, ht, hs, rfl⟩ := plain_inv h hp
  have hb : x.buildTable = .ok (["rid", "uid", "iid"] ++ x.columns.filter (· ∉ ["rid", "uid", "iid"])) := by
    unfold Inst.buildTable
    rw [if_pos, if_pos hs.types, if_pos hf.2]
    rw [List.all_eq_true]
    intro a ha
    simpa using hf.1 ha
  have hw : Works ⟨x.columns, rows.map (Row.toRec x.columns), x.hasIds⟩
      (.read i (.values (some (x.columns.erase "rid" ++ ["rid"])))) := by
    refine ⟨hf, ?_⟩
    intro a ha
    rcases List.mem_append.1 ha with ha | ha
    · exact List.mem_of_mem_erase ha
    · rw [List.mem_singleton.1 ha]; exact hs.rid
  obtain ⟨k, hk⟩ := works_good hn h hp (op := .read i (.values (some (x.columns.erase "rid" ++ ["rid"])))) trivial hw
  simp only [runOp] at hk
  cases hr : w.read i (.values (some (x.columns.erase "rid" ++ ["rid"]))) with
  | mk w1 res =>
    rw [hr] at hk
    cases res with
    | error e => cases hk
    | ok res =>
      have hg := read_good hn h hx hp (op := .values (some (x.columns.erase "rid" ++ ["rid"]))) (res := res) (by rw [hr])
      cases res with
      | recs l =>
        unfold World.saveTable
        simp only [hx, hb, hr]
        rw [copyRecords_eq h0]
        exact ⟨_, rfl⟩
      | _ => exact absurd hg id

/-! ## C76 -/

/-- From an import on, after every history of admissible operations: when saving returns, opening the new file shows
the records of the dataset, whatever the chunk size. -/
theorem C76_reopen_partial (names cols : List String) (types : String → DType) (rows : List Row) (ops : List DbOp)
    (hn : tableCols ⊆ names ∧ "uid" ∈ names ∧ "iid" ∈ names) (hcols : cols ⊆ names) (hrid : "rid" ∈ cols)
    (hsort : rows.Pairwise fun a b => a.rid < b.rid)
    (ha : AdmissibleAll names (World.ofCsv cols types rows) ops) (i size : Nat) (h0 : 0 < size) (t : Table)
    (hs : ((runOps (World.ofCsv cols types rows) ops).saveTable i size).2 = .ok t) :
    ∃ p, plainOf (runOps (World.ofCsv cols types rows) ops) i = some p ∧
      plainOf (World.ofFile t) 0 = some p.saved := by
  obtain ⟨g1, _⟩ := ofCsv_good hn types rows hcols hrid hsort
  obtain ⟨h1, _⟩ := history_good hn g1 ops [] (by simpa using ha)
  obtain ⟨p, hp, rfl⟩ := saveTable_ok hn h1 h0 hs
  exact ⟨p, hp, reopen_saved h1 hp⟩

/-- Saving returns when all the columns that tables need are there. -/
theorem C76_returns_partial (names cols : List String) (types : String → DType) (rows : List Row) (ops : List DbOp)
    (hn : tableCols ⊆ names ∧ "uid" ∈ names ∧ "iid" ∈ names) (hcols : cols ⊆ names) (hrid : "rid" ∈ cols)
    (hsort : rows.Pairwise fun a b => a.rid < b.rid)
    (ha : AdmissibleAll names (World.ofCsv cols types rows) ops) (i size : Nat) (h0 : 0 < size) (p : Plain)
    (hp : plainOf (runOps (World.ofCsv cols types rows) ops) i = some p) (hf : FullCols p.cols) :
    ∃ t, ((runOps (World.ofCsv cols types rows) ops).saveTable i size).2 = .ok t := by
  obtain ⟨g1, _⟩ := ofCsv_good hn types rows hcols hrid hsort
  obtain ⟨h1, _⟩ := history_good hn g1 ops [] (by simpa using ha)
  exact saveTable_works hn h1 h0 hp hf

/-- Saving, successful or not, changes no dataset. -/
theorem C76_unchanged_partial (names cols : List String) (types : String → DType) (rows : List Row) (ops : List DbOp)
    (hn : tableCols ⊆ names ∧ "uid" ∈ names ∧ "iid" ∈ names) (hcols : cols ⊆ names) (hrid : "rid" ∈ cols)
    (hsort : rows.Pairwise fun a b => a.rid < b.rid)
    (ha : AdmissibleAll names (World.ofCsv cols types rows) ops) (i size : Nat) :
    plainOf ((runOps (World.ofCsv cols types rows) ops).saveTable i size).1 =
      plainOf (runOps (World.ofCsv cols types rows) ops) := by
  obtain ⟨g1, _⟩ := ofCsv_good hn types rows hcols hrid hsort
  obtain ⟨h1, _⟩ := history_good hn g1 ops [] (by simpa using ha)
  exact saveTable_unchanged hn h1 i size

/-- The hypotheses hold after the history of `C18`, the records are renumbered, and two chunks are written. -/
example : (((runOps exWorld exOps).saveTable 0 1).2.toOption.map fun t => plainOf (World.ofFile t) 0) =
    some (some ⟨["rid", "user", "item", "interaction"],
      [[("rid", .num 0), ("user", .num 1), ("item", .num 10), ("interaction", .num 5)],
       [("rid", .num 1), ("user", .num 2), ("item", .num 10), ("interaction", .num 4)]], false⟩) := by
  decide +kernel

example : AdmissibleAll exDbNames exWorld exOps ∧ ∃ p, plainOf (runOps exWorld exOps) 0 = some p ∧ FullCols p.cols :=
  ⟨exOps_admissible, ⟨exDbCols, [[("user", .num 1), ("item", .num 10), ("interaction", .num 5), ("rid", .num 0)],
    [("user", .num 2), ("item", .num 10), ("interaction", .num 4), ("rid", .num 2)]], false⟩,
    by decide +kernel, by decide, by decide⟩

/-- Internal ids are written to the file, against the documentation of `save`. -/
theorem C76_ids_are_written :
    ((runOps exWorld [.assign 0]).saveTable 0 10).2.toOption.map
      (fun t => t.rows.map fun r => [r.get "uid", r.get "iid"]) =
      some [[.num 0, .num 0], [.num 0, .num 1], [.num 1, .num 0]] := by
  decide +kernel

/-- A dataset opened from a `.sqlite` file, and everything made from it, can never be saved as one. -/
theorem C76_opened_is_never_saved (t : Table) (ops : List DbOp) (i size : Nat) :
    ∃ e, (runOps (World.ofFile t) ops).saveTable i size = (runOps (World.ofFile t) ops, .error e) := by
  have h : EachTy NoTypes (runOps (World.ofFile t) ops) := by
    apply typed_runOps
    intro j y hy
    simp only [World.ofFile] at hy
    split at hy
    · cases hy; rfl
    · cases hy
  generalize runOps (World.ofFile t) ops = w at h
  unfold World.saveTable
  cases hx : w.insts i with
  | none => exact ⟨_, rfl⟩
  | some x =>
    have ht : x.types = none := h i x hx
    simp only [Inst.buildTable, ht, Option.isSome_none]
    by_cases hc : tableCols.all (· ∈ x.columns) = true
    · simp only [hc]
      exact ⟨_, rfl⟩
    · simp only [hc]
      exact ⟨_, rfl⟩

/-! ## C77 -/

/-- `save()` without a path never returns, whatever happened since the import or since the file was opened. -/
theorem C77_never_written_back (w : World) (hw : Start w) (ops : List DbOp) (i size : Nat) :
    ∃ e, ((runOps w ops).saveOwn i size).2 = some e := by
  unfold World.saveOwn
  rcases hw with ⟨cols, types, rows, rfl⟩ | ⟨t, rfl⟩
  · rw [temp_runOps]
    exact ⟨_, rfl⟩
  · rw [temp_runOps]
    obtain ⟨e, he⟩ := C76_opened_is_never_saved t ops i size
    simp only [he]
    rw [if_neg (by simp [World.ofFile])]
    split
    · exact ⟨_, rfl⟩
    · exact ⟨_, rfl⟩

/-- It leaves the file, and all datasets, as they were. -/
theorem C77_file_left_alone_partial (w : World) (hw : Start w) (ops : List DbOp) (i size : Nat) :
    ((runOps w ops).saveOwn i size).1 = runOps w ops := by
  unfold World.saveOwn
  rcases hw with ⟨cols, types, rows, rfl⟩ | ⟨t, rfl⟩
  · rw [temp_runOps]
    rfl
  · rw [temp_runOps]
    obtain ⟨e, he⟩ := C76_opened_is_never_saved t ops i size
    simp only [he]
    rw [if_neg (by simp [World.ofFile])]
    split
    · rfl
    · rfl

/-- A file with all the usual columns, of which nobody else has a dataset: no reason to refuse. -/
example : ((World.ofFile ⟨["rid", "uid", "iid", "user", "item", "interaction"], [exDbRow 0 1 10 5]⟩).saveOwn 0 10).2 =
    some .typeError := by
  decide +kernel

end DRec
