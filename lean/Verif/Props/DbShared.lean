import Verif.Lemmas.DbTemp
import Verif.Props.DbHistory

/-!
# C19, C21, C22: datasets sharing tables and files
-/

namespace DRec

open Spec

theorem Reg.start {w : World} (h : Start w) : Reg w := by
  rcases h with ⟨cols, types, rows, rfl⟩ | ⟨t, rfl⟩
  · exact Reg.ofCsv _ _ _
  · exact Reg.ofFile _

/-- What an operation keeps of the others. -/
theorem runOp_keep {w : World} (h : Reg w) (op : DbOp) (ha : ∀ i c f, op = .apply i c f → w.gens = 0)
    (hs : ∀ i, op ≠ .assign i) : Keep op.inst w (runOp w op).1 := by
  cases op with
  | select i ws c => exact keep_inPlaceOrCopy h i c _ fun _ j hw => ⟨hw.selectOn j _, keep_selectOn hw j _⟩
  | drop i ids k c => exact keep_inPlaceOrCopy h i c _ fun _ j hw => ⟨hw.dropOn j _ _, keep_dropOn hw j _ _⟩
  | unique i cs c => exact keep_unique h i cs c
  | copy i => exact fun k z _ hz => copy_keep h i k z hz
  | close i => exact keep_close h i
  | read i o => exact keep_read h i o
  | assign i => exact absurd rfl (hs i)
  | removeIds i => exact keep_removeIds w i
  | apply i c f => exact keep_apply h (ha i c f rfl) i c f
  | openGen i => exact keep_record h i
  | closeGen => exact Keep.refl _ _
  | reopen =>
    intro k z _ hz
    have hk : k ≠ w.nextI := by
      rintro rfl
      rw [h.freshI _ (le_refl _)] at hz; cases hz
    simp only [runOp, outcome, World.reopen]
    split
    · exact ⟨by simp [World.put, World.putU, hk, hz], rfl⟩
    · exact ⟨hz, rfl⟩

/-! ## C19 -/

/-- In every history, whatever the operations and their arguments, an operation changes nothing of what the
other datasets show.  Missing from the full claim: `apply` while a value generator is open, and numbering users
and items of a table that others read ids from; both really change others (`C19_apply_leaks`,
`C19_assign_leaks`). -/
theorem C19_isolated_partial (w₀ : World) (hw : Start w₀) (ops : List DbOp) (op : DbOp)
    (hap : ∀ i c f, op = .apply i c f → (runOps w₀ ops).gens = 0)
    (has : ∀ i, op = .assign i → (runOps w₀ ops).gens = 0 ∧ IdSafe (runOps w₀ ops) i)
    (k : Nat) (hk : k ≠ op.inst) (hlive : (runOps w₀ ops).insts k ≠ none) :
    plainOf (runOp (runOps w₀ ops) op).1 k = plainOf (runOps w₀ ops) k := by
  have hreg := (Reg.start hw).runOps ops
  obtain ⟨z, hz⟩ := Option.ne_none_iff_exists'.1 hlive
  by_cases hs : ∀ i, op ≠ .assign i
  · exact (runOp_keep hreg op hap hs).plain hk hz
  · push Not at hs
    obtain ⟨i, rfl⟩ := hs
    obtain ⟨h1, h2⟩ := has i rfl
    exact assign_iso hreg h1 h2 hk hz

/-- Two datasets on one table, one of them with a query in its state. -/
example : let w := runOps exWorld [.select 0 exDbQuery true]
    w.insts 0 ≠ none ∧ w.insts 1 ≠ none ∧ (w.insts 0).map (·.table) = (w.insts 1).map (·.table) ∧ w.gens = 0 ∧
      plainOf w 0 ≠ plainOf w 1 := by
  refine ⟨Option.isSome_iff_ne_none.1 (by decide +kernel), Option.isSome_iff_ne_none.1 (by decide +kernel),
    by decide +kernel, by decide +kernel, by decide +kernel⟩

/-- Numbering again after a reduction changes the internal ids shown by a copy: the copy keeps reading the
table that is renumbered. -/
theorem C19_assign_leaks :
    let w := runOps exWorld [.assign 0, .drop 0 [0, 1] false false, .read 0 (.values none), .read 0 (.values none),
      .read 0 (.values none), .read 0 (.values none), .copy 0]
    (plainOf w 1).map (fun p => p.recs.map (cellOf · "uid")) = some [.num 1] ∧
      (runOp w (.assign 0)).2.toOption = some 0 ∧
      (plainOf (runOp w (.assign 0)).1 1).map (fun p => p.recs.map (cellOf · "uid")) = some [.num 0] := by
  refine ⟨by decide +kernel, by decide +kernel, by decide +kernel⟩

/-- With an open value generator, `apply` writes to a table that a copy is reading. -/
theorem C19_apply_leaks :
    let w := runOps exWorld [.copy 0, .openGen 0]
    (plainOf w 1).map (fun p => p.recs.map (cellOf · "interaction")) = some [.num 5, .num 3, .num 4] ∧
      (runOp w (.apply 0 "interaction" fun _ => some (.int 1))).2.toOption = some 0 ∧
      (plainOf (runOp w (.apply 0 "interaction" fun _ => some (.int 1))).1 1).map
        (fun p => p.recs.map (cellOf · "interaction")) = some [.num 1, .num 1, .num 1] := by
  refine ⟨by decide +kernel, by decide +kernel, by decide +kernel⟩

/-! ## C21 -/

/-- In every history, with any number of datasets and open generators, the table of a live dataset exists. -/
theorem C21_table_exists (w₀ : World) (hw : Start w₀) (ops : List DbOp) (i : Nat) (x : Inst)
    (hx : (runOps w₀ ops).insts i = some x) : (runOps w₀ ops).tables x.table ≠ none := by
  obtain ⟨t, ht⟩ := ((Reg.start hw).runOps ops).tab i x hx
  rw [ht]; simp

/-- The temporary file of an import is there exactly as long as some dataset is live. -/
theorem C21_file_exists (cols : List String) (types : String → DType) (rows : List Row) (ops : List DbOp) :
    (runOps (World.ofCsv cols types rows) ops).file = true ↔
      ∃ i, (runOps (World.ofCsv cols types rows) ops).insts i ≠ none := by
  have hreg := (Reg.ofCsv cols types rows).runOps ops
  have htemp : (runOps (World.ofCsv cols types rows) ops).temp = true := temp_runOps _ _
  constructor
  · intro hf
    have hl : (runOps (World.ofCsv cols types rows) ops).live ≠ none := by
      intro hl
      rw [hreg.gone htemp hl] at hf; cases hf
    obtain ⟨ls, hls⟩ := Option.ne_none_iff_exists'.1 hl
    cases ls with
    | nil => exact absurd hls hreg.liveNe
    | cons i ls =>
      obtain ⟨x, hx⟩ := (hreg.live i).1 (by rw [hls]; simp)
      exact ⟨i, by rw [hx]; simp⟩
  · rintro ⟨i, hi⟩
    obtain ⟨x, hx⟩ := Option.ne_none_iff_exists'.1 hi
    have hl := (hreg.live i).2 ⟨x, hx⟩
    apply hreg.file
    cases hlv : (runOps (World.ofCsv cols types rows) ops).live with
    | none => rw [hlv] at hl; simp at hl
    | some l => rfl

/-- A live dataset on a table of its own, and the file after closing everything. -/
example : let w := runOps exWorld exOps
    w.insts 0 ≠ none ∧ (w.insts 0).map (·.table) = some 1 ∧ w.file = true ∧
      (runOps w [.close 0, .close 2, .close 3]).file = false := by
  refine ⟨Option.isSome_iff_ne_none.1 (by decide +kernel), by decide +kernel, by decide +kernel, by decide +kernel⟩

/-! ## C22 -/

/-- The records of an opened file stay as long as the dataset opened on it is only read, copied and queried into
copies, whatever is done to the copies short of numbering them (and with no generator open during an `apply`).
Missing from the full claim: the full claim also covers closing the dataset, which drops the table
(`C22_close_destroys`), and changing it in place, which deletes records (`C22_reduction_destroys`). -/
theorem C22_file_kept_partial (t : Table) (ops : List DbOp)
    (hown : ∀ op ∈ ops, op.inst = 0 → op.keepsOwn = true ∨ op = .closeGen ∨ op = .reopen)
    (has : ∀ op ∈ ops, ∀ i, op ≠ .assign i)
    (hap : ∀ a op b, ops = a ++ op :: b → ∀ i c f, op = .apply i c f → (runOps (World.ofFile t) a).gens = 0) :
    (runOps (World.ofFile t) ops).tables 0 = some t := by
  suffices h : ∀ w, Reg w → Stands w 0 0 t →
      (∀ a op b, ops = a ++ op :: b → ∀ i c f, op = .apply i c f → (runOps w a).gens = 0) →
      Stands (runOps w ops) 0 0 t from
    (h _ (Reg.ofFile t) ⟨⟨_, rfl, rfl, rfl⟩, rfl⟩ hap).2
  clear hap
  induction ops with
  | nil => intro w _ hs _; exact hs
  | cons op ops ih =>
    intro w hr hs hap
    refine ih (fun o ho => hown o (List.mem_cons_of_mem _ ho)) (fun o ho => has o (List.mem_cons_of_mem _ ho)) _
      (hr.runOp op) ?_ ?_
    · have hkeep := runOp_keep hr op (hap [] op ops rfl) (has op (by simp))
      by_cases hi : op.inst = 0
      · have hfc : ∀ (f : World → Nat → World × Option Err) (i : Nat),
            (∀ w j, Reg w → Reg (f w j).1 ∧ Keep j w (f w j).1) → i = 0 →
            Stands (w.inPlaceOrCopy i true f).1 0 0 t := by
          rintro f i hf rfl
          exact hs.onCopy hr f hf
        rcases hown op (by simp) hi with hk | rfl | rfl
        · cases op with
          | select i ws c =>
            simp only [DbOp.keepsOwn] at hk
            subst hk
            exact hfc _ _ (fun _ j hw => ⟨hw.selectOn j _, keep_selectOn hw j _⟩) hi
          | drop i ids k c =>
            simp only [DbOp.keepsOwn] at hk
            subst hk
            exact hfc _ _ (fun _ j hw => ⟨hw.dropOn j _ _, keep_dropOn hw j _ _⟩) hi
          | unique i cs c =>
            simp only [DbOp.keepsOwn] at hk
            subst hk
            simp only [runOp, World.unique]
            split
            · exact hs
            · split
              · exact hs
              · exact hfc _ _ (fun _ j hw => ⟨hw.uniqueOn j _, keep_uniqueOn hw j _⟩) hi
          | copy i => exact hs.copy hr i
          | read i o =>
            have hi' : i = 0 := hi
            subst hi'
            have e : (runOp w (.read 0 o)).1 = (w.record 0).1 := by
              simp only [runOp, World.read]
              split <;> rename_i heq <;> rw [heq]
            rw [e]
            exact hs.record
          | openGen i =>
            have hi' : i = 0 := hi
            subst hi'
            exact hs.record
          | close i => simp [DbOp.keepsOwn] at hk
          | assign i => simp [DbOp.keepsOwn] at hk
          | removeIds i => simp [DbOp.keepsOwn] at hk
          | apply i c f => simp [DbOp.keepsOwn] at hk
          | closeGen => simp [DbOp.keepsOwn] at hk
          | reopen => simp [DbOp.keepsOwn] at hk
        · exact hs
        · have hne : 0 < w.nextI := by
            obtain ⟨⟨x, h1, _, _⟩, _⟩ := hs
            by_contra hh
            rw [hr.freshI 0 (by omega)] at h1; cases h1
          obtain ⟨⟨x, h1, h2, h3⟩, h4⟩ := hs
          simp only [runOp, outcome, World.reopen]
          split
          · refine ⟨⟨x, ?_, h2, h3⟩, h4⟩
            have : (0 : Nat) ≠ w.nextI := by omega
            simp [World.put, World.putU, this, h1]
          · exact ⟨⟨x, h1, h2, h3⟩, h4⟩
      · exact hs.keep hkeep (Ne.symm hi)
    · intro a o b hab i c f ho
      exact hap (op :: a) o b (by rw [hab]; rfl) i c f ho

/-- The table of the examples as a file of the user. -/
def exDbTable : Table := ⟨exDbNames, [exDbRow 0 1 10 5, exDbRow 1 1 20 3, exDbRow 2 2 10 4]⟩

/-- A history the theorem speaks about: the copy is reduced and closed. -/
example : let ops : List DbOp := [.drop 0 [0] false true, .read 1 (.values none), .read 0 (.values none),
      .openGen 0, .closeGen, .close 1, .reopen]
    (∀ op ∈ ops, op.inst = 0 → op.keepsOwn = true ∨ op = .closeGen ∨ op = .reopen) ∧
      (∀ op ∈ ops, ∀ i, op ≠ .assign i) := by
  constructor
  · intro op hop hi
    simp only [List.mem_cons, List.not_mem_nil, or_false] at hop
    rcases hop with rfl | rfl | rfl | rfl | rfl | rfl | rfl <;> simp [DbOp.keepsOwn, DbOp.inst] at *
  · intro op hop i
    simp only [List.mem_cons, List.not_mem_nil, or_false] at hop
    rcases hop with rfl | rfl | rfl | rfl | rfl | rfl | rfl <;> simp

/-- Opening a file and closing the dataset drops its table: the records are gone. -/
theorem C22_close_destroys :
    ((World.ofFile exDbTable).tables 0).map (fun t => t.rows.map (·.rid)) = some [0, 1, 2] ∧
      (runOp (World.ofFile exDbTable) (.close 0)).2.toOption = some 0 ∧
      ((runOp (World.ofFile exDbTable) (.close 0)).1.tables 0).isNone = true := by
  refine ⟨by decide +kernel, by decide +kernel, by decide +kernel⟩

/-- So do records left out by an in-place `drop`, with the fourth read. -/
theorem C22_reduction_destroys :
    ((runOps (World.ofFile exDbTable) [.drop 0 [1, 2] false false, .read 0 (.values none), .read 0 (.values none),
      .read 0 (.values none)]).tables 0).map (fun t => t.rows.map (·.rid)) = some [0, 1, 2] ∧
    ((runOps (World.ofFile exDbTable) [.drop 0 [1, 2] false false, .read 0 (.values none), .read 0 (.values none),
      .read 0 (.values none), .read 0 (.values none)]).tables 0).map (fun t => t.rows.map (·.rid)) = some [0] := by
  refine ⟨by decide +kernel, by decide +kernel⟩

end DRec
