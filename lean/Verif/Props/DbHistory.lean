import Verif.Lemmas.DbRead

/-!
# C18: the database dataset behaves as a plain table under every history

`C18_history_partial`, `C18_reads_partial`, `C18_len_partial` and `C18_returns_partial` hold for every history
of admissible operations (`Spec.Admissible`) on any number of datasets.  Missing from the full claim: the full
claim has no admissibility condition and no exception for operations that raise.  It is false:
`C18_hidden_raise`, `C18_remove_ids_shifts` and `C18_unique_empty_breaks` are histories on which it fails.
-/

namespace DRec

open Spec

/-- From an import on, every admissible operation of a history does to all datasets what it does on plain lists
of records: hidden reductions are not visible. -/
theorem C18_history_partial (names cols : List String) (types : String → DType) (rows : List Row) (ops : List DbOp)
    (hn : tableCols ⊆ names ∧ "uid" ∈ names ∧ "iid" ∈ names) (hcols : cols ⊆ names) (hrid : "rid" ∈ cols)
    (hsort : rows.Pairwise fun a b => a.rid < b.rid)
    (ha : AdmissibleAll names (World.ofCsv cols types rows) ops) :
    (plainOf (World.ofCsv cols types rows) =
      fun i => if i = 0 then some ⟨cols, rows.map (Row.toRec cols), false⟩ else none) ∧
    ∀ a op b, ops = a ++ op :: b →
      StepSpec (plainOf (runOps (World.ofCsv cols types rows) a)) op
        (runOp (runOps (World.ofCsv cols types rows) a) op).2
        (plainOf (runOps (World.ofCsv cols types rows) (a ++ [op]))) := by
  obtain ⟨g1, g2⟩ := ofCsv_good hn types rows hcols hrid hsort
  refine ⟨g2, ?_⟩
  rintro a op b rfl
  obtain ⟨h1, h2⟩ := history_good hn g1 a (op :: b) ha
  rw [runDbOps_append]
  exact (step_good hn h1 h2.1).2

/-- At every point of such a history a read that returns shows the records. -/
theorem C18_reads_partial (names cols : List String) (types : String → DType) (rows : List Row) (ops : List DbOp)
    (hn : tableCols ⊆ names ∧ "uid" ∈ names ∧ "iid" ∈ names) (hcols : cols ⊆ names) (hrid : "rid" ∈ cols)
    (hsort : rows.Pairwise fun a b => a.rid < b.rid)
    (ha : AdmissibleAll names (World.ofCsv cols types rows) ops) (i : Nat) (op : ReadOp) (res : ReadRes)
    (hr : ((runOps (World.ofCsv cols types rows) ops).read i op).2 = .ok res) :
    ∃ p x, plainOf (runOps (World.ofCsv cols types rows) ops) i = some p ∧
      (runOps (World.ofCsv cols types rows) ops).insts i = some x ∧ ReadSpec names x.types p op res := by
  obtain ⟨g1, _⟩ := ofCsv_good hn types rows hcols hrid hsort
  obtain ⟨h1, _⟩ := history_good hn g1 ops [] (by simpa using ha)
  cases hx : (runOps (World.ofCsv cols types rows) ops).insts i with
  | none =>
    simp only [World.read, World.record, hx] at hr
    cases hr
  | some x =>
    obtain ⟨p, hp, _, _⟩ := plain_some h1 hx
    exact ⟨p, x, hp, rfl, read_good hn h1 hx hp hr⟩

/-- At every point of such a history the length is the number of records. -/
theorem C18_len_partial (names cols : List String) (types : String → DType) (rows : List Row) (ops : List DbOp)
    (hn : tableCols ⊆ names ∧ "uid" ∈ names ∧ "iid" ∈ names) (hcols : cols ⊆ names) (hrid : "rid" ∈ cols)
    (hsort : rows.Pairwise fun a b => a.rid < b.rid)
    (ha : AdmissibleAll names (World.ofCsv cols types rows) ops) (i : Nat) :
    (runOps (World.ofCsv cols types rows) ops).len i =
      (plainOf (runOps (World.ofCsv cols types rows) ops) i).map fun p => p.recs.length := by
  obtain ⟨g1, _⟩ := ofCsv_good hn types rows hcols hrid hsort
  obtain ⟨h1, _⟩ := history_good hn g1 ops [] (by simpa using ha)
  unfold World.len
  cases hx : (runOps (World.ofCsv cols types rows) ops).insts i with
  | none => rw [plainOf_none hx]; rfl
  | some x =>
    obtain ⟨t, rs, ht, hs⟩ := h1.get hx
    rw [plainOf_eq hx ht hs]
    simp [hs.len]

/-- Operations on datasets with all the columns that tables need return. -/
theorem C18_returns_partial (names cols : List String) (types : String → DType) (rows : List Row) (ops : List DbOp)
    (hn : tableCols ⊆ names ∧ "uid" ∈ names ∧ "iid" ∈ names) (hcols : cols ⊆ names) (hrid : "rid" ∈ cols)
    (hsort : rows.Pairwise fun a b => a.rid < b.rid) (op : DbOp)
    (ha : AdmissibleAll names (World.ofCsv cols types rows) (ops ++ [op])) (p : Plain)
    (hp : plainOf (runOps (World.ofCsv cols types rows) ops) op.inst = some p) (hw : Works p op) :
    ∃ k, (runOp (runOps (World.ofCsv cols types rows) ops) op).2 = .ok k := by
  obtain ⟨g1, _⟩ := ofCsv_good hn types rows hcols hrid hsort
  obtain ⟨h1, h2⟩ := history_good hn g1 ops [op] ha
  exact works_good hn h1 hp h2.1 hw

/-! ## A concrete world -/

/-- Columns of the examples. -/
def exDbCols : List String := ["user", "item", "interaction", "rid"]

/-- Names of the examples. -/
def exDbNames : List String := ["rid", "uid", "iid", "user", "item", "interaction"]

/-- Row of the examples. -/
def exDbRow (rid u i x : Nat) : Row :=
  ⟨rid, fun c => if c = "user" then .num u else if c = "item" then .num i else if c = "interaction" then .num x
    else .null⟩

/-- Three interactions of two users. -/
def exWorld : World := World.ofCsv exDbCols (fun _ => .int) [exDbRow 0 1 10 5, exDbRow 1 1 20 3, exDbRow 2 2 10 4]

/-- `interaction > 3` -/
def exDbQuery : List (List Char × SCond × List Char) := [([], ⟨"interaction", .gt, .int 3⟩, [])]

/-- A history: a copy, a selection in place, six reads (the fourth reduces the table), ids, a drop, a `unique`. -/
def exOps : List DbOp :=
  [.copy 0, .select 0 exDbQuery false, .read 0 (.values none), .read 0 (.max "item"), .read 0 (.countUnique none),
   .read 0 (.values none), .read 0 (.values none), .assign 0, .drop 1 [1] false true,
   .unique 0 (some ["user", "item", "interaction"]) true, .removeIds 0, .close 1]

theorem exOps_admissible : AdmissibleAll exDbNames exWorld exOps := by
  refine ⟨trivial, ?_, trivial, trivial, trivial, trivial, trivial, ?_, trivial, ?_, ?_, trivial, trivial⟩
  · intro p x hp hx
    have e : plainOf (runOp exWorld (.copy 0)).1 0 = some ⟨exDbCols, [
        [("user", .num 1), ("item", .num 10), ("interaction", .num 5), ("rid", .num 0)],
        [("user", .num 1), ("item", .num 20), ("interaction", .num 3), ("rid", .num 1)],
        [("user", .num 2), ("item", .num 10), ("interaction", .num 4), ("rid", .num 2)]], false⟩ := by
      decide +kernel
    rw [e] at hp
    cases hp
    refine ⟨by decide, ?_⟩
    intro c hc
    simp only [exDbQuery, List.mem_singleton] at hc
    subst hc
    refine ⟨trivial, ?_, ?_⟩
    · intro ty hty
      have ex : (runOp exWorld (.copy 0)).1.insts 0 =
          some ⟨exDbCols, .table, 0, false, some fun _ => .int, 3, 3, 0, 0⟩ := rfl
      rw [ex] at hx
      cases hx
      cases hty
      decide
    · decide
  · intro p hp
    have e : plainOf (runOps exWorld (exOps.take 7)) 0 = some ⟨exDbCols, [
        [("user", .num 1), ("item", .num 10), ("interaction", .num 5), ("rid", .num 0)],
        [("user", .num 2), ("item", .num 10), ("interaction", .num 4), ("rid", .num 2)]], false⟩ := by
      decide +kernel
    have hp' : plainOf (runOps exWorld (exOps.take 7)) 0 = some p := hp
    rw [e] at hp'
    cases hp'
    have hx : (runOps exWorld (exOps.take 7)).insts 0 =
        some ⟨exDbCols, .table, 1, false, some fun _ => .int, 2, 3, 0, 1⟩ := rfl
    have hu : (runOps exWorld (exOps.take 7)).users 1 = some [0] := by decide +kernel
    exact ⟨by decide, by decide, by decide, idSafe_sole ((Reg.ofCsv _ _ _).runOps _) hx hu⟩
  · exact fun h => absurd (Option.some.inj h) (by decide)
  · intro p hp
    have e : (plainOf (runOps exWorld (exOps.take 10)) 0).map (·.cols) = some (exDbCols ++ ["uid", "iid"]) := by
      decide +kernel
    have hp' : plainOf (runOps exWorld (exOps.take 10)) 0 = some p := hp
    rw [hp'] at e
    exact Or.inl ⟨exDbCols, Option.some.inj e, by decide, by decide⟩

/-- The hypotheses of the theorems hold for it, and the reduction is not visible in what it shows. -/
example : (tableCols ⊆ exDbNames ∧ "uid" ∈ exDbNames ∧ "iid" ∈ exDbNames) ∧ exDbCols ⊆ exDbNames ∧ "rid" ∈ exDbCols ∧
    ([exDbRow 0 1 10 5, exDbRow 1 1 20 3, exDbRow 2 2 10 4].Pairwise fun a b => a.rid < b.rid) ∧
    AdmissibleAll exDbNames exWorld exOps :=
  ⟨by decide, by decide, by decide, by decide, exOps_admissible⟩

example : (runOps exWorld (exOps.take 5)).users 0 = some [1, 0] ∧
    (runOps exWorld (exOps.take 6)).users 0 = some [1] ∧
    plainOf (runOps exWorld (exOps.take 5)) 0 = plainOf (runOps exWorld (exOps.take 6)) 0 := by
  decide +kernel

example : (plainOf (runOps exWorld (exOps.take 8)) 0).map (·.recs) = some [
    [("user", .num 1), ("item", .num 10), ("interaction", .num 5), ("rid", .num 0), ("uid", .num 0),
      ("iid", .num 0)],
    [("user", .num 2), ("item", .num 10), ("interaction", .num 4), ("rid", .num 2), ("uid", .num 1),
      ("iid", .num 0)]] := by
  decide +kernel

/-- `C18_returns_partial` applies to the next read. -/
example : ∃ p, plainOf (runOps exWorld exOps) 0 = some p ∧ Works p (.read 0 (.max "interaction")) :=
  ⟨⟨exDbCols, [[("user", .num 1), ("item", .num 10), ("interaction", .num 5), ("rid", .num 0)],
    [("user", .num 2), ("item", .num 10), ("interaction", .num 4), ("rid", .num 2)]], false⟩,
    by decide +kernel, ⟨by decide, by decide⟩, by decide⟩

/-- A column with numbers and texts: `item != 'a'` keeps the number, and the query is admissible. -/
example :
    let w := World.ofCsv exDbCols (fun c => if c = "item" then .obj else .int)
      [⟨0, fun c => if c = "item" then .num 7 else .num 1⟩, ⟨1, fun c => if c = "item" then .str "a" else .num 1⟩]
    let q : List (List Char × SCond × List Char) := [([], ⟨"item", .ne, .str "a"⟩, [])]
    Admissible exDbNames w (.select 0 q true) ∧
      (plainOf (runOp w (.select 0 q true)).1 1).map (fun p => p.recs.map (cellOf · "item")) = some [.num 7] := by
  refine ⟨?_, by decide +kernel⟩
  intro p x hp hx
  have hp' : p = ⟨exDbCols, [[("user", .num 1), ("item", .num 7), ("interaction", .num 1), ("rid", .num 0)],
      [("user", .num 1), ("item", .str "a"), ("interaction", .num 1), ("rid", .num 1)]], false⟩ := by
    apply Option.some.inj
    rw [← hp]
    decide +kernel
  subst hp'
  simp only [World.ofCsv, if_true, Option.some.injEq] at hx
  subst hx
  refine ⟨⟨by simp, ?_⟩, ?_⟩
  · intro c hc
    simp only [List.mem_singleton] at hc
    subst hc
    refine ⟨by simp [Blank], by simp [Blank], (by decide : NameOk "item"), ?_⟩
    simp only [SLit.Writable]
    decide
  · intro c hc
    simp only [List.mem_singleton] at hc
    subst hc
    refine ⟨?_, ?_, ?_⟩
    · simp only [NoColumn]; decide +kernel
    · intro ty hty
      cases hty
      simp [FitsType]
    · decide +kernel

/-! ## Where the full claim fails -/

/-- A hidden reduction that raises: `unique("user")` can be read three times, the fourth read fails, because the
reduction needs a table with all the usual columns. -/
theorem C18_hidden_raise :
    let w := runOps exWorld [.unique 0 (some ["user"]) true]
    let r : DbOp := .read 1 (.values none)
    (runOp w r).2.toOption = some 1 ∧ (runOp (runOps w [r, r]) r).2.toOption = some 1 ∧
      (runOp (runOps w [r, r, r]) r).2 = .error .assertion := by
  refine ⟨by decide +kernel, by decide +kernel, rfl⟩

/-- Removing the internal ids shifts the columns when the id columns are not the last ones: users turn into
internal ids. -/
theorem C18_remove_ids_shifts :
    let w := runOps exWorld [.assign 0, .unique 0 (some ["uid", "iid", "user", "item", "interaction", "rid"]) false]
    (runOp w (.removeIds 0)).2.toOption = some 0 ∧
      (plainOf w 0).map (fun p => p.recs.map (cellOf · "user")) = some [.num 1, .num 1, .num 2] ∧
      (plainOf (runOp w (.removeIds 0)).1 0).map (fun p => p.recs.map (cellOf · "user")) =
        some [.num 0, .num 0, .num 1] := by
  refine ⟨by decide +kernel, by decide +kernel, by decide +kernel⟩

/-- `unique([])` in place raises and leaves the dataset with the record ids only. -/
theorem C18_unique_empty_breaks :
    (runOp exWorld (.unique 0 (some []) false)).2.toOption = none ∧
      (plainOf exWorld 0).map (·.cols) = some exDbCols ∧
      (plainOf (runOp exWorld (.unique 0 (some []) false)).1 0).map (·.cols) = some ["rid"] := by
  refine ⟨by decide +kernel, by decide +kernel, by decide +kernel⟩

end DRec
