import Verif.Lemmas.Both
import Verif.Props.DbHistory

/-!
# C25: both backends give the same answers

`C25_same_partial` and `C25_returns_partial` hold for every history of operations that both backends support
(`Spec.Shared`).  Missing from the full claim: the full claim has no such condition, and lets no backend raise
where the other does not.  It is false: `C25_text_names_column`, `C25_missing_value`, `C25_double_quote`, `C25_no_types` and
`C25_hidden_raise` are histories on which the two differ.
-/

namespace DRec

open Spec

/-- The two histories stay together. -/
theorem both_history {names : List String} (hn : NamesOk names) (ops : List BothOp) {m : Mem} {w : World} {i k : Nat}
    (hm : MemOk m) (hg : Good names w) (hp : plainOf w i = some (memPlain m)) (hs : SharedAll names m w i ops)
    (hk : (runDb w i ops).2 = .ok k) :
    ∃ m', runMem m ops = .ok m' ∧ plainOf (runDb w i ops).1 k = some (memPlain m') := by
  induction ops generalizing m w i with
  | nil =>
    simp only [runDb, Except.ok.injEq] at hk
    subst hk
    exact ⟨m, rfl, hp⟩
  | cons op ops ih =>
    obtain ⟨h1, h2⟩ := hs
    simp only [runDb] at hk ⊢
    split at hk
    · rename_i w' k' heq
      have hw : (runOp w (op.onDb i)).1 = w' := by rw [heq]
      have hok : (runOp w (op.onDb i)).2 = .ok k' := by rw [heq]
      obtain ⟨m', e1, e2, e3, e4⟩ := both_step hn hm hg hp h1 hok
      have := ih e2 e3 e4 (h2 m' k' e1 hok) (by rw [hw]; exact hk)
      rw [hw] at this
      simpa only [runMem, e1] using this
    · cases hk

/-- The database never raises on a history of supported operations with all the columns tables need. -/
theorem both_returns {names : List String} (hn : NamesOk names) (ops : List BothOp) {m : Mem} {w : World} {i : Nat}
    (hm : MemOk m) (hg : Good names w) (hp : plainOf w i = some (memPlain m)) (hs : SharedAll names m w i ops)
    (hw : WorksAll m ops) : ∃ k, (runDb w i ops).2 = .ok k := by
  induction ops generalizing m w i with
  | nil => exact ⟨i, rfl⟩
  | cons op ops ih =>
    obtain ⟨h1, h2⟩ := hs
    have hi : (op.onDb i).inst = i := by cases op <;> rfl
    obtain ⟨k', hok⟩ := works_good hn hg (op := op.onDb i) (by rw [hi]; exact hp) h1.1 (works_inst _ _ _ _ hw.1)
    obtain ⟨m', e1, e2, e3, e4⟩ := both_step hn hm hg hp h1 hok
    obtain ⟨k, hk⟩ := ih e2 e3 e4 (h2 m' k' e1 hok) (hw.2 m' e1)
    refine ⟨k, ?_⟩
    have heq : runOp w (op.onDb i) = ((runOp w (op.onDb i)).1, .ok k') := by rw [← hok]
    simp only [runDb]
    rw [heq]
    exact hk

/-- From the same import on, a history of supported operations that returns on the database returns in memory,
and both show the same columns and the same records. -/
theorem C25_same_partial (names cols : List String) (types : String → DType) (rows : List Row) (m : Mem)
    (ops : List BothOp)
    (hn : tableCols ⊆ names ∧ "uid" ∈ names ∧ "iid" ∈ names) (hcols : cols ⊆ names) (hrid : "rid" ∈ cols)
    (hsort : rows.Pairwise fun a b => a.rid < b.rid)
    (hmc : m.cols = cols) (hmr : m.rows = rows) (hmi : m.hasIds = false) (hmx : m.cache = none)
    (hs : SharedAll names m (World.ofCsv cols types rows) 0 ops) (k : Nat)
    (hk : (runDb (World.ofCsv cols types rows) 0 ops).2 = .ok k) :
    ∃ m', runMem m ops = .ok m' ∧
      plainOf (runDb (World.ofCsv cols types rows) 0 ops).1 k =
        some ⟨m'.cols, m'.rows.map (Row.toRec m'.cols), m'.hasIds⟩ := by
  obtain ⟨g1, g2⟩ := ofCsv_good hn types rows hcols hrid hsort
  exact both_history hn ops ⟨hmc ▸ hrid, hmr ▸ hsort, hmx⟩ g1
    (by rw [g2]; simp [memPlain, hmc, hmr, hmi]) hs hk

/-- When every dataset of the history has the columns that tables need, both return. -/
theorem C25_returns_partial (names cols : List String) (types : String → DType) (rows : List Row) (m : Mem)
    (ops : List BothOp)
    (hn : tableCols ⊆ names ∧ "uid" ∈ names ∧ "iid" ∈ names) (hcols : cols ⊆ names) (hrid : "rid" ∈ cols)
    (hsort : rows.Pairwise fun a b => a.rid < b.rid)
    (hmc : m.cols = cols) (hmr : m.rows = rows) (hmi : m.hasIds = false) (hmx : m.cache = none)
    (hs : SharedAll names m (World.ofCsv cols types rows) 0 ops) (hw : WorksAll m ops) :
    (∃ k, (runDb (World.ofCsv cols types rows) 0 ops).2 = .ok k) ∧ ∃ m', runMem m ops = .ok m' := by
  obtain ⟨g1, g2⟩ := ofCsv_good hn types rows hcols hrid hsort
  have hp : plainOf (World.ofCsv cols types rows) 0 = some (memPlain m) := by
    rw [g2]; simp [memPlain, hmc, hmr, hmi]
  have hm : MemOk m := ⟨hmc ▸ hrid, hmr ▸ hsort, hmx⟩
  obtain ⟨k, hk⟩ := both_returns hn ops hm g1 hp hs hw
  obtain ⟨m', h1, _⟩ := both_history hn ops hm g1 hp hs hk
  exact ⟨⟨k, hk⟩, m', h1⟩

/-! ## A concrete history -/

/-- The records of `exWorld` in memory. -/
def exBothMem : Mem :=
  ⟨exDbCols, fun _ => .int, [exDbRow 0 1 10 5, exDbRow 1 1 20 3, exDbRow 2 2 10 4], false, [], [], none, none⟩

/-- Add one to a value. -/
def exInc : Val → Option Lit
  | .num q => some (.int (q.num + 1))
  | _ => none

/-- Select into a new dataset, read it, drop a record id that is not there, change the values. -/
def exBothOps : List BothOp :=
  [.select exDbQuery true, .read (.values none), .drop [7] false false, .apply "interaction" exInc]

theorem exBoth_shared : SharedAll exDbNames exBothMem exWorld 0 exBothOps := by
  refine ⟨⟨?_, by decide⟩, ?_⟩
  · intro p x hp hx
    have e : plainOf exWorld 0 = some ⟨exDbCols, [
        [("user", .num 1), ("item", .num 10), ("interaction", .num 5), ("rid", .num 0)],
        [("user", .num 1), ("item", .num 20), ("interaction", .num 3), ("rid", .num 1)],
        [("user", .num 2), ("item", .num 10), ("interaction", .num 4), ("rid", .num 2)]], false⟩ := by
      decide +kernel
    rw [e] at hp
    cases hp
    refine ⟨by decide, ?_⟩
    intro c hc
    simp only [exDbQuery, List.mem_singleton] at hc
    subst hc
    refine ⟨trivial, ?_, by decide⟩
    intro ty hty
    have ex : exWorld.insts 0 = some ⟨exDbCols, .table, 0, false, some fun _ => .int, 3, 3, 0, 0⟩ := rfl
    rw [ex] at hx
    cases hx
    cases hty
    decide
  · intro m1 k1 hm1 hk1
    have e1 : (runOp exWorld ((BothOp.select exDbQuery true).onDb 0)).2 = .ok 1 := rfl
    rw [e1] at hk1
    cases hk1
    refine ⟨⟨trivial, trivial⟩, ?_⟩
    intro m2 k2 hm2 hk2
    have e2 : (runOp (runOp exWorld ((BothOp.select exDbQuery true).onDb 0)).1
      ((BothOp.read (.values none)).onDb 1)).2 = .ok 1 := rfl
    rw [e2] at hk2
    cases hk2
    refine ⟨⟨trivial, trivial⟩, ?_⟩
    intro m3 k3 hm3 hk3
    have e3 : (runOp (runOp (runOp exWorld ((BothOp.select exDbQuery true).onDb 0)).1
      ((BothOp.read (.values none)).onDb 1)).1 ((BothOp.drop [7] false false).onDb 1)).2 = .ok 1 := rfl
    rw [e3] at hk3
    cases hk3
    refine ⟨⟨⟨.int, ?_⟩, trivial⟩, fun _ _ _ _ => trivial⟩
    intro p hp r hr
    have e4 : plainOf (runOp (runOp (runOp exWorld ((BothOp.select exDbQuery true).onDb 0)).1
      ((BothOp.read (.values none)).onDb 1)).1 ((BothOp.drop [7] false false).onDb 1)).1 1 = some ⟨exDbCols, [
        [("user", .num 1), ("item", .num 10), ("interaction", .num 5), ("rid", .num 0)],
        [("user", .num 2), ("item", .num 10), ("interaction", .num 4), ("rid", .num 2)]], false⟩ := by
      decide +kernel
    rw [e4] at hp
    cases hp
    simp only [List.mem_cons, List.not_mem_nil, or_false] at hr
    rcases hr with rfl | rfl
    · exact ⟨.int 6, by decide +kernel, rfl⟩
    · exact ⟨.int 5, by decide +kernel, rfl⟩

/-- The hypotheses hold for it. -/
example : (tableCols ⊆ exDbNames ∧ "uid" ∈ exDbNames ∧ "iid" ∈ exDbNames) ∧ exDbCols ⊆ exDbNames ∧ "rid" ∈ exDbCols ∧
    ([exDbRow 0 1 10 5, exDbRow 1 1 20 3, exDbRow 2 2 10 4].Pairwise fun a b => a.rid < b.rid) ∧
    SharedAll exDbNames exBothMem (World.ofCsv exDbCols (fun _ => .int)
      [exDbRow 0 1 10 5, exDbRow 1 1 20 3, exDbRow 2 2 10 4]) 0 exBothOps ∧
    (runDb exWorld 0 exBothOps).2.toOption = some 1 ∧
    (plainOf (runDb exWorld 0 exBothOps).1 1).map (·.recs) = some [
      [("user", .num 1), ("item", .num 10), ("interaction", .num 6), ("rid", .num 0)],
      [("user", .num 2), ("item", .num 10), ("interaction", .num 5), ("rid", .num 2)]] :=
  ⟨by decide, by decide, by decide, by decide, exBoth_shared, by decide +kernel, by decide +kernel⟩

/-- And the columns that tables need are always there. -/
example : WorksAll exBothMem exBothOps := by
  have hf : FullCols exDbCols := ⟨by decide, by decide⟩
  refine ⟨⟨hf, by decide⟩, ?_⟩
  intro m1 h1
  have e1 : (BothOp.select exDbQuery true).onMem exBothMem =
      .ok { exBothMem with rows := [exDbRow 0 1 10 5, exDbRow 2 2 10 4] } := rfl
  rw [e1] at h1
  cases h1
  refine ⟨⟨hf, by decide⟩, ?_⟩
  intro m2 h2
  cases h2
  refine ⟨hf, ?_⟩
  intro m3 h3
  cases h3
  exact ⟨⟨hf, by decide, by decide, by decide⟩, fun _ _ => trivial⟩

/-! ## Where they differ -/

/-- Row with texts. -/
def exTextRow (rid : Nat) (u i : String) (tag : Val) : Row :=
  ⟨rid, fun c => if c = "user" then .str u else if c = "item" then .str i else if c = "interaction" then .num 1
    else if c = "tag" then tag else .null⟩

/-- Types of the text examples. -/
def exTextTypes (c : String) : DType := if c = "interaction" ∨ c = "rid" then .int else .obj

/-- Two records of users and items with text ids; the first has no tag. -/
def exTextRows : List Row := [exTextRow 0 "ann" "ann" .null, exTextRow 1 "bob" "tea" (.str "x")]

/-- Columns of the text examples. -/
def exTextCols : List String := ["user", "item", "interaction", "tag", "rid"]

/-- The text records in memory. -/
def exTextMem : Mem := ⟨exTextCols, exTextTypes, exTextRows, false, [], [], none, none⟩

/-- The text records in a database. -/
def exTextWorld : World := World.ofCsv exTextCols exTextTypes exTextRows

/-- Records (as ids) left by a selection in memory. -/
def memRids (m : Mem) (q : List Char) : Option (List Nat) := (m.select q).toOption.map fun d => d.rows.map (·.rid)

/-- Record ids left by a selection in the database. -/
def dbRids (w : World) (q : List Char) : Option (List Val) :=
  match w.select 0 q true with
  | (w', .ok k) => (plainOf w' k).map fun p => p.recs.map (cellOf · "rid")
  | _ => none

/-- A text that is the name of a column is compared as a column by the database: `user == 'item'` finds nothing
in memory and the record whose user and item are the same in the database. -/
theorem C25_text_names_column :
    memRids exTextMem "user == 'item'".toList = some [] ∧
      dbRids exTextWorld "user == 'item'".toList = some [.num 0] := by
  refine ⟨by decide +kernel, by decide +kernel⟩

/-- A missing value is different from a text in memory, but not in the database. -/
theorem C25_missing_value :
    memRids exTextMem "tag != 'x'".toList = some [0] ∧ dbRids exTextWorld "tag != 'x'".toList = some [] := by
  refine ⟨by decide +kernel, by decide +kernel⟩

/-- A text with a double quote ends the quoting of the SQL statement early: the database raises, memory does not. -/
theorem C25_double_quote :
    memRids exTextMem "user != 'a\"b'".toList = some [0, 1] ∧
      (exTextWorld.select 0 "user != 'a\"b'".toList true).2 = .error .crash := by
  refine ⟨by decide +kernel, rfl⟩

/-- A dataset opened from an existing `.sqlite` file has no column types: selecting raises. -/
theorem C25_no_types :
    memRids exTextMem "user == 'ann'".toList = some [0] ∧
      ((World.ofFile ⟨["rid", "uid", "iid", "user", "item", "interaction", "tag"], exTextRows⟩).select 0
        "user == 'ann'".toList true).2 = .error .typeError := by
  refine ⟨by decide +kernel, rfl⟩

/-- Reading a dataset with few columns four times raises in the database, never in memory. -/
theorem C25_hidden_raise :
    let ops : List BothOp := [.unique ["user"] true, .read (.values none), .read (.values none),
      .read (.values none), .read (.values none)]
    (runMem exBothMem ops).toOption.map (fun m => m.rows.map (·.rid)) = some [0, 2] ∧
      (runDb exWorld 0 ops).2 = .error .assertion := by
  refine ⟨by decide +kernel, rfl⟩

end DRec
