import Verif.Props.DbHistory
import Verif.Props.MemOps

/-!
# C20: `apply` in the database dataset is all or nothing and agrees with the in-memory one

Proved: functions that return values of one type on all records (`C20_result_partial`, `C20_same_as_memory_partial`),
functions that fail on the first record, and functions that fail on any record when the type of the column
changes (`C20_failure_partial`).  Missing from the full claim: a function that fails on a later record without
changing the type of the column.  There it is false: `C20_not_atomic`.  `C20_mixed_types` shows that values of
mixed types are not stored as they are.
-/

namespace DRec

open Spec

/-- After any admissible history: a function returning values of one type on all records either is applied to
every record of this dataset, or the call raises; nothing else changes. -/
theorem C20_result_partial (names cols : List String) (types : String → DType) (rows : List Row) (ops : List DbOp)
    (hn : tableCols ⊆ names ∧ "uid" ∈ names ∧ "iid" ∈ names) (hcols : cols ⊆ names) (hrid : "rid" ∈ cols)
    (hsort : rows.Pairwise fun a b => a.rid < b.rid)
    (ha : AdmissibleAll names (World.ofCsv cols types rows) ops) (i : Nat) (p : Plain)
    (hp : plainOf (runOps (World.ofCsv cols types rows) ops) i = some p) (c : String) (f : Val → Option Lit)
    (d : DType) (hf : ∀ r ∈ p.recs, ∃ l, f (cellOf r c) = some l ∧ l.dtype = some d) :
    let w := runOps (World.ofCsv cols types rows) ops
    ((w.apply i c f).2 = none → plainOf (w.apply i c f).1 =
      setAt (plainOf w) i (some (p.apply c fun v => ((f v).map Lit.toVal).getD v))) ∧
    ((w.apply i c f).2 ≠ none → plainOf (w.apply i c f).1 = plainOf w) ∧
    (FullCols p.cols → c ∈ p.cols → c ∉ ["rid", "uid", "iid", "user", "item"] → p.recs ≠ [] →
      (w.apply i c f).2 = none) := by
  obtain ⟨g1, _⟩ := ofCsv_good hn types rows hcols hrid hsort
  obtain ⟨h1, _⟩ := history_good hn g1 ops [] (by simpa using ha)
  exact (apply_good hn h1 hp hf).2

/-- The same function on an in-memory dataset with the same records gives the same records. -/
theorem C20_same_as_memory_partial (names cols : List String) (types : String → DType) (rows : List Row)
    (ops : List DbOp)
    (hn : tableCols ⊆ names ∧ "uid" ∈ names ∧ "iid" ∈ names) (hcols : cols ⊆ names) (hrid : "rid" ∈ cols)
    (hsort : rows.Pairwise fun a b => a.rid < b.rid)
    (ha : AdmissibleAll names (World.ofCsv cols types rows) ops) (i : Nat) (p : Plain)
    (hp : plainOf (runOps (World.ofCsv cols types rows) ops) i = some p) (c : String) (f : Val → Option Lit)
    (d : DType) (hf : ∀ r ∈ p.recs, ∃ l, f (cellOf r c) = some l ∧ l.dtype = some d)
    (hfull : FullCols p.cols) (hc : c ∈ p.cols) (hid : c ∉ ["rid", "uid", "iid", "user", "item"])
    (hne : p.recs ≠ []) (ds : Mem) (hmc : ds.cols = p.cols) (hmr : ds.rows.map (Row.toRec ds.cols) = p.recs)
    (hcache : ds.cache = none) :
    let w := runOps (World.ofCsv cols types rows) ops
    (w.apply i c f).2 = none ∧ (ds.apply c fun v => (f v).map Lit.toVal).2 = none ∧
      ∃ q, plainOf (w.apply i c f).1 i = some q ∧
        q.recs = (ds.apply c fun v => (f v).map Lit.toVal).1.rows.map (Row.toRec ds.cols) := by
  intro w
  obtain ⟨r1, _, r3⟩ := C20_result_partial names cols types rows ops hn hcols hrid hsort ha i p hp c f d hf
  have hok := r3 hfull hc hid hne
  have hf' : ∀ r ∈ ds.rows, ∃ l, f (r.get c) = some l ∧ l.dtype = some d := by
    intro r hr
    have := hf (r.toRec ds.cols) (by rw [← hmr]; exact List.mem_map_of_mem hr)
    rwa [cellOf_toRec _ _ _ (by rw [hmc]; exact hc)] at this
  obtain ⟨m, hm, hmcols, hmrid, hmget, hmoth, _⟩ := C14_returns ds c (fun v => (f v).map Lit.toVal)
    (fun v => ((f v).map Lit.toVal).getD v) (by rw [hmc]; exact hc) hid
    (by rintro h; rw [h] at hmr; exact hne hmr.symm)
    (by
      intro r hr
      obtain ⟨l, hl, hd⟩ := hf' r hr
      rw [hl]
      refine ⟨rfl, ?_⟩
      cases l <;> simp_all [Lit.toVal, Lit.dtype]) hcache
  refine ⟨hok, by rw [hm], _, by rw [r1 hok]; simp [setAt]; rfl, ?_⟩
  rw [hm]
  have hmap : m.rows.map (Row.toRec ds.cols) =
      ds.rows.map fun r => ds.cols.map fun e => (e, if e = c then ((f (r.get e)).map Lit.toVal).getD (r.get e)
        else r.get e) := by
    have hl : m.rows.length = ds.rows.length := by simpa using congrArg List.length hmrid
    apply List.ext_getElem (by simp [hl])
    intro k h1 h2
    simp only [List.length_map] at h1 h2
    simp only [List.getElem_map, Row.toRec]
    apply List.map_congr_left
    intro e he
    congr 1
    by_cases hec : e = c
    · subst hec
      rw [if_pos rfl]
      have := List.getElem_of_eq hmget (i := k) (by simpa using h1)
      simpa using this
    · rw [if_neg hec]
      have := List.getElem_of_eq (hmoth e hec) (i := k) (by simpa using h1)
      simpa using this
  rw [hmap]
  unfold Plain.apply
  simp only [← hmr, List.map_map]
  apply List.map_congr_left
  intro r _
  simp only [Function.comp, Row.toRec, List.map_map]
  rfl

/-- After any admissible history: a function that fails on the first record, or on any record while the first
result has another type than the column, leaves all datasets as they are and the call raises. -/
theorem C20_failure_partial (names cols : List String) (types : String → DType) (rows : List Row) (ops : List DbOp)
    (hn : tableCols ⊆ names ∧ "uid" ∈ names ∧ "iid" ∈ names) (hcols : cols ⊆ names) (hrid : "rid" ∈ cols)
    (hsort : rows.Pairwise fun a b => a.rid < b.rid)
    (ha : AdmissibleAll names (World.ofCsv cols types rows) ops) (i : Nat) (p : Plain) (x : Inst)
    (hp : plainOf (runOps (World.ofCsv cols types rows) ops) i = some p)
    (hx : (runOps (World.ofCsv cols types rows) ops).insts i = some x) (c : String) (f : Val → Option Lit)
    (hf : ∃ r ∈ p.recs, f (cellOf r c) = none)
    (hd : ∀ r0 l, p.recs.head? = some r0 → f (cellOf r0 c) = some l → ∀ ty, x.types = some ty →
      l.dtype ≠ some (ty c)) :
    let w := runOps (World.ofCsv cols types rows) ops
    (w.apply i c f).2 ≠ none ∧ plainOf (w.apply i c f).1 = plainOf w := by
  obtain ⟨g1, _⟩ := ofCsv_good hn types rows hcols hrid hsort
  obtain ⟨h1, _⟩ := history_good hn g1 ops [] (by simpa using ha)
  obtain ⟨a, _, b⟩ := apply_fails_good hn h1 hp hx hf hd
  exact ⟨a, b⟩

/-! ## Concrete cases -/

/-- Double the interactions. -/
def exDouble : Val → Option Lit
  | .num q => some (.int (2 * q.num))
  | _ => none

/-- Names for small interactions, failing above 4. -/
def exName : Val → Option Lit
  | .num q => if q ≤ 4 then some (.str "small") else none
  | _ => none

/-- Double the interactions above 3; fail on the others. -/
def exDoubleBig : Val → Option Lit
  | .num q => if 3 < q then some (.int (2 * q.num)) else none
  | _ => none

/-- The hypotheses of `C20_result_partial` hold on the example, and of `C20_same_as_memory_partial`. -/
example : ∃ p, plainOf (runOps exWorld exOps) 0 = some p ∧
    (∀ r ∈ p.recs, ∃ l, exDouble (cellOf r "interaction") = some l ∧ l.dtype = some .int) ∧
    FullCols p.cols ∧ "interaction" ∈ p.cols ∧ p.recs ≠ [] :=
  ⟨⟨exDbCols, [[("user", .num 1), ("item", .num 10), ("interaction", .num 5), ("rid", .num 0)],
    [("user", .num 2), ("item", .num 10), ("interaction", .num 4), ("rid", .num 2)]], false⟩,
    by decide +kernel, by
      intro r hr
      simp only [List.mem_cons, List.not_mem_nil, or_false] at hr
      rcases hr with rfl | rfl
      · exact ⟨.int 10, by decide +kernel, rfl⟩
      · exact ⟨.int 8, by decide +kernel, rfl⟩, ⟨by decide, by decide⟩, by decide, by decide⟩

example : (runOps exWorld exOps).apply 0 "interaction" exDouble |>.2.isNone ∧
    (plainOf ((runOps exWorld exOps).apply 0 "interaction" exDouble).1 0).map
      (fun p => p.recs.map (cellOf · "interaction")) = some [.num 10, .num 8] := by
  decide +kernel

/-- The hypotheses of `C20_failure_partial` hold: the type changes and the last record fails. -/
example : ∃ p x, plainOf (runOps exWorld [.drop 0 [0] false false]) 0 = some p ∧
    (runOps exWorld [.drop 0 [0] false false]).insts 0 = some x ∧
    (∃ r ∈ p.recs, (fun v => if v = .num 4 then none else exName v) (cellOf r "interaction") = none) ∧
    ∀ r0 l, p.recs.head? = some r0 → (fun v => if v = .num 4 then none else exName v) (cellOf r0 "interaction") =
      some l → ∀ ty, x.types = some ty → l.dtype ≠ some (ty "interaction") := by
  refine ⟨⟨exDbCols, [[("user", .num 1), ("item", .num 20), ("interaction", .num 3), ("rid", .num 1)],
    [("user", .num 2), ("item", .num 10), ("interaction", .num 4), ("rid", .num 2)]], false⟩, _, by decide +kernel,
    rfl, ⟨_, by simp; exact Or.inr rfl, by decide +kernel⟩, ?_⟩
  intro r0 l h0 hl ty hty
  cases h0
  cases hty
  have : some l = some (.str "small") := by rw [← hl]; decide +kernel
  cases this
  decide

/-! ## Where the full claim fails -/

/-- A function that fails on the second record, without changing the type: the call raises, and the first
record is changed. -/
theorem C20_not_atomic :
    (exWorld.apply 0 "interaction" exDoubleBig).2 = some .applyFailed ∧
      (plainOf exWorld 0).map (fun p => p.recs.map (cellOf · "interaction")) = some [.num 5, .num 3, .num 4] ∧
      (plainOf (exWorld.apply 0 "interaction" exDoubleBig).1 0).map (fun p => p.recs.map (cellOf · "interaction")) =
        some [.num 10, .num 3, .num 4] := by
  refine ⟨by decide +kernel, by decide +kernel, by decide +kernel⟩

/-- Texts on the first record and numbers on later ones: the numbers are stored as texts, in memory they stay
numbers. -/
theorem C20_mixed_types :
    let f : Val → Option Lit := fun v => if v = .num 5 then some (.str "five") else some (.int 7)
    let ds : Mem := ⟨exDbCols, fun _ => .int, [exDbRow 0 1 10 5, exDbRow 1 1 20 3, exDbRow 2 2 10 4], false, [], [],
      none, none⟩
    (plainOf (exWorld.apply 0 "interaction" f).1 0).map (fun p => p.recs.map (cellOf · "interaction")) =
        some [.str "five", .str "7", .str "7"] ∧
      (ds.apply "interaction" fun v => (f v).map Lit.toVal).1.rows.map (·.get "interaction") =
        [.str "five", .num 7, .num 7] := by
  refine ⟨by decide +kernel, by decide +kernel⟩

end DRec
