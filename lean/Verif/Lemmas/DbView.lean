import Verif.Lemmas.DbReg
import Verif.Spec.Db

/-! # What a database dataset shows -/

namespace DRec

open Spec

theorem evalSrc_sub {t : Table} {s : Src} {c : List String} {rows : List Row}
    (h : evalSrc t s = .ok (c, rows)) : rows.Sublist t.rows ∧ c ⊆ t.cols := by
  induction s generalizing c rows with
  | table =>
    simp only [evalSrc, Except.ok.injEq, Prod.mk.injEq] at h
    obtain ⟨rfl, rfl⟩ := h
    exact ⟨List.Sublist.refl _, fun _ h => h⟩
  | sub cols src conds ih =>
    simp only [evalSrc] at h
    cases hs : evalSrc t src with
    | error e => rw [hs] at h; cases h
    | ok p =>
      obtain ⟨sc, rs⟩ := p
      rw [hs] at h
      simp only at h
      split at h
      · rename_i hc
        simp only [Except.ok.injEq, Prod.mk.injEq] at h
        obtain ⟨rfl, rfl⟩ := h
        obtain ⟨h1, h2⟩ := ih hs
        refine ⟨List.filter_sublist.trans h1, fun a ha => ?_⟩
        have := List.all_eq_true.1 hc.2.1 a ha
        exact h2 (by simpa using this)
      · cases h

/-- A statement over a source that can be evaluated. -/
theorem evalSrc_mk {t : Table} {s : Src} {sc : List String} {rows : List Row}
    (h : evalSrc t s = .ok (sc, rows)) {cols : List String} {conds : List SqlCond} (hne : cols ≠ [])
    (hsub : cols ⊆ sc) (hv : ∀ c ∈ conds, c.valid sc = true) :
    evalSrc t (.sub cols s conds) =
      .ok (cols, rows.filter fun r => conds.all (SqlCond.holds sc rows r)) := by
  simp only [evalSrc, h]
  rw [if_pos]
  refine ⟨hne, ?_, List.all_eq_true.2 hv⟩
  rw [List.all_eq_true]
  intro a ha
  simpa using hsub ha

/-- What an object shows: `rows` are the rows of its state, its columns can be read off them by position. -/
structure Shows (t : Table) (x : Inst) (rows : List Row) : Prop where
  rid : "rid" ∈ x.columns
  types : x.types.isSome = true
  ev : ∃ sc, evalSrc t x.state = .ok (sc, rows) ∧ x.columns ⊆ sc ∧ (x.state = .table ∨ x.columns <+: sc)
  len : x.nRows = rows.length

theorem Shows.ne {t : Table} {x : Inst} {rows : List Row} (h : Shows t x rows) : x.columns ≠ [] :=
  List.ne_nil_of_mem h.rid

theorem Shows.sub {t : Table} {x : Inst} {rows : List Row} (h : Shows t x rows) : rows.Sublist t.rows := by
  obtain ⟨sc, h1, _, _⟩ := h.ev
  exact (evalSrc_sub h1).1

theorem Shows.cols {t : Table} {x : Inst} {rows : List Row} (h : Shows t x rows) : x.columns ⊆ t.cols := by
  obtain ⟨sc, h1, h2, _⟩ := h.ev
  exact fun _ ha => (evalSrc_sub h1).2 (h2 ha)

theorem query_table {x : Inst} (h : x.state = .table) : x.query = .sub x.columns .table [] := by
  simp [Inst.query, h]

theorem query_state {x : Inst} (h : x.state ≠ .table) : x.query = x.state := by
  unfold Inst.query
  split
  · rename_i he; exact absurd he h
  · rfl

theorem Shows.query {t : Table} {x : Inst} {rows : List Row} (h : Shows t x rows) :
    ∃ qc, evalSrc t x.query = .ok (qc, rows) ∧ x.columns <+: qc := by
  obtain ⟨sc, h1, h2, h3⟩ := h.ev
  by_cases hs : x.state = .table
  · rw [query_table hs]
    rw [hs] at h1
    refine ⟨x.columns, ?_, List.prefix_refl _⟩
    rw [evalSrc_mk h1 h.ne h2 (by simp)]
    simp
  · rw [query_state hs]
    exact ⟨sc, h1, h3.resolve_left hs⟩

theorem zip_map_self (cs : List String) (rest : List Val) (r : Row) :
    cs.zip (cs.map r.get ++ rest) = r.toRec cs := by
  induction cs with
  | nil => rfl
  | cons c cs ih =>
    simp only [Row.toRec] at ih
    simp only [List.map_cons, List.cons_append, List.zip_cons_cons, Row.toRec, ih]

theorem decode_eq {x : Inst} {qc : List String} (h : x.columns <+: qc) (r : Row) :
    x.decode qc r = r.toRec x.columns := by
  obtain ⟨rest, rfl⟩ := h
  unfold Inst.decode
  rw [List.map_append, zip_map_self]

theorem view_eq {w : World} {i : Nat} {x : Inst} {t : Table} {rows : List Row} (hx : w.insts i = some x)
    (ht : w.tables x.table = some t) (h : Shows t x rows) :
    w.view i = .ok (rows.map (Row.toRec x.columns)) := by
  obtain ⟨qc, h1, h2⟩ := h.query
  simp only [World.view, hx, ht, h1, Except.map]
  congr 1
  exact List.map_congr_left fun r _ => decode_eq h2 r

theorem plainOf_eq {w : World} {i : Nat} {x : Inst} {t : Table} {rows : List Row} (hx : w.insts i = some x)
    (ht : w.tables x.table = some t) (h : Shows t x rows) :
    plainOf w i = some ⟨x.columns, rows.map (Row.toRec x.columns), x.hasIds⟩ := by
  simp only [plainOf, hx, view_eq hx ht h]

theorem plainOf_none {w : World} {i : Nat} (hx : w.insts i = none) : plainOf w i = none := by
  simp [plainOf, hx]

theorem plainOf_congr {w w' : World} {i : Nat} (hx : w'.insts i = w.insts i)
    (ht : ∀ x, w.insts i = some x → w'.tables x.table = w.tables x.table) : plainOf w' i = plainOf w i := by
  unfold plainOf World.view
  rw [hx]
  cases h : w.insts i with
  | none => rfl
  | some x => simp only [ht x h]

/-! ## Good worlds -/

/-- Tables: rows in the order of their ids, known columns only. -/
structure TableOk (names : List String) (t : Table) : Prop where
  sorted : t.rows.Pairwise fun a b => a.rid < b.rid
  names : t.cols ⊆ names
  ids : "uid" ∈ t.cols ∧ "iid" ∈ t.cols

/-- All objects but (possibly) one show something. -/
structure GoodBut (names : List String) (i : Option Nat) (w : World) : Prop where
  reg : Reg w
  gens : w.gens = 0
  tables : ∀ n t, w.tables n = some t → TableOk names t
  insts : ∀ k x, some k ≠ i → w.insts k = some x → ∃ t rows, w.tables x.table = some t ∧ Shows t x rows

/-- All objects show something. -/
abbrev Good (names : List String) (w : World) : Prop := GoodBut names none w

theorem Good.but {names : List String} {w : World} (h : Good names w) (i : Nat) : GoodBut names (some i) w :=
  ⟨h.reg, h.gens, h.tables, fun k x _ hx => h.insts k x (by simp) hx⟩

theorem Good.get {names : List String} {w : World} (h : Good names w) {k : Nat} {x : Inst}
    (hx : w.insts k = some x) : ∃ t rows, w.tables x.table = some t ∧ Shows t x rows :=
  h.insts k x (by simp) hx

/-- Writing back an object that stays on its table and shows something. -/
theorem GoodBut.put {names : List String} {w : World} {i : Nat} (h : GoodBut names (some i) w) {x y : Inst}
    {t : Table} {rows : List Row} (hx : w.insts i = some x) (hy : y.table = x.table)
    (ht : w.tables x.table = some t) (hs : Shows t y rows) :
    Good names (w.put i y) ∧
      plainOf (w.put i y) = setAt (plainOf w) i (some ⟨y.columns, rows.map (Row.toRec y.columns), y.hasIds⟩) := by
  constructor
  · refine ⟨h.reg.put hx hy, h.gens, h.tables, fun k z _ hk => ?_⟩
    by_cases hki : k = i
    · subst hki
      rw [put_self] at hk; cases hk
      exact ⟨t, rows, by rw [hy]; exact ht, hs⟩
    · rw [put_ne _ _ hki] at hk
      exact h.insts k z (by simpa using hki) hk
  · funext k
    by_cases hki : k = i
    · subst hki
      rw [plainOf_eq (put_self _ _ _) (by rw [hy]; exact ht) hs]
      simp [setAt]
    · rw [plainOf_congr (w := w) (put_ne _ _ hki) (fun _ _ => rfl)]
      simp [setAt, hki]

theorem setAt_self (P : Nat → Option Plain) (i : Nat) (p : Option Plain) (h : P i = p) : setAt P i p = P := by
  funext k
  by_cases hk : k = i
  · subst hk; simp [setAt, h]
  · simp [setAt, hk]

theorem setAt_setAt (P : Nat → Option Plain) (i : Nat) (p q : Option Plain) :
    setAt (setAt P i p) i q = setAt P i q := by
  funext k
  by_cases hk : k = i <;> simp [setAt, hk]

/-- Changing counters only. -/
theorem Good.counters {names : List String} {w : World} (h : Good names w) {i : Nat} {x y : Inst}
    (hx : w.insts i = some x) (hc : y.columns = x.columns) (hs : y.state = x.state) (ht : y.table = x.table)
    (hh : y.hasIds = x.hasIds) (hty : y.types.isSome = true) (hn : y.nRows = x.nRows) :
    Good names (w.put i y) ∧ plainOf (w.put i y) = plainOf w := by
  obtain ⟨t, rows, h1, h2⟩ := h.get hx
  have hy : Shows t y rows := ⟨hc ▸ h2.rid, hty, by rw [hs, hc]; exact h2.ev, hn.trans h2.len⟩
  obtain ⟨g1, g2⟩ := (h.but i).put hx ht h1 hy
  refine ⟨g1, g2.trans (setAt_self _ _ _ ?_)⟩
  rw [plainOf_eq hx h1 h2, hc, hh]

end DRec
