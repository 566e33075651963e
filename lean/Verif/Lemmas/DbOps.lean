import Verif.Lemmas.DbStep
import Verif.Lemmas.MemWritten

/-! # select, drop and unique on the database dataset -/

namespace DRec

open Spec

theorem cellOf_toRec (cs : List String) (r : Row) (c : String) (hc : c ∈ cs) :
    cellOf (r.toRec cs) c = r.get c := by
  unfold cellOf Row.toRec
  induction cs with
  | nil => simp at hc
  | cons a cs ih =>
    simp only [List.map_cons, List.lookup_cons]
    by_cases h : c = a
    · subst h; simp
    · have : (c == a) = false := by simpa using h
      rw [this]
      exact ih (by simpa [h] using hc)

theorem project_toRec (cs ds : List String) (r : Row) (h : ds ⊆ cs) :
    project ds (r.toRec cs) = r.toRec ds := by
  unfold project
  conv_rhs => rw [Row.toRec]
  apply List.map_congr_left
  intro c hc
  rw [cellOf_toRec _ _ _ (h hc)]

/-! ## Queries -/

/-- A condition as SQL. -/
def sqlOf (c : SCond) : SqlCond :=
  .cmp c.col c.op (match c.lit with
    | .str s => .quoted s
    | l => .num (numCell l.value))

theorem sqlRhs_fits {ty : String → DType} {c : SCond} (h : FitsType ty c) :
    (sqlRhs (ty c.col) (litOf c.lit)).map (fun r => SqlCond.cmp c.col c.op r) = .ok (sqlOf c) := by
  unfold FitsType at h
  unfold sqlOf
  cases hd : ty c.col <;> cases hl : c.lit <;> simp only [hd, hl] at h
  · rfl
  · rfl
  · simp [SLit.isStr] at h
  · rfl
  · rfl
  · simp [SLit.isStr] at h
  · simp only [litOf, sqlRhs, if_neg h]; rfl

theorem parseSeg_text {x : Inst} {ty : String → DType} (hty : x.types = some ty) (c : SCond) (a b : List Char)
    (ha : Blank a) (hb : Blank b) (hn : NameOk c.col) (hw : c.lit.Writable) (hf : FitsType ty c) :
    x.parseSeg (a ++ c.text ++ b) = if c.col ∈ x.columns then .ok (sqlOf c) else .error .badColumn := by
  unfold Inst.parseSeg
  rw [parseSegment_text c a b ha hb hn hw]
  simp only [bind, Except.bind, rawOf]
  by_cases hc : c.col ∈ x.columns
  · simp only [hc, if_true, op_ofText, pyEval_text c.lit hw, hty]
    exact sqlRhs_fits hf
  · simp only [hc, if_false]

theorem parse_text {x : Inst} {ty : String → DType} (hty : x.types = some ty)
    (ws : List (List Char × SCond × List Char)) (hw : WellWritten ws) (hf : ∀ w ∈ ws, FitsType ty w.2.1) :
    (∀ w ∈ ws, w.2.1.col ∈ x.columns) ∧ x.parse (queryText ws) = .ok (ws.map fun w => sqlOf w.2.1) ∨
    (¬ ∀ w ∈ ws, w.2.1.col ∈ x.columns) ∧ ∃ e, x.parse (queryText ws) = .error e := by
  have hseg : ∀ w ∈ ws, x.parseSeg (w.1 ++ w.2.1.text ++ w.2.2) =
      if w.2.1.col ∈ x.columns then .ok (sqlOf w.2.1) else .error .badColumn := by
    intro w hw'
    obtain ⟨g1, g2, g3, g4⟩ := hw.2 w hw'
    exact parseSeg_text hty _ _ _ g1 g2 g3 g4 (hf w hw')
  unfold Inst.parse
  rw [pySplit_queryText ws hw]
  by_cases hall : ∀ w ∈ ws, w.2.1.col ∈ x.columns
  · left
    refine ⟨hall, ?_⟩
    rw [mapM_ok_iff, segsOf, List.map_map, List.map_map]
    apply List.map_congr_left
    intro w hw'
    simp only [Function.comp_apply, hseg w hw', hall w hw', if_true]
  · right
    refine ⟨hall, ?_⟩
    cases hp : (segsOf ws).mapM x.parseSeg with
    | error e => exact ⟨e, rfl⟩
    | ok cs =>
      exfalso
      rw [mapM_ok_iff] at hp
      apply hall
      intro w hw'
      by_contra hc
      have hm : x.parseSeg (w.1 ++ w.2.1.text ++ w.2.2) ∈ (segsOf ws).map x.parseSeg :=
        List.mem_map_of_mem (List.mem_map.2 ⟨w, hw', rfl⟩)
      rw [hp, hseg w hw', if_neg hc] at hm
      obtain ⟨_, _, h⟩ := List.mem_map.1 hm
      cases h

theorem cmpSql_same (op : Op) (a b : Val) (h : Comparable op a b) (ha : a ≠ .null) (hb : b ≠ .null) :
    cmpSql op a b = decide (Holds op a b) := by
  cases a <;> cases b <;> cases op <;> simp only [Comparable, SameKind, ne_eq, not_true_eq_false] at h ha hb <;>
    simp [cmpSql, Holds, SameKind, Less, Op.onRat, Op.onStr, not_lt]

theorem slit_value_ne_null (l : SLit) : l.value ≠ .null := by cases l <;> simp [SLit.value]

theorem sqlOf_holds {names sc : List String} (hsc : sc ⊆ names) (rows : List Row) (r : Row) (c : SCond)
    (hk : Comparable c.op (r.get c.col) c.lit.value ∧ r.get c.col ≠ .null) (hno : NoColumn names c) :
    (sqlOf c).holds sc rows r = decide (Holds c.op (r.get c.col) c.lit.value) := by
  rw [← cmpSql_same _ _ _ hk.1 hk.2 (slit_value_ne_null _)]
  unfold sqlOf SqlCond.holds
  cases hl : c.lit with
  | int n => rfl
  | dec a b d => rfl
  | str s =>
    have hf : sc.find? (sameName s) = none := by
      rw [List.find?_eq_none]
      intro n hn
      unfold NoColumn at hno
      rw [hl] at hno
      have := hno n (hsc hn)
      simp only [sameName, decide_eq_true_eq]
      exact fun he => this he.symm
    simp only [Rhs.value, hf, SLit.value]

theorem sqlOf_valid {sc : List String} {c : SCond} (h : c.col ∈ sc) : (sqlOf c).valid sc = true := by
  simpa [sqlOf, SqlCond.valid] using h

/-- Further conditions on a state. -/
theorem queryWith_eval {t : Table} {x : Inst} {rows : List Row} (h : Shows t x rows) (cs : List SqlCond)
    (hv : ∀ sc, x.columns ⊆ sc → ∀ c ∈ cs, c.valid sc = true) :
    ∃ qc sc rows0, evalSrc t (x.queryWith cs) =
        .ok (qc, rows.filter fun r => cs.all (SqlCond.holds sc rows0 r)) ∧
      x.columns <+: qc ∧ sc ⊆ t.cols := by
  obtain ⟨sc, h1, h2, h3⟩ := h.ev
  unfold Inst.queryWith
  cases hs : x.state with
  | table =>
    rw [hs] at h1
    simp only [evalSrc, Except.ok.injEq, Prod.mk.injEq] at h1
    obtain ⟨rfl, rfl⟩ := h1
    refine ⟨x.columns, t.cols, t.rows, ?_, List.prefix_refl _, fun _ h => h⟩
    exact evalSrc_mk (s := .table) rfl h.ne h.cols (hv _ h.cols)
  | sub cols src conds =>
    rw [hs] at h1 h3
    have hpre := h3.resolve_left (by simp)
    simp only [evalSrc] at h1 ⊢
    cases hsrc : evalSrc t src with
    | error e => rw [hsrc] at h1; cases h1
    | ok p =>
      obtain ⟨sc0, rows0⟩ := p
      rw [hsrc] at h1
      simp only at h1 ⊢
      split at h1
      · rename_i hc
        simp only [Except.ok.injEq, Prod.mk.injEq] at h1
        obtain ⟨rfl, rfl⟩ := h1
        refine ⟨cols, sc0, rows0, ?_, hpre, (evalSrc_sub hsrc).2⟩
        have hcsub : cols ⊆ sc0 := by
          intro a ha
          simpa using List.all_eq_true.1 hc.2.1 a ha
        rw [if_pos]
        · congr 2
          rw [List.filter_filter]
          apply List.filter_congr
          intro r _
          rw [List.all_append, Bool.and_comm]
        · refine ⟨hc.1, hc.2.1, ?_⟩
          rw [List.all_append, hc.2.2, Bool.true_and, List.all_eq_true]
          exact hv sc0 (fun a ha => hcsub (h2 ha))
      · cases h1

theorem sat_toRec {cols : List String} {ws : List (List Char × SCond × List Char)}
    (hc : ∀ w ∈ ws, w.2.1.col ∈ cols) (r : Row) : SatRec ws (r.toRec cols) ↔ Sat ws r := by
  unfold SatRec Sat
  constructor
  · intro h w hw; have := h w hw; rwa [cellOf_toRec _ _ _ (hc w hw)] at this
  · intro h w hw; rw [cellOf_toRec _ _ _ (hc w hw)]; exact h w hw

theorem filter_toRec {cols : List String} {ws : List (List Char × SCond × List Char)} {rows : List Row}
    (hc : ∀ w ∈ ws, w.2.1.col ∈ cols) :
    (rows.filter fun r => decide (Sat ws r)).map (Row.toRec cols) =
      (rows.map (Row.toRec cols)).filter fun r => decide (SatRec ws r) := by
  rw [List.filter_map]
  congr 1
  apply List.filter_congr
  intro r _
  simp only [Function.comp_apply]
  rw [Bool.eq_iff_iff]
  simp only [decide_eq_true_eq]
  exact (sat_toRec hc r).symm

/-- The rows a query leaves. -/
theorem select_rows {names : List String} {t : Table} {x : Inst} {rows : List Row} (hs : Shows t x rows)
    (htn : t.cols ⊆ names) (ws : List (List Char × SCond × List Char))
    (hc : ∀ w ∈ ws, w.2.1.col ∈ x.columns) (hno : ∀ w ∈ ws, NoColumn names w.2.1)
    (hk : ∀ w ∈ ws, ∀ r ∈ rows,
      Comparable w.2.1.op (r.get w.2.1.col) w.2.1.lit.value ∧ r.get w.2.1.col ≠ .null) :
    ∃ qc, evalSrc t (x.queryWith (ws.map fun w => sqlOf w.2.1)) = .ok (qc, rows.filter fun r => decide (Sat ws r)) ∧
      x.columns <+: qc := by
  obtain ⟨qc, sc, rows0, h1, h2, h3⟩ := queryWith_eval hs (ws.map fun w => sqlOf w.2.1) (by
    intro sc hsub c hcm
    obtain ⟨w, hw, rfl⟩ := List.mem_map.1 hcm
    exact sqlOf_valid (hsub (hc w hw)))
  refine ⟨qc, ?_, h2⟩
  rw [h1]
  congr 2
  apply List.filter_congr
  intro r hr
  rw [Bool.eq_iff_iff, List.all_map, List.all_eq_true]
  simp only [Function.comp_apply, decide_eq_true_eq]
  unfold Sat
  constructor
  · intro h w hw
    have := h w hw
    rw [sqlOf_holds (fun a ha => htn (h3 ha)) rows0 r _ (hk w hw r hr) (hno w hw)] at this
    exact of_decide_eq_true this
  · intro h w hw
    rw [sqlOf_holds (fun a ha => htn (h3 ha)) rows0 r _ (hk w hw r hr) (hno w hw)]
    exact decide_eq_true (h w hw)

theorem select_means {names : List String} (hn : NamesOk names) (ws : List (List Char × SCond × List Char)) :
    Means names (fun w j => w.selectOn j (queryText ws)) (SelectPre names ws) (Plain.select ws)
      (fun p => ∀ w ∈ ws, w.2.1.col ∈ p.cols) := by
  intro w j p h hp hpre
  obtain ⟨x, t, rows, hx, ht, hs, rfl⟩ := plain_inv h hp
  obtain ⟨hw, hall⟩ := hpre x hx
  obtain ⟨ty, hty⟩ := Option.isSome_iff_exists.1 hs.types
  unfold World.selectOn
  simp only [hx]
  rcases parse_text hty ws hw (fun w hw' => (hall w hw').2.1 ty hty) with ⟨hc, hpar⟩ | ⟨hc, e, hpar⟩
  · rw [hpar]
    obtain ⟨qc, h1, h2⟩ := select_rows hs (h.tables _ _ ht).names ws hc (fun w hw' => (hall w hw').1) (by
      intro w hw' r hr
      have := (hall w hw').2.2 (r.toRec x.columns) (List.mem_map_of_mem hr)
      rwa [cellOf_toRec _ _ _ (hc w hw')] at this)
    obtain ⟨g1, g2, g3⟩ := update_good hn (h.but j) hx ht h1 h2 hs.rid hs.types
    have e : plainOf (w.update j (x.queryWith (ws.map fun w => sqlOf w.2.1))).1 =
        setAt (plainOf w) j (some (Plain.select ws ⟨x.columns, rows.map (Row.toRec x.columns), x.hasIds⟩)) := by
      rw [g2]
      congr 2
      simp only [Plain.select]
      rw [filter_toRec hc]
    exact ⟨g1, fun _ => e, Or.inr e, fun hf _ _ => g3 hf⟩
  · rw [hpar]
    exact ⟨h, fun he => by simp at he, Or.inl rfl, fun _ _ hok => absurd hok hc⟩

/-! ## drop -/

theorem drop_means {names : List String} (hn : NamesOk names) (ids : List Nat) (keep : Bool) :
    Means names (fun w j => w.dropOn j ids keep) (fun _ _ => True) (Plain.drop ids keep) (fun _ => True) := by
  intro w j p h hp _
  obtain ⟨x, t, rows, hx, ht, hs, rfl⟩ := plain_inv h hp
  unfold World.dropOn
  simp only [hx]
  obtain ⟨sc, h1, h2, _⟩ := hs.ev
  have hev := evalSrc_mk h1 (conds := [if keep then .ridIn ids else .ridNotIn ids]) hs.ne h2 (by
    intro c hc
    simp only [List.mem_singleton] at hc
    subst hc
    cases keep <;> simpa [SqlCond.valid] using h2 hs.rid)
  obtain ⟨g1, g2, g3⟩ := update_good hn (h.but j) hx ht hev (List.prefix_refl _) hs.rid hs.types
  have e : plainOf (w.update j (.sub x.columns x.state [if keep then .ridIn ids else .ridNotIn ids])).1 =
      setAt (plainOf w) j (some (Plain.drop ids keep ⟨x.columns, rows.map (Row.toRec x.columns), x.hasIds⟩)) := by
    rw [g2]
    congr 2
    simp only [Plain.drop]
    rw [List.filter_map]
    congr 2
    apply List.filter_congr
    intro r _
    simp only [Function.comp_apply, List.all_cons, List.all_nil, Bool.and_true,
      cellOf_toRec _ _ _ hs.rid]
    have hr : (∃ n ∈ ids, r.get "rid" = .num (n : ℚ)) ↔ r.rid ∈ ids := by
      simp only [Row.get, if_true, Val.num.injEq, Nat.cast_inj]
      constructor
      · rintro ⟨n, hn, he⟩; rw [he]; exact hn
      · intro hm; exact ⟨_, hm, rfl⟩
    have hd : decide (∃ n ∈ ids, r.get "rid" = .num (n : ℚ)) = decide (r.rid ∈ ids) := by
      rw [Bool.eq_iff_iff]; simp only [decide_eq_true_eq]; exact hr
    rw [hd]
    cases keep <;> simp [SqlCond.holds]
  exact ⟨g1, fun _ => e, Or.inr e, fun hf _ _ => g3 hf⟩

/-! ## unique -/

theorem keyOn_toRec {cols l : List String} (h : l ⊆ cols) (r : Row) : l.map (cellOf (r.toRec cols)) = keyOn l r := by
  unfold keyOn
  apply List.map_congr_left
  intro c hc
  exact cellOf_toRec _ _ _ (h hc)

theorem uniqueOn_means {names : List String} (hn : NamesOk names) (l : List String) (hne : l ≠ [])
    (cs : Option (List String)) :
    Means names (fun w j => w.uniqueOn j l) (fun p _ => cs.getD p.cols = l ∧ l ⊆ p.cols) (Plain.unique cs)
      (fun _ => True) := by
  intro w j p h hp hpre
  obtain ⟨x, t, rows, hx, ht, hs, rfl⟩ := plain_inv h hp
  obtain ⟨hl, hsub⟩ := hpre x hx
  simp only at hl hsub
  unfold World.uniqueOn
  simp only [hx]
  obtain ⟨sc, h1, h2, _⟩ := hs.ev
  have hsub' : withRid l ⊆ x.columns := by
    intro a ha
    unfold withRid at ha
    split at ha
    · exact hsub ha
    · rcases List.mem_append.1 ha with ha | ha
      · exact hsub ha
      · simp only [List.mem_singleton] at ha; subst ha; exact hs.rid
  have hrid : "rid" ∈ withRid l := by
    unfold withRid; split
    · assumption
    · simp
  have hev := evalSrc_mk h1 (cols := withRid l) (conds := [.ridFirst l]) (List.ne_nil_of_mem hrid)
    (fun a ha => h2 (hsub' ha)) (by
    intro c hc
    simp only [List.mem_singleton] at hc
    subst hc
    simp only [SqlCond.valid, Bool.and_eq_true, decide_eq_true_eq, List.all_eq_true]
    refine ⟨⟨h2 hs.rid, ?_⟩, fun a ha => h2 (hsub ha)⟩
    cases l with
    | nil => exact absurd rfl hne
    | cons a l => rfl)
  let y : Inst := { x with columns := withRid l }
  have hb : GoodBut names (some j) (w.put j y) := by
    refine ⟨h.reg.put hx rfl, h.gens, h.tables, fun k z hk hz => ?_⟩
    have hkj : k ≠ j := by simpa using hk
    rw [put_ne _ _ hkj] at hz
    exact h.get hz
  obtain ⟨g1, g2, g3⟩ := update_good hn hb (x := y) (put_self _ _ _) ht hev (List.prefix_refl _) hrid hs.types
  have e : plainOf ((w.put j y).update j (.sub (withRid l) x.state [.ridFirst l])).1 =
      setAt (plainOf w) j (some (Plain.unique cs ⟨x.columns, rows.map (Row.toRec x.columns), x.hasIds⟩)) := by
    rw [g2]
    have e1 : setAt (plainOf (w.put j y)) j = setAt (plainOf w) j := by
      funext q k
      by_cases hk : k = j
      · simp [setAt, hk]
      · simp only [setAt, hk, if_false]
        exact plainOf_congr (w := w) (put_ne _ _ hk) (fun _ _ => rfl)
    rw [e1]
    congr 2
    simp only [Plain.unique, hl]
    congr 1
    rw [List.filter_map, List.map_map]
    have e2 : (fun r : Row => [SqlCond.ridFirst l].all (SqlCond.holds sc rows r)) =
        ((fun r => decide (FirstOn l (rows.map (Row.toRec x.columns)) r)) ∘ Row.toRec x.columns) := by
      funext r
      rw [Bool.eq_iff_iff]
      simp only [List.all_cons, List.all_nil, Bool.and_true, SqlCond.holds, List.all_eq_true, Bool.or_eq_true,
        Bool.not_eq_true', decide_eq_false_iff_not, decide_eq_true_eq, Function.comp_apply, FirstOn, List.mem_map,
        forall_exists_index, and_imp, forall_apply_eq_imp_iff₂]
      simp only [keyOn_toRec hsub, cellOf_toRec _ _ _ hs.rid, Row.get, if_true, Less, Nat.cast_lt, not_lt]
      constructor
      · intro hh r' hr' hk
        exact (hh r' hr').resolve_left (fun hh' => hh' hk)
      · intro hh r' hr'
        by_cases hk : keyOn l r' = keyOn l r
        · exact Or.inr (hh r' hr' hk)
        · exact Or.inl hk
    rw [e2]
    apply List.map_congr_left
    intro r _
    simp only [Function.comp_apply]
    exact (project_toRec _ _ _ hsub').symm
  refine ⟨g1, fun _ => e, Or.inr e, fun _ hf _ => g3 ?_⟩
  simp only [Plain.unique, hl] at hf
  exact hf

end DRec
