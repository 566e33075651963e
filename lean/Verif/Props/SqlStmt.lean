import Verif.Lemmas.SqlStmt
import Verif.Spec.SqlStmt
import Verif.Lemmas.Dedup
import Verif.Lemmas.MemIds

/-! # C124: the other SQL statements -/

namespace DRec

open DRec.Spec

/-! ## Counting and extreme values -/

theorem state_eval {t : Table} {q : Src} {scols : List String} {rows : List Row} (h : evalSrc t q = .ok (scols, rows))
    {cs : List String} (hne : cs ≠ []) (hm : ∀ c ∈ cs, c ∈ scols) : evalSrc t (.sub cs q []) = .ok (cs, rows) := by
  rw [evalSrc, h]
  dsimp only
  rw [if_pos ⟨hne, by simpa using hm, by simp⟩]
  simp

theorem not_distinct {db : String → Option Table} {S : List Tok} {scols : List String} {rows : List Row} (hS : SourceReads db S scols rows)
    (ts : List Tok) : S ≠ .lpar :: .kw .select :: .kw (.other "DISTINCT") :: ts := by
  intro h
  have h2 := hS.2 (S.length + 2) [] (by omega)
  rw [List.append_nil, h] at h2
  have e : ∀ f, sqlSelect db f (.kw .select :: .kw (.other "DISTINCT") :: ts) = none := by
    intro f
    cases f with
    | zero => rw [sqlSelect]
    | succ f => rw [sqlSelect]; rfl
  rw [sqlSource] at h2
  · rw [e] at h2
    cases h2
  · intro m us hh
    cases hh

theorem count_source {db : String → Option Table} {S : List Tok} {scols : List String} {rows : List Row} (hS : SourceReads db S scols rows)
    (f : Nat) (hf : S.length ≤ f) : sqlCount db f S = some rows.length := by
  have h2 := hS.2 f [] hf
  rw [List.append_nil] at h2
  unfold sqlCount
  split
  · next ts => exact absurd rfl (not_distinct hS ts)
  · rw [h2]

theorem extreme_source {db : String → Option Table} {S : List Tok} {scols : List String} {rows : List Row} (hS : SourceReads db S scols rows)
    (hcl : NoCaseClash scols) (agg : String) {c : String} (hc : c ∈ scols) (f : Nat) (hf : S.length ≤ f) : sqlExtreme db f agg c S =
      if sameName agg "MAX" then some (sqlExt sqlLe (rows.map (·.get c)))
      else if sameName agg "MIN" then some (sqlExt (fun a b => sqlLe b a) (rows.map (·.get c)))
      else none := by
  have h2 := hS.2 f [] hf
  rw [List.append_nil] at h2
  unfold sqlExtreme
  rw [h2]
  dsimp only
  rw [resolve_mem hcl hc]

theorem rep_count {db : String → Option Table} {n : String} {t : Table} (hT : PlainTable db n t) {cols : List String} {s : List Char}
    {q : Src} (h : Rep db t cols s q) : ∃ scols rows, evalSrc t q = .ok (scols, rows) ∧ (∀ c ∈ cols, c ∈ scols) ∧
      sqlExec db [] (countText (sourceText n.toList s)) = .ok (.vals [.num rows.length]) ∧
      (∀ cs : List String, cs ≠ [] → (∀ c ∈ cs, c ∈ cols) →
        sqlExec db [] (countUniqueText cs (sourceText n.toList s)) = .ok (.vals [.num (rows.map (keyOn cs)).dedup.length])) ∧
      (∀ c ∈ cols, sqlExec db [] (maxText c (sourceText n.toList s)) = .ok (.vals [sqlExt sqlLe (rows.map (·.get c))]) ∧
        sqlExec db [] (minText c (sourceText n.toList s)) = .ok (.vals [sqlExt (fun a b => sqlLe b a) (rows.map (·.get c))])) := by
  obtain ⟨scols, rows, S, he, hsub, hk, hh, hS, hl⟩ := rep_source hT h
  have hcl : NoCaseClash scols := clash_sub hT.clash hk
  refine ⟨scols, rows, he, hh, ?_, ?_, ?_⟩
  · rw [countText_eq]
    refine exec_of_lex (any_count.cat hl) ?_
    simp only [List.cons_append, List.nil_append, sqlStmt]
    rw [if_pos (by simp [sameName]), count_source hS _ (by simp; omega)]
    rfl
  · intro cs hne hm
    rw [countUniqueText_eq]
    refine exec_of_lex (any_count.cat (any_distinct.cat ((cols_lexes hne fun c hc => hT.cols c (hk c (hh c (hm c hc)))).cat
      (any_from.cat (hl.cat any_rpar)) fun rest => stops_space _))) ?_
    simp only [List.cons_append, List.nil_append, sqlStmt]
    rw [if_pos (by simp [sameName])]
    rw [sqlCount]
    rw [nameList_toks hne (by simp)]
    dsimp only
    rw [hS.2 _ [.rpar] (by simp; omega)]
    simp only [mapM_resolve hcl fun c hc => hh c (hm c hc)]
    rfl
  · intro c hc
    have hp := hT.cols c (hk c (hh c hc))
    constructor
    · rw [maxText_eq]
      refine exec_of_lex (any_max.cat ((name_lexes hp).cat (any_closeFrom.cat hl) fun rest => stops_rpar _)) ?_
      simp only [List.cons_append, List.nil_append, sqlStmt]
      rw [extreme_source hS hcl _ (hh c hc) _ (by simp; omega), if_pos (by simp [sameName])]
      rfl
    · rw [minText_eq]
      refine exec_of_lex (any_minCall.cat ((name_lexes hp).cat (any_closeFrom.cat hl) fun rest => stops_rpar _)) ?_
      simp only [List.cons_append, List.nil_append, sqlStmt]
      rw [extreme_source hS hcl _ (hh c hc) _ (by simp; omega), if_neg (by decide +kernel), if_pos (by simp [sameName])]
      rfl

/-- **C124** (partial), reading.  Whatever filters have been applied, the statements for the length, `count_unique`, `max` and
`min` return what these methods should return for the records that are left; under the conditions on names and texts of C123. -/
theorem C124_read_partial (db : String → Option Table) (n : String) (t : Table) (hT : PlainTable db n t) (x : Inst)
    (hx : x.state = .table) (hr : "rid" ∈ x.columns) (hc : ∀ c ∈ x.columns, c ∈ t.cols) (ops : List SOp) (hf : AllFit x.columns ops)
    (w : World) (i : Nat) (hi : w.insts i = some (ops.foldl SOp.tree x)) (hw : w.tables (ops.foldl SOp.tree x).table = some t) :
    let y := ops.foldl SOp.tree x
    let src := sourceText n.toList (ops.foldl (SOp.text n.toList) (x.columns, [])).2
    (∃ l, w.look i (.values none) = .ok (.recs l) ∧ sqlExec db [] (countText src) = .ok (.vals [.num l.length])) ∧
    (∀ cs : List String, cs ≠ [] → (∀ c ∈ cs, c ∈ y.columns) → ∃ k : Nat, w.look i (.countUnique (some cs)) = .ok (.count k) ∧
      sqlExec db [] (countUniqueText cs src) = .ok (.vals [.num k])) ∧
    (∀ c ∈ y.columns, (∃ v, w.look i (.max c) = .ok (.val v) ∧ sqlExec db [] (maxText c src) = .ok (.vals [v])) ∧
      ∃ v, w.look i (.min c) = .ok (.val v) ∧ sqlExec db [] (minText c src) = .ok (.vals [v])) := by
  obtain ⟨_, h2⟩ := ops_rep hT ops x [] ⟨List.ne_nil_of_mem hr, hr, hc, .inl ⟨hx, rfl⟩⟩ hf
  dsimp only
  generalize ops.foldl SOp.tree x = y at *
  generalize (ops.foldl (SOp.text n.toList) (x.columns, [])).2 = s at *
  obtain ⟨scols, rows, he, hh, e1, e2, e3⟩ := rep_count hT h2
  obtain ⟨rows', he', _, _⟩ := rep_read hT h2
  have hlen : rows'.length = rows.length := by
    rw [Inst.query] at he'
    split at he'
    · next hq =>
      rw [hq] at he
      have := state_eval he h2.1 hh
      rw [this] at he'
      cases he'
      rfl
    · rw [he] at he'
      cases he'
      rfl
  refine ⟨⟨rows'.map fun r => pick y.columns (y.decode y.columns r), ?_, by rw [e1, List.length_map, hlen]⟩, ?_, ?_⟩
  · rw [World.look, hi]
    simp only [hw, he', handleColumns, bind, Except.bind]
  · intro cs hne hm
    refine ⟨(rows.map (keyOn cs)).dedup.length, ?_, e2 cs hne hm⟩
    rw [World.look, hi]
    simp only [hw, handleColumns, bind, Except.bind]
    rw [if_pos (by simpa using hm)]
    simp only [state_eval he hne fun c hc => hh c (hm c hc), dedupGo_length]
  · intro c hcc
    have h3 := state_eval he (cs := [c]) (by simp) (by simpa using hh c hcc)
    refine ⟨⟨_, ?_, (e3 c hcc).1⟩, ⟨_, ?_, (e3 c hcc).2⟩⟩
    · rw [World.look, hi]
      simp only [hw, if_pos hcc, h3, bind, Except.bind]
    · rw [World.look, hi]
      simp only [hw, if_pos hcc, h3, bind, Except.bind]

/-! ## Deleting and copying -/

theorem rid_get (r : Row) : r.get "rid" = .num r.rid := by simp [Row.get]

/-- **C124** (partial), a table used by one dataset only: the statement that deletes records leaves exactly those the filters
select. -/
theorem C124_shrink_partial (db : String → Option Table) (n : String) (t : Table) (hT : PlainTable db n t) (x : Inst)
    (hx : x.state = .table) (hr : "rid" ∈ x.columns) (hc : ∀ c ∈ x.columns, c ∈ t.cols) (ops : List SOp) (hf : AllFit x.columns ops)
    (w : World) (i : Nat) (hne : (ops.foldl SOp.tree x).state ≠ .table) :
    let y := ops.foldl SOp.tree x
    let src := sourceText n.toList (ops.foldl (SOp.text n.toList) (x.columns, [])).2
    ∃ t', sqlExec db [] (deleteText n.toList src) = .ok (.wrote n t') ∧ (w.shrink i y t).2 = none ∧
      (w.shrink i y t).1.tables y.table = some t' := by
  obtain ⟨_, h2⟩ := ops_rep hT ops x [] ⟨List.ne_nil_of_mem hr, hr, hc, .inl ⟨hx, rfl⟩⟩ hf
  dsimp only
  generalize ops.foldl SOp.tree x = y at *
  generalize (ops.foldl (SOp.text n.toList) (x.columns, [])).2 = s at *
  obtain ⟨scols, rows, S, he, hsub, hk, hh, hS, hl⟩ := rep_source hT h2
  have hcl : NoCaseClash scols := clash_sub hT.clash hk
  have hrs : "rid" ∈ scols := hh _ h2.2.1
  refine ⟨⟨t.cols, t.rows.filter fun r => rows.any (·.rid = r.rid)⟩, ?_, ?_, ?_⟩
  · rw [deleteText_eq]
    refine exec_of_lex (any_delete.cat ((name_lexes hT.name).cat (any_whereNotIn.cat (hl.cat any_rpar)) fun rest => stops_space _)) ?_
    simp only [List.cons_append, List.nil_append, sqlStmt, hT.found, Option.bind_some]
    rw [sqlDelete, resolve_mem hT.clash hT.rid]
    have h3 := select_plain_reads hS hcl (cols := ["rid"]) (by simp) (by simpa using hrs) rfl
      ((Tok.kw (Kw.other "DELETE") :: Tok.kw .from :: Tok.name n :: Tok.kw .where :: Tok.name "rid" :: Tok.kw .not :: Tok.kw .in ::
        Tok.lpar :: Tok.kw .select :: Tok.name "rid" :: Tok.kw .from :: (S ++ [Tok.rpar])).length + 1) [.rpar]
        (by simp [nameToks, joinToks]) (ends_rpar [])
    simp only [nameToks, joinToks, List.map_cons, List.map_nil, List.cons_append, List.nil_append, limitTail] at h3
    rw [h3]
    simp only [Option.map_some]
    congr 3
    apply List.filter_congr
    intro r hr
    rw [rid_get]
    have hnull : Val.null ∉ rows.map fun r : Row => r.get "rid" := by
      intro h
      obtain ⟨r, _, h⟩ := List.mem_map.1 h
      rw [rid_get] at h
      cases h
    have hmem : Val.num (r.rid : ℚ) ∈ (rows.map fun r : Row => r.get "rid") ↔ rows.any (fun z => decide (z.rid = r.rid)) = true := by
      rw [List.mem_map, List.any_eq_true]
      constructor
      · rintro ⟨z, hz, e⟩
        rw [rid_get] at e
        refine ⟨z, hz, ?_⟩
        simpa using e
      · rintro ⟨z, hz, e⟩
        refine ⟨z, hz, ?_⟩
        rw [rid_get]
        simpa using e
    rw [inList]
    simp only [hnull, not_false_eq_true, decide_true, Bool.true_and, ne_eq, reduceCtorEq, if_true, Bool.not_not]
    by_cases hm : Val.num (r.rid : ℚ) ∈ (rows.map fun r : Row => r.get "rid")
    · rw [decide_eq_true hm, hmem.1 hm]
    · rw [decide_eq_false hm]
      symm
      rw [← Bool.not_eq_true]
      exact fun h => hm (hmem.2 h)
  · rw [World.shrink, if_neg hne, he]
    simp only [if_pos hrs]
  · rw [World.shrink, if_neg hne, he]
    simp only [if_pos hrs, World.put, World.putT, if_true]

theorem zip_lookup_map (cols : List String) (f : String → Val) (c : String) :
    (cols.zip (cols.map f)).lookup c = if c ∈ cols then some (f c) else none := by
  induction cols with
  | nil => rfl
  | cons d ds ih =>
    rw [List.map_cons, List.zip_cons_cons, List.lookup_cons]
    by_cases h : c = d
    · subst h; simp
    · have h' : (c == d) = false := by simpa using h
      rw [ih, h']
      simp [h]

theorem while_all {A : Type} (p : A → Bool) (l : List A) (h : ∀ x ∈ l, p x = true) : l.takeWhile p = l ∧ l.dropWhile p = [] := by
  induction l with
  | nil => exact ⟨rfl, rfl⟩
  | cons a l ih =>
    obtain ⟨h1, h2⟩ := ih fun x hx => h x (by simp [hx])
    rw [List.takeWhile_cons, List.dropWhile_cons, h a (by simp), h1, h2]
    exact ⟨rfl, rfl⟩

theorem newRow_key {cols : List String} (hr : "rid" ∈ cols) (r : Row) : ∃ r', newRow (cols.zip (keyOn cols r)) = some r' ∧
    r'.rid = r.rid ∧ ∀ c, c ≠ "rid" → r'.get c = if c ∈ cols then r.get c else .null := by
  refine ⟨⟨r.rid, fun c => ((cols.zip (keyOn cols r)).lookup c).getD .null⟩, ?_, rfl, ?_⟩
  · rw [newRow, keyOn, zip_lookup_map, if_pos hr, rid_get]
    simp
  · intro c hc
    rw [Row.get, if_neg hc]
    dsimp only
    rw [keyOn, zip_lookup_map]
    split <;> rfl

theorem insertRow_last {rows : List Row} {r : Row} (h : ∀ x ∈ rows, x.rid < r.rid) : insertRow rows r = some (rows ++ [r]) := by
  have h1 : rows.any (fun x => decide (x.rid = r.rid)) = false := by
    rw [List.any_eq_false]
    intro x hx
    have := h x hx
    simp
    omega
  rw [insertRow, h1]
  have h2 := while_all (fun x : Row => decide (x.rid < r.rid)) rows (by simpa using h)
  rw [h2.1, h2.2]
  rfl

theorem insertAll_rows (cols : List String) : ∀ (rs : List Row) (acc : List Row) (vss : List (List Val)),
    List.Forall₂ (fun vs r => newRow (cols.zip vs) = some r) vss rs → InOrder (acc ++ rs) → insertAll cols acc vss = some (acc ++ rs) := by
  intro rs
  induction rs with
  | nil => intro acc vss h _; cases h; simp [insertAll]
  | cons r rs ih =>
    intro acc vss h ho
    cases h with
    | cons h1 h2 =>
      rw [insertAll, h1]
      dsimp only
      rw [insertRow_last]
      · have := ih (acc ++ [r]) _ h2 (by simpa using ho)
        simpa using this
      · intro x hx
        rw [InOrder, List.map_append, List.pairwise_append] at ho
        exact ho.2.2 _ (List.mem_map_of_mem hx) _ (by simp)

/-- **C124** (partial), a shared table: the statement that copies records to a new table copies exactly those the filters select,
with their columns. -/
theorem C124_split_partial (db : String → Option Table) (n : String) (t : Table) (hT : PlainTable db n t) (ho : InOrder t.rows) (x : Inst)
    (hx : x.state = .table) (hr : "rid" ∈ x.columns) (hc : ∀ c ∈ x.columns, c ∈ t.cols) (ops : List SOp) (hf : AllFit x.columns ops)
    (w : World) (i : Nat) (us : List Nat) (m : String) (hm : PlainName m) (cols : List String)
    (hb : (ops.foldl SOp.tree x).buildTable = .ok cols) (hcl : NoCaseClash cols) (hd : db m = some ⟨cols, []⟩) :
    let y := ops.foldl SOp.tree x
    let src := sourceText n.toList (ops.foldl (SOp.text n.toList) (x.columns, [])).2
    ∃ rows rows', sqlExec db [] (copyText m.toList y.columns src) = .ok (.wrote m ⟨cols, rows⟩) ∧ (w.split i y t us).2 = none ∧
      (w.split i y t us).1.tables w.nextT = some ⟨cols, rows'⟩ ∧ SameCells rows rows' := by
  obtain ⟨_, h2⟩ := ops_rep hT ops x [] ⟨List.ne_nil_of_mem hr, hr, hc, .inl ⟨hx, rfl⟩⟩ hf
  dsimp only
  generalize ops.foldl SOp.tree x = y at *
  generalize (ops.foldl (SOp.text n.toList) (x.columns, [])).2 = s at *
  obtain ⟨scols, rows, S, he, hsub, hk, hh, hS, hl⟩ := rep_source hT h2
  have hcs : NoCaseClash scols := clash_sub hT.clash hk
  have hin : ∀ c ∈ y.columns, c ∈ cols := by
    rw [Inst.buildTable] at hb
    split at hb
    · split at hb
      · split at hb
        · cases hb
          intro c hc
          by_cases h : c ∈ ["rid", "uid", "iid"]
          · exact List.mem_append_left _ h
          · exact List.mem_append_right _ (List.mem_filter.2 ⟨hc, by simpa using h⟩)
        · cases hb
      · cases hb
    · cases hb
  have hp : ∀ c ∈ y.columns, PlainName c := fun c hc => hT.cols c (h2.2.2.1 c hc)
  have hrows : ∃ rs, List.Forall₂ (fun vs r => newRow (y.columns.zip vs) = some r) (rows.map (keyOn y.columns)) rs ∧
      SameCells rs (rows.map (Row.restrict y.columns)) ∧ rs.map (·.rid) = rows.map (·.rid) := by
    clear he hsub hS
    induction rows with
    | nil => exact ⟨[], .nil, .nil, rfl⟩
    | cons r rows ih =>
      obtain ⟨rs, h1, h3, h4⟩ := ih
      obtain ⟨r', h5, h6, h7⟩ := newRow_key h2.2.1 r
      refine ⟨r' :: rs, .cons h5 h1, .cons ⟨h6, ?_⟩ h3, by rw [List.map_cons, List.map_cons, h4, h6]⟩
      intro c
      by_cases hc : c = "rid"
      · subst hc
        rw [rid_get, rid_get, h6]
        rfl
      · rw [h7 c hc, Row.get, if_neg hc, Row.get, if_neg hc]
        rfl
  obtain ⟨rs, h3, h4, h5⟩ := hrows
  refine ⟨rs, rows.map (Row.restrict y.columns), ?_, ?_, ?_, h4⟩
  · rw [copyText_eq]
    refine exec_of_lex (any_insert.cat ((name_lexes hm).cat (any_open.cat ((cols_lexes h2.1 hp).cat (any_closeSelect.cat
      ((cols_lexes h2.1 hp).cat (any_from.cat hl) fun rest => stops_space _)) fun rest => stops_rpar _)) fun rest => stops_space _)) ?_
    simp only [List.cons_append, List.nil_append, sqlStmt, hd, Option.bind_some]
    rw [sqlInsert, nameList_toks h2.1 (by simp)]
    dsimp only
    rw [mapM_resolve hcl hin]
    have h6 := select_plain_reads hS hcs h2.1 hh rfl
      ((Tok.kw (Kw.other "INSERT") :: Tok.kw (Kw.other "INTO") :: Tok.name m :: Tok.lpar :: (nameToks y.columns ++ Tok.rpar ::
        Tok.kw .select :: (nameToks y.columns ++ Tok.kw .from :: S))).length + 1) [] (by simp; omega) ends_nil
    simp only [List.cons_append, List.nil_append, List.append_nil, limitTail] at h6
    rw [insertTail]
    · rw [h6]
      dsimp only
      rw [if_pos rfl]
      dsimp only
      rw [insertAll_rows _ rs [] _ h3]
      · rfl
      · rw [List.nil_append, InOrder, h5]
        exact ho.sublist (hsub.map _)
    · intro ts hh
      cases hh
  · rw [World.split, hb]
    simp only [he]
    rw [if_pos (by simpa using hh)]
  · rw [World.split, hb]
    simp only [he]
    rw [if_pos (by simpa using hh)]
    simp only [World.put, World.putT, World.putU, if_true]

/-! ## Inserting, updating, looking up -/

theorem update_exec {db : String → Option Table} {n : String} {t : Table} (hd : db n = some t) (hn : PlainName n)
    (hp : ∀ c ∈ t.cols, PlainName c) (hcl : NoCaseClash t.cols) {c d : String} (hc : c ∈ t.cols) (hdm : d ∈ t.cols) (hr : c ≠ "rid")
    (v u : Val) : sqlExec db [v, u] (updateText n.toList c d) =
      .ok (.wrote n ⟨t.cols, t.rows.map fun r => if cmpSql .eq (r.get d) u then r.set c v else r⟩) := by
  rw [updateText_eq]
  refine exec_of_lex (any_update.cat ((name_lexes hn).cat (any_set.cat ((name_lexes (hp c hc)).cat (any_paramWhere.cat
    ((name_lexes (hp d hdm)).cat any_eqParam fun rest => stops_space _)) fun rest => stops_space _)) fun rest => stops_space _)) ?_
  simp only [List.cons_append, List.nil_append, sqlStmt, hd, Option.bind_some]
  rw [sqlUpdate, resolve_mem hcl hc, resolve_mem hcl hdm]
  simp only [if_neg hr, Option.map_some]

/-- **C124** (partial), `apply`: the statement that writes a value to a record changes this value of this record only. -/
theorem C124_update_partial (db : String → Option Table) (n : String) (t : Table) (hT : PlainTable db n t) (c : String) (hc : c ∈ t.cols)
    (hr : c ≠ "rid") (id : Nat) (v : Val) : sqlExec db [v, .num id] (updateText n.toList c "rid") =
      .ok (.wrote n ⟨t.cols, t.rows.map fun r => if r.rid = id then r.set c v else r⟩) := by
  rw [update_exec hT.found hT.name hT.cols hT.clash hc hT.rid hr]
  congr 4
  funext r
  rw [rid_get]
  simp only [cmpSql, Op.onRat]
  congr 1
  simp

/-- **C124** (partial), `user_to_uid` and the like: the statement finds the first record with the id asked for. -/
theorem C124_lookup_partial (db : String → Option Table) (n : String) (t : Table) (hT : PlainTable db n t) (c d : String) (hc : c ∈ t.cols)
    (hd : d ∈ t.cols) (v : Val) : ∃ vs, sqlExec db [v] (lookupText n.toList c d) = .ok (.vals vs) ∧
      vs.head? = (t.rows.find? fun r => cmpSql .eq (r.get d) v).map (·.get c) := by
  refine ⟨(t.rows.filter fun r => cmpSql .eq (r.get d) v).map (·.get c), ?_, ?_⟩
  · rw [lookupText_eq]
    have hs := (any_lpar.catW (name_lexes hT.name)).cat any_rpar fun rest => stops_rpar rest
    refine exec_of_lex (any_select.cat ((name_lexes (hT.cols c hc)).cat (any_from.cat (hs.cat (any_where.cat
      ((name_lexes (hT.cols d hd)).cat any_eqParam fun rest => stops_space _)))) fun rest => stops_space _)) ?_
    simp only [List.cons_append, List.nil_append, sqlStmt, hT.found, Option.bind_some]
    rw [sqlLookup, resolve_mem hT.clash hc, resolve_mem hT.clash hd]
    rfl
  · rw [List.head?_map, List.head?_filter]

theorem numberLoop_rows {n : String} (hn : PlainName n) {raw idc : String} (hne : raw ≠ idc) (hi : idc ≠ "rid") (db : String → Option Table) :
    ∀ (vs : List Val) (k : Nat) (t : Table), vs.Nodup → (∀ c ∈ t.cols, PlainName c) → NoCaseClash t.cols → raw ∈ t.cols → idc ∈ t.cols →
      numberLoop db n raw idc k vs t = some ⟨t.cols, t.rows.map fun r =>
        if r.get raw ≠ .null ∧ r.get raw ∈ vs then r.set idc (.num ((k + vs.idxOf (r.get raw) : Nat) : ℚ)) else r⟩ := by
  intro vs
  induction vs with
  | nil => intro k t _ _ _ _ _; simp [numberLoop]
  | cons v vs ih =>
    intro k t hnd hp hcl h1 h2
    rw [numberLoop, update_exec (db := fun m => if m = n then some t else db m) (by simp) hn hp hcl h2 h1 hi]
    dsimp only
    rw [ih (k + 1) ⟨t.cols, t.rows.map fun r => if cmpSql .eq (r.get raw) v then r.set idc (.num k) else r⟩ (List.nodup_cons.1 hnd).2 hp hcl
      h1 h2]
    dsimp only
    rw [List.map_map]
    congr 2
    apply List.map_congr_left
    intro r _
    have hget : ∀ q : Val, (r.set idc q).get raw = r.get raw := by
      intro q
      rw [Row.get, Row.get]
      split
      · rfl
      · simp [Row.set, hne]
    have hv : v ∉ vs := (List.nodup_cons.1 hnd).1
    rw [Function.comp_apply]
    by_cases hnull : r.get raw = .null
    · have : cmpSql .eq (r.get raw) v = false := by rw [hnull]; rfl
      rw [this]
      simp [hnull]
    · by_cases he : r.get raw = v
      · have : cmpSql .eq (r.get raw) v = true := by
          rw [← he]
          cases hh : r.get raw with
          | null => exact absurd hh hnull
          | num q => simp [cmpSql, Op.onRat]
          | str s => simp [cmpSql, Op.onStr]
        rw [this, if_pos rfl, hget]
        rw [if_neg (by rw [he]; exact fun h => hv h.2), if_pos ⟨hnull, by rw [he]; exact List.mem_cons_self⟩, he]
        simp
      · have : cmpSql .eq (r.get raw) v = false := by
          cases hh : r.get raw with
          | null => exact absurd hh hnull
          | num q =>
            cases v with
            | num p => rw [hh] at he; simp [cmpSql, Op.onRat]; intro h; exact he (by rw [h])
            | _ => rfl
          | str s =>
            cases v with
            | str p => rw [hh] at he; simp [cmpSql, Op.onStr]; intro h; exact he (by rw [h])
            | _ => rfl
        rw [this]
        simp only [Bool.false_eq_true, if_false]
        by_cases hm : r.get raw ∈ vs
        · rw [if_pos ⟨hnull, hm⟩, if_pos ⟨hnull, List.mem_cons_of_mem _ hm⟩, List.idxOf_cons_ne _ (Ne.symm he)]
          congr 3
          omega
        · rw [if_neg fun h => hm h.2, if_neg fun h => (List.mem_cons.1 h.2).elim he hm]

/-- **C124** (partial), internal ids: the statements of `assign_internal_ids` give every record the place of its raw id among
the distinct raw ids, in the order of the records. -/
theorem C124_ids_partial (db : String → Option Table) (n : String) (t : Table) (hT : PlainTable db n t) (ho : InOrder t.rows)
    (raw idc : String) (hraw : raw ∈ t.cols) (hidc : idc ∈ t.cols) (hne : raw ≠ idc) (hi : idc ≠ "rid") :
    ∃ vs, sqlExec db [] (distinctText n.toList raw) = .ok (.vals vs) ∧
      numberLoop db n raw idc 0 vs t = some ⟨t.cols, numberBy raw idc t.rows⟩ := by
  refine ⟨distinctVals (t.rows.map (·.get raw)), ?_, ?_⟩
  · rw [distinctText_eq]
    refine exec_of_lexes (any_distinctCall.catW ((name_lexes (hT.cols raw hraw)).catW (any_closeFrom.catW
      ((name_lexes hT.name).catW orderBy_lexes fun rest => stops_space _)) fun rest => stops_rpar _)) ?_
    simp only [List.cons_append, List.nil_append, sqlStmt, hT.found, Option.bind_some]
    rw [if_pos (by simp [sameName]), sqlDistinct, resolve_mem hT.clash hraw, resolve_mem hT.clash hT.rid]
    simp only [Option.map_some]
    congr 3
    rw [List.Pairwise.insertionSort_eq]
    rw [InOrder, List.pairwise_map] at ho
    refine ho.imp ?_
    intro a b hab
    rw [rid_get, rid_get]
    simp [sqlLe]
    omega
  · rw [numberLoop_rows hT.name hne hi db _ 0 t (nodup_distinctVals _) hT.cols hT.clash hraw hidc]
    congr 2
    rw [numberBy]
    apply List.map_congr_left
    intro r hr
    by_cases hnull : r.get raw = .null
    · rw [if_pos hnull, if_neg fun h => h.1 hnull]
    · rw [if_neg hnull, if_pos ⟨hnull, (mem_distinctVals _ _).2 (List.mem_map_of_mem hr)⟩, codeOf]
      congr 2
      simp

theorem insert_exec {db : String → Option Table} {m : String} {t : Table} (hd : db m = some t) (hm : PlainName m)
    (hp : ∀ c ∈ t.cols, PlainName c) (hcl : NoCaseClash t.cols) {cs : List String} (hne : cs ≠ []) (hin : ∀ c ∈ cs, c ∈ t.cols)
    {vs : List Val} (hlen : vs.length = cs.length) {r : Row} (hrow : newRow (cs.zip vs) = some r) (hlast : ∀ z ∈ t.rows, z.rid < r.rid) :
    sqlExec db vs (insertText m.toList cs) = .ok (.wrote m ⟨t.cols, t.rows ++ [r]⟩) := by
  obtain ⟨k, hk⟩ : ∃ k, cs.length = k + 1 := ⟨cs.length - 1, by have := List.length_pos_iff.2 hne; omega⟩
  rw [insertText_eq, hk]
  refine exec_of_lex (any_insert.cat ((name_lexes hm).cat (any_open.cat ((cols_lexes hne fun c hc => hp c (hin c hc)).cat (any_closeValues.cat
    (params_lexes k)) fun rest => stops_rpar _)) fun rest => stops_space _)) ?_
  simp only [List.cons_append, List.nil_append, sqlStmt, hd, Option.bind_some]
  rw [sqlInsert, nameList_toks hne (by simp)]
  dsimp only
  rw [mapM_resolve hcl hin, insertTail, if_pos ⟨by rw [paramList_toks, hk], hlen⟩]
  dsimp only
  rw [insertAll, hrow]
  dsimp only
  rw [insertRow_last hlast]
  rfl

theorem insertMany_rows {m : String} (hm : PlainName m) {cols : List String} (hp : ∀ c ∈ cols, PlainName c) (hcl : NoCaseClash cols)
    {cs : List String} (hne : cs ≠ []) (hin : ∀ c ∈ cs, c ∈ cols) (db : String → Option Table) :
    ∀ (rs acc : List Row) (vss : List (List Val)), (∀ vs ∈ vss, vs.length = cs.length) →
      List.Forall₂ (fun vs r => newRow (cs.zip vs) = some r) vss rs → InOrder (acc ++ rs) →
        insertMany db m cs ⟨cols, acc⟩ vss = some ⟨cols, acc ++ rs⟩ := by
  intro rs
  induction rs with
  | nil => intro acc vss _ h _; cases h; simp [insertMany]
  | cons r rs ih =>
    intro acc vss hlen h ho
    cases h with
    | cons h1 h2 =>
      rw [insertMany, insert_exec (db := fun n => if n = m then some ⟨cols, acc⟩ else db n) (t := ⟨cols, acc⟩) (by simp) hm hp hcl hne hin
        (hlen _ (by simp)) h1]
      · have := ih (acc ++ [r]) _ (fun vs hv => hlen vs (by simp [hv])) h2 (by simpa using ho)
        simpa using this
      · intro x hx
        rw [InOrder, List.map_append, List.pairwise_append] at ho
        exact ho.2.2 _ (List.mem_map_of_mem hx) _ (by simp)

theorem zip_lookup_values : ∀ {cs : List String} {vs : List Val}, cs.Nodup → vs.length = cs.length →
    cs.map (fun c => ((cs.zip vs).lookup c).getD .null) = vs := by
  intro cs
  induction cs with
  | nil => intro vs _ h; simpa using h
  | cons c cs ih =>
    intro vs hnd hlen
    cases vs with
    | nil => simp at hlen
    | cons v vs =>
      have h1 := ih (List.nodup_cons.1 hnd).2 (vs := vs) (by simpa using hlen)
      rw [List.zip_cons_cons, List.map_cons, List.lookup_cons, beq_self_eq_true]
      dsimp only [Option.getD]
      congr 1
      conv_rhs => rw [← h1]
      apply List.map_congr_left
      intro d hd
      have hdc : (d == c) = false := by
        rw [beq_eq_false_iff_ne]
        rintro rfl
        exact (List.nodup_cons.1 hnd).1 hd
      rw [List.lookup_cons, hdc]
      rfl

theorem zip_lookup_none {cs : List String} {c : String} (h : c ∉ cs) (vs : List Val) : (cs.zip vs).lookup c = none := by
  induction cs generalizing vs with
  | nil => rfl
  | cons d ds ih =>
    cases vs with
    | nil => rfl
    | cons v vs =>
      have hc : (c == d) = false := by
        rw [beq_eq_false_iff_ne]
        rintro rfl
        simp at h
      rw [List.zip_cons_cons, List.lookup_cons, hc]
      exact ih (fun hh => h (by simp [hh])) vs

theorem newRow_values {cs : List String} (hnd : cs.Nodup) {vs : List Val} (hlen : vs.length = cs.length) {k : Nat}
    (h : (cs.zip vs).lookup "rid" = some (.num (k : ℚ))) : ∃ r, newRow (cs.zip vs) = some r ∧ r.rid = k ∧ keyOn cs r = vs ∧
      ∀ c, c ∉ cs → r.get c = .null := by
  have hget : ∀ c, Row.get ⟨k, fun c => ((cs.zip vs).lookup c).getD .null⟩ c = ((cs.zip vs).lookup c).getD .null := by
    intro c
    rw [Row.get]
    split
    · next e => rw [e, h]; rfl
    · rfl
  refine ⟨⟨k, fun c => ((cs.zip vs).lookup c).getD .null⟩, ?_, rfl, ?_, ?_⟩
  · rw [newRow, h]
    simp
  · rw [keyOn]
    conv_rhs => rw [← zip_lookup_values hnd hlen]
    exact List.map_congr_left fun c _ => hget c
  · intro c hc
    rw [hget, zip_lookup_none hc]
    rfl

/-- **C124** (partial), inserting: records with increasing ids inserted one after the other are stored as given, with the columns
that are not given empty. -/
theorem C124_insert_partial (db : String → Option Table) (m : String) (hm : PlainName m) (cols : List String)
    (hp : ∀ c ∈ cols, PlainName c) (hcl : NoCaseClash cols) (cs : List String) (hnd : cs.Nodup) (hin : ∀ c ∈ cs, c ∈ cols)
    (hr : "rid" ∈ cs) (vss : List (List Val)) (ids : List Nat) (hlen : ∀ vs ∈ vss, vs.length = cs.length)
    (hid : vss.map (fun vs => (cs.zip vs).lookup "rid") = ids.map fun k : Nat => some (.num (k : ℚ))) (hids : ids.Pairwise (· < ·)) :
    ∃ rows, insertMany db m cs ⟨cols, []⟩ vss = some ⟨cols, rows⟩ ∧ rows.map (keyOn cs) = vss ∧ rows.map (·.rid) = ids ∧
      ∀ r ∈ rows, ∀ c, c ∉ cs → r.get c = .null := by
  have hrows : ∃ rs, List.Forall₂ (fun vs r => newRow (cs.zip vs) = some r) vss rs ∧ rs.map (keyOn cs) = vss ∧ rs.map (·.rid) = ids ∧
      ∀ r ∈ rs, ∀ c, c ∉ cs → r.get c = .null := by
    clear hids
    induction vss generalizing ids with
    | nil =>
      cases ids with
      | nil => exact ⟨[], .nil, rfl, rfl, by simp⟩
      | cons k ids => simp at hid
    | cons vs vss ih =>
      cases ids with
      | nil => simp at hid
      | cons k ids =>
        rw [List.map_cons, List.map_cons, List.cons.injEq] at hid
        obtain ⟨rs, h1, h2, h3, h4⟩ := ih ids (fun v hv => hlen v (by simp [hv])) hid.2
        obtain ⟨r, h5, h6, h7, h8⟩ := newRow_values hnd (hlen vs (by simp)) hid.1
        refine ⟨r :: rs, .cons h5 h1, by rw [List.map_cons, h7, h2], by rw [List.map_cons, h6, h3], ?_⟩
        intro z hz
        rcases List.mem_cons.1 hz with rfl | hz
        · exact h8
        · exact h4 z hz
  obtain ⟨rs, h1, h2, h3, h4⟩ := hrows
  refine ⟨rs, ?_, h2, h3, h4⟩
  have := insertMany_rows hm hp hcl (List.ne_nil_of_mem hr) hin db rs [] vss hlen h1 (by rw [List.nil_append, InOrder, h3]; exact hids)
  simpa using this

/-! ## Where it fails -/

/-- The values a statement returns, or those it leaves in the columns `rid` and `c` of the table it writes. -/
def SqlOut.show (c : String) : SqlOut → List Val
  | .vals vs => vs
  | .wrote _ t => t.rows.flatMap fun r => [r.get "rid", r.get c]

/-- A database file with a column called `order`. -/
def exOrderTable : Table :=
  ⟨["rid", "uid", "iid", "user", "item", "interaction", "order"], [⟨0, fun _ => .num 1⟩]⟩

/-- **C124**, against the claim for all columns: the maximum of the column `order` of an existing database file exists, but the
statement for it, and the one that changes it, cannot be read; with the column `interaction` they can. -/
theorem C124_columns_fail : ∃ (db : String → Option Table) (w : World) (t : Table), db "interactions" = some t ∧ w.tables 0 = some t ∧
    w.look 0 (.max "order") = .ok (.val (.num 1)) ∧
    (sqlExec db [] (maxText "order" "interactions".toList)).map (SqlOut.show "order") = .error .crash ∧
    (sqlExec db [.num 2, .num 0] (updateText "interactions".toList "order" "rid")).map (SqlOut.show "order") = .error .crash ∧
    (sqlExec db [] (maxText "interaction" "interactions".toList)).map (SqlOut.show "order") = .ok [.num 1] ∧
    (sqlExec db [.num 2, .num 0] (updateText "interactions".toList "interaction" "rid")).map (SqlOut.show "interaction") =
      .ok [.num 0, .num 2] :=
  ⟨fun n => if n = "interactions" then some exOrderTable else none, .ofFile exOrderTable, exOrderTable, rfl, rfl, by decide +kernel,
    by decide +kernel, by decide +kernel, by decide +kernel, by decide +kernel⟩

/-- The statements after the three filters of C123, for the table with `ann` and `bob`: one record is left, with user `ann`, and
`bob` is deleted; and a record is added. -/
example : (∀ s ∈ [(countText, Val.num 1), (countUniqueText ["user"], .num 1), (maxText "item", .num 3), (minText "user", .str "ann")],
      (sqlExec (fun n => if n = "interactions" then some exTextTable else none) []
        (s.1 (exFilters.foldl (SOp.text "interactions".toList) (["rid", "user", "item", "interaction"], [])).2)).map (SqlOut.show "user") =
        .ok [s.2]) ∧
    (sqlExec (fun n => if n = "interactions" then some exTextTable else none) [] (deleteText "interactions".toList
      (exFilters.foldl (SOp.text "interactions".toList) (["rid", "user", "item", "interaction"], [])).2)).map (SqlOut.show "user") =
      .ok [.num 0, .str "ann"] ∧
    (exFilters.foldl SOp.tree (exTextInst ["rid", "user", "item", "interaction"])).state ≠ .table ∧
    (sqlExec (fun n => if n = "interactions" then some exTextTable else none) [.str "eve", .num 9, .num 1, .num 2]
      (insertText "interactions".toList ["user", "item", "interaction", "rid"])).map (SqlOut.show "user") =
      .ok [.num 0, .str "ann", .num 1, .str "bob", .num 2, .str "eve"] := by
  decide +kernel

/-- A filter on that table, copied to another table. -/
example : InOrder exTextTable.rows ∧
    ([SOp.drop [0] false].foldl SOp.tree (exTextInst ["rid", "user", "item", "interaction"])).buildTable =
      .ok ["rid", "uid", "iid", "user", "item", "interaction"] ∧
    (sqlExec (fun n => if n = "interactions" then some exTextTable else if n = "interactions_25" then
        some ⟨["rid", "uid", "iid", "user", "item", "interaction"], []⟩ else none) []
      (copyText "interactions_25".toList ["rid", "user", "item", "interaction"]
        ([SOp.drop [0] false].foldl (SOp.text "interactions".toList) (["rid", "user", "item", "interaction"], [])).2)).map
      (SqlOut.show "user") = .ok [.num 1, .str "bob"] := by
  unfold InOrder
  decide +kernel

/-- The internal ids of users on that table: `ann` is 0, `bob` is 1; and back. -/
example : (sqlExec (fun n => if n = "interactions" then some exTextTable else none) [] (distinctText "interactions".toList "user")).map
      (SqlOut.show "user") = .ok [.str "ann", .str "bob"] ∧
    (numberLoop (fun _ => none) "interactions" "user" "uid" 0 [.str "ann", .str "bob"] exTextTable).map (fun t => t.rows.map (·.get "uid")) =
      some [.num 0, .num 1] ∧
    (sqlExec (fun n => if n = "interactions" then some exTextTable else none) [.str "bob"] (lookupText "interactions".toList "item" "user")).map
      (SqlOut.show "user") = .ok [.num 4] := by
  decide +kernel

/-- Records as they are read from a file. -/
example : (([[Val.num 7, .num 8, .num 5, .num 0], [.num 7, .num 9, .num 1, .num 1]].map fun vs =>
      (["user", "item", "interaction", "rid"].zip vs).lookup "rid") = [0, 1].map fun k : Nat => some (.num (k : ℚ))) ∧
    (insertMany (fun _ => none) "interactions" ["user", "item", "interaction", "rid"] ⟨["rid", "uid", "iid", "user", "item", "interaction"], []⟩
      [[.num 7, .num 8, .num 5, .num 0], [.num 7, .num 9, .num 1, .num 1]]).map (fun t => t.rows.map (·.get "item")) =
      some [.num 8, .num 9] := by
  decide +kernel

end DRec
