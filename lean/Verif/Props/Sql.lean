import Verif.Lemmas.Sql
import Verif.Spec.Mem

/-! # C123: SQL texts -/

namespace DRec

open DRec.Spec

theorem clash_sub {a b : List String} (h : NoCaseClash b) (hs : ∀ c ∈ a, c ∈ b) : NoCaseClash a :=
  fun x hx y hy e => h x (hs x hx) y (hs y hy) e

theorem joinText_append (sep : List Char) {a b : List (List Char)} (ha : a ≠ []) (hb : b ≠ []) :
    joinText sep (a ++ b) = joinText sep a ++ sep ++ joinText sep b := by
  induction a with
  | nil => exact absurd rfl ha
  | cons x xs ih =>
    rw [List.cons_append, joinText_cons _ _ (by simp [hb])]
    by_cases he : xs = []
    · subst he; rfl
    · rw [ih he, joinText_cons _ _ he]
      simp

theorem joinToks_append (sep : Tok) {a b : List (List Tok)} (ha : a ≠ []) (hb : b ≠ []) :
    joinToks sep (a ++ b) = joinToks sep a ++ sep :: joinToks sep b := by
  induction a with
  | nil => exact absurd rfl ha
  | cons x xs ih =>
    rw [List.cons_append, joinToks_cons _ _ (by simp [hb])]
    by_cases he : xs = []
    · subst he; rfl
    · rw [ih he, joinToks_cons _ _ he]
      simp

/-! ## States -/

/-- A condition as text, as words and as tree. -/
structure CondRep where
  text : List Char
  toks : List Tok
  cond : SqlCond

/-- The state of a dataset as text and as tree, after at least one filter. -/
structure StateShape (db : String → Option Table) (t : Table) (cols : List String) (s : List Char) (q : Src) where
  src : Src
  scols : List String
  rows : List Row
  H : List Char
  S : List Tok
  ps : List CondRep
  tree : q = .sub cols src (ps.map (·.cond))
  text : s = H ++ andText (ps.map (·.text))
  eval : evalSrc t src = .ok (scols, rows)
  sub : rows.Sublist t.rows
  known : ∀ c ∈ scols, c ∈ t.cols
  has : ∀ c ∈ cols, c ∈ scols
  reads : SourceReads db S scols rows
  head : LexesAny H ([.kw .select] ++ (nameToks cols ++ ([.kw .from] ++ (S ++ [.kw .where]))))
  some : ps ≠ []
  conds : ∀ p ∈ ps, Lexes p.text p.toks ∧ CondReads db scols rows p.toks p.cond ∧ p.cond.valid scols = true

/-- The words of a state. -/
def StateShape.toks {db : String → Option Table} {t : Table} {cols : List String} {s : List Char} {q : Src} (h : StateShape db t cols s q) : List Tok :=
  [.kw .select] ++ (nameToks cols ++ ([.kw .from] ++ (h.S ++ ([.kw .where] ++ joinToks (.kw .and) (h.ps.map (·.toks))))))

/-- The rows of a state. -/
def StateShape.out {db : String → Option Table} {t : Table} {cols : List String} {s : List Char} {q : Src} (h : StateShape db t cols s q) : List Row :=
  h.rows.filter fun r => (h.ps.map (·.cond)).all (SqlCond.holds h.scols h.rows r)

theorem StateShape.lexes {db : String → Option Table} {t : Table} {cols : List String} {s : List Char} {q : Src}
    (h : StateShape db t cols s q) : Lexes s h.toks := by
  have h1 := join_lexes any_and (fun rest => stops_space _) (h.ps.map fun p => (p.text, p.toks)) (by simpa using h.some) (by
    intro p hp
    obtain ⟨x, hx, rfl⟩ := List.mem_map.1 hp
    exact (h.conds x hx).1)
  rw [List.map_map, List.map_map] at h1
  have h2 := h.head.catW h1
  have e : h.toks = ([.kw .select] ++ (nameToks cols ++ ([.kw .from] ++ (h.S ++ [.kw .where])))) ++
      joinToks (.kw .and) (h.ps.map ((fun x => x.2) ∘ fun p => (p.text, p.toks))) := by
    simp only [StateShape.toks, List.append_assoc, List.nil_append, List.cons_append]
    rfl
  rw [← e] at h2
  have h3 : Lexes (h.H ++ andText (h.ps.map (·.text))) h.toks := h2
  rw [← h.text] at h3
  exact h3

theorem StateShape.select {db : String → Option Table} {n : String} {t : Table} (hT : PlainTable db n t) {cols : List String} (hne : cols ≠ [])
    {s : List Char} {q : Src} (h : StateShape db t cols s q) (f : Nat) (rest : List Tok) (hf : h.toks.length ≤ f) (hr : Ends rest) :
    sqlSelect db f (h.toks ++ rest) = .some ((cols, (limitTail h.out rest).1), (limitTail h.out rest).2) := by
  have h1 := select_reads h.reads (clash_sub hT.clash h.known) hne h.has (h.ps.map fun p => (p.toks, p.cond)) (by simpa using h.some) (by
    intro p hp
    obtain ⟨x, hx, rfl⟩ := List.mem_map.1 hp
    exact (h.conds x hx).2.1) (ts := h.toks) (by
      rw [StateShape.toks, List.map_map]; rfl) f rest hf hr
  rw [h1, List.map_map]
  rfl

theorem StateShape.evaluates {db : String → Option Table} {t : Table} {cols : List String} (hne : cols ≠ [])
    {s : List Char} {q : Src} (h : StateShape db t cols s q) : evalSrc t q = .ok (cols, h.out) := by
  have hv : (h.ps.map (·.cond)).all (SqlCond.valid h.scols) = true := by
    rw [List.all_eq_true]
    intro c hc
    obtain ⟨p, hp, rfl⟩ := List.mem_map.1 hc
    exact (h.conds p hp).2.2
  have h1 : evalSrc t (.sub cols h.src (h.ps.map (·.cond))) = .ok (cols, h.out) := by
    rw [evalSrc, h.eval]
    dsimp only
    rw [if_pos ⟨hne, by simpa using h.has, hv⟩]
    rfl
  rw [← h.tree] at h1
  exact h1

/-- The state of a dataset as text and as tree. -/
def Rep (db : String → Option Table) (t : Table) (cols : List String) (s : List Char) (q : Src) : Prop :=
  cols ≠ [] ∧ "rid" ∈ cols ∧ (∀ c ∈ cols, c ∈ t.cols) ∧ (q = .table ∧ s = [] ∨ s ≠ [] ∧ q ≠ .table ∧ Nonempty (StateShape db t cols s q))

theorem ends_nil : Ends [] := ⟨by simp, by simp, by simp⟩

theorem ends_rpar (ts : List Tok) : Ends (.rpar :: ts) := ⟨by simp, by simp, by simp⟩

/-- The state as a source. -/
theorem rep_source {db : String → Option Table} {n : String} {t : Table} (hT : PlainTable db n t) {cols : List String} {s : List Char}
    {q : Src} (h : Rep db t cols s q) : ∃ scols rows S, evalSrc t q = .ok (scols, rows) ∧ rows.Sublist t.rows ∧
      (∀ c ∈ scols, c ∈ t.cols) ∧ (∀ c ∈ cols, c ∈ scols) ∧ SourceReads db S scols rows ∧
      LexesAny (['('] ++ sourceText n.toList s ++ [')']) S := by
  obtain ⟨hne, _, hk, ⟨rfl, rfl⟩ | ⟨hs, _, ⟨h⟩⟩⟩ := h
  · refine ⟨t.cols, t.rows, [.lpar] ++ [.name n] ++ [.rpar], rfl, List.Sublist.refl _, fun _ h => h, hk, ⟨by simp, ?_⟩, ?_⟩
    · intro f rest hf
      obtain ⟨f, rfl⟩ : ∃ f', f = f' + 1 := ⟨f - 1, by simp at hf; omega⟩
      simp only [List.cons_append, List.nil_append, sqlSource, hT.found, Option.map_some]
    · exact (any_lpar.catW (name_lexes hT.name)).cat any_rpar fun rest => stops_cons (.inr (.inr (.inl rfl)))
  · refine ⟨cols, h.out, [.lpar] ++ h.toks ++ [.rpar], h.evaluates hne, List.filter_sublist.trans h.sub, hk,
      fun _ h => h, ⟨by simp, ?_⟩, ?_⟩
    · intro f rest hf
      simp only [List.length_append, List.length_cons, List.length_nil] at hf
      obtain ⟨f, rfl⟩ : ∃ f', f = f' + 1 := ⟨f - 1, by omega⟩
      have h1 := h.select hT hne f (.rpar :: rest) (by omega) (ends_rpar rest)
      have e : [.lpar] ++ h.toks ++ [.rpar] ++ rest = .lpar :: (h.toks ++ .rpar :: rest) := by simp
      rw [e]
      have e2 : h.toks ++ .rpar :: rest = .kw .select :: (h.toks ++ .rpar :: rest).tail := rfl
      rw [sqlSource]
      · rw [h1]; rfl
      · intro m ts hh
        rw [e2] at hh
        cases hh
    · rw [sourceText, if_neg hs]
      exact (any_lpar.catW h.lexes).cat any_rpar fun rest => stops_cons (.inr (.inr (.inl rfl)))

theorem nodup_sub {t : Table} (h : (t.rows.map (·.rid)).Nodup) {rows : List Row} (hs : rows.Sublist t.rows) :
    (rows.map (·.rid)).Nodup := h.sublist (hs.map _)

theorem from_cols {cols : List String} (hne : cols ≠ []) (hp : ∀ c ∈ cols, PlainName c) {src : List Char} {S : List Tok}
    (hS : LexesAny src S) : LexesAny ("SELECT ".toList ++ colsText cols ++ " FROM ".toList ++ src ++ " WHERE ".toList)
      ([.kw .select] ++ (nameToks cols ++ ([.kw .from] ++ (S ++ [.kw .where])))) := by
  have := any_select.cat ((cols_lexes hne hp).cat (any_from.cat (hS.cat any_where)) fun rest => stops_space _)
  simpa using this

/-! ## Filters -/

theorem conds_rep (db : String → Option Table) {scols : List String} (rows : List Row) (hc : NoCaseClash scols)
    (hp : ∀ c ∈ scols, PlainName c) : ∀ (cs : List (String × Op × Rhs × List Char)),
      (∀ c ∈ cs, c.1 ∈ scols ∧ RhsText c.2.2.1 c.2.2.2) →
      ∃ ps : List CondRep, ps.map (·.text) = cs.map (fun c => condText c.1 c.2.1 c.2.2.2) ∧
        ps.map (·.cond) = cs.map (fun c => .cmp c.1 c.2.1 c.2.2.1) ∧
        ∀ p ∈ ps, Lexes p.text p.toks ∧ CondReads db scols rows p.toks p.cond ∧ p.cond.valid scols = true := by
  intro cs
  induction cs with
  | nil => intro _; exact ⟨[], rfl, rfl, by simp⟩
  | cons c cs ih =>
    intro h
    obtain ⟨ps, h1, h2, h3⟩ := ih fun x hx => h x (by simp [hx])
    obtain ⟨hm, hr⟩ := h c (by simp)
    obtain ⟨ts, h4, h5⟩ := cmp_reads db rows hc hm (hp _ hm) c.2.1 hr
    refine ⟨⟨_, ts, _⟩ :: ps, by rw [List.map_cons, List.map_cons, h1], by rw [List.map_cons, List.map_cons, h2], ?_⟩
    intro p hpm
    rcases List.mem_cons.1 hpm with rfl | hpm
    · exact ⟨h4, h5, by simpa [SqlCond.valid] using hm⟩
    · exact h3 p hpm

theorem table_source {db : String → Option Table} {n : String} {t : Table} (hT : PlainTable db n t) :
    SourceReads db [.name n] t.cols t.rows := by
  refine ⟨by simp, ?_⟩
  intro f rest hf
  obtain ⟨f, rfl⟩ : ∃ f', f = f' + 1 := ⟨f - 1, by simp at hf; omega⟩
  simp only [List.cons_append, List.nil_append, sqlSource, hT.found, Option.map_some]

theorem step_select {db : String → Option Table} {n : String} {t : Table} (hT : PlainTable db n t) {x : Inst} {s : List Char}
    (h : Rep db t x.columns s x.state) {cs : List (String × Op × Rhs × List Char)} (hf : (SOp.select cs).Fits x.columns) :
    Rep db t x.columns ((SOp.select cs).text n.toList (x.columns, s)).2 ((SOp.select cs).tree x).state := by
  obtain ⟨hcs, hfit⟩ := hf
  obtain ⟨hne, hrid, hk, hcase⟩ := h
  refine ⟨hne, hrid, hk, .inr ?_⟩
  have hp : ∀ c ∈ x.columns, PlainName c := fun c hc => hT.cols c (hk c hc)
  rcases hcase with ⟨hq, rfl⟩ | ⟨hs, hq, ⟨h⟩⟩
  · obtain ⟨ps, h1, h2, h3⟩ := conds_rep db t.rows hT.clash hT.cols cs fun c hc => ⟨hk _ (hfit c hc).1, (hfit c hc).2⟩
    have hps : ps ≠ [] := by
      rintro rfl
      simp at h1
      exact hcs h1
    have e : ((SOp.select cs).tree x).state = .sub x.columns .table (ps.map (·.cond)) := by
      simp only [SOp.tree, Inst.queryWith, hq, h2]
    have et : ((SOp.select cs).text n.toList (x.columns, [])).2 =
        ("SELECT ".toList ++ colsText x.columns ++ " FROM ".toList ++ n.toList ++ " WHERE ".toList) ++ andText (ps.map (·.text)) := by
      simp only [SOp.text, stateText, if_true, h1]
    refine ⟨by rw [et]; simp, by rw [e]; simp, ⟨⟨.table, t.cols, t.rows, _, [.name n], ps, e, et, rfl, List.Sublist.refl _,
      fun _ h => h, hk, table_source hT, ?_, hps, h3⟩⟩⟩
    have := any_select.cat ((cols_lexes hne hp).cat (any_from.cat ((name_lexes hT.name).cat any_where fun rest => stops_space _))
      fun rest => stops_space _)
    simpa using this
  · obtain ⟨ps, h1, h2, h3⟩ := conds_rep db h.rows (clash_sub hT.clash h.known) (fun c hc => hT.cols c (h.known c hc)) cs
      fun c hc => ⟨h.has _ (hfit c hc).1, (hfit c hc).2⟩
    have hps : ps ≠ [] := by
      rintro rfl
      simp at h1
      exact hcs h1
    have e : ((SOp.select cs).tree x).state = .sub x.columns h.src ((h.ps ++ ps).map (·.cond)) := by
      simp only [SOp.tree, Inst.queryWith, h.tree, List.map_append, h2]
    have et : ((SOp.select cs).text n.toList (x.columns, s)).2 = h.H ++ andText ((h.ps ++ ps).map (·.text)) := by
      simp only [SOp.text, stateText, if_neg hs, ← h1]
      rw [List.map_append, andText, andText, joinText_append _ (by simpa using h.some) (by simpa using hps)]
      conv_lhs => rw [h.text]
      simp [andText]
    refine ⟨?_, by rw [e]; simp, ⟨⟨h.src, h.scols, h.rows, h.H, h.S, h.ps ++ ps, e, et, h.eval, h.sub, h.known, h.has, h.reads,
      h.head, by simp [hps], ?_⟩⟩⟩
    · simp only [SOp.text, stateText, if_neg hs]
      simp
    · intro p hpm
      rcases List.mem_append.1 hpm with hpm | hpm
      · exact h.conds p hpm
      · exact h3 p hpm

theorem fromOpen : " FROM (".toList = " FROM ".toList ++ ['('] := by decide

theorem whereIn : ") WHERE rid IN (".toList = [')'] ++ (" WHERE ".toList ++ "rid IN (".toList) := by decide

theorem whereNotIn : ") WHERE rid NOT IN (".toList = [')'] ++ (" WHERE ".toList ++ "rid NOT IN (".toList) := by decide

theorem whereFirst : ") WHERE rid IN (SELECT MIN(rid) FROM (".toList =
    [')'] ++ (" WHERE ".toList ++ ("rid IN (SELECT MIN(rid) FROM ".toList ++ ['('])) := by decide

theorem closeGroup : ") GROUP BY ".toList = [')'] ++ " GROUP BY ".toList := by decide

theorem dropText_eq (cols : List String) (src : List Char) (ids : List Nat) (keep : Bool) : dropText cols src ids keep =
    ("SELECT ".toList ++ colsText cols ++ " FROM ".toList ++ (['('] ++ src ++ [')']) ++ " WHERE ".toList) ++
    ((if keep then "rid IN (".toList else "rid NOT IN (".toList) ++ joinText [','] (ids.map fun n => (toString n).toList) ++ [')']) := by
  unfold dropText
  rw [fromOpen, whereIn, whereNotIn]
  generalize "SELECT ".toList = a
  generalize " FROM ".toList = b
  generalize " WHERE ".toList = c
  generalize "rid IN (".toList = d
  generalize "rid NOT IN (".toList = e
  cases keep <;> simp

theorem uniqueText_eq (cols : List String) (src : List Char) : uniqueText cols src =
    ("SELECT ".toList ++ (colsText cols ++ (if "rid" ∈ cols then [] else ", rid".toList)) ++ " FROM ".toList ++
      (['('] ++ src ++ [')']) ++ " WHERE ".toList) ++
    ("rid IN (SELECT MIN(rid) FROM ".toList ++ (['('] ++ src ++ [')']) ++ " GROUP BY ".toList ++ colsText cols ++ [')']) := by
  unfold uniqueText
  rw [fromOpen, whereFirst, closeGroup]
  generalize "SELECT ".toList = a
  generalize " FROM ".toList = b
  generalize " WHERE ".toList = c
  generalize "rid IN (SELECT MIN(rid) FROM ".toList = d
  generalize " GROUP BY ".toList = e
  generalize (if "rid" ∈ cols then [] else ", rid".toList) = g
  simp

theorem cat_ne (a b : List Char) {c d e : List Char} : ("SELECT ".toList ++ a ++ c ++ d ++ e) ++ b ≠ [] := by
  simp

theorem step_drop {db : String → Option Table} {n : String} {t : Table} (hT : PlainTable db n t) {x : Inst} {s : List Char}
    (h : Rep db t x.columns s x.state) (ids : List Nat) (keep : Bool) :
    Rep db t x.columns ((SOp.drop ids keep).text n.toList (x.columns, s)).2 ((SOp.drop ids keep).tree x).state := by
  obtain ⟨scols, rows, S, he, hsub, hkn, hhas, hreads, hlex⟩ := rep_source hT h
  obtain ⟨hne, hrid, hk, _⟩ := h
  obtain ⟨ts, h1, h2⟩ := drop_reads db rows (clash_sub hT.clash hkn) (hhas _ hrid) ids keep
  have hp : ∀ c ∈ x.columns, PlainName c := fun c hc => hT.cols c (hk c hc)
  have hH := from_cols hne hp hlex
  have et : ((SOp.drop ids keep).text n.toList (x.columns, s)).2 =
      ("SELECT ".toList ++ colsText x.columns ++ " FROM ".toList ++ (['('] ++ sourceText n.toList s ++ [')']) ++ " WHERE ".toList) ++
      ((if keep then "rid IN (".toList else "rid NOT IN (".toList) ++ joinText [','] (ids.map fun n => (toString n).toList) ++ [')']) := by
    rw [SOp.text]
    exact dropText_eq _ _ _ _
  have hn : ((SOp.drop ids keep).text n.toList (x.columns, s)).2 ≠ [] := by rw [et]; exact cat_ne _ _
  generalize ((SOp.drop ids keep).text n.toList (x.columns, s)).2 = out at et hn ⊢
  generalize "SELECT ".toList ++ colsText x.columns ++ " FROM ".toList ++ (['('] ++ sourceText n.toList s ++ [')']) ++ " WHERE ".toList = H at et hH
  generalize (if keep then "rid IN (".toList else "rid NOT IN (".toList) ++ joinText [','] (ids.map fun n => (toString n).toList) ++ [')'] = T at et h1
  refine ⟨hne, hrid, hk, .inr ⟨hn, by simp [SOp.tree], ⟨⟨x.state, scols, rows, H, S, [⟨T, ts, if keep then .ridIn ids else .ridNotIn ids⟩],
    rfl, et, he, hsub, hkn, hhas, hreads, hH, by simp, ?_⟩⟩⟩⟩
  intro p hpm
  obtain rfl := List.mem_singleton.1 hpm
  refine ⟨h1, h2, ?_⟩
  cases keep <;> simpa [SqlCond.valid] using hhas _ hrid

theorem withRid_names {cols : List String} (hne : cols ≠ []) (hp : ∀ c ∈ cols, PlainName c) (hr : PlainName "rid") :
    Lexes (colsText cols ++ (if "rid" ∈ cols then [] else ", rid".toList)) (nameToks (withRid cols)) := by
  unfold withRid
  by_cases h : "rid" ∈ cols
  · rw [if_pos h, if_pos h, List.append_nil]
    exact cols_lexes hne hp
  · rw [if_neg h, if_neg h]
    have e : nameToks (cols ++ ["rid"]) = nameToks cols ++ ([.comma] ++ ([] ++ [.name "rid"])) := by
      rw [nameToks, List.map_append, joinToks_append _ (by simpa using hne) (by simp)]
      rfl
    rw [e]
    exact (cols_lexes hne hp).catW (any_comma.catW (any_space.catW (name_lexes hr))) fun rest => stops_comma _

theorem step_unique {db : String → Option Table} {n : String} {t : Table} (hT : PlainTable db n t) {x : Inst} {s : List Char}
    (h : Rep db t x.columns s x.state) {cols : List String} (hf : (SOp.unique cols).Fits x.columns) :
    Rep db t (withRid cols) ((SOp.unique cols).text n.toList (x.columns, s)).2 ((SOp.unique cols).tree x).state := by
  obtain ⟨hcn, hcm⟩ := hf
  obtain ⟨scols, rows, S, he, hsub, hkn, hhas, hreads, hlex⟩ := rep_source hT h
  obtain ⟨hne, hrid, hk, _⟩ := h
  have hw : ∀ c ∈ withRid cols, c ∈ x.columns := by
    intro c hc
    unfold withRid at hc
    split at hc
    · exact hcm c hc
    · rcases List.mem_append.1 hc with hc | hc
      · exact hcm c hc
      · rw [List.mem_singleton.1 hc]; exact hrid
  have hwr : "rid" ∈ withRid cols := by
    unfold withRid
    split
    · assumption
    · simp
  have hp : ∀ c ∈ cols, PlainName c := fun c hc => hT.cols c (hk c (hcm c hc))
  obtain ⟨ts, h1, h2⟩ := first_reads db (clash_sub hT.clash hkn) (nodup_sub hT.ids hsub) (hhas _ hrid) hreads hlex hcn
    (fun c hc => hhas c (hcm c hc)) hp
  have et : ((SOp.unique cols).text n.toList (x.columns, s)).2 =
      ("SELECT ".toList ++ (colsText cols ++ (if "rid" ∈ cols then [] else ", rid".toList)) ++ " FROM ".toList ++
        (['('] ++ sourceText n.toList s ++ [')']) ++ " WHERE ".toList) ++
      ("rid IN (SELECT MIN(rid) FROM ".toList ++ (['('] ++ sourceText n.toList s ++ [')']) ++ " GROUP BY ".toList ++ colsText cols ++ [')']) := by
    rw [SOp.text]
    exact uniqueText_eq _ _
  have hn : ((SOp.unique cols).text n.toList (x.columns, s)).2 ≠ [] := by rw [et]; exact cat_ne _ _
  have hH : LexesAny ("SELECT ".toList ++ (colsText cols ++ (if "rid" ∈ cols then [] else ", rid".toList)) ++ " FROM ".toList ++
      (['('] ++ sourceText n.toList s ++ [')']) ++ " WHERE ".toList)
      ([.kw .select] ++ (nameToks (withRid cols) ++ ([.kw .from] ++ (S ++ [.kw .where])))) := by
    have h3 := any_select.cat ((withRid_names hcn hp (hT.cols _ hT.rid)).cat (any_from.cat (hlex.cat any_where))
      fun rest => stops_space _)
    simp only [List.append_assoc] at h3 ⊢
    exact h3
  generalize ((SOp.unique cols).text n.toList (x.columns, s)).2 = out at et hn ⊢
  generalize "SELECT ".toList ++ (colsText cols ++ (if "rid" ∈ cols then [] else ", rid".toList)) ++ " FROM ".toList ++
    (['('] ++ sourceText n.toList s ++ [')']) ++ " WHERE ".toList = H at et hH
  generalize "rid IN (SELECT MIN(rid) FROM ".toList ++ (['('] ++ sourceText n.toList s ++ [')']) ++ " GROUP BY ".toList ++
    colsText cols ++ [')'] = T at et h1
  refine ⟨List.ne_nil_of_mem hwr, hwr, fun c hc => hk c (hw c hc), .inr ⟨hn, by simp [SOp.tree],
    ⟨⟨x.state, scols, rows, H, S, [⟨T, ts, .ridFirst cols⟩], rfl, et, he, hsub, hkn, fun c hc => hhas c (hw c hc), hreads, hH,
      by simp, ?_⟩⟩⟩⟩
  · intro p hpm
    obtain rfl := List.mem_singleton.1 hpm
    refine ⟨h1, h2, ?_⟩
    simp only [SqlCond.valid, Bool.and_eq_true, decide_eq_true_eq, Bool.not_eq_true', List.isEmpty_eq_false_iff, List.all_eq_true]
    exact ⟨⟨hhas _ hrid, hcn⟩, fun c hc => hhas c (hcm c hc)⟩

theorem ops_rep {db : String → Option Table} {n : String} {t : Table} (hT : PlainTable db n t) : ∀ (ops : List SOp) (x : Inst) (s : List Char),
    Rep db t x.columns s x.state → AllFit x.columns ops →
      (ops.foldl (SOp.text n.toList) (x.columns, s)).1 = (ops.foldl SOp.tree x).columns ∧
      Rep db t (ops.foldl SOp.tree x).columns (ops.foldl (SOp.text n.toList) (x.columns, s)).2 (ops.foldl SOp.tree x).state := by
  intro ops
  induction ops with
  | nil => intro x s h _; exact ⟨rfl, h⟩
  | cons o os ih =>
    intro x s h hf
    obtain ⟨h1, h2⟩ := hf
    cases o with
    | select cs => exact ih ((SOp.select cs).tree x) _ (step_select hT h h1) h2
    | drop ids keep => exact ih ((SOp.drop ids keep).tree x) _ (step_drop hT h ids keep) h2
    | unique cols => exact ih ((SOp.unique cols).tree x) _ (step_unique hT h h1) h2

/-! ## Reading -/

theorem run_of_select {db : String → Option Table} {s : List Char} {ts : List Tok} (hl : sqlLex s = some ts)
    {r : List String × List Row} (h : sqlSelect db (ts.length + 1) ts = some (r, [])) : sqlRun db s = .ok r := by
  unfold sqlRun
  rw [hl]
  dsimp only
  rw [h]

theorem lex_limit : sqlLex " LIMIT 1".toList = some [.kw .limit, .num 1] := by decide +kernel

theorem ends_limit : Ends [.kw .limit, .num 1] := ⟨by simp, by simp, by simp⟩

theorem rep_read {db : String → Option Table} {n : String} {t : Table} (hT : PlainTable db n t) {x : Inst} {s : List Char}
    (h : Rep db t x.columns s x.state) : ∃ rows : List Row, evalSrc t x.query = .ok (x.columns, rows) ∧
      sqlRun db (fetchText x.columns n.toList s) = .ok (x.columns, rows) ∧
      sqlRun db (fetchText x.columns n.toList s ++ " LIMIT 1".toList) = .ok (x.columns, rows.take 1) := by
  obtain ⟨hne, hrid, hk, hcase⟩ := h
  have key : ∀ (txt : List Char) (ts : List Tok) (rows : List Row), Lexes txt ts →
      (∀ f rest, ts.length ≤ f → Ends rest → sqlSelect db f (ts ++ rest) =
        some ((x.columns, (limitTail rows rest).1), (limitTail rows rest).2)) →
      sqlRun db txt = .ok (x.columns, rows) ∧ sqlRun db (txt ++ " LIMIT 1".toList) = .ok (x.columns, rows.take 1) := by
    intro txt ts rows hl hs
    constructor
    · have h1 := hl [] stops_nil
      rw [List.append_nil] at h1
      refine run_of_select (ts := ts ++ []) (by rw [h1]; rfl) ?_
      exact hs _ [] (by simp) ends_nil
    · have h1 := hl " LIMIT 1".toList (stops_space _)
      rw [lex_limit] at h1
      refine run_of_select h1 ?_
      rw [hs _ _ (by simp; omega) ends_limit]
      rfl
  rcases hcase with ⟨hq, rfl⟩ | ⟨hs, hq, ⟨h⟩⟩
  · refine ⟨t.rows, ?_, ?_⟩
    · rw [Inst.query, hq]
      simp only [evalSrc]
      rw [if_pos ⟨hne, by simpa using hk, by simp⟩]
      simp
    · refine key _ ([.kw .select] ++ (nameToks x.columns ++ ([.kw .from] ++ [.name n]))) _ ?_ ?_
      · have := any_select.catW ((cols_lexes hne fun c hc => hT.cols c (hk c hc)).catW (any_from.catW (name_lexes hT.name))
          fun rest => stops_space _)
        simpa [fetchText] using this
      · intro f rest hf hr
        exact select_plain_reads (table_source hT) hT.clash hne hk rfl f rest hf hr
  · refine ⟨h.out, ?_, ?_⟩
    · have : x.query = x.state := by
        rw [Inst.query]
        split
        · next hh => exact absurd hh hq
        · rfl
      rw [this]
      exact h.evaluates hne
    · rw [fetchText, if_neg hs]
      exact key s h.toks _ h.lexes fun f rest hf hr => h.select hT hne f rest hf hr

/-- **C123** (partial).  Whatever filters `select`, `drop` and `unique` are applied to a dataset in whatever order, reading the
SQL text the code has put together gives exactly the records the filters stand for, in the columns asked for, and with `LIMIT 1`
the first of them; if table and columns have plain names that differ in more than upper and lower case and texts to compare with
contain no double quotes.  Without these the claim is false (`C123_columns_fail`, `C123_injection`). -/
theorem C123_history_partial (db : String → Option Table) (n : String) (t : Table) (hT : PlainTable db n t) (x : Inst)
    (hx : x.state = .table) (hr : "rid" ∈ x.columns) (hc : ∀ c ∈ x.columns, c ∈ t.cols) (ops : List SOp) (hf : AllFit x.columns ops) :
    let y := ops.foldl SOp.tree x
    let s := ops.foldl (SOp.text n.toList) (x.columns, [])
    ∃ rows : List Row, evalSrc t y.query = .ok (y.columns, rows) ∧
      sqlRun db (fetchText s.1 n.toList s.2) = .ok (y.columns, rows) ∧
      sqlRun db (fetchText s.1 n.toList s.2 ++ " LIMIT 1".toList) = .ok (y.columns, rows.take 1) := by
  obtain ⟨h1, h2⟩ := ops_rep hT ops x [] ⟨List.ne_nil_of_mem hr, hr, hc, .inl ⟨hx, rfl⟩⟩ hf
  dsimp only
  rw [h1]
  exact rep_read hT h2

/-! ## Creating tables -/

theorem colDefs_tail (a b : String) (l : List (String × String)) :
    colDefs (.name a :: .name b :: ((l.flatMap fun p => [.comma, .name p.1, .name p.2]) ++ [.rpar])) = some (a :: l.map (·.1)) := by
  induction l generalizing a b with
  | nil => rfl
  | cons p l ih =>
    simp only [List.flatMap_cons, List.cons_append, List.nil_append]
    rw [colDefs]
    rw [ih p.1 p.2]
    rfl

theorem noDup_of {l : List String} (h : l.Nodup) (hc : NoCaseClash l) : noDup l = true := by
  induction l with
  | nil => rfl
  | cons c cs ih =>
    obtain ⟨h1, h2⟩ := List.nodup_cons.1 h
    rw [noDup, Bool.and_eq_true, List.all_eq_true]
    refine ⟨fun d hd => ?_, ih h2 fun a ha b hb e => hc a (by simp [ha]) b (by simp [hb]) e⟩
    rw [Bool.not_eq_true', Bool.eq_false_iff]
    intro e
    exact h1 (hc c (by simp) d (by simp [hd]) e ▸ hd)

/-- The name of a type. -/
def DType.word : DType → String
  | .int => "INTEGER"
  | .float => "REAL"
  | .obj => "TEXT"

theorem type_lexes (d : DType) : Lexes d.sql [.name d.word] := by
  cases d
  · exact word_lexes (c := 'I') (w := ['N', 'T', 'E', 'G', 'E', 'R']) (.inl (by decide)) (by decide) (by decide)
  · exact word_lexes (c := 'R') (w := ['E', 'A', 'L']) (.inl (by decide)) (by decide) (by decide)
  · exact word_lexes (c := 'T') (w := ['E', 'X', 'T']) (.inl (by decide)) (by decide) (by decide)

theorem any_create : LexesAny "CREATE TABLE ".toList [.kw (.other "CREATE"), .kw (.other "TABLE")] :=
  (any_word (c := 'C') (w := ['R', 'E', 'A', 'T', 'E']) (.inl (by decide)) (by decide) (by decide)).cat
    (any_word (c := 'T') (w := ['A', 'B', 'L', 'E']) (.inl (by decide)) (by decide) (by decide))

theorem defs_lexes (ty : String → DType) (l : List String) (hp : ∀ c ∈ l, PlainName c) :
    Lexes (l.flatMap fun c => ',' :: c.toList ++ ' ' :: (ty c).sql) (l.flatMap fun c => [.comma, .name c, .name (ty c).word]) := by
  induction l with
  | nil => intro rest _; simp
  | cons c cs ih =>
    have h := ih fun d hd => hp d (by simp [hd])
    rw [List.flatMap_cons, List.flatMap_cons]
    have h1 : Lexes (',' :: c.toList ++ ' ' :: (ty c).sql) [.comma, .name c, .name (ty c).word] := by
      have := any_comma.catW ((name_lexes (hp c (by simp))).catW (any_space.catW (type_lexes (ty c))) fun rest => stops_space _)
      simpa using this
    intro rest hr
    rw [List.append_assoc, h1 _ ?_, h rest hr, map_cat]
    cases cs with
    | nil => simpa using hr
    | cons d ds => simp only [List.flatMap_cons, List.cons_append]; exact stops_comma _

theorem head_lexes : Lexes " (rid INTEGER PRIMARY KEY,uid INTEGER,iid INTEGER".toList
    [.lpar, .name "rid", .name "INTEGER", .kw (.other "PRIMARY"), .name "KEY", .comma, .name "uid", .name "INTEGER", .comma,
      .name "iid", .name "INTEGER"] := by
  have hi : Lexes "INTEGER".toList [.name "INTEGER"] := type_lexes .int
  have hk : Lexes "KEY".toList [.name "KEY"] :=
    word_lexes (c := 'K') (w := ['E', 'Y']) (.inl (by decide)) (by decide) (by decide)
  have hu : LexesAny "uid ".toList [.name "uid"] := any_word (c := 'u') (w := ['i', 'd']) (.inl (by decide)) (by decide) (by decide)
  have hii : LexesAny "iid ".toList [.name "iid"] := any_word (c := 'i') (w := ['i', 'd']) (.inl (by decide)) (by decide) (by decide)
  have hp : LexesAny "PRIMARY ".toList [.kw (.other "PRIMARY")] :=
    any_word (c := 'P') (w := ['R', 'I', 'M', 'A', 'R', 'Y']) (.inl (by decide)) (by decide) (by decide)
  exact any_space.catW (any_lpar.catW (any_rid.catW (hi.catW (any_space.catW (hp.catW (hk.catW (any_comma.catW (hu.catW (hi.catW
    (any_comma.catW (hii.catW hi)) fun rest => stops_comma _))) fun rest => stops_comma _))) fun rest => stops_space _)))

/-- **C123** (partial), tables: when the columns have plain names that differ in more than case, the statement that creates a
table creates exactly the columns it should. -/
theorem C123_create_partial (n : String) (hn : PlainName n) (x : Inst) (ty : String → DType) (ht : x.types = some ty) (cs : List String)
    (hb : x.buildTable = .ok cs) (hp : ∀ c ∈ x.columns, PlainName c) (hc : NoCaseClash cs) :
    createRun (createText n.toList x.columns ty) = .ok (n, cs) := by
  have hcs : x.columns.Nodup ∧ cs = ["rid", "uid", "iid"] ++ x.columns.filter (· ∉ ["rid", "uid", "iid"]) := by
    rw [Inst.buildTable, ht] at hb
    split at hb
    · simp only [Option.isSome_some, if_true] at hb
      split at hb
      · next h => cases hb; exact ⟨h, rfl⟩
      · cases hb
    · cases hb
  obtain ⟨hnd, rfl⟩ := hcs
  have hnd' : (["rid", "uid", "iid"] ++ x.columns.filter (· ∉ ["rid", "uid", "iid"])).Nodup := by
    rw [List.nodup_append]
    refine ⟨by decide, hnd.filter _, ?_⟩
    intro a ha b hb e
    subst e
    have := (List.mem_filter.1 hb).2
    simp only [decide_eq_true_eq] at this
    exact this ha
  have hl : sqlLex (createText n.toList x.columns ty) = some ([.kw (.other "CREATE"), .kw (.other "TABLE")] ++ ([.name n] ++
      ([.lpar, .name "rid", .name "INTEGER", .kw (.other "PRIMARY"), .name "KEY", .comma, .name "uid", .name "INTEGER", .comma,
        .name "iid", .name "INTEGER"] ++
      ((x.columns.filter (· ∉ ["rid", "uid", "iid"])).flatMap (fun c => [.comma, .name c, .name (ty c).word]) ++ [.rpar])))) := by
    have hd := defs_lexes ty (x.columns.filter (· ∉ ["rid", "uid", "iid"])) fun c hc => hp c (List.mem_filter.1 hc).1
    have h1 := hd.cat any_rpar fun rest => stops_cons (.inr (.inr (.inl rfl)))
    have h2 : ∀ rest, Stops (((x.columns.filter (· ∉ ["rid", "uid", "iid"])).flatMap (fun c => ',' :: c.toList ++ ' ' :: (ty c).sql) ++ [')']) ++ rest) := by
      intro rest
      cases x.columns.filter (· ∉ ["rid", "uid", "iid"]) with
      | nil => exact stops_cons (.inr (.inr (.inl rfl)))
      | cons d ds => simp only [List.flatMap_cons, List.cons_append]; exact stops_comma _
    have h3 := any_create.cat ((name_lexes hn).cat (head_lexes.cat h1 h2) fun rest => stops_space _)
    have h4 := h3 []
    rw [List.append_nil] at h4
    have e : createText n.toList x.columns ty = "CREATE TABLE ".toList ++ (n.toList ++
        (" (rid INTEGER PRIMARY KEY,uid INTEGER,iid INTEGER".toList ++
        ((x.columns.filter (· ∉ ["rid", "uid", "iid"])).flatMap (fun c => ',' :: c.toList ++ ' ' :: (ty c).sql) ++ [')']))) := by
      have gen : ∀ a b c d e : List Char, a ++ b ++ c ++ d ++ e = a ++ (b ++ (c ++ (d ++ e))) := by simp
      exact gen _ _ _ _ _
    rw [e, h4]
    have e0 : sqlLex [] = some [] := rfl
    rw [e0, Option.map_some, List.append_nil]
  unfold createRun
  rw [hl]
  have hcol := colDefs_tail "iid" "INTEGER" ((x.columns.filter (· ∉ ["rid", "uid", "iid"])).map fun c => (c, (ty c).word))
  rw [List.flatMap_map, List.map_map, show ((fun p : String × String => p.1) ∘ fun c => (c, (ty c).word)) = id from rfl,
    List.map_id] at hcol
  have hcol' : colDefs (.name "rid" :: .name "INTEGER" :: .kw (.other "PRIMARY") :: .name "KEY" :: .comma :: .name "uid" ::
      .name "INTEGER" :: .comma :: .name "iid" :: .name "INTEGER" ::
      ((x.columns.filter (· ∉ ["rid", "uid", "iid"])).flatMap (fun c => [.comma, .name c, .name (ty c).word]) ++ [.rpar])) =
      some (["rid", "uid", "iid"] ++ x.columns.filter (· ∉ ["rid", "uid", "iid"])) := by
    rw [colDefs, colDefs, hcol]
    rfl
  simp only [List.cons_append, List.nil_append]
  simp only [List.cons_append, List.nil_append] at hcol' hnd' hc
  rw [hcol']
  dsimp only
  rw [noDup_of hnd' hc]
  rfl

/-! ## Where it fails -/

/-- A table with users named by texts. -/
def exTextTable : Table :=
  ⟨["rid", "uid", "iid", "user", "item", "interaction"],
    [⟨0, fun c => if c = "user" then .str "ann" else if c = "item" then .num 3 else .num 5⟩,
     ⟨1, fun c => if c = "user" then .str "bob" else if c = "item" then .num 4 else .num 2⟩]⟩

/-- A dataset on that table. -/
def exTextInst (cols : List String) : Inst :=
  { columns := cols, state := .table, table := 0, hasIds := false,
    types := some fun c => if c = "user" then .obj else .int, nRows := 2, nBefore := 2, queries := 0, direct := 0 }

theorem exTextTable_plain : PlainTable (fun n => if n = "interactions" then some exTextTable else none) "interactions" exTextTable := by
  refine ⟨rfl, ?_, ?_, ?_, by decide, by decide⟩
  · exact ⟨⟨'i', _, rfl, by decide⟩, by decide +kernel, by decide +kernel⟩
  · intro c hc
    simp only [exTextTable, List.mem_cons, List.not_mem_nil, or_false] at hc
    rcases hc with rfl | rfl | rfl | rfl | rfl | rfl <;>
      exact ⟨⟨_, _, rfl, by decide⟩, by decide +kernel, by decide +kernel⟩
  · unfold NoCaseClash
    decide +kernel

/-- The value of the query `user == 'x"OR"1"="1'`. -/
def exInjected : String := "x\"OR\"1\"=\"1"

/-- **C123**, against the claim for all texts: the query `user == 'x"OR"1"="1'` is a single condition on the column `user`
with a text as value, no user has that name, and yet the statement built from it selects every record. -/
theorem C123_injection : ∃ (db : String → Option Table) (n : String) (t : Table) (x : Inst) (q v : List Char), PlainTable db n t ∧
    x.state = .table ∧ pySplit ',' q = [q] ∧ parseSegment q = .ok ⟨"user", "==", v⟩ ∧ pyEval v = some (.str exInjected) ∧
    (∀ r ∈ t.rows, r.get "user" ≠ .str exInjected) ∧ t.rows ≠ [] ∧
    (sqlRun db (stateText x.columns n.toList [] [condText "user" .eq (quoteText exInjected)])).map (fun p => p.2.map (·.rid)) =
      .ok (t.rows.map (·.rid)) := by
  exact ⟨fun n => if n = "interactions" then some exTextTable else none, "interactions", exTextTable,
    exTextInst ["rid", "user", "item", "interaction"], "user == 'x\"OR\"1\"=\"1'".toList, "'x\"OR\"1\"=\"1'".toList,
    exTextTable_plain, rfl, by decide +kernel, by decide +kernel, by decide +kernel, by decide +kernel, by decide, by decide +kernel⟩

/-- **C123**, against the claim for all texts: the query `user == 'x"y"z'` is a single condition, too, and the statement built from
it is no statement. -/
theorem C123_quotes_fail : ∃ (db : String → Option Table) (n : String) (t : Table) (x : Inst) (q v : List Char), PlainTable db n t ∧
    x.state = .table ∧ pySplit ',' q = [q] ∧ parseSegment q = .ok ⟨"user", "==", v⟩ ∧ pyEval v = some (.str "x\"y\"z") ∧
    sqlRun db (stateText x.columns n.toList [] [condText "user" .eq (quoteText "x\"y\"z")]) matches .error .crash := by
  exact ⟨fun n => if n = "interactions" then some exTextTable else none, "interactions", exTextTable,
    exTextInst ["rid", "user", "item", "interaction"], "user == 'x\"y\"z'".toList, "'x\"y\"z'".toList,
    exTextTable_plain, rfl, by decide +kernel, by decide +kernel, by decide +kernel, by decide +kernel⟩

/-- **C123**, against the claim for all columns: with a column called `index`, or columns called `User` and `user`, the table
cannot be created although the dataset has every column it needs, each with a type and only once. -/
theorem C123_columns_fail : ∃ (x y : Inst) (ty : String → DType), x.types = some ty ∧ y.types = some ty ∧
    x.columns = ["user", "item", "interaction", "index", "rid"] ∧ y.columns = ["user", "item", "interaction", "User", "rid"] ∧
    x.buildTable = .ok ["rid", "uid", "iid", "user", "item", "interaction", "index"] ∧
    y.buildTable = .ok ["rid", "uid", "iid", "user", "item", "interaction", "User"] ∧
    createRun (createText "interactions".toList x.columns ty) = .error .crash ∧
    createRun (createText "interactions".toList y.columns ty) = .error .crash :=
  ⟨exTextInst ["user", "item", "interaction", "index", "rid"], exTextInst ["user", "item", "interaction", "User", "rid"], _, rfl, rfl,
    rfl, rfl, by decide +kernel, by decide +kernel, by decide +kernel, by decide +kernel⟩

/-- Three filters: `interaction > -1.5, user != "bob"`, a drop and `unique`. -/
def exFilters : List SOp :=
  [.select [("interaction", .gt, .num (-(3 / 2)), "-1.5".toList), ("user", .ne, .quoted "bob", quoteText "bob")], .drop [1, 7] false,
    .unique ["user", "item"]]

/-- They can be used, the statement is the one below, and it selects the record of `ann`. -/
example : AllFit ["rid", "user", "item", "interaction"] exFilters ∧
    (exFilters.foldl (SOp.text "interactions".toList) (["rid", "user", "item", "interaction"], [])).2 =
      ("SELECT user,item, rid FROM (SELECT rid,user,item,interaction FROM (SELECT rid,user,item,interaction FROM interactions " ++
        "WHERE interaction > -1.5 AND user <> \"bob\") WHERE rid NOT IN (1,7)) WHERE rid IN (SELECT MIN(rid) FROM " ++
        "(SELECT rid,user,item,interaction FROM (SELECT rid,user,item,interaction FROM interactions " ++
        "WHERE interaction > -1.5 AND user <> \"bob\") WHERE rid NOT IN (1,7)) GROUP BY user,item)").toList ∧
    (sqlRun (fun n => if n = "interactions" then some exTextTable else none)
      (exFilters.foldl (SOp.text "interactions".toList) (["rid", "user", "item", "interaction"], [])).2).map (fun p => p.2.map (·.rid)) =
      .ok [0] := by
  refine ⟨⟨⟨by simp, ?_⟩, trivial, ⟨by simp, ?_⟩, trivial⟩, by decide +kernel, by decide +kernel⟩
  · intro c hc
    simp only [List.mem_cons, List.not_mem_nil, or_false] at hc
    rcases hc with rfl | rfl
    · exact ⟨by decide, .inr ⟨⟨[1, 5], 1⟩, by decide, by decide, .inr ⟨by decide +kernel, by decide +kernel, by decide⟩⟩⟩
    · exact ⟨by decide, by decide, rfl⟩
  · intro c hc
    simp only [List.mem_cons, List.not_mem_nil, or_false] at hc
    rcases hc with rfl | rfl <;> decide

/-- The table of a dataset with a timestamp. -/
example : createRun (createText "interactions".toList ["user", "item", "interaction", "timestamp", "rid"] fun c =>
    if c = "interaction" then .float else .int) = .ok ("interactions", ["rid", "uid", "iid", "user", "item", "interaction", "timestamp"]) := by
  decide +kernel

end DRec
