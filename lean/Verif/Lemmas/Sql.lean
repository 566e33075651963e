import Verif.Lemmas.SqlLex
import Mathlib.Data.List.Nodup

/-! # Lemmas about reading SQL texts: statements -/

namespace DRec

open DRec.Spec

/-! ## Lexing of longer texts -/

/-- The text is read as these words when something follows that ends a word. -/
def Lexes (s : List Char) (ts : List Tok) : Prop :=
  ∀ rest, Stops rest → sqlLex (s ++ rest) = (sqlLex rest).map (ts ++ ·)

/-- The text is read as these words whatever follows. -/
def LexesAny (s : List Char) (ts : List Tok) : Prop := ∀ rest, sqlLex (s ++ rest) = (sqlLex rest).map (ts ++ ·)

theorem map_cat (o : Option (List Tok)) (a b : List Tok) :
    (o.map (b ++ ·)).map (a ++ ·) = o.map ((a ++ b) ++ ·) := by
  cases o <;> simp

theorem LexesAny.weak {s : List Char} {ts : List Tok} (h : LexesAny s ts) : Lexes s ts := fun rest _ => h rest

theorem LexesAny.cat {s s' : List Char} {ts ts' : List Tok} (h : LexesAny s ts) (h' : LexesAny s' ts') :
    LexesAny (s ++ s') (ts ++ ts') := by
  intro rest
  rw [List.append_assoc, h, h', map_cat]

theorem LexesAny.catW {s s' : List Char} {ts ts' : List Tok} (h : LexesAny s ts) (h' : Lexes s' ts') :
    Lexes (s ++ s') (ts ++ ts') := by
  intro rest hr
  rw [List.append_assoc, h, h' rest hr, map_cat]

theorem Lexes.cat {s s' : List Char} {ts ts' : List Tok} (h : Lexes s ts) (h' : LexesAny s' ts')
    (hs : ∀ rest, Stops (s' ++ rest)) : LexesAny (s ++ s') (ts ++ ts') := by
  intro rest
  rw [List.append_assoc, h _ (hs rest), h', map_cat]

theorem Lexes.catW {s s' : List Char} {ts ts' : List Tok} (h : Lexes s ts) (h' : Lexes s' ts')
    (hs : ∀ rest, Stops (s' ++ rest)) : Lexes (s ++ s') (ts ++ ts') := by
  intro rest hr
  rw [List.append_assoc, h _ (hs rest), h' rest hr, map_cat]

theorem any_space : LexesAny [' '] [] := by
  intro rest
  rw [List.singleton_append, lex_space]
  simp

theorem any_lpar : LexesAny ['('] [.lpar] := by
  intro rest
  rw [List.singleton_append, lex_lpar]
  rfl

theorem any_rpar : LexesAny [')'] [.rpar] := by
  intro rest
  rw [List.singleton_append, lex_rpar]
  rfl

theorem any_comma : LexesAny [','] [.comma] := by
  intro rest
  rw [List.singleton_append, lex_comma]
  rfl

theorem word_lexes {c : Char} {w : List Char} (hc : c.isAlpha = true ∨ c = '_') (hw : ∀ d ∈ w, sqlNameChar d = true)
    {k : Tok} (hk : wordTok (c :: w) = k) : Lexes (c :: w) [k] := by
  intro rest hr
  rw [lex_word hc hw hr, hk]
  rfl

theorem stops_space (s : List Char) : Stops (' ' :: s) := stops_cons (.inl rfl)

theorem any_word {c : Char} {w : List Char} (hc : c.isAlpha = true ∨ c = '_') (hw : ∀ d ∈ w, sqlNameChar d = true)
    {k : Tok} (hk : wordTok (c :: w) = k) : LexesAny (c :: w ++ [' ']) [k] :=
  (word_lexes hc hw hk).cat any_space fun rest => stops_space rest

theorem any_select : LexesAny "SELECT ".toList [.kw .select] :=
  any_word (c := 'S') (w := ['E', 'L', 'E', 'C', 'T']) (.inl (by decide)) (by decide) (by decide)

theorem any_fromOpen : LexesAny " FROM (".toList [.kw .from, .lpar] :=
  any_space.cat ((any_word (c := 'F') (w := ['R', 'O', 'M']) (.inl (by decide)) (by decide) (by decide)).cat any_lpar)

theorem any_from : LexesAny " FROM ".toList [.kw .from] :=
  any_space.cat (any_word (c := 'F') (w := ['R', 'O', 'M']) (.inl (by decide)) (by decide) (by decide))

theorem any_where : LexesAny " WHERE ".toList [.kw .where] :=
  any_space.cat (any_word (c := 'W') (w := ['H', 'E', 'R', 'E']) (.inl (by decide)) (by decide) (by decide))

theorem any_and : LexesAny " AND ".toList [.kw .and] :=
  any_space.cat (any_word (c := 'A') (w := ['N', 'D']) (.inl (by decide)) (by decide) (by decide))

theorem any_rid : LexesAny "rid ".toList [.name "rid"] :=
  any_word (c := 'r') (w := ['i', 'd']) (.inl (by decide)) (by decide) (by decide)

theorem any_inOpen : LexesAny "IN (".toList [.kw .in, .lpar] :=
  (any_word (c := 'I') (w := ['N']) (.inl (by decide)) (by decide) (by decide)).cat any_lpar

theorem any_not : LexesAny "NOT ".toList [.kw .not] :=
  any_word (c := 'N') (w := ['O', 'T']) (.inl (by decide)) (by decide) (by decide)

theorem any_min : LexesAny "MIN(rid) FROM ".toList [.name "MIN", .lpar, .name "rid", .rpar, .kw .from] := by
  have h1 : Lexes "MIN".toList [.name "MIN"] :=
    word_lexes (c := 'M') (w := ['I', 'N']) (.inl (by decide)) (by decide) (by decide)
  have h2 : Lexes "rid".toList [.name "rid"] :=
    word_lexes (c := 'r') (w := ['i', 'd']) (.inl (by decide)) (by decide) (by decide)
  exact (h1.catW (any_lpar.catW h2) (fun rest => stops_cons (.inr (.inr (.inr rfl))))).cat (any_rpar.cat any_from)
    fun rest => stops_cons (.inr (.inr (.inl rfl)))

theorem any_group : LexesAny " GROUP BY ".toList [.kw .group, .name "BY"] :=
  any_space.cat ((any_word (c := 'G') (w := ['R', 'O', 'U', 'P']) (.inl (by decide)) (by decide) (by decide)).cat
    (any_word (c := 'B') (w := ['Y']) (.inl (by decide)) (by decide) (by decide)))

theorem wordTok_plain {c : String} (h : PlainName c) : wordTok c.toList = .name c := by
  have hf := h.free
  simp only [reservedWords, List.mem_append, List.mem_cons, List.not_mem_nil, or_false, not_or] at hf
  obtain ⟨⟨h1, h2, h3, h4, h5, h6, h7, h8, h9⟩, h10⟩ := hf
  unfold wordTok
  simp only [h1, h2, h3, h4, h5, h6, h7, h8, h9, h10, if_false, String.ofList_toList]

theorem name_lexes {c : String} (h : PlainName c) : Lexes c.toList [.name c] := by
  obtain ⟨a, s, e, ha⟩ := h.first
  have hc := h.chars
  have hw := wordTok_plain h
  rw [e] at hc hw ⊢
  exact word_lexes ha (fun d hd => hc d (by simp [hd])) hw

/-! ## Joined texts -/

/-- The words of a joined text. -/
def joinToks (sep : Tok) : List (List Tok) → List Tok
  | [] => []
  | [s] => s
  | s :: ss => s ++ sep :: joinToks sep ss

theorem joinText_cons (sep s : List Char) {ss : List (List Char)} (h : ss ≠ []) :
    joinText sep (s :: ss) = s ++ sep ++ joinText sep ss := by
  cases ss with
  | nil => exact absurd rfl h
  | cons a l => rfl

theorem joinToks_cons (sep : Tok) (s : List Tok) {ss : List (List Tok)} (h : ss ≠ []) :
    joinToks sep (s :: ss) = s ++ sep :: joinToks sep ss := by
  cases ss with
  | nil => exact absurd rfl h
  | cons a l => rfl

theorem join_lexes {sep : List Char} {k : Tok} (hsep : LexesAny sep [k]) (hst : ∀ rest, Stops (sep ++ rest)) :
    ∀ (ps : List (List Char × List Tok)), ps ≠ [] → (∀ p ∈ ps, Lexes p.1 p.2) →
      Lexes (joinText sep (ps.map (·.1))) (joinToks k (ps.map (·.2))) := by
  intro ps
  induction ps with
  | nil => intro h; exact absurd rfl h
  | cons p ps ih =>
    intro _ hp
    by_cases he : ps = []
    · subst he
      exact hp p (by simp)
    · rw [List.map_cons, List.map_cons, joinText_cons _ _ (by simpa using he), joinToks_cons _ _ (by simpa using he),
        List.append_assoc]
      exact (hp p (by simp)).catW (hsep.catW (ih he fun q hq => hp q (by simp [hq]))) fun rest => by
        rw [List.append_assoc]; exact hst _

theorem stops_comma (s : List Char) : Stops (',' :: s) := stops_cons (.inr (.inl rfl))

/-- The words of a list of columns. -/
def nameToks (cols : List String) : List Tok := joinToks .comma (cols.map fun c => [.name c])

theorem cols_lexes {cols : List String} (h : cols ≠ []) (hp : ∀ c ∈ cols, PlainName c) :
    Lexes (colsText cols) (nameToks cols) := by
  have := join_lexes any_comma (fun rest => stops_comma rest) (cols.map fun c => (c.toList, [Tok.name c])) (by simpa using h) (by
    intro p hm
    obtain ⟨c, hc, rfl⟩ := List.mem_map.1 hm
    exact name_lexes (hp c hc))
  rw [List.map_map, List.map_map] at this
  exact this

/-- The words of a list of record ids. -/
def idToks (ids : List Nat) : List Tok := joinToks .comma (ids.map fun n : Nat => [Tok.num (n : ℚ)])

theorem ids_lexes (ids : List Nat) : Lexes (joinText [','] (ids.map fun n => (toString n).toList)) (idToks ids) := by
  by_cases he : ids = []
  · subst he
    intro rest _
    simp [joinText, idToks, joinToks]
  · have := join_lexes any_comma (fun rest => stops_comma rest) (ids.map fun n : Nat => ((toString n).toList, [Tok.num (n : ℚ)]))
      (by simpa using he) (by
        intro p hm
        obtain ⟨n, _, rfl⟩ := List.mem_map.1 hm
        intro rest hr
        rw [lex_nat n hr]; rfl)
    rw [List.map_map, List.map_map] at this
    exact this

theorem nameList_toks {cols : List String} (h : cols ≠ []) {rest : List Tok} (hr : rest.head? ≠ some .comma) :
    nameList (nameToks cols ++ rest) = some (cols, rest) := by
  induction cols with
  | nil => exact absurd rfl h
  | cons c cs ih =>
    by_cases he : cs = []
    · subst he
      simp only [nameToks, List.map_cons, List.map_nil, joinToks, List.singleton_append]
      rw [nameList]
      rintro ts rfl
      exact hr rfl
    · rw [nameToks, List.map_cons, joinToks_cons _ _ (by simpa using he)]
      simp only [List.nil_append, List.cons_append, nameList]
      have := ih he
      rw [nameToks] at this
      rw [this]
      rfl

theorem numList1_toks {ids : List Nat} (h : ids ≠ []) (rest : List Tok) :
    numList1 (idToks ids ++ .rpar :: rest) = some (ids.map fun n : Nat => (n : ℚ), rest) := by
  induction ids with
  | nil => exact absurd rfl h
  | cons n ns ih =>
    by_cases he : ns = []
    · subst he
      simp only [idToks, List.map_cons, List.map_nil, joinToks, List.singleton_append, numList1]
    · rw [idToks, List.map_cons, joinToks_cons _ _ (by simpa using he)]
      simp only [List.nil_append, List.cons_append, numList1]
      have := ih he
      rw [idToks] at this
      rw [this]
      rfl

theorem numList_toks (ids : List Nat) (rest : List Tok) :
    numList (idToks ids ++ .rpar :: rest) = some (ids.map fun n : Nat => (n : ℚ), rest) := by
  by_cases he : ids = []
  · subst he
    simp [idToks, joinToks, numList]
  · rw [numList]
    · exact numList1_toks he rest
    · intro ts
      cases ids with
      | nil => exact absurd rfl he
      | cons n ns =>
        rw [idToks, List.map_cons]
        cases hn : (ns.map fun m : Nat => [Tok.num (m : ℚ)]) <;> simp [joinToks]

/-! ## Columns -/

theorem resolve_mem {scols : List String} (hc : NoCaseClash scols) {c : String} (h : c ∈ scols) : resolve scols c = some c := by
  unfold resolve
  cases hf : scols.find? (sameName c) with
  | none =>
    have := List.find?_eq_none.1 hf c h
    simp [sameName] at this
  | some d =>
    have h1 := List.mem_of_find?_eq_some hf
    have h2 := List.find?_some hf
    rw [hc c h d h1 h2]

theorem mapM_resolve {scols : List String} (hc : NoCaseClash scols) {cols : List String} (h : ∀ c ∈ cols, c ∈ scols) :
    cols.mapM (resolve scols) = some cols := by
  induction cols with
  | nil => rfl
  | cons c cs ih =>
    rw [List.mapM_cons, resolve_mem hc (h c (by simp)), ih fun d hd => h d (by simp [hd])]
    rfl

/-! ## Conditions -/

/-- The words are read as the condition. -/
def CondReads (db : String → Option Table) (scols : List String) (rows : List Row) (toks : List Tok) (c : SqlCond) : Prop :=
  toks ≠ [] ∧ ∀ f rest, toks.length ≤ f →
    ∃ p, sqlCond db f scols (toks ++ rest) = some (p, rest) ∧ ∀ r ∈ rows, p r = c.holds scols rows r

/-- The words are read as the source. -/
def SourceReads (db : String → Option Table) (toks : List Tok) (scols : List String) (rows : List Row) : Prop :=
  toks ≠ [] ∧ ∀ f rest, toks.length ≤ f → sqlSource db f (toks ++ rest) = some ((scols, rows), rest)

theorem int_lexes (n : Int) (scols : List String) : ∃ ts, Lexes (toString n).toList ts ∧
    ∀ rest, ∃ g, operand scols (ts ++ rest) = some (g, rest) ∧ ∀ r : Row, g r = .num n := by
  cases n with
  | ofNat k =>
    refine ⟨[.num (k : ℚ)], ?_, fun rest => ⟨_, rfl, fun r => by simp⟩⟩
    intro rest hr
    have : (toString (Int.ofNat k)).toList = (toString k).toList := rfl
    rw [this, lex_nat k hr]
    rfl
  | negSucc k =>
    refine ⟨[.minus, .num ((k + 1 : Nat) : ℚ)], ?_, fun rest => ⟨_, rfl, fun r => by
      rw [Int.negSucc_eq]; push_cast; rfl⟩⟩
    intro rest hr
    have e : (toString (Int.negSucc k)).toList = '-' :: (toString (k + 1)).toList := by
      have : toString (Int.negSucc k) = "-" ++ toString (k + 1) := rfl
      rw [this, String.toList_append]
      rfl
    have hd : ∃ c w, (toString (k + 1)).toList ++ rest = c :: w ∧ c.isDigit = true := by
      have : (toString (k + 1)).toList = natText (k + 1) := Nat.toList_repr
      rw [this]
      exact digits_head (isDigits_natText _) rest
    rw [e, List.cons_append, lex_minus hd, lex_nat (k + 1) hr]
    cases sqlLex rest <;> rfl

theorem num_lexes {q : ℚ} {v : List Char} (h : NumText q v) (scols : List String) : ∃ ts, Lexes v ts ∧
    ∀ rest, ∃ g, operand scols (ts ++ rest) = some (g, rest) ∧ ∀ r : Row, g r = .num q := by
  rcases h with ⟨n, rfl, rfl⟩ | ⟨d, h1, h2, ⟨rfl, rfl⟩ | ⟨rfl, _, rfl⟩⟩
  · exact int_lexes n scols
  · refine ⟨[.num (Decimal.value d)], fun rest hr => ?_, fun rest => ⟨_, rfl, fun r => rfl⟩⟩
    rw [(lex_float d h1 h2).2 rest hr]; rfl
  · obtain ⟨⟨c, w, e, hc⟩, hl⟩ := lex_float d h1 h2
    refine ⟨[.minus, .num (Decimal.value d)], fun rest hr => ?_, fun rest => ⟨_, rfl, fun r => rfl⟩⟩
    rw [List.cons_append, lex_minus ⟨c, w ++ rest, by rw [e]; rfl, hc⟩, hl rest hr]
    cases sqlLex rest <;> rfl

theorem rhs_lexes {x : Rhs} {v : List Char} (h : RhsText x v) (scols : List String) : ∃ ts, Lexes v ts ∧
    ∀ rest, ∃ g, operand scols (ts ++ rest) = some (g, rest) ∧ ∀ r : Row, g r = x.value scols r := by
  cases x with
  | num q => exact num_lexes h scols
  | quoted s =>
    obtain ⟨h1, rfl⟩ := h
    refine ⟨[.quoted s], fun rest hr => ?_, fun rest => ⟨_, rfl, fun r => rfl⟩⟩
    rw [lex_quoted h1 hr]; rfl

theorem operand_name {scols : List String} (hc : NoCaseClash scols) {c : String} (hm : c ∈ scols) (ts : List Tok) :
    operand scols (.name c :: ts) = some ((fun r : Row => r.get c), ts) := by
  simp only [operand, resolve_mem hc hm, Option.map_some]

theorem cmp_reads (db : String → Option Table) {scols : List String} (rows : List Row) (hc : NoCaseClash scols) {c : String}
    (hm : c ∈ scols) (hp : PlainName c) (op : Op) {x : Rhs} {v : List Char} (h : RhsText x v) :
    ∃ ts, Lexes (condText c op v) ts ∧ CondReads db scols rows ts (.cmp c op x) := by
  obtain ⟨vt, h1, h2⟩ := rhs_lexes h scols
  refine ⟨[.name c] ++ ([.cmp op] ++ vt), ?_, by simp, ?_⟩
  · have ho : LexesAny (op.sql ++ [' ']) [.cmp op] := by
      intro rest
      rw [List.append_assoc, List.singleton_append, lex_op]
      rfl
    have e : condText c op v = c.toList ++ ([' '] ++ ((op.sql ++ [' ']) ++ v)) := by simp [condText]
    rw [e]
    exact (name_lexes hp).catW (any_space.catW (ho.catW h1)) fun rest => stops_space _
  · intro f rest hf
    obtain ⟨f, rfl⟩ : ∃ f', f = f' + 1 := ⟨f - 1, by simp at hf; omega⟩
    obtain ⟨g, h3, h4⟩ := h2 rest
    refine ⟨fun r => cmpSql op (r.get c) (g r), ?_, fun r _ => ?_⟩
    · simp only [List.cons_append, List.nil_append, sqlCond, inHead, comparison, operand_name hc hm, h3, Option.map_some]
    · simp only [h4 r]; rfl

theorem inList_rid (neg : Bool) (vs : List Val) (n : Nat) :
    inList neg vs (.num (n : ℚ)) = if neg then !decide ((Val.num (n : ℚ)) ∈ vs) else decide ((Val.num (n : ℚ)) ∈ vs) := by
  simp [inList]

theorem rid_mem_ids (ids : List Nat) (n : Nat) : Val.num (n : ℚ) ∈ (ids.map fun n : Nat => (n : ℚ)).map Val.num ↔ n ∈ ids := by
  simp

theorem drop_reads (db : String → Option Table) {scols : List String} (rows : List Row) (hc : NoCaseClash scols)
    (hm : "rid" ∈ scols) (ids : List Nat) (keep : Bool) :
    ∃ ts, Lexes ((if keep then "rid IN (".toList else "rid NOT IN (".toList) ++
        joinText [','] (ids.map fun n => (toString n).toList) ++ [')']) ts ∧
      CondReads db scols rows ts (if keep then .ridIn ids else .ridNotIn ids) := by
  have hids : LexesAny (joinText [','] (ids.map fun n => (toString n).toList) ++ [')']) (idToks ids ++ [.rpar]) :=
    (ids_lexes ids).cat any_rpar fun rest => stops_cons (.inr (.inr (.inl rfl)))
  cases keep with
  | true =>
    refine ⟨[.name "rid"] ++ [.kw .in, .lpar] ++ (idToks ids ++ [.rpar]), ?_, by simp, ?_⟩
    · rw [List.append_assoc]
      exact ((any_rid.cat any_inOpen).cat hids).weak
    · intro f rest hf
      obtain ⟨f, rfl⟩ : ∃ f', f = f' + 1 := ⟨f - 1, by simp at hf; omega⟩
      refine ⟨fun r => inList false ((ids.map fun n : Nat => (n : ℚ)).map .num) (r.get "rid"), ?_, fun r _ => ?_⟩
      · simp only [List.cons_append, List.nil_append, List.append_assoc, sqlCond, inHead, resolve_mem hc hm, numList_toks]
        have : minHead (idToks ids ++ .rpar :: rest) = none := by
          cases ids with
          | nil => rfl
          | cons n ns =>
            rw [idToks, List.map_cons]
            cases hn : (ns.map fun m : Nat => [Tok.num (m : ℚ)]) <;> rfl
        rw [this]
        rfl
      · simp only [Row.get, if_true, inList_rid, rid_mem_ids, SqlCond.holds, Bool.false_eq_true, if_false]
  | false =>
    refine ⟨[.name "rid"] ++ ([.kw .not] ++ [.kw .in, .lpar]) ++ (idToks ids ++ [.rpar]), ?_, by simp, ?_⟩
    · rw [List.append_assoc]
      exact ((any_rid.cat (any_not.cat any_inOpen)).cat hids).weak
    · intro f rest hf
      obtain ⟨f, rfl⟩ : ∃ f', f = f' + 1 := ⟨f - 1, by simp at hf; omega⟩
      refine ⟨fun r => inList true ((ids.map fun n : Nat => (n : ℚ)).map .num) (r.get "rid"), ?_, fun r _ => ?_⟩
      · simp only [List.cons_append, List.nil_append, List.append_assoc, sqlCond, inHead, resolve_mem hc hm, numList_toks]
        have : minHead (idToks ids ++ .rpar :: rest) = none := by
          cases ids with
          | nil => rfl
          | cons n ns =>
            rw [idToks, List.map_cons]
            cases hn : (ns.map fun m : Nat => [Tok.num (m : ℚ)]) <;> rfl
        rw [this]
        rfl
      · simp only [Row.get, if_true, inList_rid, rid_mem_ids, SqlCond.holds, Bool.false_eq_true, if_false]

theorem minRids_mem {g : List String} {rows : List Row} (hd : (rows.map (·.rid)).Nodup) {r : Row} (hr : r ∈ rows) :
    Val.num (r.rid : ℚ) ∈ minRids g rows ↔
      (rows.all fun r' => !decide (keyOn g r' = keyOn g r) || decide (r.rid ≤ r'.rid)) = true := by
  unfold minRids
  rw [List.mem_map]
  constructor
  · rintro ⟨m, hm, e⟩
    obtain ⟨h1, h2⟩ := List.mem_filter.1 hm
    have : m.rid = r.rid := by simpa using e
    rw [← List.inj_on_of_nodup_map hd h1 hr this]
    exact h2
  · intro h
    exact ⟨r, List.mem_filter.2 ⟨hr, h⟩, rfl⟩

theorem first_reads (db : String → Option Table) {scols : List String} {rows : List Row} (hc : NoCaseClash scols)
    (hd : (rows.map (·.rid)).Nodup) (hm : "rid" ∈ scols) {S : List Tok} (hS : SourceReads db S scols rows)
    {src : List Char} (hl : LexesAny src S) {g : List String} (hg : g ≠ []) (hgm : ∀ c ∈ g, c ∈ scols)
    (hgp : ∀ c ∈ g, PlainName c) :
    ∃ ts, Lexes ("rid IN (SELECT MIN(rid) FROM ".toList ++ src ++ " GROUP BY ".toList ++ colsText g ++ [')']) ts ∧
      CondReads db scols rows ts (.ridFirst g) := by
  refine ⟨[.name "rid"] ++ ([.kw .in, .lpar] ++ ([.kw .select] ++ ([.name "MIN", .lpar, .name "rid", .rpar, .kw .from] ++
    (S ++ ([.kw .group, .name "BY"] ++ (nameToks g ++ [.rpar])))))), ?_, by simp, ?_⟩
  · have e : "rid IN (SELECT MIN(rid) FROM ".toList ++ src ++ " GROUP BY ".toList ++ colsText g ++ [')'] =
        "rid ".toList ++ ("IN (".toList ++ ("SELECT ".toList ++ ("MIN(rid) FROM ".toList ++ (src ++ (" GROUP BY ".toList ++
          (colsText g ++ [')'])))))) := by
      simp
    rw [e]
    exact (any_rid.cat (any_inOpen.cat (any_select.cat (any_min.cat (hl.cat (any_group.cat
      ((cols_lexes hg hgp).cat any_rpar fun rest => stops_cons (.inr (.inr (.inl rfl)))))))))).weak
  · intro f rest hf
    obtain ⟨f, rfl⟩ : ∃ f', f = f' + 1 := ⟨f - 1, by simp at hf; omega⟩
    refine ⟨fun r => inList false (minRids g rows) (r.get "rid"), ?_, fun r hr => ?_⟩
    · simp only [List.cons_append, List.nil_append, List.append_assoc, sqlCond, inHead, resolve_mem hc hm, minHead]
      have h1 : sameName "MIN" "MIN" = true := by simp [sameName]
      have h2 : sameName "BY" "BY" = true := by simp [sameName]
      rw [if_pos ⟨h1, trivial⟩]
      dsimp only
      rw [hS.2 f _ (by simp at hf; omega)]
      simp only [groupTail, h2, if_true]
      rw [nameList_toks hg (by simp)]
      simp only [mapM_resolve hc hgm, hm, if_true]
    · have := minRids_mem (g := g) hd hr
      simp only [Row.get, if_true, inList_rid, SqlCond.holds, Bool.false_eq_true, if_false]
      rw [Bool.eq_iff_iff, decide_eq_true_iff]
      exact this

/-! ## Selections -/

theorem and_reads {db : String → Option Table} {scols : List String} {rows : List Row} :
    ∀ (ps : List (List Tok × SqlCond)), ps ≠ [] → (∀ p ∈ ps, CondReads db scols rows p.1 p.2) →
      ∀ f rest, (joinToks (.kw .and) (ps.map (·.1))).length + 1 ≤ f → rest.head? ≠ some (.kw .and) →
        ∃ p, sqlAnd db f scols (joinToks (.kw .and) (ps.map (·.1)) ++ rest) = some (p, rest) ∧
          ∀ r ∈ rows, p r = (ps.map (·.2)).all (SqlCond.holds scols rows r) := by
  intro ps
  induction ps with
  | nil => intro h; exact absurd rfl h
  | cons q ps ih =>
    intro _ hp f rest hf hr
    obtain ⟨f, rfl⟩ : ∃ f', f = f' + 1 := ⟨f - 1, by omega⟩
    by_cases he : ps = []
    · subst he
      simp only [List.map_cons, List.map_nil, joinToks] at hf ⊢
      obtain ⟨p, h1, h2⟩ := (hp q (by simp)).2 f rest (by omega)
      refine ⟨p, ?_, fun r hr => by simp [h2 r hr]⟩
      rw [sqlAnd, h1]
      split
      · next h => cases h
      · next h => cases h; exact absurd rfl hr
      · next h => cases h; rfl
    · rw [List.map_cons, joinToks_cons _ _ (by simpa using he)] at hf ⊢
      simp only [List.length_append, List.length_cons] at hf
      obtain ⟨p, h1, h2⟩ := (hp q (by simp)).2 f (.kw .and :: joinToks (.kw .and) (ps.map (·.1)) ++ rest) (by omega)
      obtain ⟨p', h3, h4⟩ := ih he (fun x hx => hp x (by simp [hx])) f rest (by omega) hr
      refine ⟨fun r => p r && p' r, ?_, fun r hr => by simp [h2 r hr, h4 r hr]⟩
      rw [sqlAnd, List.append_assoc, h1]
      simp only [List.cons_append]
      rw [h3]
      rfl

theorem or_reads {db : String → Option Table} {scols : List String} {rows : List Row} (ps : List (List Tok × SqlCond))
    (hne : ps ≠ []) (hp : ∀ p ∈ ps, CondReads db scols rows p.1 p.2) (f : Nat) (rest : List Tok)
    (hf : (joinToks (.kw .and) (ps.map (·.1))).length + 2 ≤ f) (h1 : rest.head? ≠ some (.kw .and)) (h2 : rest.head? ≠ some (.kw .or)) :
    ∃ p, sqlOr db f scols (joinToks (.kw .and) (ps.map (·.1)) ++ rest) = some (p, rest) ∧
      ∀ r ∈ rows, p r = (ps.map (·.2)).all (SqlCond.holds scols rows r) := by
  obtain ⟨f, rfl⟩ : ∃ f', f = f' + 1 := ⟨f - 1, by omega⟩
  obtain ⟨p, h3, h4⟩ := and_reads ps hne hp f rest (by omega) h1
  refine ⟨p, ?_, h4⟩
  rw [sqlOr, h3]
  split
  · next h => cases h
  · next h => cases h; exact absurd rfl h2
  · next h => cases h; rfl

/-- What may follow a selection. -/
structure Ends (rest : List Tok) : Prop where
  noAnd : rest.head? ≠ some (.kw .and)
  noOr : rest.head? ≠ some (.kw .or)
  noWhere : rest.head? ≠ some (.kw .where)

theorem select_reads {db : String → Option Table} {scols : List String} {rows : List Row} {S : List Tok}
    (hS : SourceReads db S scols rows) (hc : NoCaseClash scols) {cols : List String} (hne : cols ≠ []) (hm : ∀ c ∈ cols, c ∈ scols)
    (ps : List (List Tok × SqlCond)) (hps : ps ≠ []) (hp : ∀ p ∈ ps, CondReads db scols rows p.1 p.2)
    {ts : List Tok} (hts : ts = [.kw .select] ++ (nameToks cols ++ ([.kw .from] ++ (S ++ ([.kw .where] ++ joinToks (.kw .and) (ps.map (·.1)))))))
    (f : Nat) (rest : List Tok) (hf : ts.length ≤ f) (hr : Ends rest) :
    sqlSelect db f (ts ++ rest) =
      some ((cols, (limitTail (rows.filter fun r => (ps.map (·.2)).all (SqlCond.holds scols rows r)) rest).1),
        (limitTail (rows.filter fun r => (ps.map (·.2)).all (SqlCond.holds scols rows r)) rest).2) := by
  subst hts
  have hS0 : 0 < S.length := List.length_pos_iff.2 hS.1
  simp only [List.length_append, List.length_cons, List.length_nil] at hf
  obtain ⟨f, rfl⟩ : ∃ f', f = f' + 1 := ⟨f - 1, by omega⟩
  obtain ⟨p, h1, h2⟩ := or_reads ps hps hp f rest (by omega) hr.noAnd hr.noOr
  have hfil : rows.filter p = rows.filter fun r => (ps.map (·.2)).all (SqlCond.holds scols rows r) :=
    List.filter_congr h2
  simp only [List.cons_append, List.nil_append, List.append_assoc]
  rw [sqlSelect]
  rw [nameList_toks hne (by simp)]
  dsimp only
  rw [hS.2 f _ (by omega)]
  simp only [mapM_resolve hc hm, h1, hfil]

theorem select_plain_reads {db : String → Option Table} {scols : List String} {rows : List Row} {S : List Tok}
    (hS : SourceReads db S scols rows) (hc : NoCaseClash scols) {cols : List String} (hne : cols ≠ []) (hm : ∀ c ∈ cols, c ∈ scols)
    {ts : List Tok} (hts : ts = [.kw .select] ++ (nameToks cols ++ ([.kw .from] ++ S)))
    (f : Nat) (rest : List Tok) (hf : ts.length ≤ f) (hr : Ends rest) :
    sqlSelect db f (ts ++ rest) = some ((cols, (limitTail rows rest).1), (limitTail rows rest).2) := by
  subst hts
  simp only [List.length_append, List.length_cons, List.length_nil] at hf
  obtain ⟨f, rfl⟩ : ∃ f', f = f' + 1 := ⟨f - 1, by omega⟩
  simp only [List.cons_append, List.nil_append, List.append_assoc]
  rw [sqlSelect]
  rw [nameList_toks hne (by simp)]
  dsimp only
  rw [hS.2 f _ (by omega)]
  simp only [mapM_resolve hc hm]
  split
  · exact absurd rfl hr.noWhere
  · rfl

end DRec
