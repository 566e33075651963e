import Verif.Model.SqlStmt
import Verif.Props.Sql

/-! # Lemmas about the other SQL statements -/

namespace DRec

open DRec.Spec

/-! ## Words -/

theorem any_star : LexesAny ['*'] [.star] := by
  intro rest
  unfold sqlLex
  simp [lexSteps, lexSym]

theorem any_param : LexesAny ['?'] [.param] := by
  intro rest
  unfold sqlLex
  simp [lexSteps, lexSym]

theorem any_eq : LexesAny "= ".toList [.cmp .eq] := fun rest => lex_op .eq rest

theorem stops_rpar (s : List Char) : Stops (')' :: s) := stops_cons (.inr (.inr (.inl rfl)))

theorem stops_lpar (s : List Char) : Stops ('(' :: s) := stops_cons (.inr (.inr (.inr rfl)))

theorem any_call {c : Char} {w : List Char} (hc : c.isAlpha = true ∨ c = '_') (hw : ∀ d ∈ w, sqlNameChar d = true)
    {k : Tok} (hk : wordTok (c :: w) = k) : LexesAny (c :: w ++ ['(']) [k, .lpar] :=
  (word_lexes hc hw hk).cat any_lpar fun rest => stops_lpar rest

theorem any_count : LexesAny "SELECT COUNT(*) FROM ".toList [.kw .select, .name "COUNT", .lpar, .star, .rpar, .kw .from] :=
  any_select.cat ((any_call (c := 'C') (w := ['O', 'U', 'N', 'T']) (.inl (by decide)) (by decide) (by decide)).cat
    (any_star.cat (any_rpar.cat any_from)))

theorem any_distinct : LexesAny "(SELECT DISTINCT ".toList [.lpar, .kw .select, .kw (.other "DISTINCT")] :=
  any_lpar.cat (any_select.cat
    (any_word (c := 'D') (w := ['I', 'S', 'T', 'I', 'N', 'C', 'T']) (.inl (by decide)) (by decide) (by decide)))

theorem any_max : LexesAny "SELECT MAX(".toList [.kw .select, .name "MAX", .lpar] :=
  any_select.cat (any_call (c := 'M') (w := ['A', 'X']) (.inl (by decide)) (by decide) (by decide))

theorem any_minCall : LexesAny "SELECT MIN(".toList [.kw .select, .name "MIN", .lpar] :=
  any_select.cat (any_call (c := 'M') (w := ['I', 'N']) (.inl (by decide)) (by decide) (by decide))

theorem any_closeFrom : LexesAny ") FROM ".toList [.rpar, .kw .from] := any_rpar.cat any_from

theorem any_delete : LexesAny "DELETE FROM ".toList [.kw (.other "DELETE"), .kw .from] :=
  (word_lexes (c := 'D') (w := ['E', 'L', 'E', 'T', 'E']) (.inl (by decide)) (by decide) (by decide)).cat any_from
    fun rest => stops_space _

theorem any_whereNotIn : LexesAny " WHERE rid NOT IN (SELECT rid FROM ".toList
    [.kw .where, .name "rid", .kw .not, .kw .in, .lpar, .kw .select, .name "rid", .kw .from] :=
  any_where.cat (any_rid.cat (any_not.cat (any_inOpen.cat (any_select.cat
    ((word_lexes (c := 'r') (w := ['i', 'd']) (.inl (by decide)) (by decide) (by decide)).cat any_from fun rest => stops_space _)))))

theorem any_insert : LexesAny "INSERT INTO ".toList [.kw (.other "INSERT"), .kw (.other "INTO")] :=
  (any_word (c := 'I') (w := ['N', 'S', 'E', 'R', 'T']) (.inl (by decide)) (by decide) (by decide)).cat
    (any_word (c := 'I') (w := ['N', 'T', 'O']) (.inl (by decide)) (by decide) (by decide))

theorem any_open : LexesAny " (".toList [.lpar] := any_space.cat any_lpar

theorem any_closeSelect : LexesAny ") SELECT ".toList [.rpar, .kw .select] := any_rpar.cat (any_space.cat any_select)

theorem any_closeValues : LexesAny ") VALUES (".toList [.rpar, .kw (.other "VALUES"), .lpar] :=
  any_rpar.cat (any_space.cat
    ((any_word (c := 'V') (w := ['A', 'L', 'U', 'E', 'S']) (.inl (by decide)) (by decide) (by decide)).cat any_lpar))

theorem any_distinctCall : LexesAny "SELECT DISTINCT(".toList [.kw .select, .kw (.other "DISTINCT"), .lpar] :=
  any_select.cat (any_call (c := 'D') (w := ['I', 'S', 'T', 'I', 'N', 'C', 'T']) (.inl (by decide)) (by decide) (by decide))

theorem orderBy_lexes : Lexes " ORDER BY rid".toList [.kw (.other "ORDER"), .name "BY", .name "rid"] :=
  any_space.catW ((any_word (c := 'O') (w := ['R', 'D', 'E', 'R']) (.inl (by decide)) (by decide) (by decide)).catW
    ((any_word (c := 'B') (w := ['Y']) (.inl (by decide)) (by decide) (by decide)).catW
      (word_lexes (c := 'r') (w := ['i', 'd']) (.inl (by decide)) (by decide) (by decide))))

theorem any_update : LexesAny "UPDATE ".toList [.kw (.other "UPDATE")] :=
  any_word (c := 'U') (w := ['P', 'D', 'A', 'T', 'E']) (.inl (by decide)) (by decide) (by decide)

theorem any_set : LexesAny " SET ".toList [.kw (.other "SET")] :=
  any_space.cat (any_word (c := 'S') (w := ['E', 'T']) (.inl (by decide)) (by decide) (by decide))

theorem any_eqParam : LexesAny " = ?".toList [.cmp .eq, .param] := any_space.cat (any_eq.cat any_param)

theorem any_paramWhere : LexesAny " = ? WHERE ".toList [.cmp .eq, .param, .kw .where] := any_eqParam.cat any_where

theorem any_closeWhere : LexesAny ") WHERE ".toList [.rpar, .kw .where] := any_rpar.cat any_where

/-- The words of `?,…,?)`. -/
theorem params_lexes (n : Nat) : LexesAny (joinText [','] (List.replicate (n + 1) ['?']) ++ [')'])
    (joinToks .comma (List.replicate (n + 1) [.param]) ++ [.rpar]) := by
  have h := join_lexes any_comma (fun rest => stops_comma _) (List.replicate (n + 1) (['?'], [.param])) (by simp) (by
    intro p hp
    rw [List.eq_of_mem_replicate hp]
    exact any_param.weak)
  rw [List.map_replicate, List.map_replicate] at h
  exact h.cat any_rpar fun rest => stops_rpar _

theorem paramList_toks (n : Nat) : paramList (joinToks .comma (List.replicate (n + 1) [.param]) ++ [.rpar]) = some (n + 1) := by
  induction n with
  | zero => rfl
  | succ n ih =>
    rw [List.replicate_succ, joinToks_cons _ _ (by simp)]
    simp only [List.cons_append, List.nil_append, paramList]
    rw [ih]
    rfl

theorem exec_of_lex {db : String → Option Table} {ps : List Val} {s : List Char} {ts : List Tok} (hl : LexesAny s ts) {o : SqlOut}
    (h : sqlStmt db ps (ts.length + 1) ts = some o) : sqlExec db ps s = .ok o := by
  have h1 := hl []
  rw [List.append_nil, show sqlLex [] = some [] from rfl, Option.map_some, List.append_nil] at h1
  unfold sqlExec
  rw [h1]
  dsimp only
  rw [h]

theorem exec_of_lexes {db : String → Option Table} {ps : List Val} {s : List Char} {ts : List Tok} (hl : Lexes s ts) {o : SqlOut}
    (h : sqlStmt db ps (ts.length + 1) ts = some o) : sqlExec db ps s = .ok o := by
  have h1 := hl [] stops_nil
  rw [List.append_nil, show sqlLex [] = some [] from rfl, Option.map_some, List.append_nil] at h1
  unfold sqlExec
  rw [h1]
  dsimp only
  rw [h]

/-! ## Texts in pieces -/

theorem cat3 (a b c d : List Char) : (a ++ b) ++ c ++ d = a ++ (b ++ c ++ d) := by simp

theorem cat_max (a c x b s d : List Char) : a ++ c ++ (x ++ b) ++ s ++ d = a ++ (c ++ (x ++ (b ++ s ++ d))) := by simp

theorem countOpen : "SELECT COUNT(*) FROM (".toList = "SELECT COUNT(*) FROM ".toList ++ ['('] := by decide

theorem distinctOpen : "SELECT COUNT(*) FROM (SELECT DISTINCT ".toList = "SELECT COUNT(*) FROM ".toList ++ "(SELECT DISTINCT ".toList := by
  decide

theorem closeFromOpen : ") FROM (".toList = ") FROM ".toList ++ ['('] := by decide

theorem closeWhereOpen : ") WHERE ".toList = [')'] ++ " WHERE ".toList := by decide

theorem closeClose : "))".toList = [')'] ++ [')'] := by decide

theorem countText_eq (src : List Char) : countText src = "SELECT COUNT(*) FROM ".toList ++ (['('] ++ src ++ [')']) := by
  exact (congrArg (fun a => a ++ src ++ [')']) countOpen).trans (cat3 _ _ _ _)

theorem countUniqueText_eq (cols : List String) (src : List Char) : countUniqueText cols src =
    "SELECT COUNT(*) FROM ".toList ++ ("(SELECT DISTINCT ".toList ++ (colsText cols ++ (" FROM ".toList ++
      ((['('] ++ src ++ [')']) ++ [')'])))) := by
  have gen : ∀ a b c x p s q r : List Char, (a ++ b) ++ c ++ (x ++ p) ++ s ++ (q ++ r) = a ++ (b ++ (c ++ (x ++ ((p ++ s ++ q) ++ r)))) := by
    simp
  have h : countUniqueText cols src = ("SELECT COUNT(*) FROM ".toList ++ "(SELECT DISTINCT ".toList) ++ colsText cols ++
      (" FROM ".toList ++ ['(']) ++ src ++ ([')'] ++ [')']) := by
    unfold countUniqueText
    exact congr (congrArg _ (congr (congrArg _ (congr (congrArg _ (congr (congrArg _ distinctOpen) rfl)) fromOpen)) rfl)) closeClose
  exact h.trans (gen _ _ _ _ _ _ _ _)

theorem maxText_eq (c : String) (src : List Char) : maxText c src =
    "SELECT MAX(".toList ++ (c.toList ++ (") FROM ".toList ++ (['('] ++ src ++ [')']))) := by
  exact (congrArg (fun a => "SELECT MAX(".toList ++ c.toList ++ a ++ src ++ [')']) closeFromOpen).trans (cat_max _ _ _ _ _ _)

theorem minText_eq (c : String) (src : List Char) : minText c src =
    "SELECT MIN(".toList ++ (c.toList ++ (") FROM ".toList ++ (['('] ++ src ++ [')']))) := by
  exact (congrArg (fun a => "SELECT MIN(".toList ++ c.toList ++ a ++ src ++ [')']) closeFromOpen).trans (cat_max _ _ _ _ _ _)

theorem deleteSplit : "WHERE rid NOT IN (SELECT rid FROM (".toList = "WHERE rid NOT IN (SELECT rid FROM ".toList ++ ['('] := by decide

theorem deleteSpace : ' ' :: "WHERE rid NOT IN (SELECT rid FROM ".toList = " WHERE rid NOT IN (SELECT rid FROM ".toList := by decide

theorem deleteText_eq (table src : List Char) : deleteText table src =
    "DELETE FROM ".toList ++ (table ++ (" WHERE rid NOT IN (SELECT rid FROM ".toList ++ ((['('] ++ src ++ [')']) ++ [')']))) := by
  have gen : ∀ (a b c p s q r : List Char) (k : Char), a ++ b ++ [k] ++ (c ++ p) ++ s ++ (q ++ r) =
    a ++ (b ++ ((k :: c) ++ ((p ++ s ++ q) ++ r))) := by simp
  have h : deleteText table src = "DELETE FROM ".toList ++ table ++ [' '] ++ ("WHERE rid NOT IN (SELECT rid FROM ".toList ++ ['(']) ++
      src ++ ([')'] ++ [')']) := by
    unfold deleteText
    exact congr (congrArg _ (congr (congrArg _ (congr (congrArg _ rfl) deleteSplit)) rfl)) closeClose
  rw [← deleteSpace]
  exact h.trans (gen _ _ _ _ _ _ _ _)

theorem copyText_eq (table : List Char) (cols : List String) (src : List Char) : copyText table cols src =
    "INSERT INTO ".toList ++ (table ++ (" (".toList ++ (colsText cols ++ (") SELECT ".toList ++ (colsText cols ++ (" FROM ".toList ++
      (['('] ++ src ++ [')']))))))) := by
  have gen : ∀ a b c d e f x p s q : List Char, a ++ b ++ c ++ d ++ e ++ f ++ (x ++ p) ++ s ++ q =
    a ++ (b ++ (c ++ (d ++ (e ++ (f ++ (x ++ (p ++ s ++ q))))))) := by simp
  exact (congrArg (fun a => "INSERT INTO ".toList ++ table ++ " (".toList ++ colsText cols ++ ") SELECT ".toList ++ colsText cols ++ a ++
    src ++ [')']) fromOpen).trans (gen _ _ _ _ _ _ _ _ _ _)

theorem insertText_eq (table : List Char) (cols : List String) : insertText table cols =
    "INSERT INTO ".toList ++ (table ++ (" (".toList ++ (colsText cols ++ (") VALUES (".toList ++
      (joinText [','] (List.replicate cols.length ['?']) ++ [')']))))) := by
  have gen : ∀ a b c d e f g : List Char, a ++ b ++ c ++ d ++ e ++ f ++ g = a ++ (b ++ (c ++ (d ++ (e ++ (f ++ g))))) := by simp
  exact gen _ _ _ _ _ _ _

theorem distinctText_eq (table : List Char) (c : String) : distinctText table c =
    "SELECT DISTINCT(".toList ++ (c.toList ++ (") FROM ".toList ++ (table ++ " ORDER BY rid".toList))) := by
  have gen : ∀ a b c d e : List Char, a ++ b ++ c ++ d ++ e = a ++ (b ++ (c ++ (d ++ e))) := by simp
  exact gen _ _ _ _ _

theorem updateText_eq (table : List Char) (c d : String) : updateText table c d =
    "UPDATE ".toList ++ (table ++ (" SET ".toList ++ (c.toList ++ (" = ? WHERE ".toList ++ (d.toList ++ " = ?".toList))))) := by
  have gen : ∀ a b c d e f g : List Char, a ++ b ++ c ++ d ++ e ++ f ++ g = a ++ (b ++ (c ++ (d ++ (e ++ (f ++ g))))) := by simp
  exact gen _ _ _ _ _ _ _

theorem lookupText_eq (table : List Char) (c d : String) : lookupText table c d =
    "SELECT ".toList ++ (c.toList ++ (" FROM ".toList ++ ((['('] ++ table ++ [')']) ++ (" WHERE ".toList ++ (d.toList ++ " = ?".toList))))) := by
  have gen : ∀ a b c p t q w d e : List Char, a ++ b ++ (c ++ p) ++ t ++ (q ++ w) ++ d ++ e =
    a ++ (b ++ (c ++ ((p ++ t ++ q) ++ (w ++ (d ++ e))))) := by simp
  have h : lookupText table c d = "SELECT ".toList ++ c.toList ++ (" FROM ".toList ++ ['(']) ++ table ++ ([')'] ++ " WHERE ".toList) ++
      d.toList ++ " = ?".toList := by
    unfold lookupText
    exact congr (congrArg _ (congr (congrArg _ (congr (congrArg _ (congr (congrArg _ (congr (congrArg _ rfl) fromOpen)) rfl))
      closeWhereOpen)) rfl)) rfl
  exact h.trans (gen _ _ _ _ _ _ _ _ _)

end DRec
