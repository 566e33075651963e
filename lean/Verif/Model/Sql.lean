import Verif.Model.TableNames

/-!
# The SQL texts of database datasets

`Model/Db` works with syntax trees.  Here are the texts the code builds (`db_dataset.py:237-252,319-330,723-782`), and a
reader for the part of SQL they are written in, after https://www.sqlite.org/lang_select.html: nested selections with
`AND`, `OR`, comparisons, `IN` and `NOT IN`.  Simplifications: other SQL is rejected; numbers are exact; one-line comments
are the only comments; texts between single quotes are rejected.
-/

namespace DRec

/-! ## Words of SQL -/

/-- The reserved words that matter, and all others. -/
inductive Kw where
  | select | from | where | and | or | not | in | group | limit
  | other (s : String)
  deriving DecidableEq, Repr

/-- Words, names between double quotes, numbers, comparisons and punctuation. -/
inductive Tok where
  | kw (k : Kw)
  | name (s : String)
  | quoted (s : String)
  | num (q : ℚ)
  | cmp (op : Op)
  | lpar | rpar | comma | minus | star | semi | param
  deriving DecidableEq, Repr

/-- Words that cannot be used as names without quotes (https://www.sqlite.org/lang_keywords.html, without those for which
the grammar has a fallback). -/
def otherReserved : List String :=
  ["ADD", "ALL", "ALTER", "AS", "AUTOINCREMENT", "BETWEEN", "CASE", "CHECK", "COLLATE", "COMMIT", "CONSTRAINT", "CREATE",
    "DEFAULT", "DEFERRABLE", "DELETE", "DISTINCT", "DROP", "ELSE", "ESCAPE", "EXISTS", "FOREIGN", "HAVING", "INDEX", "INSERT",
    "INTO", "IS", "ISNULL", "JOIN", "NOTHING", "NOTNULL", "ON", "ORDER", "PRIMARY", "REFERENCES", "RETURNING", "SET",
    "TABLE", "THEN", "TO", "TRANSACTION", "UNIQUE", "UPDATE", "USING", "VALUES", "WHEN"]

/-- Reserved words are recognised in upper and lower case. -/
def wordTok (s : List Char) : Tok :=
  let u := String.ofList (s.map Char.toUpper)
  if u = "SELECT" then .kw .select
  else if u = "FROM" then .kw .from
  else if u = "WHERE" then .kw .where
  else if u = "AND" then .kw .and
  else if u = "OR" then .kw .or
  else if u = "NOT" then .kw .not
  else if u = "IN" then .kw .in
  else if u = "GROUP" then .kw .group
  else if u = "LIMIT" then .kw .limit
  else if u ∈ otherReserved then .kw (.other u)
  else .name (String.ofList s)

/-- A text between double quotes, after the first one; a doubled quote stands for itself. -/
def lexQuoted : List Char → Option (List Char × List Char)
  | [] => none
  | '"' :: '"' :: r => (lexQuoted r).map fun p => ('"' :: p.1, p.2)
  | '"' :: r => some ([], r)
  | c :: r => (lexQuoted r).map fun p => (c :: p.1, p.2)

/-- An exponent, and what follows. -/
def lexExponent (s : List Char) : Option (Int × List Char) :=
  match s with
  | 'e' :: r | 'E' :: r =>
    let p := signOf r
    let d := p.2.takeWhile Char.isDigit
    if d.isEmpty then none else some (if p.1 then -(digitsVal d : Int) else digitsVal d, p.2.dropWhile Char.isDigit)
  | _ => some (0, s)

/-- A point and digits, and what follows. -/
def lexFrac : List Char → List Char × List Char
  | '.' :: r => (r.takeWhile Char.isDigit, r.dropWhile Char.isDigit)
  | r => ([], r)

/-- Digits, possibly a point and digits, possibly an exponent; a letter directly behind a number is an error. -/
def lexNum (s : List Char) : Option (ℚ × List Char) :=
  let a := s.takeWhile Char.isDigit
  let p := lexFrac (s.dropWhile Char.isDigit)
  match lexExponent p.2 with
  | none => none
  | some (e, rest) =>
    if (rest.head?.map sqlNameChar).getD false then none
    else some (((digitsVal a : ℚ) + (digitsVal p.1 : ℚ) / 10 ^ p.1.length) * 10 ^ e, rest)

/-- Comparisons and punctuation. -/
def lexSym : List Char → Option (Tok × List Char)
  | '<' :: '=' :: r => some (.cmp .le, r)
  | '<' :: '>' :: r => some (.cmp .ne, r)
  | '>' :: '=' :: r => some (.cmp .ge, r)
  | '=' :: '=' :: r => some (.cmp .eq, r)
  | '!' :: '=' :: r => some (.cmp .ne, r)
  | '<' :: r => some (.cmp .lt, r)
  | '>' :: r => some (.cmp .gt, r)
  | '=' :: r => some (.cmp .eq, r)
  | '(' :: r => some (.lpar, r)
  | ')' :: r => some (.rpar, r)
  | ',' :: r => some (.comma, r)
  | '-' :: r => some (.minus, r)
  | '*' :: r => some (.star, r)
  | ';' :: r => some (.semi, r)
  | '?' :: r => some (.param, r)
  | _ => none

/-- The words of a text; the number bounds the steps, the length of the text is enough. -/
def lexSteps : Nat → List Char → Option (List Tok)
  | _, [] => some []
  | 0, _ => none
  | f + 1, c :: cs =>
    if c.isWhitespace then lexSteps f cs
    else if c = '-' ∧ cs.head? = some '-' then lexSteps f (cs.dropWhile fun d => d ≠ '\n')
    else if c = '"' then
      match lexQuoted cs with
      | none => none
      | some p => (lexSteps f p.2).map (Tok.quoted (String.ofList p.1) :: ·)
    else if c.isAlpha || c = '_' then
      (lexSteps f (cs.dropWhile sqlNameChar)).map (wordTok (c :: cs.takeWhile sqlNameChar) :: ·)
    else if c.isDigit then
      match lexNum (c :: cs) with
      | none => none
      | some p => (lexSteps f p.2).map (Tok.num p.1 :: ·)
    else
      match lexSym (c :: cs) with
      | none => none
      | some p => (lexSteps f p.2).map (p.1 :: ·)

/-- The words of a text. -/
def sqlLex (s : List Char) : Option (List Tok) := lexSteps s.length s

/-! ## Statements -/

/-- Names separated by commas. -/
def nameList : List Tok → Option (List String × List Tok)
  | .name c :: .comma :: ts => (nameList ts).map fun p => (c :: p.1, p.2)
  | .name c :: ts => some ([c], ts)
  | _ => none

/-- Numbers separated by commas, up to the closing parenthesis. -/
def numList1 : List Tok → Option (List ℚ × List Tok)
  | .num q :: .comma :: ts => (numList1 ts).map fun p => (q :: p.1, p.2)
  | .num q :: .rpar :: ts => some ([q], ts)
  | _ => none

/-- The same, possibly none. -/
def numList : List Tok → Option (List ℚ × List Tok)
  | .rpar :: ts => some ([], ts)
  | ts => numList1 ts

/-- The column meant by a name. -/
def resolve (scols : List String) (c : String) : Option String := scols.find? (sameName c)

/-- One side of a comparison: a column, a text between double quotes (a column if there is one of that name), a number. -/
def operand (scols : List String) : List Tok → Option ((Row → Val) × List Tok)
  | .name c :: ts => (resolve scols c).map fun d => ((fun r : Row => r.get d), ts)
  | .quoted s :: ts => some (fun r => Rhs.value scols r (.quoted s), ts)
  | .num q :: ts => some (fun _ => .num q, ts)
  | .minus :: .num q :: ts => some (fun _ => .num (-q), ts)
  | _ => none

/-- `a op b`. -/
def comparison (scols : List String) (ts : List Tok) : Option ((Row → Bool) × List Tok) :=
  match operand scols ts with
  | some (a, .cmp op :: ts1) => (operand scols ts1).map fun p => ((fun r => cmpSql op (a r) (p.1 r)), p.2)
  | _ => none

/-- `v IN (…)`, `v NOT IN (…)`; not true when `v` is missing. -/
def inList (neg : Bool) (vs : List Val) (v : Val) : Bool :=
  decide (v ≠ .null) && (if neg then !decide (v ∈ vs) else decide (v ∈ vs))

/-- `[NOT] IN (` after a column. -/
def inHead : List Tok → Option (Bool × List Tok)
  | .kw .in :: .lpar :: ts => some (false, ts)
  | .kw .not :: .kw .in :: .lpar :: ts => some (true, ts)
  | _ => none

/-- The smallest record id of every group. -/
def minRids (g : List String) (rows : List Row) : List Val :=
  (rows.filter fun m => rows.all fun r => !decide (keyOn g r = keyOn g m) || decide (m.rid ≤ r.rid)).map fun m => .num m.rid

/-- `SELECT MIN(rid) FROM`.  Simplification: no other aggregates. -/
def minHead : List Tok → Option (List Tok)
  | .kw .select :: .name m :: .lpar :: .name c :: .rpar :: .kw .from :: ts =>
    if sameName m "MIN" ∧ c = "rid" then some ts else none
  | _ => none

/-- `GROUP BY c₁, c₂, … )`. -/
def groupTail : List Tok → Option (List String × List Tok)
  | .kw .group :: .name b :: ts =>
    if sameName b "BY" then
      match nameList ts with
      | some (g, .rpar :: ts1) => some (g, ts1)
      | _ => none
    else none
  | _ => none

/-- `LIMIT n`, if there is one. -/
def limitTail (rows : List Row) : List Tok → List Row × List Tok
  | .kw .limit :: .num q :: ts => (rows.take q.floor.toNat, ts)
  | ts => (rows, ts)

mutual

/-- A selection: its columns and rows, and what follows it.  The number bounds the nesting. -/
def sqlSelect (db : String → Option Table) : Nat → List Tok → Option ((List String × List Row) × List Tok)
  | 0, _ => none
  | f + 1, ts =>
    match ts with
    | .kw .select :: ts0 =>
      match nameList ts0 with
      | some (cols, .kw .from :: ts1) =>
        match sqlSource db f ts1 with
        | none => none
        | some ((scols, rows), ts2) =>
          match cols.mapM (resolve scols) with
          | none => none
          | some cs =>
            match ts2 with
            | .kw .where :: ts3 =>
              match sqlOr db f scols ts3 with
              | none => none
              | some (p, ts4) => some ((cs, (limitTail (rows.filter p) ts4).1), (limitTail (rows.filter p) ts4).2)
            | _ => some ((cs, (limitTail rows ts2).1), (limitTail rows ts2).2)
      | _ => none
    | _ => none

/-- What stands behind `FROM`: a table, a table in parentheses, or a selection in parentheses. -/
def sqlSource (db : String → Option Table) : Nat → List Tok → Option ((List String × List Row) × List Tok)
  | 0, _ => none
  | f + 1, ts =>
    match ts with
    | .name n :: ts1 => (db n).map fun t => ((t.cols, t.rows), ts1)
    | .lpar :: .name n :: .rpar :: ts1 => (db n).map fun t => ((t.cols, t.rows), ts1)
    | .lpar :: ts1 =>
      match sqlSelect db f ts1 with
      | some (x, .rpar :: ts2) => some (x, ts2)
      | _ => none
    | _ => none

/-- One condition. -/
def sqlCond (db : String → Option Table) : Nat → List String → List Tok → Option ((Row → Bool) × List Tok)
  | 0, _, _ => none
  | f + 1, scols, ts =>
    match ts with
    | .name c :: ts0 =>
      match inHead ts0 with
      | none => comparison scols ts
      | some (neg, ts1) =>
        match resolve scols c with
        | none => none
        | some d =>
          match minHead ts1 with
          | none => (numList ts1).map fun p => ((fun r => inList neg (p.1.map .num) (r.get d)), p.2)
          | some ts2 =>
            match sqlSource db f ts2 with
            | none => none
            | some ((scols', rows'), ts3) =>
              match groupTail ts3 with
              | none => none
              | some (g, ts4) =>
                match g.mapM (resolve scols') with
                | none => none
                | some g' => if "rid" ∈ scols' then some ((fun r => inList neg (minRids g' rows') (r.get d)), ts4) else none
    | _ => comparison scols ts

/-- Conditions joined by `AND`. -/
def sqlAnd (db : String → Option Table) : Nat → List String → List Tok → Option ((Row → Bool) × List Tok)
  | 0, _, _ => none
  | f + 1, scols, ts =>
    match sqlCond db f scols ts with
    | none => none
    | some (p, .kw .and :: ts1) => (sqlAnd db f scols ts1).map fun q => ((fun r => p r && q.1 r), q.2)
    | some (p, ts1) => some (p, ts1)

/-- Conditions joined by `OR`, which binds weaker than `AND`. -/
def sqlOr (db : String → Option Table) : Nat → List String → List Tok → Option ((Row → Bool) × List Tok)
  | 0, _, _ => none
  | f + 1, scols, ts =>
    match sqlAnd db f scols ts with
    | none => none
    | some (p, .kw .or :: ts1) => (sqlOr db f scols ts1).map fun q => ((fun r => p r || q.1 r), q.2)
    | some (p, ts1) => some (p, ts1)

end

/-- What SQLite returns for a selection (`db_dataset.py:99,315`): nothing may follow it. -/
def sqlRun (db : String → Option Table) (s : List Char) : Except Err (List String × List Row) :=
  match sqlLex s with
  | none => .error .crash
  | some ts =>
    match sqlSelect db (ts.length + 1) ts with
    | some (x, []) => .ok x
    | _ => .error .crash

/-- The columns of a table definition, up to the closing parenthesis: a name and one word for the type, possibly
`PRIMARY KEY`.  Simplification: SQLite allows more words for a type. -/
def colDefs : List Tok → Option (List String)
  | [.name c, .name _, .rpar] => some [c]
  | [.name c, .name _, .kw (.other "PRIMARY"), .name "KEY", .rpar] => some [c]
  | .name c :: .name _ :: .comma :: ts => (colDefs ts).map (c :: ·)
  | .name c :: .name _ :: .kw (.other "PRIMARY") :: .name "KEY" :: .comma :: ts => (colDefs ts).map (c :: ·)
  | _ => none

/-- No column name is used twice, in whatever case. -/
def noDup : List String → Bool
  | [] => true
  | c :: cs => cs.all (fun d => !sameName c d) && noDup cs

/-- What SQLite does with a `CREATE TABLE` statement (`db_dataset.py:926`): the name and columns of the new table. -/
def createRun (s : List Char) : Except Err (String × List String) :=
  match sqlLex s with
  | some (.kw (.other "CREATE") :: .kw (.other "TABLE") :: .name n :: .lpar :: ts) =>
    match colDefs ts with
    | some cols => if noDup cols then .ok (n, cols) else .error .crash
    | none => .error .crash
  | _ => .error .crash

/-! ## The texts the code builds -/

/-- Python `sep.join(texts)`. -/
def joinText (sep : List Char) : List (List Char) → List Char
  | [] => []
  | [s] => s
  | s :: ss => s ++ sep ++ joinText sep ss

/-- The operator in SQL (`db_dataset.py:755-760`). -/
def Op.sql : Op → List Char
  | .gt => ['>'] | .ge => ['>', '='] | .le => ['<', '='] | .lt => ['<'] | .eq => ['='] | .ne => ['<', '>']

/-- `f'{column} {operator} {value}'` (`db_dataset.py:755-760`). -/
def condText (col : String) (op : Op) (v : List Char) : List Char := col.toList ++ ' ' :: op.sql ++ ' ' :: v

/-- `str('"' + value + '"')` (`db_dataset.py:749`): quotes in the value stay as they are. -/
def quoteText (s : String) : List Char := '"' :: s.toList ++ ['"']

/-- `",".join(columns)` (`db_dataset.py:244,324,766`). -/
def colsText (cols : List String) : List Char := joinText [','] (cols.map String.toList)

/-- `" AND ".join(conditions)` (`db_dataset.py:768,772`). -/
def andText (cs : List (List Char)) : List Char := joinText " AND ".toList cs

/-- `_build_new_state` with conditions, for a state and table (`db_dataset.py:764-772`). -/
def stateText (cols : List String) (table : List Char) (state : List Char) (cs : List (List Char)) : List Char :=
  if state = [] then "SELECT ".toList ++ colsText cols ++ " FROM ".toList ++ table ++ " WHERE ".toList ++ andText cs
  else state ++ " AND ".toList ++ andText cs

/-- `_build_new_state()` without conditions (`db_dataset.py:764-772`). -/
def fetchText (cols : List String) (table : List Char) (state : List Char) : List Char :=
  if state = [] then "SELECT ".toList ++ colsText cols ++ " FROM ".toList ++ table else state

/-- `_curr_state_source` (`db_dataset.py:779-782`). -/
def sourceText (table : List Char) (state : List Char) : List Char := if state = [] then table else state

/-- `drop` (`db_dataset.py:323-329`). -/
def dropText (cols : List String) (src : List Char) (ids : List Nat) (keep : Bool) : List Char :=
  "SELECT ".toList ++ colsText cols ++ " FROM (".toList ++ src ++
    (if keep then ") WHERE rid IN (".toList else ") WHERE rid NOT IN (".toList) ++
    joinText [','] (ids.map fun n => (toString n).toList) ++ [')']

/-- `unique` (`db_dataset.py:240-249`). -/
def uniqueText (cols : List String) (src : List Char) : List Char :=
  "SELECT ".toList ++ colsText cols ++ (if "rid" ∈ cols then [] else ", rid".toList) ++ " FROM (".toList ++ src ++
    ") WHERE rid IN (SELECT MIN(rid) FROM (".toList ++ src ++ ") GROUP BY ".toList ++ colsText cols ++ [')']

/-- `py_sql_type` (`db_dataset.py:903-908`). -/
def DType.sql : DType → List Char
  | .int => "INTEGER".toList
  | .float => "REAL".toList
  | .obj => "TEXT".toList

/-- The statement of `_build_table` (`db_dataset.py:915-924`). -/
def createText (table : List Char) (cols : List String) (ty : String → DType) : List Char :=
  "CREATE TABLE ".toList ++ table ++ " (rid INTEGER PRIMARY KEY,uid INTEGER,iid INTEGER".toList ++
    (cols.filter (· ∉ ["rid", "uid", "iid"])).flatMap (fun c => ',' :: c.toList ++ ' ' :: (ty c).sql) ++ [')']

end DRec
