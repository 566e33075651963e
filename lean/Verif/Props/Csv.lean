import Verif.Lemmas.Csv

/-!
# Csv files: C26, C27, C30, C74

The conversions between texts and numbers are parameters of the model, so the theorems hold for every conversion.
The examples and witnesses use Python's rules for plain decimal numbers.
-/

namespace DRec

open Spec

/-- Plain decimal numbers. -/
def exConv : Conv := ⟨fun s => (pyInt s).isSome, pyFloat, pyFloat⟩

/-- The same for pandas; `NA` and the empty text are missing values. -/
def exPd : PdConv := ⟨pyFloat, fun s => s = "NA".toList ∨ s = [], fun _ => none⟩

/-- Columns of the examples. -/
def exCols : List (Option String) := [some "user", some "item", some "interaction"]

/-! ## C26: the chunk size

The full statement speaks about every file.  It fails for files with line ends inside quoted fields, because every
chunk is parsed on its own. -/

/-- C26, chunk independence: if no line of the file ends inside a quoted field, the result (records or failure) is the
same for all chunk sizes.  Missing from the full statement: files with line ends inside quoted fields. -/
theorem C26_chunks_partial (k : Conv) (delim : List Char) (header : Bool) (cols : List (Option String))
    (text : List Char)
    (hl : ∀ l ∈ fileLines text, Closed (newDelimiter delim) (prepLine delim l)) (s₁ s₂ : Nat) (h₁ : 0 < s₁)
    (h₂ : 0 < s₂) : loadCsv k delim s₁ header cols text = loadCsv k delim s₂ header cols text := by
  have key : ∀ s, 0 < s → importLoop k (newDelimiter delim) cols s
      ((if header then (fileLines text).drop 1 else fileLines text).map (prepLine delim)) [] [] =
      segment k (newDelimiter delim) cols
        ((if header then (fileLines text).drop 1 else fileLines text).map (prepLine delim)) [] := by
    intro s hs
    rw [importLoop_eq k cols _ [] [] _ (by simp) (by simpa using hs), List.nil_append]
    intro l' hm'
    obtain ⟨l, hm, rfl⟩ := List.mem_map.1 hm'
    apply hl
    cases header with
    | true => exact List.mem_of_mem_drop hm
    | false => exact hm
  unfold loadCsv
  simp only [key s₁ h₁, key s₂ h₂]

/-- C26, the records: a file of clean rows gives one record per row, in order, numbered from 0, holding the named
columns only, whatever the chunk size, with and without a header line. -/
theorem C26_import_partial (k : Conv) (d : Char) (hd : d ≠ '\n') (hq : d ≠ '"') (size : Nat) (hs : 0 < size)
    (cols : List (Option String)) (hc : ColsOk cols) (rows : List (List (List Char))) (hr : Importable k d cols rows)
    (hne : rows ≠ []) (hdr : Option (List Char)) (hh : ∀ h ∈ hdr, '\n' ∉ h) :
    loadCsv k [d] size hdr.isSome cols ((hdr.elim [] fun h => h ++ ['\n']) ++ csvText [d] rows) =
      some (rows.zipIdx.map fun ri => ((named cols ri.1).map fun cv =>
        importVal k (numericCol k cols rows cv.1) cv.1 cv.2, ri.2)) :=
  loadCsv_rows k hd hq hs hc hr hne hdr hh

/-- C26, the last line: a line end after the last line makes no difference, if no line ends inside a quoted field. -/
theorem C26_last_line_partial (k : Conv) (d : Char) (hd : d ≠ '\n') (size : Nat) (hs : 0 < size) (header : Bool)
    (cols : List (Option String)) (text : List Char) (hne : text ≠ []) (hlast : text.getLast? ≠ some '\n')
    (hl : ∀ l ∈ fileLines text, Closed d l) :
    loadCsv k [d] size header cols (text ++ ['\n']) = loadCsv k [d] size header cols text :=
  loadCsv_last k hd hs header cols hne hlast hl

-- A quoted field at the end of a last line without line end.
example : (∀ l ∈ fileLines "u,a,1\nv,b,\"2\"".toList, Closed ',' l) ∧
    loadCsv exConv [','] 5 false exCols "u,a,1\nv,b,\"2\"".toList =
      some [([.str "u", .str "a", .num 1], 0), ([.str "v", .str "b", .num 2], 1)] := by
  refine ⟨?_, by decide +kernel⟩
  have e : fileLines "u,a,1\nv,b,\"2\"".toList = ["u,a,1\n".toList, "v,b,\"2\"".toList] := by decide
  rw [e]
  intro l hl
  simp only [List.mem_cons, List.not_mem_nil, or_false] at hl
  rcases hl with rfl | rfl <;> exact ⟨_, rfl, rfl⟩

/-- C26 fails: a quoted field with a line end is read with chunks of three lines and makes the import fail with
chunks of two lines. -/
theorem C26_fails :
    let text := "u0,x,1\nu1,\"a\nb\",3\n".toList
    loadCsv exConv [','] 3 false exCols text =
      some [([.str "u0", .str "x", .num 1], 0), ([.str "u1", .str "a\nb", .num 3], 1)] ∧
    loadCsv exConv [','] 2 false exCols text = none := by decide +kernel

/-- C26 fails: a file without data lines cannot be imported. -/
theorem C26_fails_empty (k : Conv) (delim : List Char) (size : Nat) (cols : List (Option String)) :
    loadCsv k delim size false cols [] = none := rfl

-- Three rows, a skipped column, a header; the ids in the first column are numbers.
example :
    let cols := [some "user", none, some "item", some "interaction"]
    let rows := [["1".toList, "zz".toList, "a".toList, "3.5".toList], ["2".toList, "y".toList, "7".toList, "4".toList],
      ["x".toList, [], "b".toList, "-1".toList]]
    ColsOk cols ∧ Importable exConv ',' cols rows ∧
      loadCsv exConv [','] 2 true cols ("h1,h2,h3,h4\n".toList ++ csvText [','] rows) =
        some [([.num 1, .str "a", .num (7/2)], 0), ([.num 2, .str "7", .num 4], 1),
          ([.str "x", .str "b", .num (-1)], 2)] := by
  refine ⟨⟨by decide, by decide, by decide, by decide⟩, ⟨by decide, ?_, ?_, by decide⟩, by decide +kernel⟩
  · intro r hr v hv
    simp only [List.mem_cons, List.not_mem_nil, or_false] at hr
    rcases hr with rfl | rfl | rfl <;> simp only [List.mem_cons, List.not_mem_nil, or_false] at hv <;>
      rcases hv with rfl | rfl | rfl | rfl <;> exact ⟨by decide, by decide, by decide⟩
  · intro r hr v hv
    simp only [List.mem_cons, List.not_mem_nil, or_false] at hr
    rcases hr with rfl | rfl | rfl <;>
      simp only [named, List.zip_cons_cons, List.zip_nil_right, List.filterMap_cons, List.filterMap_nil,
        Option.map_some, Option.map_none, List.mem_cons, Prod.mk.injEq, List.not_mem_nil, or_false] at hv <;>
      rcases hv with ⟨h, _⟩ | ⟨h, _⟩ | ⟨_, rfl⟩ <;> first | exact absurd h (by decide) | decide +kernel

-- Lines with closed quotes, and one that is not.
example : Closed ',' "u1,\"a,b\",3\n".toList ∧ ¬ Closed ',' "u1,\"a\n".toList := by
  refine ⟨⟨_, rfl, rfl⟩, ?_⟩
  rintro ⟨p, h, hs⟩
  have e : CsvP.line ',' .fresh "u1,\"a\n".toList = some ⟨.inQuoted, ['a', '\n'], [['u', '1']]⟩ := by decide
  rw [e] at h
  cases h
  cases hs

/-! ## C74: delimiters of more than one character

The full statement: a line is read as the fields between the delimiters.  The code replaces the delimiter by a comma
first, so it fails for fields with a comma. -/

/-- C74, the part that holds: fields without commas, quotes at the beginning, line ends and the first character of
the delimiter.  Missing from the full statement: fields with a comma. -/
theorem C74_partial (k : Conv) (delim : List Char) (x : Char) (hp : delim.head? = some x) (hlen : 1 < delim.length)
    (hn : '\n' ∉ delim) (size : Nat) (hs : 0 < size) (cols : List (Option String)) (hc : ColsOk cols)
    (rows : List (List (List Char))) (hr : Importable k ',' cols rows) (hx : ∀ r ∈ rows, ∀ v ∈ r, x ∉ v)
    (hne : rows ≠ []) :
    loadCsv k delim size false cols (csvText delim rows) =
      some (rows.zipIdx.map fun ri => ((named cols ri.1).map fun cv =>
        importVal k (numericCol k cols rows cv.1) cv.1 cv.2, ri.2)) := by
  rw [loadCsv_long k hp hlen hn fun r h v hv => ⟨hx r h v hv, (hr.clean r h v hv).line⟩]
  exact loadCsv_rows k (by decide) (by decide) hs hc hr hne none (by simp)

/-- C74 fails: the item `a,b` is cut at the comma and the rest is dropped without an error. -/
theorem C74_fails :
    loadCsv exConv "::".toList 10 false [some "user", some "interaction", some "item"]
      (csvText "::".toList [["u".toList, "5".toList, "a,b".toList]]) = some [([.str "u", .num 5, .str "a"], 0)] := by
  decide +kernel

example : ("::".toList).head? = some ':' ∧
    loadCsv exConv "::".toList 1 false exCols "u::a::5\nv::b::4\n".toList =
      some [([.str "u", .str "a", .num 5], 0), ([.str "v", .str "b", .num 4], 1)] := by decide +kernel

/-! ## C30: the saved columns

The full statement: exactly the requested columns in order, never the identifiers, for both backends. -/

/-- C30, database backend: the file has the requested columns (all when none are requested) without the identifiers,
in the requested order, one line per record in order.  Missing from the full statement: exactly one column left
to write, and column lists with repetitions. -/
theorem C30_db_partial (flt : ℚ → List Char) (cols : List String) (columns : Option (List String)) (header : Bool)
    (rows : List (String → Lit)) (hin : ∀ c ∈ asked cols columns, c ∈ cols) (hnd : (asked cols columns).Nodup)
    (hlen : (plainCols (asked cols columns)).length ≠ 1) :
    dbSaveCsv flt cols columns header rows =
      some (csvText [','] (savedFields flt (plainCols (asked cols columns)) header rows)) :=
  dbSave_text flt header rows hin hnd hlen

/-- C30: a requested column that does not exist is refused. -/
theorem C30_db_refused (flt : ℚ → List Char) (cols l : List String) (header : Bool) (rows : List (String → Lit))
    (c : String) (hc : c ∈ l) (hn : c ∉ cols) : dbSaveCsv flt cols (some l) header rows = none := by
  unfold dbSaveCsv handleColumns
  have : (l.all fun c => decide (c ∈ cols)) = false := by
    rw [← Bool.not_eq_true, List.all_eq_true]
    intro h
    exact hn (of_decide_eq_true (h c hc))
  simp [this]

/-- C30 fails for one column, database backend: the characters of the text are written as fields. -/
theorem C30_fails_one_column :
    dbSaveCsv (fun _ => []) ["user", "item", "interaction", "rid"] (some ["user"]) true [fun _ => .str "ab"] =
      some "user\na,b\n".toList := by decide +kernel

/-- C30 fails for one column with numbers, database backend: saving raises. -/
theorem C30_fails_one_number :
    dbSaveCsv (fun _ => []) ["user", "item", "interaction", "rid"] (some ["user"]) true [fun _ => .int 12] = none := by
  decide +kernel

/-- C30 fails for repeated identifiers, database backend: the second `rid` is written. -/
theorem C30_fails_repeated :
    dbSaveCsv (fun _ => []) ["user", "item", "interaction", "rid"] (some ["rid", "user", "rid"]) true
      [fun c => if c = "rid" then .int 4 else .str "u"] = some "user,rid\nu,4\n".toList := by decide +kernel

/-- C30: saving from the database backend removes the identifiers from the caller's list. -/
theorem C30_argument_changed (l : List String) (h : "rid" ∈ l) : dbSaveArg l ≠ l := by
  intro e
  have h1 : (withoutIds l).length < l.length := by
    unfold withoutIds
    have a := List.length_erase_of_mem h
    have b := (List.erase_sublist (a := "uid") (l := l.erase "rid")).length_le
    have c := (List.erase_sublist (a := "iid") (l := (l.erase "rid").erase "uid")).length_le
    have d := List.length_pos_of_mem h
    omega
  unfold dbSaveArg at e
  rw [e] at h1
  omega

/-- C30, in-memory backend: when no columns are requested the file reads (by the csv rules) as exactly the columns
that are not identifiers, in order, one row per record in order.  Missing from the full statement: requests. -/
theorem C30_mem_partial (flt : ℚ → List Char) (cols : List String) (header : Bool) (rows : List (String → Lit))
    (hnd : cols.Nodup) (hlen : 1 < (plainCols cols).length) :
    csvRows ',' (fileLines (memSaveCsv flt cols none header rows)) .fresh =
      some (savedFields flt (plainCols cols) header rows) := by
  rw [memSave_text flt none header rows hnd]
  apply read_quoted
  intro r hr
  unfold savedFields at hr
  rcases List.mem_append.1 hr with h | h
  · split at h
    · rw [List.mem_singleton.1 h]; simpa using hlen
    · cases h
  · obtain ⟨x, _, rfl⟩ := List.mem_map.1 h
    simpa using hlen

/-- C30 fails, in-memory backend: the requested columns are ignored. -/
theorem C30_fails_ignored (flt : ℚ → List Char) (cols : List String) (l : List String) (header : Bool)
    (rows : List (String → Lit)) : memSaveCsv flt cols (some l) header rows = memSaveCsv flt cols none header rows := rfl

-- Two requested columns, with the record id, out of four.
example :
    let cols := ["user", "item", "interaction", "rid"]
    (∀ c ∈ asked cols (some ["item", "rid", "user"]), c ∈ cols) ∧ (asked cols (some ["item", "rid", "user"])).Nodup ∧
    (plainCols (asked cols (some ["item", "rid", "user"]))).length ≠ 1 ∧
    dbSaveCsv (fun _ => []) cols (some ["item", "rid", "user"]) true [fun c => .str (c ++ "0"), fun c => .str (c ++ "1")] =
      some "item,user\nitem0,user0\nitem1,user1\n".toList := by decide +kernel

example : memSaveCsv (fun _ => []) ["user", "item", "interaction", "rid"] (some ["user"]) true
    [fun c => if c = "interaction" then .int 3 else .str "a,\"b"] =
      "user,item,interaction\n\"a,\"\"b\",\"a,\"\"b\",3\n".toList := by decide +kernel

/-! ## C27: save, then load

The full statement: the same records come back.  The database backend writes texts without quoting; both backends
guess column types when loading. -/

/-- C27, database backend: tables whose texts can be written as they are come back, renumbered from 0, with any
chunk size, with and without header.  Missing from the full statement: see `Savable`. -/
theorem C27_db_partial (k : Conv) (flt : ℚ → List Char) (cols : List String) (hnd : cols.Nodup) (hu : "user" ∈ cols)
    (hi : "item" ∈ cols) (hx : "interaction" ∈ cols) (hn : ∀ c ∈ cols, '\n' ∉ c.toList) (rows : List (String → Lit))
    (hne : rows ≠ []) (hs : Savable k flt (plainCols cols) rows) (size : Nat) (hsz : 0 < size) (header : Bool) :
    ∃ text, dbSaveCsv flt cols none header rows = some text ∧
      loadCsv k [','] size header ((plainCols cols).map some) text =
        some (rows.zipIdx.map fun ri => ((plainCols cols).map fun c => (ri.1 c).toVal, ri.2)) := by
  have hm : ∀ c, c ∈ cols → c ≠ "rid" ∧ c ≠ "uid" ∧ c ≠ "iid" → c ∈ plainCols cols := by
    intro c hc h
    unfold plainCols
    exact List.mem_filter.2 ⟨hc, decide_eq_true h⟩
  have hu' := hm _ hu (by decide)
  have hi' := hm _ hi (by decide)
  have hx' := hm _ hx (by decide)
  have hnd' : (plainCols cols).Nodup := hnd.filter _
  refine ⟨_, dbSave_text flt (columns := none) header rows (fun c h => h) hnd ?_, ?_⟩
  · intro e
    obtain ⟨a, ha⟩ := List.length_eq_one_iff.1 e
    simp only [asked, Option.getD_none] at ha
    rw [ha] at hu' hi'
    have := (List.mem_singleton.1 hu').trans (List.mem_singleton.1 hi').symm
    exact absurd this (by decide)
  · exact load_saved k flt hnd' hu' hi' hx' hs hne hsz header fun c hc => hn c (List.mem_filter.1 hc).1

/-- C27 fails, database backend: a text with a comma moves the following fields. -/
theorem C27_fails_comma :
    let rows : List (String → Lit) := [fun c => if c = "interaction" then .int 3 else if c = "item" then .str "a,4" else
      .str "u"]
    dbSaveCsv (fun _ => []) ["user", "item", "interaction", "rid"] none false rows = some "u,a,4,3\n".toList ∧
      loadCsv exConv [','] 10 false exCols "u,a,4,3\n".toList = some [([.str "u", .str "a", .num 4], 0)] := by
  decide +kernel

/-- C27 fails, database backend: a text that looks like a number comes back as a number. -/
theorem C27_fails_number :
    let rows : List (String → Lit) := [fun c => if c = "interaction" then .int 3 else .str "007"]
    dbSaveCsv (fun _ => []) ["user", "item", "interaction", "rid"] none false rows = some "007,007,3\n".toList ∧
      loadCsv exConv [','] 10 false exCols "007,007,3\n".toList = some [([.num 7, .num 7, .num 3], 0)] := by
  decide +kernel

/-- C27 fails, database backend: an empty dataset is saved as an empty file, which cannot be loaded. -/
theorem C27_fails_empty (k : Conv) (flt : ℚ → List Char) :
    dbSaveCsv flt ["user", "item", "interaction", "rid"] none false [] = some [] ∧
      loadCsv k [','] 10 false exCols [] = none := ⟨rfl, rfl⟩

/-- C27, in-memory backend: texts with commas, quotes and line ends come back as well, for columns that hold only
numbers and missing values or are recognisable as texts.  Missing from the full statement: see `MemSavable`. -/
theorem C27_mem_partial (k : PdConv) (flt : ℚ → List Char) (cols : List String) (hnd : cols.Nodup)
    (hu : "user" ∈ cols) (hi : "item" ∈ cols) (hx : "interaction" ∈ cols) (rows : List (String → Lit)) (hs : MemSavable k flt (plainCols cols) rows)
    (hne : rows ≠ []) (header : Bool) (hn : ∀ c ∈ plainCols cols, '\n' ∉ c.toList) :
    memLoadCsv k header (plainCols cols) (memSaveCsv flt cols none header rows) =
      some ((plainCols cols).map fun c => rows.map fun r => (r c).toVal) := by
  have hm : ∀ c, c ∈ cols → c ≠ "rid" ∧ c ≠ "uid" ∧ c ≠ "iid" → c ∈ plainCols cols := by
    intro c hc h
    unfold plainCols
    exact List.mem_filter.2 ⟨hc, decide_eq_true h⟩
  have hu' := hm _ hu (by decide)
  have hi' := hm _ hi (by decide)
  have hx' := hm _ hx (by decide)
  refine mem_load_saved k flt hnd (by simp [requiredCols, hu', hi', hx']) ?_ hs hne none header hn
  by_contra hlt
  have h2 : ∀ a ∈ plainCols cols, ∀ b ∈ plainCols cols, a = b := by
    rcases hp : plainCols cols with _ | ⟨y, l⟩
    · simp
    · rw [hp] at hlt
      have : l = [] := List.length_eq_zero_iff.1 (by rw [List.length_cons] at hlt; omega)
      subst this
      simp
  exact absurd (h2 _ hu' _ hi') (by decide)

/-- C27 fails, in-memory backend: the user `NA` comes back as the empty text, and the items `007` and `7`, which are
different, come back as the same number. -/
theorem C27_fails_mem :
    let rows : List (String → Lit) := [
      fun c => if c = "interaction" then .int 3 else if c = "item" then .str "007" else .str "NA",
      fun c => if c = "interaction" then .int 4 else if c = "item" then .str "7" else .str "u"]
    memLoadCsv exPd false ["user", "item", "interaction"]
      (memSaveCsv (fun _ => []) ["user", "item", "interaction", "rid"] none false rows) =
      some [[.str "", .str "u"], [.num 7, .num 7], [.num 3, .num 4]] := by decide +kernel

/-- C27 fails, database backend: a missing number comes back as the empty text. -/
theorem C27_fails_missing :
    let cols := ["user", "item", "interaction", "age", "rid"]
    let rows : List (String → Lit) := [fun c => if c = "age" then .int 30 else .int 3,
      fun c => if c = "age" then .none else .int 4]
    dbSaveCsv (fun _ => []) cols none false rows = some "3,3,3,30\n4,4,4,\n".toList ∧
      loadCsv exConv [','] 10 false ((plainCols cols).map some) "3,3,3,30\n4,4,4,\n".toList =
        some [([.num 3, .num 3, .num 3, .num 30], 0), ([.num 4, .num 4, .num 4, .str ""], 1)] := by
  decide +kernel

/-- A table for the examples. -/
def exTable : List (String → Lit) := [
  fun c => if c = "user" then .str "bob" else if c = "item" then .int 12 else .flt (7/2),
  fun c => if c = "user" then .str "007" else if c = "item" then .int 3 else .int 4]

/-- Printing of the one float of the example. -/
def exFlt (_ : ℚ) : List Char := "3.5".toList

-- A table that can be saved and loaded in the database backend.
example : Savable exConv exFlt (plainCols ["user", "item", "interaction", "rid"]) exTable := by
  have hp : plainCols ["user", "item", "interaction", "rid"] = ["user", "item", "interaction"] := by decide
  rw [hp]
  refine ⟨?_, ?_, ?_, ?_⟩
  · intro r hr c hc
    simp only [exTable, List.mem_cons, List.not_mem_nil, or_false] at hr hc
    rcases hr with rfl | rfl <;> rcases hc with rfl | rfl | rfl <;> exact ⟨by decide, by decide, by decide⟩
  · intro r hr c hc hn
    simp only [exTable, List.mem_cons, List.not_mem_nil, or_false] at hr hc
    rcases hr with rfl | rfl <;> rcases hc with rfl | rfl | rfl <;>
      first | decide +kernel | exact absurd hn (by simp [IsNum])
  · intro r hr
    simp only [exTable, List.mem_cons, List.not_mem_nil, or_false] at hr
    rcases hr with rfl | rfl <;> simp [IsNum]
  · intro c hc
    simp only [List.mem_cons, List.not_mem_nil, or_false] at hc
    rcases hc with rfl | rfl | rfl
    · right
      constructor
      · intro r hr
        simp only [exTable, List.mem_cons, List.not_mem_nil, or_false] at hr
        rcases hr with rfl | rfl <;> exact ⟨_, rfl⟩
      · intro r hr
        simp only [exTable, List.head?_cons, Option.mem_def, Option.some.injEq] at hr
        subst hr
        decide +kernel
    · left
      intro r hr
      simp only [exTable, List.mem_cons, List.not_mem_nil, or_false] at hr
      rcases hr with rfl | rfl <;> simp [IsNum]
    · left
      intro r hr
      simp only [exTable, List.mem_cons, List.not_mem_nil, or_false] at hr
      rcases hr with rfl | rfl <;> simp [IsNum]

-- And in memory; with a user name that has a comma, a quote and a line end, and a missing item.
example :
    let rows : List (String → Lit) := [fun c => if c = "user" then .str "a,\"\nb" else .int 1,
      fun c => if c = "user" then .str "" else .none]
    MemSavable exPd exFlt ["user", "item"] rows := by
  constructor
  intro c hc
  simp only [List.mem_cons, List.not_mem_nil, or_false] at hc
  rcases hc with rfl | rfl
  · right
    constructor
    · intro r hr
      simp only [List.mem_cons, List.not_mem_nil, or_false] at hr
      rcases hr with rfl | rfl
      · exact ⟨_, rfl, by decide⟩
      · exact ⟨_, rfl, by decide⟩
    · exact ⟨_, List.mem_cons_self, by decide +kernel, by decide +kernel, rfl⟩
  · left
    intro r hr
    simp only [List.mem_cons, List.not_mem_nil, or_false] at hr
    rcases hr with rfl | rfl
    · exact Or.inl ⟨trivial, by decide +kernel, by decide +kernel⟩
    · exact Or.inr ⟨rfl, by decide⟩

end DRec
