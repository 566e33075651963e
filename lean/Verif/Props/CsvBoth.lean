import Verif.Lemmas.CsvBoth
import Verif.Props.Csv
import Verif.Props.Both

/-!
# C103: the same csv file in both backends

Full statement: for every csv file and column list, `InteractionsDatasetFactory` with `in_memory=True` and with
`in_memory=False` either both raise or give datasets with the same columns and records, and stay the same under every
history of operations.  It is false: `C103_fails_mixed`, `C103_fails_missing`, `C103_fails_blank`, `C103_fails_truth` and
`C103_fails_na`.  `C103_records_partial` shows it for the files of `PlainCsv`, whatever the size of the import batches and
with a header line or without, and says what the records are; `C103_history_partial` and `C103_returns_partial` for
the histories of C25 on top.
-/

namespace DRec

open Spec

theorem fileRecords_recs {k : Conv} {pk : PdConv} {cols : List String} {rows : List (List (List Char))}
    (h : PlainCsv k pk cols rows) :
    (fileRecords k pk cols rows).map (Row.toRec (cols ++ ["rid"])) = csvRecords k pk cols rows := by
  unfold fileRecords csvRecords
  rw [List.map_map]
  apply List.map_congr_left
  rintro ⟨r, i⟩ _
  simp only [Function.comp_apply, Row.toRec, List.map_append, List.map_cons, List.map_nil, Row.get, if_true]
  congr 1
  apply List.ext_getElem
  · simp
  · intro j h1 h2
    simp only [List.length_map] at h1
    have hc : cols[j] ∈ cols := List.getElem_mem _
    have hr : cols[j] ≠ "rid" := fun e => h.fresh.1 (e ▸ hc)
    simp [hr, h.names.idxOf_getElem j h1]

theorem plain_names {k : Conv} {pk : PdConv} {cols : List String} {rows : List (List (List Char))}
    (h : PlainCsv k pk cols rows) :
    tableCols ⊆ cols ++ ["rid", "uid", "iid"] ∧ "uid" ∈ cols ++ ["rid", "uid", "iid"] ∧
      "iid" ∈ cols ++ ["rid", "uid", "iid"] := by
  refine ⟨?_, by simp, by simp⟩
  intro c hc
  simp only [tableCols, List.mem_cons, List.not_mem_nil, or_false] at hc
  rcases hc with rfl | rfl | rfl | rfl
  · simp
  · exact List.mem_append_left _ h.user
  · exact List.mem_append_left _ h.item
  · exact List.mem_append_left _ h.interaction

/-- Both backends load the file, and both datasets have the columns of the list and the records of the file. -/
theorem C103_records_partial (k : Conv) (pk : PdConv) (isInt : List Char → Bool) (cols : List String)
    (rows : List (List (List Char))) (h : PlainCsv k pk cols rows) (size : Nat) (hs : 0 < size)
    (hdr : Option (List Char)) (hh : ∀ t ∈ hdr, '\n' ∉ t) :
    ∃ m w, memOfCsv pk isInt hdr.isSome cols (csvFile hdr rows) = some m ∧
      worldOfCsv k size hdr.isSome cols (csvFile hdr rows) = some w ∧
      (⟨m.cols, m.rows.map (Row.toRec m.cols), m.hasIds⟩ : Plain) = ⟨cols ++ ["rid"], csvRecords k pk cols rows, false⟩ ∧
      plainOf w 0 = some ⟨cols ++ ["rid"], csvRecords k pk cols rows, false⟩ := by
  obtain ⟨m, h1, h2, h3, h4, _⟩ := file_mem h isInt hdr hh
  refine ⟨m, _, h1, file_db h hs hdr hh, ?_, ?_⟩
  · rw [h2, h3, h4, fileRecords_recs h]
  · obtain ⟨_, g⟩ := ofCsv_good (names := cols ++ ["rid", "uid", "iid"]) (cols := cols ++ ["rid"]) (plain_names h)
      (csvTypes k hdr.isSome cols (csvFile hdr rows)) (fileRecords k pk cols rows)
      (by intro c hc; simp only [List.mem_append, List.mem_cons, List.not_mem_nil, or_false] at hc ⊢; tauto) (by simp)
      (fileRecords_sorted k pk cols rows)
    rw [g]
    simp only [if_true, fileRecords_recs h]

/-- And they stay the same: a history of operations that both support and that returns on the database dataset
returns on the one in memory, with the same columns, records and internal ids. -/
theorem C103_history_partial (k : Conv) (pk : PdConv) (isInt : List Char → Bool) (cols : List String)
    (rows : List (List (List Char))) (h : PlainCsv k pk cols rows) (size : Nat) (hs : 0 < size)
    (hdr : Option (List Char)) (hh : ∀ t ∈ hdr, '\n' ∉ t) (names : List String)
    (hn : tableCols ⊆ names ∧ "uid" ∈ names ∧ "iid" ∈ names) (hcols : cols ⊆ names) (m : Mem) (w : World)
    (hm : memOfCsv pk isInt hdr.isSome cols (csvFile hdr rows) = some m)
    (hw : worldOfCsv k size hdr.isSome cols (csvFile hdr rows) = some w)
    (ops : List BothOp) (hops : SharedAll names m w 0 ops) (i : Nat) (hi : (runDb w 0 ops).2 = .ok i) :
    ∃ m', runMem m ops = .ok m' ∧
      plainOf (runDb w 0 ops).1 i = some ⟨m'.cols, m'.rows.map (Row.toRec m'.cols), m'.hasIds⟩ := by
  obtain ⟨m1, h1, h2, h3, h4, h5⟩ := file_mem h isInt hdr hh
  rw [h1] at hm
  rw [file_db h hs hdr hh] at hw
  cases hm
  cases hw
  have hrid : "rid" ∈ names := hn.1 (by decide)
  refine C25_same_partial names (cols ++ ["rid"]) _ _ m ops hn ?_ (by simp) (fileRecords_sorted k pk cols rows) h2 h3 h4 h5
    hops i hi
  intro c hc
  rcases List.mem_append.1 hc with hc | hc
  · exact hcols hc
  · rw [List.mem_singleton.1 hc]
    exact hrid

/-- When every dataset of the history has the columns that tables need, both return. -/
theorem C103_returns_partial (k : Conv) (pk : PdConv) (isInt : List Char → Bool) (cols : List String)
    (rows : List (List (List Char))) (h : PlainCsv k pk cols rows) (size : Nat) (hs : 0 < size)
    (hdr : Option (List Char)) (hh : ∀ t ∈ hdr, '\n' ∉ t) (names : List String)
    (hn : tableCols ⊆ names ∧ "uid" ∈ names ∧ "iid" ∈ names) (hcols : cols ⊆ names) (m : Mem) (w : World)
    (hm : memOfCsv pk isInt hdr.isSome cols (csvFile hdr rows) = some m)
    (hw : worldOfCsv k size hdr.isSome cols (csvFile hdr rows) = some w)
    (ops : List BothOp) (hops : SharedAll names m w 0 ops) (hwk : WorksAll m ops) :
    (∃ i, (runDb w 0 ops).2 = .ok i) ∧ ∃ m', runMem m ops = .ok m' := by
  obtain ⟨m1, h1, h2, h3, h4, h5⟩ := file_mem h isInt hdr hh
  rw [h1] at hm
  rw [file_db h hs hdr hh] at hw
  cases hm
  cases hw
  have hrid : "rid" ∈ names := hn.1 (by decide)
  refine C25_returns_partial names (cols ++ ["rid"]) _ _ m ops hn ?_ (by simp) (fileRecords_sorted k pk cols rows) h2 h3 h4 h5
    hops hwk
  intro c hc
  rcases List.mem_append.1 hc with hc | hc
  · exact hcols hc
  · rw [List.mem_singleton.1 hc]
    exact hrid

/-! ## Column types -/

theorem memOfCsv_cell {pk : PdConv} {isInt : List Char → Bool} {header : Bool} {cols : List String} {text : List Char}
    {m : Mem} (h : memOfCsv pk isInt header cols text = some m) {c : String} (hc : c ∈ cols) (hr : c ≠ "rid") :
    ∃ texts : List (List Char), m.dtype c = pdDType pk isInt texts ∧ ∀ r ∈ m.rows, r.get c ∈ pdColumn pk texts := by
  unfold memOfCsv at h
  cases hp : pdRows cols.length (dataLines header text) with
  | none => rw [hp] at h; cases h
  | some rows =>
    rw [hp] at h
    cases hl : memLoadCsv pk header cols text with
    | none => rw [hl] at h; cases h
    | some vals =>
      rw [hl] at h
      cases h
      unfold memLoadCsv at hl
      split at hl
      · unfold dataLines at hp
        rw [hp] at hl
        simp only [Option.map_some, Option.some.injEq] at hl
        subst hl
        have hj := List.idxOf_lt_length_of_mem hc
        refine ⟨rows.map fun r => (r[cols.idxOf c]?).getD [], ?_, ?_⟩
        · simp only
          congr 1
          apply List.map_congr_left
          intro r _
          rw [lookup_zip, if_pos hc]
        · intro r hr'
          simp only [List.mem_map, List.mem_range] at hr'
          obtain ⟨i, hi, rfl⟩ := hr'
          have hlen : ∀ texts : List (List Char), (pdColumn pk texts).length = texts.length := by
            intro texts
            unfold pdColumn
            split
            · simp
            · split <;> simp
          simp only [Row.get, lookup_zip, if_pos hc, List.getElem?_map, List.getElem?_range hj, Option.map_some,
            Option.bind_some]
          rw [if_neg hr]
          rw [List.getElem?_eq_getElem (by rw [hlen]; simpa using hi)]
          exact List.getElem_mem _
      · cases hl

/-- **C103**, column types in memory, of any file that can be read: a column of type integer has integers only, one of
type float has numbers and missing values only, and one of type object has texts only. -/
theorem C103_types_memory (pk : PdConv) (isInt : List Char → Bool) (hint : ∀ v, isInt v = true → ∃ n : Int, pk.number v = some n)
    (header : Bool) (cols : List String) (hrid : "rid" ∉ cols) (text : List Char) (m : Mem)
    (h : memOfCsv pk isInt header cols text = some m) (c : String) (hc : c ∈ cols) (r : Row) (hr : r ∈ m.rows) :
    match m.dtype c with
    | .int => ∃ n : Int, r.get c = .num n
    | .float => r.get c = .null ∨ ∃ q, r.get c = .num q
    | .obj => ∃ t, r.get c = .str t := by
  obtain ⟨texts, h1, h2⟩ := memOfCsv_cell h hc (by rintro rfl; exact hrid hc)
  have h3 := h2 r hr
  rw [h1]
  unfold pdDType pdColumn at *
  by_cases ha : texts.all (fun s => (pk.number s).isSome || pk.na s) = true
  · rw [if_pos ha] at h3 ⊢
    by_cases hi : (texts.all fun s => isInt s && !pk.na s) = true
    · rw [if_pos hi]
      simp only [List.mem_map] at h3
      obtain ⟨s, hs, e⟩ := h3
      have := List.all_eq_true.1 hi s hs
      simp only [Bool.and_eq_true, Bool.not_eq_true'] at this
      obtain ⟨n, hn⟩ := hint s this.1
      simp only [this.2, hn] at e
      exact ⟨n, by simpa using e.symm⟩
    · rw [if_neg hi]
      simp only [List.mem_map] at h3
      obtain ⟨s, hs, e⟩ := h3
      cases hna : pk.na s with
      | true => left; simpa [hna] using e.symm
      | false =>
        rw [hna] at e
        cases hq : pk.number s with
        | none => left; simpa [hq] using e.symm
        | some q => right; exact ⟨q, by simpa [hq] using e.symm⟩
  · rw [if_neg ha] at h3 ⊢
    by_cases hb : texts.all (fun s => (pk.bool s).isSome) = true
    · rw [if_pos hb] at h3 ⊢
      simp only [List.mem_map] at h3
      obtain ⟨s, hs, e⟩ := h3
      right
      exact ⟨_, e.symm⟩
    · rw [if_neg hb] at h3 ⊢
      simp only [List.mem_map] at h3
      obtain ⟨s, hs, e⟩ := h3
      exact ⟨_, e.symm⟩

/-- **C103**, column types in the database: for the files of `C103_records_partial`, columns of numbers get a number
type, columns of texts get the text type, and the record ids are integers. -/
theorem C103_types_partial (k : Conv) (pk : PdConv) (cols : List String)
    (rows : List (List (List Char))) (h : PlainCsv k pk cols rows) (size : Nat) (hs : 0 < size)
    (hdr : Option (List Char)) (hh : ∀ t ∈ hdr, '\n' ∉ t) (w : World)
    (hw : worldOfCsv k size hdr.isSome cols (csvFile hdr rows) = some w) :
    ∃ x ty, w.insts 0 = some x ∧ x.types = some ty ∧ ty "rid" = .int ∧
      ∀ j c, cols[j]? = some c → (NumberCol k pk (textsOf rows j) → ty c ≠ .obj) ∧
        (TextCol k pk (textsOf rows j) → ty c = .obj) := by
  rw [file_db h hs hdr hh] at hw
  cases hw
  obtain ⟨first, rest, hrows⟩ : ∃ a l, rows = a :: l := by
    cases rows with
    | nil => exact absurd rfl h.data
    | cons a l => exact ⟨a, l, rfl⟩
  have hfirst : csvRows ',' [[','].intercalate first ++ ['\n']] .fresh = some [first] := by
    have hin : first ∈ rows := by rw [hrows]; simp
    exact row_line (by decide) (by decide) (h.clean first hin) (plain_blank h hin)
  have key : ∀ c, csvTypes k hdr.isSome cols (csvFile hdr rows) c =
      if c = "rid" then .int else ((colTypes k first (cols.map some) c).map ColType.dtype).getD .obj := by
    intro c
    unfold csvTypes
    rw [file_lines h hdr hh, hrows]
    simp only [List.map_cons, hfirst]
  refine ⟨_, _, rfl, rfl, by rw [key]; simp, ?_⟩
  intro j c hj
  have hc : c ∈ cols := List.mem_of_getElem? hj
  have hne : c ≠ "rid" := by rintro rfl; exact h.fresh.1 hc
  have hjl : j < cols.length := (List.getElem?_eq_some_iff.1 hj).1
  have hidx : cols.idxOf c = j := by
    have := List.getElem?_eq_some_iff.1 hj
    rw [← this.2]
    exact h.names.idxOf_getElem j hjl
  have hfl : j < first.length := by rw [h.wide first (by rw [hrows]; simp)]; exact hjl
  rw [key, if_neg hne, colTypes_lookup k (by simpa using h.names), named_all, lookup_zip, if_pos hc, hidx,
    List.getElem?_eq_getElem hfl]
  simp only [Option.map_some, Option.getD_some]
  have hin : first[j] ∈ textsOf rows j := by
    rw [hrows]
    simp [textsOf, hfl]
  constructor
  · intro hnum e
    obtain ⟨_, q, h1, _⟩ := hnum _ hin
    have : inferType k first[j] = .text := by
      revert e
      cases inferType k first[j] <;> simp [ColType.dtype]
    rw [inferType_text] at this
    simp [numericText, h1] at this
  · intro htext
    have : inferType k first[j] = .text := by
      rw [inferType_text]
      exact (htext.2.2 first[j] (by rw [textsOf_head, hrows]; simp [hfl])).1
    rw [this]
    rfl

/-! ## Examples -/

/-- Users with text names, one of them a number, and items with numbers. -/
def exFileRows : List (List (List Char)) :=
  [["ann".toList, "10".toList, "3.5".toList], ["bob".toList, "7".toList, "4".toList],
    ["12".toList, "10".toList, "1".toList]]

/-- Names of the columns. -/
def exFileCols : List String := ["user", "item", "interaction"]

theorem exFile_plain : PlainCsv exConv exPd exFileCols exFileRows := by
  refine ⟨by decide, by decide, by decide, by decide, by decide, by decide, by decide, ?_, ?_⟩
  · intro r hr v hv
    have hall : ∀ r ∈ exFileRows, ∀ v ∈ r, ',' ∉ v ∧ '\n' ∉ v ∧ v.head? ≠ some '"' := by decide +kernel
    obtain ⟨h1, h2, h3⟩ := hall r hr v hv
    exact ⟨h1, h2, h3⟩
  · intro j c hj
    match j, hj with
    | 0, hj =>
      cases hj
      exact .inr ⟨by decide, by decide +kernel, ⟨"ann".toList, by decide +kernel, by decide +kernel⟩, by decide +kernel⟩
    | 1, hj =>
      refine .inl fun v hv => ?_
      have : v = "10".toList ∨ v = "7".toList ∨ v = "10".toList := by
        simpa [textsOf, exFileRows] using hv
      rcases this with rfl | rfl | rfl
      · exact ⟨by decide +kernel, 10, by decide +kernel, by decide +kernel, by decide +kernel⟩
      · exact ⟨by decide +kernel, 7, by decide +kernel, by decide +kernel, by decide +kernel⟩
      · exact ⟨by decide +kernel, 10, by decide +kernel, by decide +kernel, by decide +kernel⟩
    | 2, hj =>
      refine .inl fun v hv => ?_
      have : v = "3.5".toList ∨ v = "4".toList ∨ v = "1".toList := by
        simpa [textsOf, exFileRows] using hv
      rcases this with rfl | rfl | rfl
      · exact ⟨by decide +kernel, 7/2, by decide +kernel, by decide +kernel, by decide +kernel⟩
      · exact ⟨by decide +kernel, 4, by decide +kernel, by decide +kernel, by decide +kernel⟩
      · exact ⟨by decide +kernel, 1, by decide +kernel, by decide +kernel, by decide +kernel⟩
    | j + 3, hj => simp [exFileCols] at hj

/-- What the records of the examples are read as in memory. -/
def csvInMemory (k : PdConv) (cols : List String) (text : String) : Option (List Rec) :=
  (memOfCsv k (fun s => (pyInt s).isSome) false cols text.toList).map fun m => m.rows.map (Row.toRec m.cols)

/-- And in a database, in batches of two. -/
def csvInDb (cols : List String) (text : String) : Option (List Rec) :=
  (worldOfCsv exConv 2 false cols text.toList).bind fun w => (plainOf w 0).map (·.recs)

/-- The theorem applies to that file, and both give its three records. -/
example : PlainCsv exConv exPd exFileCols exFileRows ∧
    csvFile none exFileRows = "ann,10,3.5\nbob,7,4\n12,10,1\n".toList ∧
    csvInDb exFileCols "ann,10,3.5\nbob,7,4\n12,10,1\n" = some [
      [("user", .str "ann"), ("item", .num 10), ("interaction", .num (7/2)), ("rid", .num 0)],
      [("user", .str "bob"), ("item", .num 7), ("interaction", .num 4), ("rid", .num 1)],
      [("user", .str "12"), ("item", .num 10), ("interaction", .num 1), ("rid", .num 2)]] ∧
    csvInMemory exPd exFileCols "ann,10,3.5\nbob,7,4\n12,10,1\n" =
      csvInDb exFileCols "ann,10,3.5\nbob,7,4\n12,10,1\n" :=
  ⟨exFile_plain, by decide +kernel, by decide +kernel, by decide +kernel⟩

/-- Types of columns: texts, integers, and numbers of which some are not whole or missing; in the database the types
of the first line. -/
example : ((memOfCsv exPd (fun s => (pyInt s).isSome) false (exFileCols ++ ["age"])
      "ann,10,3.5,1\nbob,7,4,\n".toList).map fun m => (exFileCols ++ ["age"]).map m.dtype) =
      some [.obj, .int, .float, .float] ∧
    ((worldOfCsv exConv 2 false exFileCols (csvFile none exFileRows)).bind fun w => (w.insts 0).bind fun x =>
      x.types.map fun ty => (exFileCols ++ ["rid"]).map ty) = some [.obj, .int, .float, .int] ∧
    ∀ v, (pyInt v).isSome = true → ∃ n : Int, exPd.number v = some n := by
  refine ⟨by decide +kernel, by decide +kernel, fun v hv => ?_⟩
  simp only [pyInt] at hv
  have hd : isDigits (signOf v).2 = true := by
    revert hv
    cases isDigits (signOf v).2 <;> simp
  have h1 : '.' ∉ (signOf v).2 := by
    intro h
    exact (isDigit_not_blank ((digits_clean hd).2 _ h)).2.2.1 rfl
  simp only [exPd, pyFloat, pyDecimal, pySplit_none _ _ h1, hd, if_true, Option.map_some]
  exact ⟨if (signOf v).1 then -(digitsVal (signOf v).2 : Int) else digitsVal (signOf v).2, by split <;> simp⟩

/-- And a history: drop a record, copy, read. -/
example : ∀ m w, memOfCsv exPd (fun s => (pyInt s).isSome) false exFileCols (csvFile none exFileRows) = some m →
    worldOfCsv exConv 2 false exFileCols (csvFile none exFileRows) = some w →
    SharedAll (exFileCols ++ ["rid", "uid", "iid"]) m w 0 [.drop [1] false true, .read (.values none), .copy] ∧
      WorksAll m [.drop [1] false true, .read (.values none), .copy] := by
  intro m w hm hw
  constructor
  · exact ⟨⟨trivial, trivial⟩, fun _ _ _ _ => ⟨⟨trivial, trivial⟩, fun _ _ _ _ => ⟨⟨trivial, trivial⟩, fun _ _ _ _ => trivial⟩⟩⟩
  · obtain ⟨m1, h1, h2, _⟩ := file_mem exFile_plain (fun s => (pyInt s).isSome) none (by simp)
    simp only [Option.isSome_none] at h1
    rw [h1] at hm
    cases hm
    have hf : FullCols m.cols := by rw [h2]; exact ⟨by decide, by decide⟩
    refine ⟨hf, ?_⟩
    intro m2 e2
    cases e2
    refine ⟨⟨hf, fun _ h => h⟩, ?_⟩
    intro m3 e3
    cases e3
    exact ⟨trivial, fun _ _ => trivial⟩

/-! ## Where they differ -/

/-- A column that starts with a number but is not one of numbers: in memory everything is a text, in the database the
user of the first record is a number. -/
theorem C103_fails_mixed :
    csvInMemory exPd exFileCols "1,a,3\nx,b,4\n" = some [
      [("user", .str "1"), ("item", .str "a"), ("interaction", .num 3), ("rid", .num 0)],
      [("user", .str "x"), ("item", .str "b"), ("interaction", .num 4), ("rid", .num 1)]] ∧
    csvInDb exFileCols "1,a,3\nx,b,4\n" = some [
      [("user", .num 1), ("item", .str "a"), ("interaction", .num 3), ("rid", .num 0)],
      [("user", .str "x"), ("item", .str "b"), ("interaction", .num 4), ("rid", .num 1)]] := by
  decide +kernel

/-- A missing number: no value in memory, the empty text in the database. -/
theorem C103_fails_missing :
    (csvInMemory exPd (exFileCols ++ ["age"]) "1,1,3,30\n2,2,4,\n").map (·.map (cellOf · "age")) =
      some [.num 30, .null] ∧
    (csvInDb (exFileCols ++ ["age"]) "1,1,3,30\n2,2,4,\n").map (·.map (cellOf · "age")) =
      some [.num 30, .str ""] := by
  decide +kernel

/-- A missing interaction: no value in memory, and the import into the database raises. -/
theorem C103_fails_interaction :
    (csvInMemory exPd exFileCols "1,1,3\n2,2,\n").map (·.map (cellOf · "interaction")) = some [.num 3, .null] ∧
    csvInDb exFileCols "1,1,3\n2,2,\n" = none := by
  decide +kernel

/-- A blank line: left out in memory, and the import into the database raises. -/
theorem C103_fails_blank :
    (csvInMemory exPd exFileCols "1,1,3\n\n2,2,4\n").map (·.map (cellOf · "user")) = some [.num 1, .num 2] ∧
    csvInDb exFileCols "1,1,3\n\n2,2,4\n" = none := by
  decide +kernel

/-- Truth values: pandas reads them as such, and then they are numbers; in the database they are texts. -/
theorem C103_fails_truth :
    let pk : PdConv := { exPd with bool := fun s => ["False".toList, "True".toList].idxOf? s |>.map (· == 1) }
    (csvInMemory pk (exFileCols ++ ["seen"]) "1,1,3,True\n2,2,4,False\n").map (·.map (cellOf · "seen")) =
      some [.num 1, .num 0] ∧
    (csvInDb (exFileCols ++ ["seen"]) "1,1,3,True\n2,2,4,False\n").map (·.map (cellOf · "seen")) =
      some [.str "True", .str "False"] := by
  decide +kernel

/-- A user called `NA`: the empty text in memory. -/
theorem C103_fails_na :
    (csvInMemory exPd exFileCols "NA,1,3\nu,2,4\n").map (·.map (cellOf · "user")) = some [.str "", .str "u"] ∧
    (csvInDb exFileCols "NA,1,3\nu,2,4\n").map (·.map (cellOf · "user")) = some [.str "NA", .str "u"] := by
  decide +kernel

end DRec
