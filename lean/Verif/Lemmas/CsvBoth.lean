import Verif.Lemmas.Csv
import Verif.Model.CsvBoth
import Verif.Spec.CsvBoth

namespace DRec

open Spec

theorem lookup_zip {α : Type} (cols : List String) (l : List α) (c : String) :
    (cols.zip l).lookup c = if c ∈ cols then l[cols.idxOf c]? else none := by
  induction cols generalizing l with
  | nil => simp
  | cons a cols ih =>
    cases l with
    | nil => simp
    | cons x l =>
      simp only [List.zip_cons_cons, List.lookup_cons, ih, List.mem_cons]
      by_cases h : c = a
      · subst h
        simp
      · have h' : (c == a) = false := by simpa using h
        have h2 : a ≠ c := fun e => h e.symm
        rw [h', List.idxOf_cons_ne _ h2]
        simp [h]

theorem named_all (cols : List String) (r : List (List Char)) : named (cols.map some) r = cols.zip r := by
  induction cols generalizing r with
  | nil => simp [named]
  | cons c cols ih =>
    cases r with
    | nil => simp [named]
    | cons v r =>
      have := ih r
      simp only [named] at this ⊢
      simp [this]

theorem plain_len {k : Conv} {pk : PdConv} {cols : List String} {rows : List (List (List Char))}
    (h : PlainCsv k pk cols rows) : 1 < cols.length := by
  by_contra hlt
  have h2 : ∀ a ∈ cols, ∀ b ∈ cols, a = b := by
    rcases hp : cols with _ | ⟨y, l⟩
    · simp
    · rw [hp] at hlt
      have : l = [] := List.length_eq_zero_iff.1 (by rw [List.length_cons] at hlt; omega)
      subst this
      simp
  exact absurd (h2 _ h.user _ h.item) (by decide)

theorem plain_blank {k : Conv} {pk : PdConv} {cols : List String} {rows : List (List (List Char))}
    (h : PlainCsv k pk cols rows) {r : List (List Char)} (hr : r ∈ rows) : r ≠ [] ∧ r ≠ [[]] := by
  have h1 := plain_len h
  have h2 := h.wide r hr
  constructor
  · rintro rfl
    simp at h2
    omega
  · rintro rfl
    simp at h2
    omega

theorem file_lines {k : Conv} {pk : PdConv} {cols : List String} {rows : List (List (List Char))}
    (h : PlainCsv k pk cols rows) (hdr : Option (List Char)) (hh : ∀ t ∈ hdr, '\n' ∉ t) :
    dataLines hdr.isSome (csvFile hdr rows) = rows.map fun r => [','].intercalate r ++ ['\n'] := by
  have hl := lines_csvText (d := ',') (by decide) (rows := rows) fun r hr v hv => (h.clean r hr v hv).line
  unfold dataLines csvFile
  cases hdr with
  | none => simpa using hl
  | some t =>
    simp only [Option.isSome_some, if_true, Option.elim_some, List.append_assoc, List.singleton_append]
    rw [fileLines_line t _ (hh t rfl)]
    simpa using hl

theorem file_rows {k : Conv} {pk : PdConv} {cols : List String} {rows : List (List (List Char))}
    (h : PlainCsv k pk cols rows) :
    csvRows ',' (rows.map fun r => [','].intercalate r ++ ['\n']) .fresh = some rows := by
  have := read_text (d := ',') (by decide) (by decide) (rows.map fun r => r.map fun v => (v, v)) (by
    intro r' hr' x hx
    obtain ⟨r, h1, rfl⟩ := List.mem_map.1 hr'
    obtain ⟨v, hv, rfl⟩ := List.mem_map.1 hx
    exact Or.inl ⟨rfl, h.clean r h1 v hv⟩) (by
    intro r' hr'
    obtain ⟨r, h1, rfl⟩ := List.mem_map.1 hr'
    have := plain_blank h h1
    simp only [List.map_map, Function.comp_def, List.map_id', ne_eq, List.map_eq_nil_iff]
    exact this)
  rw [List.flatMap_map] at this
  simp only [List.map_map, Function.comp_def, List.map_id', joinWith_eq] at this
  unfold readText at this
  rw [← lines_csvText (d := ',') (by decide) (rows := rows) fun r hr v hv => (h.clean r hr v hv).line]
  exact this

theorem file_pdRows {k : Conv} {pk : PdConv} {cols : List String} {rows : List (List (List Char))}
    (h : PlainCsv k pk cols rows) (hdr : Option (List Char)) (hh : ∀ t ∈ hdr, '\n' ∉ t) :
    pdRows cols.length (dataLines hdr.isSome (csvFile hdr rows)) = some rows := by
  unfold pdRows
  rw [file_lines h hdr hh, file_rows h]
  have hf : rows.filter (· ≠ []) = rows := by
    rw [List.filter_eq_self]
    intro r hr
    simpa using (plain_blank h hr).1
  simp only [hf]
  rw [if_pos]
  refine ⟨h.data, ?_⟩
  rw [List.all_eq_true]
  intro r hr
  simpa using h.wide r hr

theorem file_memLoad {k : Conv} {pk : PdConv} {cols : List String} {rows : List (List (List Char))}
    (h : PlainCsv k pk cols rows) (hdr : Option (List Char)) (hh : ∀ t ∈ hdr, '\n' ∉ t) :
    memLoadCsv pk hdr.isSome cols (csvFile hdr rows) =
      some ((List.range cols.length).map fun j => pdColumn pk (textsOf rows j)) := by
  have := file_pdRows h hdr hh
  unfold dataLines at this
  unfold memLoadCsv
  rw [this]
  simp [requiredCols, h.user, h.item, h.interaction, textsOf, List.getD]

theorem textsOf_head {rows : List (List (List Char))} {j : Nat} :
    (textsOf rows j).head? = rows.head?.map fun r => r.getD j [] := by
  simp [textsOf]

theorem pdColumn_number {k : Conv} {pk : PdConv} {texts : List (List Char)} (h : NumberCol k pk texts) :
    pdColumn pk texts = texts.map fun v => .num ((pk.number v).getD 0) := by
  unfold pdColumn
  rw [if_pos]
  · apply List.map_congr_left
    intro v hv
    obtain ⟨h1, q, _, _, h2⟩ := h v hv
    simp [h1, h2]
  · rw [List.all_eq_true]
    intro v hv
    obtain ⟨_, q, _, _, h2⟩ := h v hv
    simp [h2]

theorem pdColumn_text {k : Conv} {pk : PdConv} {texts : List (List Char)} (h : TextCol k pk texts) (hne : texts ≠ []) :
    pdColumn pk texts = texts.map fun v => .str (String.ofList v) := by
  obtain ⟨h1, ⟨b, hb, hbn⟩, h2⟩ := h
  unfold pdColumn
  rw [if_neg, if_neg]
  · apply List.map_congr_left
    intro v hv
    simp [h1 v hv]
  · rw [List.all_eq_true]
    intro h
    have := h b hb
    simp [hbn] at this
  · rw [List.all_eq_true]
    intro h
    cases texts with
    | nil => exact hne rfl
    | cons v vs =>
      have := h v List.mem_cons_self
      have h3 := (h2 v rfl).2
      simp [h3, h1 v List.mem_cons_self] at this

theorem not_both {k : Conv} {pk : PdConv} {texts : List (List Char)} (h : TextCol k pk texts) (hne : texts ≠ []) :
    ¬ NumberCol k pk texts := by
  intro hn
  cases texts with
  | nil => exact hne rfl
  | cons v vs =>
    obtain ⟨_, q, _, _, e⟩ := hn v List.mem_cons_self
    rw [(h.2.2 v rfl).2] at e
    cases e

theorem pdColumn_meaning {k : Conv} {pk : PdConv} {cols : List String} {rows : List (List (List Char))}
    (h : PlainCsv k pk cols rows) {j : Nat} {c : String} (hj : cols[j]? = some c) :
    pdColumn pk (textsOf rows j) = (textsOf rows j).map (meaning k pk (textsOf rows j)) := by
  rcases h.column j c hj with hn | ⟨_, ht⟩
  · rw [pdColumn_number hn]
    simp [meaning, hn]
  · have hne : textsOf rows j ≠ [] := by simpa [textsOf] using h.data
    rw [pdColumn_text ht hne]
    have := not_both ht hne
    simp [meaning, this]

theorem import_meaning {k : Conv} {pk : PdConv} {cols : List String} {rows : List (List (List Char))}
    (h : PlainCsv k pk cols rows) {j : Nat} {c : String} (hj : cols[j]? = some c) {r : List (List Char)} (hr : r ∈ rows)
    {v : List Char} (hv : r[j]? = some v) :
    importVal k (numericCol k (cols.map some) rows c) c v = meaning k pk (textsOf rows j) v := by
  have hmem : v ∈ textsOf rows j := List.mem_map.2 ⟨r, hr, by simp [List.getD, hv]⟩
  have hcol : ∀ r0 ∈ rows.head?, numericCol k (cols.map some) rows c = numericText k (r0.getD j []) := by
    intro r0 h0
    cases hrows : rows with
    | nil => rw [hrows] at h0; cases h0
    | cons a l =>
      rw [hrows] at h0
      obtain rfl : a = r0 := by simpa using h0
      have hjl : j < cols.length := (List.getElem?_eq_some_iff.1 hj).1
      have hc : c ∈ cols := List.mem_of_getElem? hj
      have hidx : cols.idxOf c = j := by
        have := h.names.idxOf_getElem j hjl
        rwa [(List.getElem?_eq_some_iff.1 hj).2] at this
      have hw := h.wide a (by rw [hrows]; exact List.mem_cons_self)
      simp only [numericCol, named_all, lookup_zip, hc, if_true, hidx]
      rw [List.getElem?_eq_getElem (by omega)]
      simp [List.getD, List.getElem?_eq_getElem (show j < a.length by omega)]
  rcases h.column j c hj with hn | ⟨hci, ht⟩
  · obtain ⟨_, q, e1, e2, e3⟩ := hn v hmem
    simp only [meaning, hn, if_true, e3, Option.getD_some]
    unfold importVal
    by_cases hc : c = "interaction"
    · simp [hc, e1]
    · have : numericCol k (cols.map some) rows c = true := by
        cases hrows : rows with
        | nil => exact absurd hrows h.data
        | cons a l =>
          rw [← hrows, hcol a (by rw [hrows]; rfl)]
          have hm : a.getD j [] ∈ textsOf rows j := List.mem_map.2 ⟨a, by rw [hrows]; exact List.mem_cons_self, rfl⟩
          obtain ⟨_, q', e1', _, _⟩ := hn _ hm
          unfold numericText
          rw [e1']
          simp
      simp [hc, this, e2]
  · have hne : textsOf rows j ≠ [] := by simpa [textsOf] using h.data
    have hnb := not_both ht hne
    simp only [meaning, hnb, if_false]
    unfold importVal
    have : numericCol k (cols.map some) rows c = false := by
      cases hrows : rows with
      | nil => exact absurd hrows h.data
      | cons a l =>
        rw [← hrows, hcol a (by rw [hrows]; rfl)]
        exact (ht.2.2 _ (by rw [textsOf_head, hrows]; rfl)).1
    simp [hci, this]

theorem plain_importable {k : Conv} {pk : PdConv} {cols : List String} {rows : List (List (List Char))}
    (h : PlainCsv k pk cols rows) : Importable k ',' (cols.map some) rows := by
  refine ⟨fun r hr => ?_, h.clean, fun r hr v hv => ?_, fun r hr => plain_blank h hr⟩
  · rw [List.length_map, h.wide r hr]
  · rw [named_all] at hv
    obtain ⟨j, hj⟩ := List.mem_iff_getElem?.1 hv
    rw [List.getElem?_zip_eq_some] at hj
    rcases h.column j _ hj.1 with hn | ⟨hc, _⟩
    · obtain ⟨_, q, e, _, _⟩ := hn v (List.mem_map.2 ⟨r, hr, by simp [List.getD, hj.2]⟩)
      simp [e]
    · exact absurd rfl hc

theorem plain_colsOk {k : Conv} {pk : PdConv} {cols : List String} {rows : List (List (List Char))}
    (h : PlainCsv k pk cols rows) : ColsOk (cols.map some) :=
  ⟨by rw [filterMap_some]; exact h.names, List.mem_map.2 ⟨_, h.user, rfl⟩, List.mem_map.2 ⟨_, h.item, rfl⟩,
    List.mem_map.2 ⟨_, h.interaction, rfl⟩⟩

/-- The records of such a file. -/
noncomputable def fileRecords (k : Conv) (pk : PdConv) (cols : List String) (rows : List (List (List Char))) : List Row :=
  rows.zipIdx.map fun ri => ⟨ri.2, fun c =>
    if c ∈ cols then meaning k pk (textsOf rows (cols.idxOf c)) (ri.1.getD (cols.idxOf c) []) else .null⟩

theorem file_mem {k : Conv} {pk : PdConv} {cols : List String} {rows : List (List (List Char))}
    (h : PlainCsv k pk cols rows) (isInt : List Char → Bool) (hdr : Option (List Char)) (hh : ∀ t ∈ hdr, '\n' ∉ t) :
    ∃ m, memOfCsv pk isInt hdr.isSome cols (csvFile hdr rows) = some m ∧ m.cols = cols ++ ["rid"] ∧
      m.rows = fileRecords k pk cols rows ∧ m.hasIds = false ∧ m.cache = none := by
  unfold memOfCsv
  rw [file_pdRows h hdr hh, file_memLoad h hdr hh]
  refine ⟨_, rfl, rfl, ?_, rfl, rfl⟩
  apply List.ext_getElem
  · simp [fileRecords]
  · intro i h1 h2
    simp only [List.length_map, List.length_range] at h1
    simp only [List.getElem_map, List.getElem_range, fileRecords, List.getElem_zipIdx, Nat.zero_add, Row.mk.injEq,
      true_and]
    funext c
    rw [lookup_zip]
    by_cases hc : c ∈ cols
    · have hj := List.idxOf_lt_length_of_mem hc
      have hjc : cols[cols.idxOf c]? = some c := by
        rw [List.getElem?_eq_getElem hj, List.getElem_idxOf]
      simp only [hc, if_true, List.getElem?_map, List.getElem?_range hj, Option.map_some, Option.bind_some]
      rw [pdColumn_meaning h hjc]
      simp [textsOf, h1]
    · simp [hc]

theorem file_db {k : Conv} {pk : PdConv} {cols : List String} {rows : List (List (List Char))}
    (h : PlainCsv k pk cols rows) {size : Nat} (hs : 0 < size) (hdr : Option (List Char)) (hh : ∀ t ∈ hdr, '\n' ∉ t) :
    worldOfCsv k size hdr.isSome cols (csvFile hdr rows) = some (World.ofCsv (cols ++ ["rid"])
      (csvTypes k hdr.isSome cols (csvFile hdr rows)) (fileRecords k pk cols rows)) := by
  unfold worldOfCsv
  have := loadCsv_rows k (d := ',') (by decide) (by decide) hs (plain_colsOk h) (plain_importable h) h.data hdr hh
  unfold csvFile
  rw [this]
  simp only [Option.map_some, Option.some.injEq]
  congr 1
  rw [List.map_map]
  unfold fileRecords
  apply List.map_congr_left
  rintro ⟨r, i⟩ hri
  have hr : r ∈ rows := by
    have := List.mem_zipIdx hri
    simp only [this.2.2]
    exact List.getElem_mem _
  simp only [Function.comp_apply, Row.mk.injEq, true_and]
  funext c
  rw [lookup_zip]
  by_cases hc : c ∈ cols
  · have hj := List.idxOf_lt_length_of_mem hc
    have hjc : cols[cols.idxOf c]? = some c := by
      rw [List.getElem?_eq_getElem hj, List.getElem_idxOf]
    have hjr : cols.idxOf c < r.length := by rw [h.wide r hr]; exact hj
    have hrc : r[cols.idxOf c]? = some r[cols.idxOf c] := List.getElem?_eq_getElem hjr
    simp only [hc, if_true, named_all, List.getElem?_map]
    have hz : (cols.zip r)[cols.idxOf c]? = some (c, r[cols.idxOf c]) := by
      rw [List.getElem?_zip_eq_some]
      exact ⟨hjc, hrc⟩
    rw [hz]
    simp only [Option.map_some, Option.getD_some, List.getD, hrc]
    exact import_meaning h hjc hr hrc
  · simp [hc]

theorem fileRecords_sorted (k : Conv) (pk : PdConv) (cols : List String) (rows : List (List (List Char))) :
    (fileRecords k pk cols rows).Pairwise fun a b => a.rid < b.rid := by
  unfold fileRecords
  rw [List.pairwise_map, List.pairwise_iff_getElem]
  intro i j hi hj hij
  simpa using hij

end DRec
