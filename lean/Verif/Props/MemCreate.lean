import Verif.Model.MemCreate
import Verif.Props.Csv
import Verif.Props.MemOps

/-!
# Creating datasets: C89, C90, C91
-/

namespace DRec

open Spec

/-! ## C89: the required columns

Full statement: without a user, item or interaction column no dataset is created. -/

/-- C89, csv files: without a user, item or interaction column among the given ones a csv file cannot be imported, by
either backend, whatever is in the file. -/
theorem C89_csv (c : String) (hc : c = "user" ∨ c = "item" ∨ c = "interaction") :
    (∀ k delim size header cols text, some c ∉ cols → loadCsv k delim size header cols text = none) ∧
    ∀ k header cols text, c ∉ cols → memLoadCsv k header cols text = none := by
  constructor
  · intro k delim size header cols text h
    have : (requiredCols.all fun c => decide (some c ∈ cols)) = false := by
      rcases hc with rfl | rfl | rfl <;> simp [requiredCols, h]
    unfold loadCsv
    simp only [this, Bool.false_eq_true, false_and, if_false]
    split
    · rfl
    · split
      · rfl
      · split <;> rfl
  · intro k header cols text h
    unfold memLoadCsv
    rw [if_neg]
    rcases hc with rfl | rfl | rfl <;> simp [requiredCols, h]

/-- C89, dataframes: the columns named by the labels must be there.  Missing from the full statement: an item label
`user`, or an interaction label `user` or `item`, that is not a column of the dataframe. -/
theorem C89_frame_partial (heap : List DataFrame) (a : Nat) (t : DataFrame) (ht : heap[a]? = some t) (u i x : Label)
    (h : u.name ∉ t.cols ∨ (i.name ∉ t.cols ∧ i.name ≠ "user") ∨
      (x.name ∉ t.cols ∧ x.name ≠ "user" ∧ x.name ≠ "item")) :
    (readDf heap a u i x).2 = .error .missingColumn := by
  have key : t.mainCols u i x = .error .missingColumn := by
    unfold DataFrame.mainCols
    by_cases hu : u.name ∈ t.cols
    · have h' := h.resolve_left (fun h => h hu)
      have hm : ∀ (t : DataFrame) (c d : String), c ∉ t.cols → c ≠ d →
          c ∉ (if d ∈ t.cols then t.cols else t.cols ++ [d]) := by
        intro t c d h1 h2
        split <;> simp [h1, h2]
      rw [DataFrame.copyCol, if_pos hu]
      simp only
      by_cases hi : i.name ∈ (if "user" ∈ t.cols then t.cols else t.cols ++ ["user"])
      · have h'' := h'.resolve_left (fun h => hm _ _ _ h.1 h.2 hi)
        rw [DataFrame.copyCol, if_pos hi]
        simp only
        rw [DataFrame.copyCol, if_neg]
        exact hm ⟨_, t.dtype, []⟩ _ _ (hm _ _ _ h''.1 h''.2.1) h''.2.2
      · rw [DataFrame.copyCol, if_neg hi]
    · rw [DataFrame.copyCol, if_neg hu]
  unfold readDf
  rw [ht]
  simp only [memCtor, List.getElem?_concat_length, key]

/-- The dataframe of the examples: two rows with index labels 4 and 7, a text column with a missing value. -/
def exFrame : DataFrame :=
  ⟨["u", "i", "r", "tag"], fun c => if c = "tag" then .obj else .int,
    [mkRow 4 [("u", .num 1), ("i", .num 10), ("r", .num 5), ("tag", .str "x")],
     mkRow 7 [("u", .num 2), ("i", .num 20), ("r", .num 3), ("tag", .null)]]⟩

/-- C89 fails: with the item label `user` a dataframe without such a column gives a dataset with no users, whose items
are the users. -/
theorem C89_fails :
    "user" ∉ exFrame.cols ∧
    (readDf [exFrame] 0 ⟨"u", true⟩ ⟨"user", true⟩ ⟨"r", true⟩).2.toOption.map
      (fun ds => (ds.cols, ds.rows.map fun r => r.get "item")) =
      some (["i", "tag", "item", "interaction", "rid"], [.num 1, .num 2]) := by
  decide +kernel

example : (readDf [exFrame] 0 ⟨"u", true⟩ ⟨"movie", true⟩ ⟨"r", true⟩).2 = .error .missingColumn :=
  C89_frame_partial _ 0 exFrame rfl _ _ _ (Or.inr (Or.inl (by decide)))

/-! ## C90: reading a dataframe

Full statement: for every dataframe and every three different columns of it, `read_df` with these as labels gives a
dataset with the rows of the dataframe in order, whose user, item and interaction columns are the named columns, whose
other columns are unchanged, and the dataframe is not changed. -/

/-- A label that does not name the standard column of another one. -/
def OwnLabel (l : Label) (std : String) : Prop :=
  (l.name = std ∧ l.interned = true) ∨ (l.name ≠ "user" ∧ l.name ≠ "item" ∧ l.name ≠ "interaction")

/-- A value of a column after loading: missing texts are the empty text. -/
def loaded (d : DType) (v : Val) : Val := if d = .obj ∧ v = .null then .str "" else v

/-- Column names after an assignment. -/
def withCol (cols : List String) (d : String) : List String := if d ∈ cols then cols else cols ++ [d]

theorem mem_withCol {cols : List String} {c d : String} : c ∈ withCol cols d ↔ c ∈ cols ∨ c = d := by
  unfold withCol
  split
  · next h => exact ⟨Or.inl, fun e => e.elim id fun e => e ▸ h⟩
  · simp

theorem nodup_withCol {cols : List String} {d : String} (h : cols.Nodup) : (withCol cols d).Nodup := by
  unfold withCol
  split
  · exact h
  · next hd => exact List.nodup_append.2 ⟨h, by simp, by intro a ha b hb; rw [List.mem_singleton.1 hb]; exact fun e => hd (e ▸ ha)⟩

theorem copyCol_ok {t : DataFrame} {dst src : String} (h : src ∈ t.cols) :
    t.copyCol dst src = .ok ⟨withCol t.cols dst, fun c => if c = dst then t.dtype src else t.dtype c,
      t.rows.map fun r => r.set dst (r.cell src)⟩ := by
  unfold DataFrame.copyCol withCol
  rw [if_pos h]

/-- The columns left after removing a label. -/
def withoutLabel (cols : List String) (l : Label) (std : String) : List String :=
  if l.is std then cols else cols.erase l.name

theorem removeLabel_ok {cols : List String} {l : Label} (std : String) (h : l.name ∈ cols) :
    removeLabel cols l std = .ok (withoutLabel cols l std) := by
  unfold removeLabel withoutLabel
  rw [if_pos h]
  split <;> rfl

theorem mem_withoutLabel {cols : List String} (hnd : cols.Nodup) {l : Label} {std : String} (ho : OwnLabel l std)
    {c : String} (hs : std = "user" ∨ std = "item" ∨ std = "interaction") :
    c ∈ withoutLabel cols l std ↔ c ∈ cols ∧ (c = l.name → c = std) := by
  unfold withoutLabel
  rcases ho with ⟨h1, h2⟩ | h
  · have : l.is std = true := by simp [Label.is, h1, h2]
    rw [if_pos this, h1]
    simp
  · have hne : l.name ≠ std := by rcases hs with rfl | rfl | rfl <;> tauto
    have : l.is std = false := by simp [Label.is, hne]
    rw [this, if_neg (by simp), hnd.mem_erase_iff]
    constructor
    · rintro ⟨h1, h2⟩
      exact ⟨h2, fun e => absurd e h1⟩
    · rintro ⟨h1, h2⟩
      exact ⟨fun e => hne (e ▸ h2 e), h1⟩

theorem nodup_withoutLabel {cols : List String} (hnd : cols.Nodup) {l : Label} {std : String} :
    (withoutLabel cols l std).Nodup := by
  unfold withoutLabel
  split
  · exact hnd
  · exact hnd.erase _

/-- C90.  Missing from the full statement: labels that name the standard column of another label, and a label that is
the text of its own standard column but not the same string object. -/
theorem C90_read_partial (heap : List DataFrame) (a : Nat) (t : DataFrame) (ht : heap[a]? = some t) (hnd : t.cols.Nodup)
    (hrid : "rid" ∉ t.cols) (u i x : Label) (hu : u.name ∈ t.cols) (hi : i.name ∈ t.cols) (hx : x.name ∈ t.cols)
    (hui : u.name ≠ i.name) (hux : u.name ≠ x.name) (hix : i.name ≠ x.name)
    (ou : OwnLabel u "user") (oi : OwnLabel i "item") (ox : OwnLabel x "interaction") :
    (∀ b, b < heap.length → (readDf heap a u i x).1[b]? = heap[b]?) ∧
    ∃ ds, (readDf heap a u i x).2 = .ok ds ∧ ds.cols.Nodup ∧
      (∀ c, c ∈ ds.cols ↔ c = "user" ∨ c = "item" ∨ c = "interaction" ∨ c = "rid" ∨
        (c ∈ t.cols ∧ c ≠ u.name ∧ c ≠ i.name ∧ c ≠ x.name)) ∧
      ds.rows.map (·.rid) = t.rows.map (·.rid) ∧
      (∀ c src, (c = "user" ∧ src = u.name) ∨ (c = "item" ∧ src = i.name) ∨ (c = "interaction" ∧ src = x.name) ∨
          (c ∈ ds.cols ∧ c ≠ "user" ∧ c ≠ "item" ∧ c ≠ "interaction" ∧ c ≠ "rid" ∧ src = c) →
        ds.dtype c = t.dtype src ∧ ds.rows.map (·.get c) = t.rows.map fun r => loaded (t.dtype src) (r.cell src)) ∧
      ds.hasIds = false ∧ ds.cache = none := by
  have iu : i.name ≠ "user" := by rcases oi with ⟨h, _⟩ | h <;> [rw [h]; exact h.1]; decide
  have xu : x.name ≠ "user" := by rcases ox with ⟨h, _⟩ | h <;> [rw [h]; exact h.1]; decide
  have xi : x.name ≠ "item" := by rcases ox with ⟨h, _⟩ | h <;> [rw [h]; exact h.2.1]; decide
  have ui : u.name ≠ "item" := by rcases ou with ⟨h, _⟩ | h <;> [rw [h]; exact h.2.1]; decide
  have ux : u.name ≠ "interaction" := by rcases ou with ⟨h, _⟩ | h <;> [rw [h]; exact h.2.2]; decide
  have ix : i.name ≠ "interaction" := by rcases oi with ⟨h, _⟩ | h <;> [rw [h]; exact h.2.2]; decide
  have hur : u.name ≠ "rid" := fun e => hrid (e ▸ hu)
  have hir : i.name ≠ "rid" := fun e => hrid (e ▸ hi)
  have hxr : x.name ≠ "rid" := fun e => hrid (e ▸ hx)
  -- the frame after the three assignments
  have hmain : ∃ t3, t.mainCols u i x = .ok t3 ∧
      t3.cols = withCol (withCol (withCol t.cols "user") "item") "interaction" ∧
      t3.dtype = (fun c => if c = "interaction" then t.dtype x.name else if c = "item" then t.dtype i.name else
        if c = "user" then t.dtype u.name else t.dtype c) ∧
      t3.rows = t.rows.map fun r => ⟨r.rid, fun c => if c = "interaction" then r.cell x.name else
        if c = "item" then r.cell i.name else if c = "user" then r.cell u.name else r.cell c⟩ := by
    unfold DataFrame.mainCols
    rw [copyCol_ok hu]
    simp only
    rw [copyCol_ok (by simp only [mem_withCol]; exact Or.inl hi)]
    simp only
    rw [copyCol_ok (by simp only [mem_withCol]; exact Or.inl (Or.inl hx))]
    refine ⟨_, rfl, rfl, ?_, ?_⟩
    · funext c
      simp only [iu, xu, xi, if_false]
    · simp only [List.map_map]
      apply List.map_congr_left
      intro r _
      simp only [Function.comp_apply, Row.set, iu, xu, xi, if_false]
  obtain ⟨t3, e1, e2, e3, e4⟩ := hmain
  have hn0 : (t3.cols ++ ["rid"]).Nodup := by
    rw [e2]
    refine List.nodup_append.2 ⟨nodup_withCol (nodup_withCol (nodup_withCol hnd)), by simp, ?_⟩
    intro c hc b hb
    rw [List.mem_singleton.1 hb]
    rintro rfl
    simp [mem_withCol, hrid] at hc
  have hm0 : ∀ c, c ∈ t3.cols ++ ["rid"] ↔ c ∈ t.cols ∨ c = "user" ∨ c = "item" ∨ c = "interaction" ∨ c = "rid" := by
    intro c
    rw [e2]
    simp only [List.mem_append, mem_withCol, List.mem_singleton]
    tauto
  have hc1 := nodup_withoutLabel hn0 (l := u) (std := "user")
  have hc2 := nodup_withoutLabel hc1 (l := i) (std := "item")
  have hc3 := nodup_withoutLabel hc2 (l := x) (std := "interaction")
  have hl : t3.labelCols u i x = .ok (withoutLabel (withoutLabel (withoutLabel (t3.cols ++ ["rid"]) u "user") i "item") x
      "interaction") := by
    unfold DataFrame.labelCols
    rw [removeLabel_ok _ ((hm0 _).2 (Or.inl hu))]
    simp only
    rw [removeLabel_ok _ ((mem_withoutLabel hn0 ou (Or.inl rfl)).2
      ⟨(hm0 _).2 (Or.inl hi), fun e => absurd e.symm hui⟩)]
    simp only
    rw [removeLabel_ok _ ((mem_withoutLabel hc1 oi (Or.inr (Or.inl rfl))).2
      ⟨(mem_withoutLabel hn0 ou (Or.inl rfl)).2 ⟨(hm0 _).2 (Or.inl hx), fun e => absurd e.symm hux⟩,
        fun e => absurd e.symm hix⟩)]
  generalize hcols : withoutLabel (withoutLabel (withoutLabel (t3.cols ++ ["rid"]) u "user") i "item") x
      "interaction" = cols at hl hc3
  have hmem : ∀ c, c ∈ cols ↔ c = "user" ∨ c = "item" ∨ c = "interaction" ∨ c = "rid" ∨
        (c ∈ t.cols ∧ c ≠ u.name ∧ c ≠ i.name ∧ c ≠ x.name) := by
    intro c
    rw [← hcols, mem_withoutLabel hc2 ox (Or.inr (Or.inr rfl)), mem_withoutLabel hc1 oi (Or.inr (Or.inl rfl)),
      mem_withoutLabel hn0 ou (Or.inl rfl), hm0]
    constructor
    · rintro ⟨⟨⟨h, h1⟩, h2⟩, h3⟩
      by_cases a1 : c = "user"
      · exact Or.inl a1
      by_cases a2 : c = "item"
      · exact Or.inr (Or.inl a2)
      by_cases a3 : c = "interaction"
      · exact Or.inr (Or.inr (Or.inl a3))
      have n1 : c ≠ u.name := fun e => a1 (h1 e)
      have n2 : c ≠ i.name := fun e => a2 (h2 e)
      have n3 : c ≠ x.name := fun e => a3 (h3 e)
      rcases h with h | h | h | h | h
      · exact Or.inr (Or.inr (Or.inr (Or.inr ⟨h, n1, n2, n3⟩)))
      · exact absurd h a1
      · exact absurd h a2
      · exact absurd h a3
      · exact Or.inr (Or.inr (Or.inr (Or.inl h)))
    · intro h
      have g1 : c = "user" → c ≠ i.name ∧ c ≠ x.name := fun e => e ▸ ⟨Ne.symm iu, Ne.symm xu⟩
      have g2 : c = "item" → c ≠ u.name ∧ c ≠ x.name := fun e => e ▸ ⟨Ne.symm ui, Ne.symm xi⟩
      have g3 : c = "interaction" → c ≠ u.name ∧ c ≠ i.name := fun e => e ▸ ⟨Ne.symm ux, Ne.symm ix⟩
      have g4 : c = "rid" → c ≠ u.name ∧ c ≠ i.name ∧ c ≠ x.name :=
        fun e => e ▸ ⟨Ne.symm hur, Ne.symm hir, Ne.symm hxr⟩
      rcases h with e | e | e | e | ⟨h, n1, n2, n3⟩
      · exact ⟨⟨⟨Or.inr (Or.inl e), fun _ => e⟩, fun e' => absurd e' (g1 e).1⟩, fun e' => absurd e' (g1 e).2⟩
      · exact ⟨⟨⟨Or.inr (Or.inr (Or.inl e)), fun e' => absurd e' (g2 e).1⟩, fun _ => e⟩, fun e' => absurd e' (g2 e).2⟩
      · exact ⟨⟨⟨Or.inr (Or.inr (Or.inr (Or.inl e))), fun e' => absurd e' (g3 e).1⟩, fun e' => absurd e' (g3 e).2⟩,
          fun _ => e⟩
      · exact ⟨⟨⟨Or.inr (Or.inr (Or.inr (Or.inr e))), fun e' => absurd e' (g4 e).1⟩,
          fun e' => absurd e' (g4 e).2.1⟩, fun e' => absurd e' (g4 e).2.2⟩
      · exact ⟨⟨⟨Or.inl h, fun e' => absurd e' n1⟩, fun e' => absurd e' n2⟩, fun e' => absurd e' n3⟩
  have hctor : readDf heap a u i x = (setAt (heap ++ [t]) heap.length (t3.dropExtra cols).fill,
      .ok ⟨cols, (t3.dropExtra cols).fill.dtype, (t3.dropExtra cols).fill.rows, false, [], [], none, none⟩) := by
    unfold readDf
    rw [ht]
    simp only [memCtor, List.getElem?_concat_length, e1, Option.elim_none, hl]
  rw [hctor]
  refine ⟨?_, _, rfl, hc3, hmem, ?_, ?_, rfl, rfl⟩
  · intro b hb
    simp only [setAt]
    rw [List.getElem?_set_ne (by omega), List.getElem?_append_left hb]
  · simp only [DataFrame.fill, DataFrame.dropExtra, e4, List.map_map]
    apply List.map_congr_left
    intro r _
    rfl
  · intro c src h
    have hin : c ∈ cols := by
      rcases h with ⟨h, _⟩ | ⟨h, _⟩ | ⟨h, _⟩ | ⟨h, _⟩
      · exact (hmem c).2 (Or.inl h)
      · exact (hmem c).2 (Or.inr (Or.inl h))
      · exact (hmem c).2 (Or.inr (Or.inr (Or.inl h)))
      · exact h
    have hcr : c ≠ "rid" := by
      rcases h with ⟨h, _⟩ | ⟨h, _⟩ | ⟨h, _⟩ | ⟨_, _, _, _, h, _⟩
      · rw [h]; decide
      · rw [h]; decide
      · rw [h]; decide
      · exact h
    have hin3 : c ∈ t3.cols := by
      rw [e2]
      simp only [mem_withCol]
      rcases (hmem c).1 hin with e | e | e | e | e
      · exact Or.inl (Or.inl (Or.inr e))
      · exact Or.inl (Or.inr e)
      · exact Or.inr e
      · exact absurd e hcr
      · exact Or.inl (Or.inl (Or.inl e.1))
    have hdt : t3.dtype c = t.dtype src ∧ ∀ r : Row, (if c = "interaction" then r.cell x.name else
        if c = "item" then r.cell i.name else if c = "user" then r.cell u.name else r.cell c) = r.cell src := by
      rw [e3]
      rcases h with ⟨rfl, rfl⟩ | ⟨rfl, rfl⟩ | ⟨rfl, rfl⟩ | ⟨_, h1, h2, h3, _, rfl⟩
      · exact ⟨by simp, fun r => by simp⟩
      · exact ⟨by simp, fun r => by simp⟩
      · exact ⟨by simp, fun r => by simp⟩
      · exact ⟨by simp [h1, h2, h3], fun r => by simp [h1, h2, h3]⟩
    refine ⟨hdt.1, ?_⟩
    simp only [DataFrame.fill, DataFrame.dropExtra, e4, List.map_map]
    apply List.map_congr_left
    intro r _
    simp only [Function.comp_apply, Row.get, hcr, if_false, List.mem_filter, hin, hin3, decide_true, and_self, true_and,
      hdt.1, hdt.2 r, loaded]

-- Three labels, a text column with a missing value.
example : OwnLabel ⟨"u", true⟩ "user" ∧ OwnLabel ⟨"i", false⟩ "item" ∧ OwnLabel ⟨"interaction", true⟩ "interaction" ∧
    (readDf [exFrame] 0 ⟨"u", true⟩ ⟨"i", false⟩ ⟨"r", true⟩).2.toOption.map
      (fun ds => (ds.cols, ds.rows.map fun r => ["user", "item", "interaction", "tag", "rid"].map r.get)) =
      some (["tag", "user", "item", "interaction", "rid"],
        [[.num 1, .num 10, .num 5, .str "x", .num 4], [.num 2, .num 20, .num 3, .str "", .num 7]]) := by
  refine ⟨Or.inr (by decide), Or.inr (by decide), Or.inl (by decide), by decide +kernel⟩

/-- A dataframe whose columns have the standard names. -/
def exStdFrame : DataFrame :=
  ⟨["user", "item", "interaction"], fun _ => .int, [mkRow 0 [("user", .num 1), ("item", .num 10), ("interaction", .num 5)],
    mkRow 1 [("user", .num 2), ("item", .num 20), ("interaction", .num 3)]]⟩

/-- C90 fails: with the labels for users and items exchanged, the dataset has neither column. -/
theorem C90_fails_exchanged :
    (readDf [exStdFrame] 0 ⟨"item", true⟩ ⟨"user", true⟩ ⟨"interaction", true⟩).2.toOption.map (·.cols) =
      some ["interaction", "rid"] := by decide +kernel

/-- C90 fails: a label with the text `user` that is another string object removes the user column. -/
theorem C90_fails_identity :
    (readDf [exStdFrame] 0 ⟨"user", false⟩ ⟨"item", true⟩ ⟨"interaction", true⟩).2.toOption.map (·.cols) =
      some ["item", "interaction", "rid"] := by decide +kernel

/-- The constructor itself, without the copy of `read_df`, writes into the caller's dataframe: its columns are renamed
and missing texts are replaced. -/
theorem C90_constructor_writes :
    ((memCtor [exFrame] 0 none ⟨"u", true⟩ ⟨"i", true⟩ ⟨"r", true⟩).1.map (·.cols)) =
      [["tag", "user", "item", "interaction"]] := by decide +kernel

/-! ## C91: record ids of a dataset read from a dataframe

Full statement: the record ids of a dataset identify its records, so that `drop([n])` removes at most one record. -/

/-- C91.  The record ids are the index labels of the dataframe; if these are distinct, `drop([n])` removes at most one
record and `drop([n], keep=True)` leaves at most one.  Missing from the full statement: dataframes with repeated index
labels. -/
theorem C91_record_ids_partial (heap : List DataFrame) (a : Nat) (t : DataFrame) (ht : heap[a]? = some t) (u i x : Label)
    (hix : (t.rows.map (·.rid)).Nodup) (ds : Mem) (h : (readDf heap a u i x).2 = .ok ds) (n : Nat) :
    (ds.drop [n] true).rows.length ≤ 1 ∧ ds.rows.length ≤ (ds.drop [n] false).rows.length + 1 ∧
      ((ds.drop [n] true).rows.length = 1 ↔ n ∈ t.rows.map (·.rid)) := by
  have hr : ds.rows.map (·.rid) = t.rows.map (·.rid) := by
    have hcopy : ∀ (t : DataFrame) dst src t', t.copyCol dst src = .ok t' → t'.rows.map (·.rid) = t.rows.map (·.rid) := by
      intro t dst src t' h
      unfold DataFrame.copyCol at h
      split at h
      · cases h
        simp only [List.map_map]
        rfl
      · cases h
    unfold readDf at h
    rw [ht] at h
    simp only [memCtor, List.getElem?_concat_length, Option.elim_none] at h
    split at h
    · cases h
    · next t3 e =>
      have hrows : t3.rows.map (·.rid) = t.rows.map (·.rid) := by
        unfold DataFrame.mainCols at e
        split at e
        · cases e
        · next t1 e1 =>
          split at e
          · cases e
          · next t2 e2 => rw [hcopy _ _ _ _ e, hcopy _ _ _ _ e2, hcopy _ _ _ _ e1]
      split at h
      · cases h
      · cases h
        rw [← hrows]
        simp only [DataFrame.fill, DataFrame.dropExtra, List.map_map]
        rfl
  have hlen : (ds.drop [n] true).rows.length + (ds.drop [n] false).rows.length = ds.rows.length := by
    have := (C05_drop_keep ds [n]).1.length_eq
    rw [List.length_append] at this
    omega
  have hcount : (ds.drop [n] true).rows.length = (t.rows.map (·.rid)).count n := by
    rw [← hr]
    simp only [Mem.drop, dropRows, if_true, List.mem_singleton, List.count, List.countP_map]
    rw [List.countP_eq_length_filter]
    apply congrArg
    apply List.filter_congr
    intro r _
    simp only [Function.comp_apply]
    exact (beq_eq_decide r.rid n).symm
  have h1 : (t.rows.map (·.rid)).count n ≤ 1 := List.nodup_iff_count_le_one.1 hix n
  refine ⟨by omega, by omega, ?_⟩
  rw [hcount, ← List.count_pos_iff]
  omega

/-- C91 fails: two dataframes put one after the other have repeated index labels, and `drop([0])` removes two records. -/
theorem C91_fails :
    let t : DataFrame := { exStdFrame with rows := exStdFrame.rows ++ exStdFrame.rows }
    (readDf [t] 0 ⟨"user", true⟩ ⟨"item", true⟩ ⟨"interaction", true⟩).2.toOption.map
      (fun ds => (ds.rows.map (·.rid), (ds.drop [0] false).rows.map (·.rid))) = some ([0, 1, 0, 1], [1, 1]) := by
  decide +kernel

example : (exFrame.rows.map (·.rid)).Nodup ∧
    (readDf [exFrame] 0 ⟨"u", true⟩ ⟨"i", true⟩ ⟨"r", true⟩).2.toOption.map
      (fun ds => ((ds.drop [4] true).rows.map (·.rid), (ds.drop [4] false).rows.map (·.rid))) = some ([4], [7]) := by
  decide +kernel

end DRec
