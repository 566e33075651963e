import Verif.Lemmas.MemWritten
import Mathlib.Tactic.NormNum

/-!
# C01, C02, C03, C04, C08: queries on the in-memory dataset
-/

namespace DRec

open Spec

/-! ## C01 -/

/-- **C01.** `select` with any written conjunction of conditions, for every dataset: the result holds
exactly the records satisfying all conditions, in order and unchanged (`List.filter`), with the same
columns; in place, the dataset becomes that result.  `Direct` leaves out conditions on text
`user`/`item` columns of a dataset with internal ids; those are C04. -/
theorem C01_select_exact (ds : Mem) (ws : List (List Char × SCond × List Char))
    (hw : WellWritten ws)
    (hc : ∀ w ∈ ws, w.2.1.col ∈ ds.cols ∧ Fits ds w.2.1 ∧ Direct ds w.2.1)
    (hcmp : ∀ w ∈ ws, ∀ r ∈ ds.rows, Comparable w.2.1.op (r.get w.2.1.col) w.2.1.lit.value) :
    (∃ d, ds.select (queryText ws) = .ok d ∧
      d.rows = ds.rows.filter (fun r => Sat ws r) ∧ d.cols = ds.cols) ∧
    (∃ d, ds.selectInPlace (queryText ws) = .ok d ∧
      d.rows = ds.rows.filter (fun r => Sat ws r) ∧ d.cols = ds.cols) := by
  have key : ∀ ds' : Mem, SameSchema ds' ds → ds'.rows = ds.rows →
      ds'.applyQuery (queryText ws) = .ok (ds.rows.filter fun r => Sat ws r) := by
    intro ds' hs hr
    rw [← hr]
    apply applyQuery_means ds' ws hw
    intro w hw'
    obtain ⟨h1, h2, h3⟩ := hc w hw'
    obtain ⟨g1, g2, g3, g4⟩ := hw.2 w hw'
    apply segMeans_direct ds' _ _ _ g1 g2 g3 g4 (hs.1 ▸ h1)
    · unfold Fits at h2 ⊢; rw [hs.2.1]; exact h2
    · unfold Direct at h3 ⊢; rw [hs.2.1, hs.2.2.1]; exact h3
    · rw [hr]; exact hcmp w hw'
  constructor
  · refine ⟨{ ds.copy with rows := ds.rows.filter fun r => Sat ws r }, ?_, rfl, rfl⟩
    unfold Mem.select
    rw [key ds.copy ⟨rfl, rfl, rfl, rfl, rfl⟩ rfl]
    rfl
  · refine ⟨{ ds with rows := ds.rows.filter fun r => Sat ws r }, ?_, rfl, rfl⟩
    unfold Mem.selectInPlace
    rw [key ds ⟨rfl, rfl, rfl, rfl, rfl⟩ rfl]
    rfl

/-- When an ordering condition meets a record whose value is of another kind, nothing is selected:
the query raises (both modes). -/
theorem C01_incomparable_raises (ds : Mem) (ws : List (List Char × SCond × List Char))
    (hw : WellWritten ws) (w : List Char × SCond × List Char) (hmem : w ∈ ws)
    (hc : w.2.1.col ∈ ds.cols ∧ Fits ds w.2.1 ∧ Direct ds w.2.1)
    (r : Row) (hr : r ∈ ds.rows)
    (hcmp : ¬ Comparable w.2.1.op (r.get w.2.1.col) w.2.1.lit.value) :
    (∃ e, ds.select (queryText ws) = .error e) ∧
    (∃ e, ds.selectInPlace (queryText ws) = .error e) := by
  have key : ∀ ds' : Mem, SameSchema ds' ds → ds'.rows = ds.rows →
      ∃ e, ds'.applyQuery (queryText ws) = .error e := by
    intro ds' hs hrows
    apply Mem.applyQuery_fail
    intro hall
    obtain ⟨g1, g2, g3, g4⟩ := hw.2 w hmem
    have hseg : w.1 ++ w.2.1.text ++ w.2.2 ∈ pySplit ',' (queryText ws) := by
      rw [pySplit_queryText ws hw]
      exact List.mem_map.2 ⟨w, hmem, rfl⟩
    obtain ⟨t, ht, hb⟩ := hall _ hseg
    rw [Mem.segTest_congr hs, segTest_direct ds _ _ _ g1 g2 g3 g4 hc.1 hc.2.1 hc.2.2] at ht
    obtain ⟨b, hb⟩ := hb r (hrows ▸ hr)
    cases ht
    simp [cmpPy_eq, hcmp] at hb
  obtain ⟨e1, h1⟩ := key ds.copy ⟨rfl, rfl, rfl, rfl, rfl⟩ rfl
  obtain ⟨e2, h2⟩ := key ds ⟨rfl, rfl, rfl, rfl, rfl⟩ rfl
  exact ⟨⟨e1, by simp [Mem.select, h1, Except.map]⟩, ⟨e2, by simp [Mem.selectInPlace, h2, Except.map]⟩⟩

/-- A three-record dataset with text ids used in the examples. -/
def exText : Mem := mkMem .obj
  [(.str "u", .str "a", 3), (.str "v", .str "b", 1), (.str "u", .str "c", 5)]

/-- A query on it: `interaction >= 2.5 , user == 'u'`. -/
def exQuery : List (List Char × SCond × List Char) :=
  [([], ⟨"interaction", .ge, .dec false 2 [5]⟩, [' ']), ([' '], ⟨"user", .eq, .str "u"⟩, [])]

example : queryText exQuery = "interaction >= 2.5 , user == 'u'".toList := by decide

/-- The hypotheses of C01 hold for that dataset and query, and the result has two of three rows. -/
example : WellWritten exQuery ∧
    (∀ w ∈ exQuery, w.2.1.col ∈ exText.cols ∧ Fits exText w.2.1 ∧ Direct exText w.2.1) ∧
    (∀ w ∈ exQuery, ∀ r ∈ exText.rows,
      Comparable w.2.1.op (r.get w.2.1.col) w.2.1.lit.value) ∧
    ((exText.rows.filter fun r => Sat exQuery r).map (·.rid)) = [0, 2] := by
  refine ⟨by decide, by decide, by decide, by decide +kernel⟩

/-! ## C02 -/

/-- **C02.** Splitting and reading a written query gives back exactly the conditions written, whatever
blanks surround the commas. -/
theorem C02_round_trip (ws : List (List Char × SCond × List Char)) (hw : WellWritten ws) :
    (pySplit ',' (queryText ws)).map parseSegment =
      ws.map fun w => .ok ⟨w.2.1.col, w.2.1.op.text, w.2.1.lit.text⟩ := by
  rw [pySplit_queryText ws hw, segsOf, List.map_map]
  apply List.map_congr_left
  intro w hw'
  obtain ⟨g1, g2, g3, g4⟩ := hw.2 w hw'
  exact parseSegment_text _ _ _ g1 g2 g3 g4

/-- **C02.** The value text of a condition is read as the value written, for every column whose type
accepts it, and the operator as the operator written. -/
theorem C02_value_round_trip (ds : Mem) (c : SCond) (hw : c.lit.Writable) (hf : Fits ds c) :
    (∃ l, ds.parseValue c.col c.lit.text = .ok l ∧ l.toVal = c.lit.value) ∧
    Op.ofText c.op.text = some c.op := by
  obtain ⟨l, h1, h2, _⟩ := parseValue_text ds c hw hf
  exact ⟨⟨l, h1, h2⟩, op_ofText _⟩

/-- **C02.** Two different operators never share a text. -/
theorem C02_operators_distinct (a b : Op) (h : a.text = b.text) : a = b := by
  cases a <;> cases b <;> revert h <;> decide

/-- **C02.** A text is rejected when some comma-separated segment does not consist of three parts
separated by single blanks, names a column that is not there, uses an unknown operator or has an
unreadable value; a rejected in-place selection produces no new state. -/
theorem C02_rejects (ds : Mem) (q seg : List Char) (hseg : seg ∈ pySplit ',' q)
    (h : (∀ c o v, pySplit ' ' (strip seg) ≠ [c, o, v]) ∨
      (∃ c o v, pySplit ' ' (strip seg) = [c, o, v] ∧
        (String.ofList c ∉ ds.cols ∨ (∀ op : Op, op.text ≠ String.ofList o) ∨
          ∃ e, ds.parseValue (String.ofList c) v = .error e))) :
    (∃ e, ds.select q = .error e) ∧ (∃ e, ds.selectInPlace q = .error e) ∧
    (∃ e, ds.selectOne q none = .error e) := by
  have key : ∀ ds' : Mem, SameSchema ds' ds → ∃ e, ds'.applyQuery q = .error e := by
    intro ds' hs
    apply Mem.applyQuery_fail
    intro hall
    obtain ⟨t, ht, _⟩ := hall seg hseg
    rw [Mem.segTest_congr hs] at ht
    unfold Mem.segTest at ht
    rcases h with h | ⟨c, o, v, h1, h2⟩
    · have hp : parseSegment seg = .error .badSegment := by
        unfold parseSegment
        split
        · next c o v heq => exact absurd heq (h c o v)
        · rfl
      simp [hp, bind, Except.bind] at ht
    · have hp : parseSegment seg = .ok ⟨String.ofList c, String.ofList o, v⟩ := by
        unfold parseSegment; rw [h1]
      have hrd : ∃ e, ds.readCond ⟨String.ofList c, String.ofList o, v⟩ = .error e := by
        unfold Mem.readCond
        by_cases hcol : String.ofList c ∈ ds.cols
        · simp only [hcol, if_true]
          cases hpv : ds.parseValue (String.ofList c) v with
          | error e => exact ⟨e, by simp [bind, Except.bind]⟩
          | ok l =>
            rcases h2 with h2 | h2 | ⟨e, h2⟩
            · exact absurd hcol h2
            · have : Op.ofText (String.ofList o) = none := by
                unfold Op.ofText
                have a1 := h2 .gt; have a2 := h2 .ge; have a3 := h2 .le
                have a4 := h2 .lt; have a5 := h2 .eq; have a6 := h2 .ne
                simp only [Op.text] at a1 a2 a3 a4 a5 a6
                simp [Ne.symm a1, Ne.symm a2, Ne.symm a3, Ne.symm a4, Ne.symm a5, Ne.symm a6]
              exact ⟨.badOperator, by simp [bind, Except.bind, this]⟩
            · rw [hpv] at h2; cases h2
        · exact ⟨.badColumn, by simp [hcol]⟩
      obtain ⟨e, he⟩ := hrd
      simp [hp, he, bind, Except.bind] at ht
  obtain ⟨e1, h1⟩ := key ds.copy ⟨rfl, rfl, rfl, rfl, rfl⟩
  obtain ⟨e2, h2⟩ := key ds ⟨rfl, rfl, rfl, rfl, rfl⟩
  refine ⟨⟨e1, by simp [Mem.select, h1, Except.map]⟩,
    ⟨e2, by simp [Mem.selectInPlace, h2, Except.map]⟩, ⟨e2, ?_⟩⟩
  simp [Mem.selectOne, handleColumns, h2, bind, Except.bind]

/-- **C02** (converse). An accepted text consists of three-part segments with known columns,
operators and readable values only. -/
theorem C02_accepts (ds d : Mem) (q seg : List Char) (hq : ds.select q = .ok d)
    (hseg : seg ∈ pySplit ',' q) :
    ∃ c o v, pySplit ' ' (strip seg) = [c, o, v] ∧ String.ofList c ∈ ds.cols ∧
      (∃ op : Op, op.text = String.ofList o) ∧
      ∃ l, ds.parseValue (String.ofList c) v = .ok l := by
  by_contra hcon
  have := C02_rejects ds q seg hseg (by
    by_cases h3 : ∃ c o v, pySplit ' ' (strip seg) = [c, o, v]
    · right
      obtain ⟨c, o, v, h⟩ := h3
      refine ⟨c, o, v, h, ?_⟩
      by_contra hn
      rw [not_or, not_or] at hn
      obtain ⟨n1, n2, n3⟩ := hn
      apply hcon
      refine ⟨c, o, v, h, by simpa using n1, by simpa using n2, ?_⟩
      cases hp : ds.parseValue (String.ofList c) v with
      | ok l => exact ⟨l, rfl⟩
      | error e => exact absurd ⟨e, hp⟩ n3
    · left
      intro c o v h
      exact h3 ⟨c, o, v, h⟩)
  obtain ⟨⟨e, he⟩, _⟩ := this
  rw [hq] at he; cases he

/-- A concrete rejected text: a missing blank. -/
example : "user=='u'".toList ∈ pySplit ',' "rid == 1,user=='u'".toList ∧
    ∀ c o v, pySplit ' ' (strip "user=='u'".toList) ≠ [c, o, v] := by
  refine ⟨by decide, ?_⟩
  have : pySplit ' ' (strip "user=='u'".toList) = ["user=='u'".toList] := by decide
  rw [this]; simp

/-! ## C03 -/

/-- **C03.** If two queries can each be evaluated on a dataset, then applying one after the other, in
either order, and applying the comma-joined query all succeed and give the same records; nothing is
added and repeating a query changes nothing. -/
theorem C03_compose (ds d1 d2 : Mem) (q1 q2 : List Char)
    (h1 : ds.select q1 = .ok d1) (h2 : ds.select q2 = .ok d2) :
    ∃ a b c e, d1.select q2 = .ok a ∧ d2.select q1 = .ok b ∧
      ds.select (q1 ++ ',' :: q2) = .ok c ∧ d1.select q1 = .ok e ∧
      a.rows = b.rows ∧ a.rows = c.rows ∧ e.rows = d1.rows ∧
      a.rows.Sublist d1.rows ∧ d1.rows.Sublist ds.rows ∧ a.cols = ds.cols := by
  obtain ⟨a1, rfl⟩ := (Mem.select_iff _ _ _).1 h1
  obtain ⟨a2, rfl⟩ := (Mem.select_iff _ _ _).1 h2
  have sub : ∀ (rs : List Row) (q : List Char), rs ⊆ ds.rows → (∀ s ∈ pySplit ',' q, ds.SegOk s) →
      (ds.withRows rs).select q = .ok ((ds.withRows rs).withRows
        (rs.filter fun r => (pySplit ',' q).all (ds.segHolds · r))) := by
    intro rs q hrs hq
    rw [Mem.select_iff]
    refine ⟨fun s hs => Mem.SegOk_sub (Mem.withRows_schema ds rs) hrs (hq s hs), ?_⟩
    simp only [Mem.segHolds_congr (Mem.withRows_schema ds rs)]
    rfl
  have e3 := (Mem.select_iff ds _ (q1 ++ ',' :: q2)).2 ⟨by
    rw [pySplit_append_sep]
    intro s hs
    rcases List.mem_append.1 hs with hs | hs
    · exact a1 s hs
    · exact a2 s hs, rfl⟩
  have fs : ∀ p : Row → Bool, ds.rows.filter p ⊆ ds.rows := fun p => List.filter_sublist.subset
  refine ⟨_, _, _, _, sub _ q2 (fs _) a2, sub _ q1 (fs _) a1, e3, sub _ q1 (fs _) a1,
    ?_, ?_, ?_, ?_, ?_, ?_⟩
  · simp only [Mem.withRows, List.filter_filter]
    apply List.filter_congr
    intro r _
    exact Bool.and_comm _ _
  · simp only [Mem.withRows, List.filter_filter, pySplit_append_sep, List.all_append]
    apply List.filter_congr
    intro r _
    exact Bool.and_comm _ _
  · simp only [Mem.withRows, List.filter_filter]
    apply List.filter_congr
    intro r _
    exact Bool.and_self _
  · exact List.filter_sublist
  · exact List.filter_sublist
  · rfl

/-- **C03** (converse direction). If the joined query can be evaluated, both parts can. -/
theorem C03_joined_ok (ds c : Mem) (q1 q2 : List Char) (h : ds.select (q1 ++ ',' :: q2) = .ok c) :
    (∃ d1, ds.select q1 = .ok d1) ∧ (∃ d2, ds.select q2 = .ok d2) := by
  unfold Mem.select at h ⊢
  cases hq : ds.copy.applyQuery (q1 ++ ',' :: q2) with
  | error e => rw [hq] at h; cases h
  | ok rs =>
    rw [Mem.applyQuery_iff, pySplit_append_sep] at hq
    have k1 := Mem.applyQuery_ok ds.copy q1 fun s hs => hq.1 s (List.mem_append_left _ hs)
    have k2 := Mem.applyQuery_ok ds.copy q2 fun s hs => hq.1 s (List.mem_append_right _ hs)
    exact ⟨⟨_, by rw [k1]; rfl⟩, ⟨_, by rw [k2]; rfl⟩⟩

example : (∃ d1, exText.select "interaction > 2".toList = .ok d1) ∧
    (∃ d2, exText.select "user == 'u'".toList = .ok d2) := by
  constructor
  · obtain ⟨d, hd, _⟩ := (C01_select_exact exText [([], ⟨"interaction", .gt, .int 2⟩, [])]
      (by decide) (by decide) (by decide)).1
    exact ⟨d, hd⟩
  · obtain ⟨d, hd, _⟩ := (C01_select_exact exText [([], ⟨"user", .eq, .str "u"⟩, [])]
      (by decide) (by decide) (by decide)).1
    exact ⟨d, hd⟩

end DRec
