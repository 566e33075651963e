import Verif.Model.UniqueArg
import Verif.Props.Both

/-!
# C07: `unique` in both backends, and the caller's list

Proved: the in-memory `unique` leaves every list as it is (`C07_memory_list`); on columns without the record id both
backends give the same records (`C07_same_partial`).  Missing from the full claim: the record id among the columns,
in particular `columns=None`, and the list passed to the database dataset.  There it is false:
`C07_rid_keeps_all`, `C07_none_differs`, `C07_db_list_modified`, `C07_second_call_differs`.
-/

namespace DRec

open Spec

theorem new_val (L : Lists) (l : List String) (k : Nat) (hk : k < L.next) : (L.new l).1.val k = L.val k := by
  simp [Lists.new, Nat.ne_of_lt hk]

/-- What `_handle_columns` does to the lists. -/
theorem handle_spec (L : Lists) (own : Nat) (arg : ColsArg) (harg : ∀ r, arg = .list r → r < L.next) :
    (∀ k < L.next, (L.handle own arg).1.val k = L.val k) ∧ L.next ≤ (L.handle own arg).1.next ∧
    (∀ e, (L.handle own arg).2 = .error e → handleColumns (L.val own) (arg.value L) = .error e) ∧
    (∀ r, (L.handle own arg).2 = .ok r → r < (L.handle own arg).1.next ∧
      handleColumns (L.val own) (arg.value L) = .ok ((L.handle own arg).1.val r) ∧
      (arg = .list r ∨ (L.next ≤ r ∧ ∀ r', arg ≠ .list r'))) := by
  cases arg with
  | all =>
    have hall : ((L.val own).all fun c => decide (c ∈ L.val own)) = true := by simp
    have e : L.handle own .all = ((L.new (L.val own)).1, .ok L.next) := by
      simp only [Lists.handle, Lists.new, if_true, hall]
    rw [e]
    refine ⟨fun k hk => new_val L _ k hk, Nat.le_succ _, (fun e h => by cases h), ?_⟩
    intro r hr
    cases hr
    exact ⟨Nat.lt_succ_self _, by simp [handleColumns, ColsArg.value, Lists.new], Or.inr ⟨le_refl _, by simp⟩⟩
  | one c =>
    by_cases hc : c ∈ L.val own
    · have e : L.handle own (.one c) = ((L.new [c]).1, .ok L.next) := by
        simp [Lists.handle, Lists.new, hc]
      rw [e]
      refine ⟨fun k hk => new_val L _ k hk, Nat.le_succ _, (fun e h => by cases h), ?_⟩
      intro r hr
      cases hr
      exact ⟨Nat.lt_succ_self _, by simp [handleColumns, ColsArg.value, Lists.new, hc],
        Or.inr ⟨le_refl _, by simp⟩⟩
    · have e : L.handle own (.one c) = ((L.new [c]).1, .error .badColumn) := by
        simp [Lists.handle, Lists.new, hc]
      rw [e]
      refine ⟨fun k hk => new_val L _ k hk, Nat.le_succ _, ?_, fun r h => by cases h⟩
      intro e he
      cases he
      simp [handleColumns, ColsArg.value, hc]
  | list r0 =>
    by_cases hc : (L.val r0).all (fun c => decide (c ∈ L.val own)) = true
    · have e : L.handle own (.list r0) = (L, .ok r0) := by
        simp only [Lists.handle]; rw [if_pos hc]
      rw [e]
      refine ⟨fun k _ => rfl, le_refl _, (fun e h => by cases h), ?_⟩
      intro r hr
      cases hr
      exact ⟨harg _ rfl, by simp only [handleColumns, ColsArg.value]; rw [if_pos hc], Or.inl rfl⟩
    · have e : L.handle own (.list r0) = (L, .error .badColumn) := by
        simp only [Lists.handle]; rw [if_neg hc]
      rw [e]
      refine ⟨fun k _ => rfl, le_refl _, ?_, fun r h => by cases h⟩
      intro e he
      cases he
      simp only [handleColumns, ColsArg.value]; rw [if_neg hc]

/-- In memory no list object that existed is changed, whatever is passed.  The returned dataset gets a new list,
with the columns that the model of the records uses. -/
theorem C07_memory_list (L : Lists) (own : Nat) (arg : ColsArg) (harg : ∀ r, arg = .list r → r < L.next) :
    (∀ k < L.next, (memUniqueLists L own arg).1.val k = L.val k) ∧
    ∀ m : Mem, m.cols = L.val own → ∀ r, (memUniqueLists L own arg).2 = .ok r →
      L.next ≤ r ∧ ∃ d, m.unique (arg.value L) = .ok d ∧ d.cols = (memUniqueLists L own arg).1.val r := by
  obtain ⟨h1, h2, h3, h4⟩ := handle_spec L own arg harg
  unfold memUniqueLists
  cases hh : L.handle own arg with
  | mk L1 out =>
    rw [hh] at h1 h2 h3 h4
    cases out with
    | error e => exact ⟨h1, fun m _ r hr => by cases hr⟩
    | ok r0 =>
      obtain ⟨g1, g2, _⟩ := h4 r0 rfl
      simp only at h1 h2 g1 g2
      have hself : (L1.new (L1.val r0)).1.val L1.next = L1.val r0 := by simp [Lists.new]
      have hn : (L1.new (L1.val r0)).2 = L1.next := rfl
      simp only [hn, hself]
      constructor
      · intro k hk
        have hk' : k < L1.next := lt_of_lt_of_le hk h2
        split
        · rw [new_val _ _ _ hk', h1 k hk]
        · simp only [Lists.append, Nat.ne_of_lt hk', if_false]
          rw [new_val _ _ _ hk', h1 k hk]
      · intro m hm r hr
        cases hr
        refine ⟨h2, ?_⟩
        simp only [Mem.unique, hm, g2, Except.map]
        refine ⟨_, rfl, ?_⟩
        simp only [Mem.uniqueOn]
        split
        · rw [hself]
        · simp only [Lists.append, if_true, hself]

/-- In the database the lists stay as they are when no list is passed, or a list with the record id. -/
theorem C07_db_list_partial (L : Lists) (own : Nat) (arg : ColsArg)
    (harg : ∀ r, arg = .list r → r < L.next ∧ "rid" ∈ L.val r) :
    ∀ k < L.next, (dbUniqueLists L own arg).1.val k = L.val k := by
  obtain ⟨h1, h2, h3, h4⟩ := handle_spec L own arg (fun r hr => (harg r hr).1)
  unfold dbUniqueLists
  cases hh : L.handle own arg with
  | mk L1 out =>
    rw [hh] at h1 h2 h3 h4
    cases out with
    | error e => exact h1
    | ok r0 =>
      obtain ⟨g1, g2, g3⟩ := h4 r0 rfl
      simp only at h1 h2 g1 g2 g3
      intro k hk
      simp only
      rcases g3 with g3 | ⟨g3, _⟩
      · obtain ⟨a1, a2⟩ := harg r0 g3
        rw [if_pos (by rw [h1 r0 a1]; exact a2), h1 k hk]
      · split
        · exact h1 k hk
        · simp only [Lists.append, Nat.ne_of_lt (lt_of_lt_of_le hk g3), if_false]
          exact h1 k hk

/-- In the database every list of existing columns without the record id is changed by the call: the record id is
appended, and the list is from then on the column list of the returned dataset. -/
theorem C07_db_list_modified (L : Lists) (own r : Nat) (hsub : L.val r ⊆ L.val own) (hrid : "rid" ∉ L.val r) :
    (dbUniqueLists L own (.list r)).1.val r = L.val r ++ ["rid"] ∧ (dbUniqueLists L own (.list r)).2 = .ok r := by
  have hc : (L.val r).all (fun c => decide (c ∈ L.val own)) = true := by
    simp only [List.all_eq_true, decide_eq_true_eq]
    exact fun a ha => hsub ha
  have e : L.handle own (.list r) = (L, .ok r) := by
    simp only [Lists.handle]; rw [if_pos hc]
  unfold dbUniqueLists
  rw [e]
  simp only
  rw [if_neg hrid]
  simp [Lists.append]

/-- After any admissible history: on columns without the record id, both backends give the same columns and
records, in place or as a copy. -/
theorem C07_same_partial (names cols : List String) (types : String → DType) (rows : List Row) (ops : List DbOp)
    (hn : tableCols ⊆ names ∧ "uid" ∈ names ∧ "iid" ∈ names) (hcols : cols ⊆ names) (hrid : "rid" ∈ cols)
    (hsort : rows.Pairwise fun a b => a.rid < b.rid)
    (ha : AdmissibleAll names (World.ofCsv cols types rows) ops) (i : Nat) (m : Mem)
    (hp : plainOf (runOps (World.ofCsv cols types rows) ops) i =
      some ⟨m.cols, m.rows.map (Row.toRec m.cols), m.hasIds⟩)
    (hmr : "rid" ∈ m.cols) (hms : m.rows.Pairwise fun a b => a.rid < b.rid)
    (cs : List String) (hne : cs ≠ []) (hsub : cs ⊆ m.cols) (hcs : "rid" ∉ cs) (k : Nat)
    (hk : ((runOps (World.ofCsv cols types rows) ops).unique i (some cs) true).2 = .ok k) :
    ∃ d, m.unique (some cs) = .ok d ∧
      plainOf ((runOps (World.ofCsv cols types rows) ops).unique i (some cs) true).1 k =
        some ⟨d.cols, d.rows.map (Row.toRec d.cols), d.hasIds⟩ := by
  obtain ⟨g1, _⟩ := ofCsv_good hn types rows hcols hrid hsort
  obtain ⟨h1, _⟩ := history_good hn g1 ops [] (by simpa using ha)
  have hp' : plainOf (runOps (World.ofCsv cols types rows) ops) i = some (memPlain m.copy) := hp
  obtain ⟨d, e1, _, _, e4⟩ := both_step hn (m := m.copy) (op := .unique cs true) ⟨hmr, hms, rfl⟩ h1 hp'
    ⟨fun h => hne (Option.some.inj h), hsub, hcs⟩ hk
  exact ⟨d, e1, e4⟩

/-- After any admissible history: with the record id among the columns, or all columns, the database drops no
record at all. -/
theorem C07_rid_keeps_all (names cols : List String) (types : String → DType) (rows : List Row) (ops : List DbOp)
    (hn : tableCols ⊆ names ∧ "uid" ∈ names ∧ "iid" ∈ names) (hcols : cols ⊆ names) (hrid : "rid" ∈ cols)
    (hsort : rows.Pairwise fun a b => a.rid < b.rid)
    (ha : AdmissibleAll names (World.ofCsv cols types rows) ops) (i : Nat) (p : Plain)
    (hp : plainOf (runOps (World.ofCsv cols types rows) ops) i = some p)
    (cs : Option (List String)) (hcs : "rid" ∈ cs.getD p.cols) (k : Nat)
    (hk : ((runOps (World.ofCsv cols types rows) ops).unique i cs true).2 = .ok k) :
    ∃ q, plainOf ((runOps (World.ofCsv cols types rows) ops).unique i cs true).1 k = some q ∧
      q.recs.map (cellOf · "rid") = p.recs.map (cellOf · "rid") := by
  obtain ⟨g1, _⟩ := ofCsv_good hn types rows hcols hrid hsort
  obtain ⟨h1, _⟩ := history_good hn g1 ops [] (by simpa using ha)
  have hadm : Admissible names (runOps (World.ofCsv cols types rows) ops) (.unique i cs true) := by
    rintro rfl; simp at hcs
  obtain ⟨_, g⟩ := step_good hn h1 hadm
  have hk' : (runOp (runOps (World.ofCsv cols types rows) ops) (.unique i cs true)).2 = .ok k := hk
  rw [hk'] at g
  obtain ⟨_, p', e1, e2⟩ := g
  simp only [DbOp.inst] at e1
  rw [hp] at e1
  cases e1
  refine ⟨p.unique cs, ?_, ?_⟩
  · have := congrFun e2 k
    simp only [setAt, if_true, DbOp.effect] at this
    exact this
  · simp only [Plain.unique, if_pos hcs, List.map_map]
    have hall : p.recs.filter (fun r => decide (FirstOn (cs.getD p.cols) p.recs r)) = p.recs := by
      apply List.filter_eq_self.2
      intro r _
      apply decide_eq_true
      intro r' _ he hl
      have : cellOf r' "rid" = cellOf r "rid" := by
        have := List.map_inj_left.1 he "rid" hcs
        exact this
      rw [this] at hl
      revert hl
      cases cellOf r "rid" <;> simp [Less]
    rw [hall]
    apply List.map_congr_left
    intro r _
    simp only [Function.comp_apply]
    unfold project cellOf
    have : ∀ l : List String, "rid" ∈ l →
        (List.lookup "rid" (l.map fun c => (c, (List.lookup c r).getD .null))).getD .null =
          (List.lookup "rid" r).getD .null := by
      intro l hl
      induction l with
      | nil => simp at hl
      | cons a l ih =>
        simp only [List.map_cons, List.lookup_cons]
        by_cases h : a = "rid"
        · subst h; simp
        · have h' : ("rid" == a) = false := by simpa using fun e => h e.symm
          rw [h']
          exact ih (by simpa [Ne.symm h] using hl)
    exact this _ hcs

/-! ## Concrete cases -/

/-- Two interactions of the same user with the same item and value, one of another user. -/
def exDupRows : List Row := [exDbRow 0 1 10 5, exDbRow 1 1 10 5, exDbRow 2 2 10 4]

/-- In a database. -/
def exDupWorld : World := World.ofCsv exDbCols (fun _ => .int) exDupRows

/-- In memory. -/
def exDupMem : Mem := ⟨exDbCols, fun _ => .int, exDupRows, false, [], [], none, none⟩

/-- Record ids kept by `unique` in memory. -/
def memUniqueRids (m : Mem) (cs : Option (List String)) : Option (List Val) :=
  (m.unique cs).toOption.map fun d => d.rows.map (·.get "rid")

/-- Record ids kept by `unique` in the database. -/
def dbUniqueRids (w : World) (cs : Option (List String)) : Option (List Val) :=
  match w.unique 0 cs true with
  | (w', .ok k) => (plainOf w' k).map fun p => p.recs.map (cellOf · "rid")
  | _ => none

/-- `unique()` removes the duplicate in memory and keeps it in the database. -/
theorem C07_none_differs :
    memUniqueRids exDupMem none = some [.num 0, .num 2] ∧
      dbUniqueRids exDupWorld none = some [.num 0, .num 1, .num 2] := by
  refine ⟨by decide +kernel, by decide +kernel⟩

/-- The lists of a program: the columns of the dataset (0) and a list of the caller (1). -/
def exLists : Lists := ⟨fun k => if k = 0 then exDbCols else if k = 1 then ["user", "item"] else [], 2⟩

/-- Calling `unique` twice with the same list object gives different records in the database: the first call
changed the list. -/
theorem C07_second_call_differs :
    dbUniqueRids exDupWorld ((ColsArg.list 1).value exLists) = some [.num 0, .num 2] ∧
      dbUniqueRids exDupWorld ((ColsArg.list 1).value (dbUniqueLists exLists 0 (.list 1)).1) =
        some [.num 0, .num 1, .num 2] ∧
      memUniqueRids exDupMem ((ColsArg.list 1).value (memUniqueLists exLists 0 (.list 1)).1) =
        some [.num 0, .num 2] := by
  refine ⟨by decide +kernel, by decide +kernel, by decide +kernel⟩

/-- `C07_memory_list` applies to it. -/
example : (∀ r, ColsArg.list 1 = .list r → r < exLists.next) ∧ exDupMem.cols = exLists.val 0 ∧
    (memUniqueLists exLists 0 (.list 1)).2.toOption = some 2 ∧
    (memUniqueLists exLists 0 (.list 1)).1.val 2 = ["user", "item", "rid"] := by
  refine ⟨?_, rfl, by decide +kernel, by decide +kernel⟩
  intro r hr; cases hr; decide

/-- `C07_db_list_partial` applies to a list with the record id. -/
example : ∀ r, ColsArg.list 0 = .list r → r < exLists.next ∧ "rid" ∈ exLists.val r := by
  intro r hr; cases hr; exact ⟨by decide, by decide⟩

/-- `C07_db_list_modified` applies to the list of the caller. -/
example : exLists.val 1 ⊆ exLists.val 0 ∧ "rid" ∉ exLists.val 1 := ⟨by decide, by decide⟩

/-- `C07_same_partial` and `C07_rid_keeps_all` apply to the duplicates. -/
example : AdmissibleAll exDbNames exDupWorld [] ∧
    plainOf (runOps exDupWorld []) 0 = some ⟨exDupMem.cols, exDupMem.rows.map (Row.toRec exDupMem.cols), false⟩ ∧
    (exDupMem.rows.Pairwise fun a b => a.rid < b.rid) ∧ ["user", "item"] ⊆ exDupMem.cols ∧
    ((runOps exDupWorld []).unique 0 (some ["user", "item"]) true).2.toOption = some 1 ∧
    ((runOps exDupWorld []).unique 0 none true).2.toOption = some 1 := by
  refine ⟨trivial, by decide +kernel, by decide, by decide, by decide +kernel, by decide +kernel⟩

end DRec
