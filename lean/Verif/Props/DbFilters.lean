import Verif.Props.DbHistory
import Verif.Lemmas.DbEval

/-!
# C03, C05: selections compose and drop/keep split the dataset, database backend

At every point of an admissible history.  Missing from the full claims: queries that are not admissible (the full claim
has no such condition) and calls that raise (`C18_hidden_raise`).
-/

namespace DRec

open Spec

theorem queryText_append (a b : List (List Char × SCond × List Char)) (ha : a ≠ []) (hb : b ≠ []) :
    queryText (a ++ b) = queryText a ++ ',' :: queryText b := by
  induction a with
  | nil => exact absurd rfl ha
  | cons x a ih =>
    obtain ⟨u, c, v⟩ := x
    cases a with
    | nil =>
      cases b with
      | nil => exact absurd rfl hb
      | cons y b => simp [queryText]
    | cons z a =>
      have := ih (by simp)
      simp only [List.cons_append] at this ⊢
      simp [queryText, this]

theorem select_copy_step {names : List String} (hn : NamesOk names) {w : World} (hg : Good names w) {i : Nat} {p : Plain}
    {x : Inst} (hp : plainOf w i = some p) (hx : w.insts i = some x) {ws : List (List Char × SCond × List Char)}
    (hs : SelectPre names ws p x.types) :
    (∀ w' a, w.select i (queryText ws) true = (w', .ok a) → Good names w' ∧ plainOf w' a = some (p.select ws) ∧
      plainOf w' i = some p ∧ a ≠ i ∧ ∃ y, w'.insts a = some y ∧ y.types = x.types) ∧
    (FullCols p.cols → (∀ v ∈ ws, v.2.1.col ∈ p.cols) → ∃ w' a, w.select i (queryText ws) true = (w', .ok a)) := by
  have ha : Admissible names w (.select i ws true) := by
    intro p' x' hp' hx'
    rw [hp] at hp'; rw [hx] at hx'
    cases hp'; cases hx'
    exact hs
  obtain ⟨g1, g2⟩ := step_good hn hg ha
  constructor
  · intro w' a h
    have hr : runOp w (.select i ws true) = (w', .ok a) := h
    rw [hr] at g1 g2
    obtain ⟨h1, p', h2, h3⟩ := g2
    simp only [DbOp.makesNew, if_true, DbOp.inst] at h1 h2 h3
    rw [hp] at h2; cases h2
    have ht : w.onCopy i (fun w j => w.selectOn j (queryText ws)) = (w', .ok a) := by
      simpa [World.select, World.inPlaceOrCopy] using h
    obtain ⟨_, _, _, _, _, ⟨y, hy, hty, _⟩, _⟩ := Conc.onCopy_touch hn hg hx
      (fun v j y hy => (Conc.selectOn_touch hy _).1) ht
    refine ⟨g1, ?_, ?_, h1.2, y, hy, hty⟩
    · rw [h3]; simp [setAt, DbOp.effect]
    · rw [h3]; simp [setAt, Ne.symm h1.2, hp]
  · intro hf hc
    obtain ⟨k, hk⟩ := works_good hn hg (op := .select i ws true) hp ha ⟨hf, hc⟩
    exact ⟨_, k, Prod.ext rfl hk⟩

theorem selectPre_select {names : List String} {ws vs : List (List Char × SCond × List Char)} {p : Plain}
    {T : Option (String → DType)} (h : SelectPre names ws p T) : SelectPre names ws (p.select vs) T := by
  refine ⟨h.1, fun w hw => ⟨(h.2 w hw).1, (h.2 w hw).2.1, fun r hr => (h.2 w hw).2.2 r ?_⟩⟩
  exact (List.mem_filter.1 hr).1

theorem selectPre_append {names : List String} {ws vs : List (List Char × SCond × List Char)} {p : Plain}
    {T : Option (String → DType)} (h : SelectPre names ws p T) (h' : SelectPre names vs p T) :
    SelectPre names (ws ++ vs) p T := by
  refine ⟨⟨by simp [h.1.1], ?_⟩, ?_⟩
  · intro w hw
    rcases List.mem_append.1 hw with hw | hw
    · exact h.1.2 w hw
    · exact h'.1.2 w hw
  · intro w hw
    rcases List.mem_append.1 hw with hw | hw
    · exact h.2 w hw
    · exact h'.2 w hw

theorem satRec_append (a b : List (List Char × SCond × List Char)) (r : Rec) :
    SatRec (a ++ b) r ↔ SatRec a r ∧ SatRec b r := by
  simp only [SatRec, List.mem_append]
  exact ⟨fun h => ⟨fun w hw => h w (Or.inl hw), fun w hw => h w (Or.inr hw)⟩,
    fun h w hw => hw.elim (h.1 w) (h.2 w)⟩

/-- **C03** (partial), database backend: at every point of an admissible history and for admissible queries, one
selection after the other, in either order, and the comma-joined query show the same; repeating a selection shows the
same again; nothing is added; and with all the columns that tables need every one of these calls returns. -/
theorem C03_db_partial (names cols : List String) (types : String → DType) (rows : List Row) (ops : List DbOp)
    (hn : tableCols ⊆ names ∧ "uid" ∈ names ∧ "iid" ∈ names) (hcols : cols ⊆ names) (hrid : "rid" ∈ cols)
    (hsort : rows.Pairwise fun a b => a.rid < b.rid)
    (ha : AdmissibleAll names (World.ofCsv cols types rows) ops) (w : World)
    (hw : w = runOps (World.ofCsv cols types rows) ops) (i : Nat) (p : Plain) (x : Inst)
    (hp : plainOf w i = some p) (hx : w.insts i = some x) (ws1 ws2 : List (List Char × SCond × List Char))
    (h1 : SelectPre names ws1 p x.types) (h2 : SelectPre names ws2 p x.types) (q1 q2 : List Char)
    (hq1 : q1 = queryText ws1) (hq2 : q2 = queryText ws2) :
    (∀ w1 a w2 b w3 c w4 d w5 e w6 f,
      w.select i q1 true = (w1, .ok a) → w1.select a q2 true = (w2, .ok b) →
      w.select i q2 true = (w3, .ok c) → w3.select c q1 true = (w4, .ok d) →
      w.select i (q1 ++ ',' :: q2) true = (w5, .ok e) → w1.select a q1 true = (w6, .ok f) →
      ∃ pa pb, plainOf w1 a = some pa ∧ plainOf w2 b = some pb ∧ plainOf w4 d = some pb ∧ plainOf w5 e = some pb ∧
        plainOf w6 f = some pa ∧ pb.recs.Sublist pa.recs ∧ pa.recs.Sublist p.recs ∧ pa.cols = p.cols ∧
        pb.cols = p.cols) ∧
    (FullCols p.cols → (∀ v ∈ ws1 ++ ws2, v.2.1.col ∈ p.cols) →
      ∃ w1 a w2 b w3 c w4 d w5 e w6 f,
        w.select i q1 true = (w1, .ok a) ∧ w1.select a q2 true = (w2, .ok b) ∧
        w.select i q2 true = (w3, .ok c) ∧ w3.select c q1 true = (w4, .ok d) ∧
        w.select i (q1 ++ ',' :: q2) true = (w5, .ok e) ∧ w1.select a q1 true = (w6, .ok f)) := by
  obtain ⟨g1, _⟩ := ofCsv_good hn types rows hcols hrid hsort
  obtain ⟨hg, _⟩ := history_good hn g1 ops [] (by simpa using ha)
  rw [← hw] at hg
  have hq : q1 ++ ',' :: q2 = queryText (ws1 ++ ws2) := by
    rw [hq1, hq2, queryText_append _ _ h1.1.1 h2.1.1]
  have s1 := select_copy_step hn hg hp hx h1
  have s2 := select_copy_step hn hg hp hx h2
  have s12 := select_copy_step hn hg hp hx (selectPre_append h1 h2)
  rw [hq, hq1, hq2]
  constructor
  · intro w1 a w2 b w3 c w4 d w5 e w6 f e1 e2 e3 e4 e5 e6
    obtain ⟨ga, pa, _, _, ya, hya, tya⟩ := s1.1 _ _ e1
    obtain ⟨gc, pc, _, _, yc, hyc, tyc⟩ := s2.1 _ _ e3
    obtain ⟨_, pe, _⟩ := s12.1 _ _ e5
    obtain ⟨_, pb, _⟩ := (select_copy_step hn ga pa hya (by rw [tya]; exact selectPre_select h2)).1 _ _ e2
    obtain ⟨_, pf, _⟩ := (select_copy_step hn ga pa hya (by rw [tya]; exact selectPre_select h1)).1 _ _ e6
    obtain ⟨_, pd, _⟩ := (select_copy_step hn gc pc hyc (by rw [tyc]; exact selectPre_select h1)).1 _ _ e4
    refine ⟨_, _, pa, pb, ?_, ?_, ?_, List.filter_sublist, List.filter_sublist, rfl, rfl⟩
    · rw [pd]
      simp only [Plain.select, List.filter_filter, Option.some.injEq, Plain.mk.injEq, true_and, and_true]
      apply List.filter_congr
      intro r _
      exact Bool.and_comm _ _
    · rw [pe]
      simp only [Plain.select, List.filter_filter, Option.some.injEq, Plain.mk.injEq, true_and, and_true]
      apply List.filter_congr
      intro r _
      simp only [satRec_append, Bool.decide_and]
      exact Bool.and_comm _ _
    · rw [pf]
      simp only [Plain.select, List.filter_filter, Option.some.injEq, Plain.mk.injEq, true_and, and_true]
      apply List.filter_congr
      intro r _
      exact Bool.and_self _
  · intro hf hc
    have hc1 : ∀ v ∈ ws1, v.2.1.col ∈ p.cols := fun v hv => hc v (List.mem_append_left _ hv)
    have hc2 : ∀ v ∈ ws2, v.2.1.col ∈ p.cols := fun v hv => hc v (List.mem_append_right _ hv)
    obtain ⟨w1, a, e1⟩ := s1.2 hf hc1
    obtain ⟨w3, c, e3⟩ := s2.2 hf hc2
    obtain ⟨w5, e, e5⟩ := s12.2 hf hc
    obtain ⟨ga, pa, _, _, ya, hya, tya⟩ := s1.1 _ _ e1
    obtain ⟨gc, pc, _, _, yc, hyc, tyc⟩ := s2.1 _ _ e3
    obtain ⟨w2, b, e2⟩ := (select_copy_step hn ga pa hya (by rw [tya]; exact selectPre_select h2)).2 hf hc2
    obtain ⟨w6, f, e6⟩ := (select_copy_step hn ga pa hya (by rw [tya]; exact selectPre_select h1)).2 hf hc1
    obtain ⟨w4, d, e4⟩ := (select_copy_step hn gc pc hyc (by rw [tyc]; exact selectPre_select h1)).2 hf hc1
    exact ⟨w1, a, w2, b, w3, c, w4, d, w5, e, w6, f, e1, e2, e3, e4, e5, e6⟩

/-- **C05** (partial), database backend: at every point of an admissible history, the datasets that `drop` and
`drop(keep=True)` return split the records: those without a listed id, those with one, both in order with all columns;
the dataset itself shows what it showed.  With all the columns that tables need both calls return.  In place, a `drop`
that returns leaves exactly the same records. -/
theorem C05_db_partial (names cols : List String) (types : String → DType) (rows : List Row) (ops : List DbOp)
    (hn : tableCols ⊆ names ∧ "uid" ∈ names ∧ "iid" ∈ names) (hcols : cols ⊆ names) (hrid : "rid" ∈ cols)
    (hsort : rows.Pairwise fun a b => a.rid < b.rid)
    (ha : AdmissibleAll names (World.ofCsv cols types rows) ops) (w : World)
    (hw : w = runOps (World.ofCsv cols types rows) ops) (i : Nat) (p : Plain)
    (hp : plainOf w i = some p) (ids : List Nat) :
    (∀ w1 a w2 b, w.drop i ids false true = (w1, .ok a) → w1.drop i ids true true = (w2, .ok b) →
      ∃ pa pb, plainOf w2 a = some pa ∧ plainOf w2 b = some pb ∧ plainOf w2 i = some p ∧ a ≠ b ∧
        pa.cols = p.cols ∧ pb.cols = p.cols ∧ (pa.recs ++ pb.recs).Perm p.recs ∧
        pa.recs.Sublist p.recs ∧ pb.recs.Sublist p.recs ∧
        (∀ r, r ∈ pa.recs ↔ r ∈ p.recs ∧ ∀ n ∈ ids, cellOf r "rid" ≠ .num (n : ℚ)) ∧
        (∀ r, r ∈ pb.recs ↔ r ∈ p.recs ∧ ∃ n ∈ ids, cellOf r "rid" = .num (n : ℚ)) ∧
        (∀ w3 k, w.drop i ids false false = (w3, .ok k) → k = i ∧ plainOf w3 i = some pa) ∧
        (∀ w3 k, w.drop i ids true false = (w3, .ok k) → k = i ∧ plainOf w3 i = some pb)) ∧
    (FullCols p.cols → ∃ w1 a w2 b, w.drop i ids false true = (w1, .ok a) ∧ w1.drop i ids true true = (w2, .ok b)) := by
  obtain ⟨g1, _⟩ := ofCsv_good hn types rows hcols hrid hsort
  obtain ⟨hg, _⟩ := history_good hn g1 ops [] (by simpa using ha)
  rw [← hw] at hg
  have step : ∀ (v : World) (keep : Bool), Good names v → plainOf v i = some p →
      (∀ v' k, v.drop i ids keep true = (v', .ok k) → Good names v' ∧ plainOf v k = none ∧
        plainOf v' = setAt (plainOf v) k (some (p.drop ids keep)) ∧ plainOf v' i = some p) ∧
      (FullCols p.cols → ∃ v' k, v.drop i ids keep true = (v', .ok k)) := by
    intro v keep hv hpv
    have hadm : Admissible names v (.drop i ids keep true) := trivial
    obtain ⟨t1, t2⟩ := step_good hn hv hadm
    constructor
    · intro v' k h
      have hr : runOp v (.drop i ids keep true) = (v', .ok k) := h
      rw [hr] at t1 t2
      obtain ⟨h1, p', h2, h3⟩ := t2
      simp only [DbOp.makesNew, if_true, DbOp.inst, DbOp.effect] at h1 h2 h3
      rw [hpv] at h2; cases h2
      exact ⟨t1, h1.1, h3, by rw [h3]; simp [setAt, Ne.symm h1.2, hpv]⟩
    · intro hf
      obtain ⟨k, hk⟩ := works_good hn hv (op := .drop i ids keep true) hpv hadm hf
      exact ⟨_, k, Prod.ext rfl hk⟩
  have inplace : ∀ keep w3 k, w.drop i ids keep false = (w3, .ok k) → k = i ∧ plainOf w3 i = some (p.drop ids keep) := by
    intro keep w3 k h
    have hadm : Admissible names w (.drop i ids keep false) := trivial
    obtain ⟨_, t2⟩ := step_good hn hg hadm
    have hr : runOp w (.drop i ids keep false) = (w3, .ok k) := h
    rw [hr] at t2
    obtain ⟨h1, p', h2, h3⟩ := t2
    simp only [DbOp.makesNew, DbOp.inst, DbOp.effect, Bool.false_eq_true, if_false] at h1 h2 h3
    rw [hp] at h2; cases h2
    refine ⟨h1, ?_⟩
    rw [h3, h1]; simp [setAt]
  constructor
  · intro w1 a w2 b e1 e2
    obtain ⟨ga, na, sa, ia⟩ := (step w false hg hp).1 _ _ e1
    obtain ⟨_, nb, sb, ib⟩ := (step w1 true ga ia).1 _ _ e2
    have hab : a ≠ b := by
      rintro rfl
      rw [sa] at nb
      simp [setAt] at nb
    refine ⟨p.drop ids false, p.drop ids true, ?_, ?_, ib, hab, rfl, rfl, ?_, List.filter_sublist, List.filter_sublist,
      ?_, ?_, inplace false, inplace true⟩
    · rw [sb]; simp [setAt, hab, sa]
    · rw [sb]; simp [setAt]
    · have := List.filter_append_perm (fun r : Rec => decide (∃ n ∈ ids, cellOf r "rid" = .num (n : ℚ)) == false) p.recs
      refine List.Perm.trans (List.Perm.of_eq ?_) this
      simp only [Plain.drop]
      congr 1
      apply List.filter_congr
      intro r _
      by_cases h : ∃ n ∈ ids, cellOf r "rid" = .num (n : ℚ) <;> simp [h]
    · intro r; simp [Plain.drop, List.mem_filter]
    · intro r; simp [Plain.drop, List.mem_filter]
  · intro hf
    obtain ⟨w1, a, e1⟩ := (step w false hg hp).2 hf
    obtain ⟨ga, _, _, ia⟩ := (step w false hg hp).1 _ _ e1
    obtain ⟨w2, b, e2⟩ := (step w1 true ga ia).2 hf
    exact ⟨w1, a, w2, b, e1, e2⟩

/-- A dataset with all columns and two queries on it. -/
example : ∃ p x, plainOf exWorld 0 = some p ∧ exWorld.insts 0 = some x ∧ FullCols p.cols ∧
    SelectPre exDbNames exDbQuery p x.types ∧
    SelectPre exDbNames [([' '], ⟨"user", .eq, .int 1⟩, [])] p x.types ∧
    AdmissibleAll exDbNames exWorld [] := by
  refine ⟨⟨exDbCols, [[("user", .num 1), ("item", .num 10), ("interaction", .num 5), ("rid", .num 0)],
      [("user", .num 1), ("item", .num 20), ("interaction", .num 3), ("rid", .num 1)],
      [("user", .num 2), ("item", .num 10), ("interaction", .num 4), ("rid", .num 2)]], false⟩, _, by decide +kernel, rfl,
      ⟨by decide, by decide⟩, ⟨by decide, ?_⟩, ⟨by decide, ?_⟩, trivial⟩
  · intro w hw
    simp only [exDbQuery, List.mem_singleton] at hw
    subst hw
    refine ⟨trivial, fun ty hty => ?_, by decide⟩
    cases hty; rfl
  · intro w hw
    simp only [List.mem_singleton] at hw
    subst hw
    refine ⟨trivial, fun ty hty => ?_, by decide⟩
    cases hty; rfl

/-- The two halves of a `drop`, with a repeated and an unknown id. -/
example : (let r1 := exWorld.drop 0 [1, 1, 7] false true
    let r2 := r1.1.drop 0 [1, 1, 7] true true
    r1.2 = .ok 1 ∧ r2.2 = .ok 2 ∧
      (plainOf r2.1 1).map (fun p => p.recs.map (cellOf · "rid")) = some [.num 0, .num 2] ∧
      (plainOf r2.1 2).map (fun p => p.recs.map (cellOf · "rid")) = some [.num 1]) := by
  decide +kernel

end DRec
