import Verif.Model.DbThreads
import Verif.Lemmas.DbIso
import Verif.Lemmas.DbRead

/-! # Selections by several threads: what every step keeps -/

namespace DRec.Conc

open Spec

/-- A query as written. -/
abbrev Written := List (List Char × SCond × List Char)

/-- The object a task works on. -/
def Phase.obj : Phase → Option Nat
  | .opened _ j | .copied _ j | .loaded _ j _ | .counted _ j | .recorded _ j | .selected j => some j
  | _ => none

/-- The task has written the counter. -/
def Phase.stored : Phase → Bool
  | .counted _ _ | .recorded _ _ | .selected _ | .done _ => true
  | _ => false

/-- An object that shows `p`. -/
structure Copy (x0 : Inst) (w : World) (j : Nat) (p : Plain) : Prop where
  plain : plainOf w j = some p
  inst : ∃ y, w.insts j = some y ∧ y.types = x0.types

/-- What a task has to return. -/
def Result (p : Plain) (ws : Written) (r : Except Err ReadRes) : Prop :=
  (∀ res, r = .ok res → res = .recs (p.select ws).recs) ∧
    (FullCols p.cols → (∀ c ∈ ws, c.2.1.col ∈ p.cols) → ∃ res, r = .ok res)

/-- What holds of a task with query `ws` over a dataset `x0` that shows `p`. -/
def TaskOk (x0 : Inst) (p : Plain) (ws : Written) (w : World) : Phase → Prop
  | .todo q => q = queryText ws
  | .opened q j => q = queryText ws ∧ ∃ y, w.insts j = some y ∧ y.table = x0.table ∧ y.columns = x0.columns ∧
      y.hasIds = x0.hasIds ∧ y.types = x0.types
  | .copied q j | .loaded q j _ | .counted q j | .recorded q j => q = queryText ws ∧ Copy x0 w j p
  | .selected j => plainOf w j = some (p.select ws) ∧ ∃ y, w.insts j = some y
  | .done r => Result p ws r

/-- The dataset: only its counters change. -/
structure Own (names : List String) (x0 : Inst) (p : Plain) (i : Nat) (w : World) (n : Nat) : Prop where
  good : Good names w
  inst : ∃ x, w.insts i = some x ∧ x.table = x0.table ∧ x.columns = x0.columns ∧ x.hasIds = x0.hasIds ∧
    x.types = x0.types ∧ x.state = x0.state ∧ (x0.state = .table ∨ x.direct ≤ n)
  plain : plainOf w i = some p

theorem Copy.keep {x0 : Inst} {w w' : World} {j k : Nat} {p : Plain} (h : Copy x0 w j p) (hk : Keep k w w')
    (hj : j ≠ k) : Copy x0 w' j p := by
  obtain ⟨y, hy, ht⟩ := h.inst
  exact ⟨(hk.plain hj hy).trans h.plain, y, (hk j y hj hy).1, ht⟩

theorem plainOf_frame {w w' : World} {j : Nat} {y : Inst} (hy : w.insts j = some y)
    (h : w'.insts j = some y ∧ w'.tables y.table = w.tables y.table) : plainOf w' j = plainOf w j :=
  plainOf_congr (h.1.trans hy.symm) fun z hz => by rw [hy] at hz; cases hz; exact h.2

/-- What holds of a task stays true when its object and the content of its table do. -/
theorem taskOk_frame {x0 : Inst} {p : Plain} {ws : Written} {w w' : World} {ph : Phase}
    (h : TaskOk x0 p ws w ph) (hk : ∀ j, ph.obj = some j → ∀ z, w.insts j = some z →
      w'.insts j = some z ∧ w'.tables z.table = w.tables z.table) : TaskOk x0 p ws w' ph := by
  have hc : ∀ j q, ph.obj = some j → Copy x0 w j q → Copy x0 w' j q := by
    intro j q hj hcp
    obtain ⟨y, hy, ht⟩ := hcp.inst
    exact ⟨(plainOf_frame hy (hk j hj y hy)).trans hcp.plain, y, (hk j hj y hy).1, ht⟩
  cases ph with
  | todo q => exact h
  | done r => exact h
  | opened q j =>
    obtain ⟨h1, y, hy, h2⟩ := h
    exact ⟨h1, y, (hk j rfl y hy).1, h2⟩
  | copied q j => exact ⟨h.1, hc j p rfl h.2⟩
  | loaded q j d => exact ⟨h.1, hc j p rfl h.2⟩
  | counted q j => exact ⟨h.1, hc j p rfl h.2⟩
  | recorded q j => exact ⟨h.1, hc j p rfl h.2⟩
  | selected j =>
    obtain ⟨h1, y, hy⟩ := h
    exact ⟨(plainOf_frame hy (hk j rfl y hy)).trans h1, y, (hk j rfl y hy).1⟩

theorem Own.keep {names : List String} {x0 : Inst} {p : Plain} {i n j : Nat} {w w' : World}
    (h : Own names x0 p i w n) (hg : Good names w') (hk : Keep j w w') (hj : i ≠ j) : Own names x0 p i w' n := by
  obtain ⟨x, hx, h2⟩ := h.inst
  exact ⟨hg, ⟨x, (hk i x hj hx).1, h2⟩, (hk.plain hj hx).trans h.plain⟩

theorem TaskOk.inst {x0 : Inst} {p : Plain} {ws : Written} {w : World} {ph : Phase} {j : Nat}
    (h : TaskOk x0 p ws w ph) (hj : ph.obj = some j) : ∃ y, w.insts j = some y := by
  cases ph with
  | todo q => cases hj
  | done r => cases hj
  | opened q k => cases hj; obtain ⟨_, y, hy, _⟩ := h; exact ⟨y, hy⟩
  | copied q k => cases hj; obtain ⟨y, hy, _⟩ := h.2.inst; exact ⟨y, hy⟩
  | loaded q k d => cases hj; obtain ⟨y, hy, _⟩ := h.2.inst; exact ⟨y, hy⟩
  | counted q k => cases hj; obtain ⟨y, hy, _⟩ := h.2.inst; exact ⟨y, hy⟩
  | recorded q k => cases hj; obtain ⟨y, hy, _⟩ := h.2.inst; exact ⟨y, hy⟩
  | selected k => cases hj; exact h.2

/-! ## The first step -/

theorem opening_keep {w : World} (h : Reg w) (x : Inst) (t : Table) (k : Nat) (z : Inst)
    (hz : w.insts k = some z) :
    (opening w x t).insts k = some z ∧ (opening w x t).tables z.table = w.tables z.table := by
  have hk : k ≠ w.nextI := by
    rintro rfl
    rw [h.freshI _ (le_refl _)] at hz; cases hz
  exact ⟨by simp [opening, World.put, World.putU, hk, hz], by simp [opening, World.put, World.putU]⟩

theorem opening_good {names : List String} {w : World} (h : Good names w) {i : Nat} {x : Inst} {t : Table}
    (hx : w.insts i = some x) (ht : w.tables x.table = some t) :
    Good names (opening w x t) ∧ ∃ y, (opening w x t).insts w.nextI = some y ∧ y.table = x.table ∧
      y.columns = x.columns ∧ y.hasIds = x.hasIds ∧ y.types = x.types := by
  obtain ⟨t', rows, ht', hs⟩ := h.get hx
  rw [ht] at ht'; cases ht'
  refine ⟨⟨?_, h.gens, h.tables, ?_⟩, ?_⟩
  · exact h.reg.join x.table t ht (h.reg.table_lt hx) (h.reg.file_of_inst hx) _ rfl
  · intro k z _ hk
    by_cases hki : k = w.nextI
    · subst hki
      have hz : z = { x with state := .table, nRows := t.rows.length, nBefore := t.rows.length, queries := 0, direct := 0 } := by
        simpa [opening, World.put, World.putU, eq_comm] using hk
      subst hz
      refine ⟨t, t.rows, ht, hs.rid, hs.types, ⟨t.cols, rfl, hs.cols, Or.inl rfl⟩, rfl⟩
    · have hk' : w.insts k = some z := by simpa [opening, World.put, World.putU, hki] using hk
      exact h.get hk'
  · exact ⟨{ x with state := .table, nRows := t.rows.length, nBefore := t.rows.length, queries := 0, direct := 0 },
      by simp [opening, World.put, World.putU], rfl, rfl, rfl, rfl⟩

/-! ## Reading -/

theorem rec_filter_self (cs : List String) (r : Row) : ((r.toRec cs).filter fun q => q.1 ∈ cs) = r.toRec cs := by
  rw [List.filter_eq_self]
  intro q hq
  unfold Row.toRec at hq
  obtain ⟨c, hc, rfl⟩ := List.mem_map.1 hq
  simpa using hc

theorem read_values {names : List String} (hn : NamesOk names) {w : World} (h : Good names w) {j : Nat} {p : Plain}
    (hp : plainOf w j = some p) :
    (∀ res, (w.read j (.values none)).2 = .ok res → res = .recs p.recs) ∧
      (FullCols p.cols → ∃ res, (w.read j (.values none)).2 = .ok res) := by
  obtain ⟨x, t, rows, hx, ht, hs, hpe⟩ := plain_inv h hp
  constructor
  · intro res hr
    have := read_good hn h hx hp hr
    cases res with
    | recs l =>
      simp only [ReadSpec, Option.getD_none] at this
      rw [this]
      congr 1
      rw [hpe]
      simp only
      rw [List.map_map]
      apply List.map_congr_left
      intro r _
      exact rec_filter_self _ _
    | one r => exact absurd this id
    | count n => exact absurd this id
    | val v => exact absurd this id
  · intro hf
    obtain ⟨k, hk⟩ := works_good hn h (op := .read j (.values none)) hp trivial ⟨hf, fun _ h => h⟩
    cases hr : (w.read j (.values none)).2 with
    | ok res => exact ⟨res, rfl⟩
    | error e =>
      exfalso
      simp only [runOp] at hk
      rw [hr] at hk
      cases hk

/-! ## Steps of a task -/

/-- What one step of a task does: the dataset keeps its records, objects of other tasks stay as they are. -/
structure StepOk (names : List String) (x0 : Inst) (p : Plain) (ws : Written) (i n : Nat) (w : World) (ph : Phase)
    (w' : World) (ph' : Phase) : Prop where
  own : Own names x0 p i w' n
  task : TaskOk x0 p ws w' ph'
  others : ∀ k z, k ≠ i → ph.obj ≠ some k → w.insts k = some z →
    w'.insts k = some z ∧ w'.tables z.table = w.tables z.table
  obj : ∀ j, ph'.obj = some j → ph.obj = some j ∨ w.insts j = none ∧ j ≠ i

theorem finish {names : List String} {x0 : Inst} {p : Plain} {ws : Written} {i n j : Nat} {w w1 : World} {ph : Phase}
    {r : Except Err ReadRes} (ho : Own names x0 p i w n) (hobj : ph.obj = some j) (hij : i ≠ j)
    (hk : Keep j w w1) (hg : Good names w1) {z : Inst} (hz : w1.insts j = some z) (hr : Result p ws r) :
    StepOk names x0 p ws i n w ph (w1.close j).1 (.done r) := by
  obtain ⟨_, c2, _⟩ := close_good hg hz
  have hk2 : Keep j w (w1.close j).1 := hk.trans (keep_close hg.reg j)
  refine ⟨ho.keep c2 hk2 hij, hr, ?_, fun k hk' => by cases hk'⟩
  intro k y hki hko hy
  exact hk2 k y (fun he => hko (by rw [hobj, he])) hy

theorem Own.le {names : List String} {x0 : Inst} {p : Plain} {i n n' : Nat} {w : World}
    (h : Own names x0 p i w n) (hle : n ≤ n') : Own names x0 p i w n' := by
  obtain ⟨x, h1, h2, h3, h4, h5, h6, h7⟩ := h.inst
  exact ⟨h.good, ⟨x, h1, h2, h3, h4, h5, h6, h7.imp_right fun h => h.trans hle⟩, h.plain⟩

theorem read_world (w : World) (j : Nat) (op : ReadOp) : (w.read j op).1 = (w.record j).1 := by
  unfold World.read
  split <;> rename_i h <;> rw [h]

theorem stepTask_ok {names : List String} (hn : NamesOk names) {x0 : Inst} {p : Plain} {ws : Written} {i n n' : Nat}
    {w w' : World} {ph ph' : Phase} (ho0 : Own names x0 p i w n) (hle : n ≤ n')
    (hlim : x0.state = .table ∨ n' < 4) (ht : TaskOk x0 p ws w ph) (hpre : SelectPre names ws p x0.types)
    (hobj : ph.obj ≠ some i) (hd : ∀ q j d, ph = .loaded q j d → x0.state = .table ∨ d + 1 ≤ n')
    (hs : stepTask w i ph = some (w', ph')) :
    StepOk names x0 p ws i n' w ph w' ph' ∧
      ∀ q j d, ph' = .loaded q j d → x0.state = .table ∨ d ≤ n := by
  have ho : Own names x0 p i w n' := ho0.le hle
  obtain ⟨x, hx, hxt, hxc, hxh, hxty, hxs, hxd⟩ := ho0.inst
  obtain ⟨t, rows, htab, hshow⟩ := ho.good.get hx
  have hpe : p = ⟨x.columns, rows.map (Row.toRec x.columns), x.hasIds⟩ := by
    have := ho.plain
    rw [plainOf_eq hx htab hshow] at this
    exact (Option.some.inj this).symm
  cases ph with
  | done r => cases hs
  | todo q =>
    simp only [stepTask, hx, htab, Option.some.injEq, Prod.mk.injEq] at hs
    obtain ⟨rfl, rfl⟩ := hs
    obtain ⟨g1, y, hy, y1, y2, y3, y4⟩ := opening_good ho.good hx htab
    have hfr := ho.good.reg.freshI w.nextI (le_refl _)
    have hne : i ≠ w.nextI := by rintro he; rw [← he, hx] at hfr; cases hfr
    have hkeep : Keep w.nextI w (opening w x t) := fun k z _ hz => opening_keep ho.good.reg x t k z hz
    refine ⟨⟨ho.keep g1 hkeep hne, ⟨ht, y, hy, y1.trans hxt, y2.trans hxc, y3.trans hxh, y4.trans hxty⟩, ?_, ?_⟩, ?_⟩
    · intro k z _ _ hz; exact opening_keep ho.good.reg x t k z hz
    · intro j hj; cases hj; exact Or.inr ⟨hfr, hne.symm⟩
    · intro q j d h; cases h
  | opened q j =>
    obtain ⟨hq, y, hy, y1, y2, y3, y4⟩ := ht
    have hij : i ≠ j := fun he => hobj (by rw [he]; rfl)
    simp only [stepTask, hx, hy, Option.some.injEq, Prod.mk.injEq] at hs
    obtain ⟨rfl, rfl⟩ := hs
    have hsh : Shows t { y with state := x.state, nRows := x.nRows, nBefore := x.nBefore, queries := x.queries } rows :=
      ⟨by rw [y2, ← hxc]; exact hshow.rid, by rw [y4, ← hxty]; exact hshow.types,
        by rw [y2, ← hxc]; exact hshow.ev, hshow.len⟩
    obtain ⟨g1, g2⟩ := (ho.good.but j).put (y := { y with state := x.state, nRows := x.nRows, nBefore := x.nBefore, queries := x.queries })
      hy rfl (by rw [y1, ← hxt]; exact htab) hsh
    have hkeep := keep_put w j { y with state := x.state, nRows := x.nRows, nBefore := x.nBefore, queries := x.queries }
    refine ⟨⟨ho.keep g1 hkeep hij, ⟨hq, ?_, _, put_self _ _ _, y4⟩, ?_, ?_⟩, ?_⟩
    · rw [g2, hpe]
      simp only [setAt, if_true]
      rw [y2, y3, hxc, hxh]
    · intro k z _ hko hz; exact hkeep k z (fun he => hko (by rw [he]; rfl)) hz
    · intro k hk; exact Or.inl hk
    · intro q j d h; cases h
  | copied q j =>
    simp only [stepTask, hx, Option.some.injEq, Prod.mk.injEq] at hs
    obtain ⟨rfl, rfl⟩ := hs
    refine ⟨⟨ho, ht, fun k z _ _ hz => ⟨hz, rfl⟩, fun k hk => Or.inl hk⟩, ?_⟩
    intro q' j' d h
    cases h
    exact hxd
  | loaded q j d =>
    have hij : j ≠ i := fun he => hobj (by rw [he]; rfl)
    simp only [stepTask, hx, Option.some.injEq, Prod.mk.injEq] at hs
    obtain ⟨rfl, rfl⟩ := hs
    obtain ⟨g1, g2⟩ := ho.good.counters (y := { x with direct := d + 1 }) hx rfl rfl rfl rfl hshow.types rfl
    have hkeep := keep_put w i { x with direct := d + 1 }
    refine ⟨⟨⟨g1, ⟨_, put_self _ _ _, hxt, hxc, hxh, hxty, hxs, hd q j d rfl⟩, by rw [g2]; exact ho.plain⟩,
      ⟨ht.1, Copy.keep ht.2 hkeep hij⟩, ?_, fun k hk => Or.inl hk⟩, ?_⟩
    · intro k z hki _ hz; exact hkeep k z hki hz
    · intro q j d h; cases h
  | counted q j =>
    have hij : j ≠ i := fun he => hobj (by rw [he]; rfl)
    simp only [stepTask, hx, Option.some.injEq] at hs
    by_cases hc : 4 ≤ x.direct ∧ w.gens = 0
    · have hst : x.state = .table := by
        rw [hxs]
        rcases hxd with h | h
        · exact h
        · rcases hlim with h' | h'
          · exact h'
          · exfalso; have := hc.1; omega
      have hopt : w.optimize i true = (w.put i x.reset, none) := by
        unfold World.optimize
        simp only [hx]
        rw [if_pos ⟨hst, trivial⟩]
      rw [if_pos hc, hopt] at hs
      simp only [Prod.mk.injEq] at hs
      obtain ⟨rfl, rfl⟩ := hs
      obtain ⟨g1, g2⟩ := ho.good.counters (y := x.reset) hx rfl rfl rfl rfl hshow.types rfl
      have hkeep := keep_put w i x.reset
      refine ⟨⟨⟨g1, ⟨_, put_self _ _ _, hxt, hxc, hxh, hxty, hxs, Or.inl (hxs ▸ hst)⟩, by rw [g2]; exact ho.plain⟩,
        ⟨ht.1, Copy.keep ht.2 hkeep hij⟩, ?_, fun k hk => Or.inl hk⟩, ?_⟩
      · intro k z hki _ hz; exact hkeep k z hki hz
      · intro q j d h; cases h
    · rw [if_neg hc] at hs
      simp only [Prod.mk.injEq] at hs
      obtain ⟨rfl, rfl⟩ := hs
      exact ⟨⟨ho, ht, fun k z _ _ hz => ⟨hz, rfl⟩, fun k hk => Or.inl hk⟩, fun q j d h => by cases h⟩
  | recorded q j =>
    obtain ⟨rfl, hcopy⟩ := ht
    have hij : i ≠ j := fun he => hobj (by rw [he]; rfl)
    obtain ⟨y, hy, hyt⟩ := hcopy.inst
    obtain ⟨m1, m2, m3, m4⟩ := select_means hn ws w j p ho.good hcopy.plain
      (fun z hz => by rw [hy] at hz; cases hz; rw [hyt]; exact hpre)
    have hkeep := keep_selectOn ho.good.reg j (queryText ws)
    simp only at m1 m2 m3 m4
    simp only [stepTask, Option.some.injEq] at hs
    cases he : (w.selectOn j (queryText ws)).2 with
    | some e =>
      have ef : w.selectOn j (queryText ws) = ((w.selectOn j (queryText ws)).1, some e) := by rw [← he]
      rw [ef] at hs
      simp only [Prod.mk.injEq] at hs
      obtain ⟨rfl, rfl⟩ := hs
      have hz : ∃ z, (w.selectOn j (queryText ws)).1.insts j = some z := by
        rcases m3 with m3 | m3
        · obtain ⟨z, _, _, hz, _⟩ := plain_inv (i := j) (p := p) m1 (by rw [m3]; exact hcopy.plain)
          exact ⟨z, hz⟩
        · obtain ⟨z, _, _, hz, _⟩ := plain_inv (i := j) (p := p.select ws) m1 (by rw [m3]; simp [setAt])
          exact ⟨z, hz⟩
      obtain ⟨z, hz⟩ := hz
      refine ⟨finish ho rfl hij hkeep m1 hz ⟨fun res h => (by cases h), fun hf hc => ?_⟩, fun q j d h => by cases h⟩
      have := m4 hf hf hc
      rw [he] at this
      cases this
    | none =>
      have ef : w.selectOn j (queryText ws) = ((w.selectOn j (queryText ws)).1, none) := by rw [← he]
      rw [ef] at hs
      simp only [Prod.mk.injEq] at hs
      obtain ⟨rfl, rfl⟩ := hs
      have hpl : plainOf (w.selectOn j (queryText ws)).1 j = some (p.select ws) := by
        rw [m2 he]; simp [setAt]
      obtain ⟨z, _, _, hz, _⟩ := plain_inv m1 hpl
      refine ⟨⟨ho.keep m1 hkeep hij, ⟨hpl, z, hz⟩, ?_, fun k hk => Or.inl hk⟩,
        fun q j d h => by cases h⟩
      intro k z _ hko hz
      exact hkeep k z (fun he => hko (by rw [he]; rfl)) hz
  | selected j =>
    have hij : i ≠ j := fun he => hobj (by rw [he]; rfl)
    obtain ⟨hpl, y, hy⟩ := ht
    simp only [stepTask, Option.some.injEq, Prod.mk.injEq] at hs
    obtain ⟨rfl, rfl⟩ := hs
    obtain ⟨v1, v2⟩ := read_values hn ho.good hpl
    rw [read_world]
    obtain ⟨r1, r2, _⟩ := record_good hn ho.good hy
    obtain ⟨z, _, _, hz, _⟩ := plain_inv (i := j) (p := p.select ws) r1 (by rw [r2]; exact hpl)
    exact ⟨finish ho rfl hij (keep_record ho.good.reg j) r1 hz ⟨v1, fun hf _ => v2 hf⟩, fun q j d h => by cases h⟩

end DRec.Conc
