import Verif.Lemmas.DbApply

/-! # Histories of the database dataset -/

namespace DRec

open Spec

theorem stepSpec_of_inPlace {w : World} {op : DbOp} {r : World × Except Err Nat} {p : Plain} {q : Plain}
    (hp : plainOf w op.inst = some p) (he : op.effect p = some q)
    (h : (∃ e, r.2 = .error e ∧ (plainOf r.1 = plainOf w ∨
        (op.makesNew = false ∧ plainOf r.1 = setAt (plainOf w) op.inst (some q)))) ∨
      (∃ k, r.2 = .ok k ∧ (if op.makesNew then plainOf w k = none ∧ k ≠ op.inst else k = op.inst) ∧
        plainOf r.1 = setAt (plainOf w) k (some q))) :
    StepSpec (plainOf w) op r.2 (plainOf r.1) := by
  unfold StepSpec
  rcases h with ⟨e, h1, h2⟩ | ⟨k, h1, h2, h3⟩
  · rw [h1]
    exact h2.imp id fun h2 => ⟨h2.1, p, hp, by rw [he]; exact h2.2⟩
  · rw [h1]
    exact ⟨h2, p, hp, by rw [he]; exact h3⟩

theorem stepSpec_of_outcome {w : World} {op : DbOp} {r : World × Option Err} {p : Plain}
    (hm : op.makesNew = false) (hp : plainOf w op.inst = some p)
    (h1 : r.2 = none → plainOf r.1 = setAt (plainOf w) op.inst (op.effect p))
    (h2 : r.2 ≠ none → plainOf r.1 = plainOf w) :
    StepSpec (plainOf w) op (outcome op.inst r).2 (plainOf (outcome op.inst r).1) := by
  unfold StepSpec outcome
  cases h : r.2 with
  | none =>
    simp only [hm, Bool.false_eq_true, if_false, true_and]
    exact ⟨p, hp, h1 h⟩
  | some e =>
    exact Or.inl (h2 (by rw [h]; simp))

/-- Operations on a dataset that is not there. -/
theorem runOp_none {w : World} {op : DbOp} (h : w.insts op.inst = none)
    (hop : (∀ i, op ≠ .openGen i) ∧ op ≠ .closeGen ∧ op ≠ .reopen) :
    (runOp w op).1 = w ∧ ∃ e, (runOp w op).2 = .error e := by
  have hc : ∀ i, w.insts i = none → w.copy i = (w, some .crash) := by
    intro i hi; simp [World.copy, hi]
  have hpc : ∀ i c (f : World → Nat → World × Option Err), w.insts i = none → f w i = (w, some .crash) →
      (w.inPlaceOrCopy i c f).1 = w ∧ ∃ e, (w.inPlaceOrCopy i c f).2 = .error e := by
    intro i c f hi hf
    unfold World.inPlaceOrCopy World.onCopy
    cases c <;> simp [hc i hi, hf]
  cases op with
  | select i ws c =>
    exact hpc i c _ h (by simp only [DbOp.inst] at h; simp [World.selectOn, h])
  | drop i ids k c =>
    exact hpc i c _ h (by simp only [DbOp.inst] at h; simp [World.dropOn, h])
  | unique i cs c =>
    simp only [DbOp.inst] at h
    simp [runOp, World.unique, h]
  | copy i =>
    simp only [DbOp.inst] at h
    simp [runOp, outcome, hc i h]
  | close i => simp only [DbOp.inst] at h; simp [runOp, outcome, World.close, h]
  | read i o =>
    simp only [DbOp.inst] at h
    simp only [runOp, World.read, World.record, h]
    exact ⟨trivial, .crash, rfl⟩
  | assign i => simp only [DbOp.inst] at h; simp [runOp, outcome, World.assign, World.optimize, h]
  | removeIds i => simp only [DbOp.inst] at h; simp [runOp, outcome, World.removeIds, h]
  | apply i c f => simp only [DbOp.inst] at h; simp [runOp, outcome, World.apply, h]
  | openGen i => exact absurd rfl (hop.1 i)
  | closeGen => exact absurd rfl hop.2.1
  | reopen => exact absurd rfl hop.2.2

/-- One admissible operation. -/
theorem step_good {names : List String} (hn : NamesOk names) {w : World} (h : Good names w) {op : DbOp}
    (ha : Admissible names w op) :
    Good names (runOp w op).1 ∧ StepSpec (plainOf w) op (runOp w op).2 (plainOf (runOp w op).1) := by
  cases hx : w.insts op.inst with
  | none =>
    obtain ⟨h1, e, h2⟩ := runOp_none hx (by
      refine ⟨?_, ?_, ?_⟩
      · rintro i rfl; exact ha
      · rintro rfl; exact ha
      · rintro rfl; exact ha)
    rw [h1, h2]
    exact ⟨h, Or.inl rfl⟩
  | some x =>
    obtain ⟨p, hp, hpc, _⟩ := plain_some h hx
    cases op with
    | select i ws c =>
      simp only [DbOp.inst] at hx hp
      obtain ⟨g1, g2, _⟩ := inPlaceOrCopy_good hn (select_means hn ws) h hp
        (fun z hz => ha p z hp hz) c
      exact ⟨g1, stepSpec_of_inPlace hp rfl g2⟩
    | drop i ids k c =>
      simp only [DbOp.inst] at hx hp
      obtain ⟨g1, g2, _⟩ := inPlaceOrCopy_good hn (drop_means hn ids k) h hp (fun _ _ => trivial) c
      exact ⟨g1, stepSpec_of_inPlace hp rfl g2⟩
    | unique i cs c =>
      simp only [DbOp.inst] at hx hp
      simp only [runOp, World.unique, hx]
      cases hl : handleColumns x.columns cs with
      | error e => exact ⟨h, Or.inl rfl⟩
      | ok l =>
        have hpre : cs.getD p.cols = l ∧ l ⊆ p.cols ∧ l ≠ [] := by
          cases cs with
          | none =>
            simp only [handleColumns, Except.ok.injEq] at hl
            subst hl
            refine ⟨by simp [hpc], by rw [hpc]; exact fun _ h => h, ?_⟩
            obtain ⟨t, rows, _, hs⟩ := h.get hx
            exact hs.ne
          | some l' =>
            simp only [handleColumns] at hl
            split at hl
            · rename_i hall
              simp only [Except.ok.injEq] at hl
              subst hl
              refine ⟨rfl, ?_, fun he => ha (by rw [he])⟩
              rw [hpc]
              intro a hm
              simpa using List.all_eq_true.1 hall a hm
            · cases hl
        obtain ⟨g1, g2, _⟩ := inPlaceOrCopy_good hn (uniqueOn_means hn l hpre.2.2 cs) h hp
          (fun _ _ => ⟨hpre.1, hpre.2.1⟩) c
        exact ⟨g1, stepSpec_of_inPlace (op := .unique i cs c) hp rfl g2⟩
    | copy i =>
      simp only [DbOp.inst] at hx hp
      obtain ⟨c1, c2, c3, c4, c5, _, _⟩ := copy_good h hx
      simp only [runOp, outcome, c1]
      refine ⟨c2, ?_⟩
      simp only [StepSpec, DbOp.makesNew, if_true, DbOp.inst]
      exact ⟨⟨plainOf_none c4, c5⟩, p, hp, by rw [c3, hp]; rfl⟩
    | close i =>
      simp only [DbOp.inst] at hx hp
      obtain ⟨c1, c2, c3⟩ := close_good h hx
      exact ⟨c2, stepSpec_of_outcome (op := .close i) rfl hp (fun _ => c3) (fun he => absurd c1 he)⟩
    | read i o =>
      simp only [DbOp.inst] at hx hp
      obtain ⟨r1, r2, _, _, _⟩ := record_good hn h hx
      have e : (runOp w (.read i o)).1 = (w.record i).1 := by
        simp only [runOp, World.read]
        split <;> rename_i heq <;> rw [heq]
      rw [e, r2]
      refine ⟨r1, ?_⟩
      simp only [StepSpec, DbOp.makesNew, DbOp.inst, Bool.false_eq_true, if_false, runOp]
      cases hr : (w.read i o).2 with
      | error e => exact Or.inl trivial
      | ok res =>
        simp only [Except.map]
        exact ⟨trivial, p, hp, (setAt_self _ _ _ hp).symm⟩
    | assign i =>
      simp only [DbOp.inst] at hx hp
      obtain ⟨a1, a2, a3, a4⟩ := ha p hp
      obtain ⟨g1, g2, g3, _⟩ := assign_good hn h hp a1 a2 a3 a4
      exact ⟨g1, stepSpec_of_outcome (op := .assign i) rfl hp g2 g3⟩
    | removeIds i =>
      simp only [DbOp.inst] at hx hp
      obtain ⟨g1, g2, g3⟩ := removeIds_good h hp (ha p hp)
      exact ⟨g2, stepSpec_of_outcome (op := .removeIds i) rfl hp (fun _ => g3) (fun he => absurd g1 he)⟩
    | apply i c f =>
      simp only [DbOp.inst] at hx hp
      obtain ⟨d, hd⟩ := ha
      obtain ⟨g1, g2, g3, _⟩ := apply_good hn h hp (hd p hp)
      exact ⟨g1, stepSpec_of_outcome (op := .apply i c f) rfl hp g2 g3⟩
    | openGen i => exact absurd ha id
    | closeGen => exact absurd ha id
    | reopen => exact absurd ha id

theorem runDbOps_append (w : World) (a b : List DbOp) : runOps w (a ++ b) = runOps (runOps w a) b := by
  induction a generalizing w with
  | nil => rfl
  | cons op a ih => exact ih _

theorem history_good {names : List String} (hn : NamesOk names) {w : World} (h : Good names w) (a b : List DbOp)
    (ha : AdmissibleAll names w (a ++ b)) : Good names (runOps w a) ∧ AdmissibleAll names (runOps w a) b := by
  induction a generalizing w with
  | nil => exact ⟨h, ha⟩
  | cons op a ih => exact ih (step_good hn h ha.1).1 ha.2

/-- A world just after an import. -/
theorem ofCsv_good {names cols : List String} (hn : NamesOk names) (types : String → DType) (rows : List Row)
    (hcols : cols ⊆ names) (hrid : "rid" ∈ cols) (hsort : rows.Pairwise fun a b => a.rid < b.rid) :
    Good names (World.ofCsv cols types rows) ∧
      plainOf (World.ofCsv cols types rows) = fun i =>
        if i = 0 then some ⟨cols, rows.map (Row.toRec cols), false⟩ else none := by
  have hs : Shows ⟨["rid", "uid", "iid"] ++ cols.filter (· ∉ ["rid", "uid", "iid"]), rows⟩
      ⟨cols, .table, 0, false, some types, rows.length, rows.length, 0, 0⟩ rows := by
    refine ⟨hrid, rfl, ⟨_, rfl, ?_, Or.inl rfl⟩, rfl⟩
    intro a ha
    by_cases h3 : a ∈ ["rid", "uid", "iid"]
    · exact List.mem_append_left _ h3
    · exact List.mem_append_right _ (List.mem_filter.2 ⟨ha, by simpa using h3⟩)
  have hreg : Reg (World.ofCsv cols types rows) := Reg.ofCsv _ _ _
  refine ⟨⟨hreg, rfl, ?_, ?_⟩, ?_⟩
  · intro n t ht
    simp only [World.ofCsv] at ht
    split at ht
    · simp only [Option.some.injEq] at ht
      subst ht
      refine ⟨hsort, ?_, by simp⟩
      intro a ha
      rcases List.mem_append.1 ha with ha | ha
      · simp only [List.mem_cons, List.not_mem_nil, or_false] at ha
        rcases ha with rfl | rfl | rfl
        · exact hn.1 (by simp [tableCols])
        · exact hn.2.1
        · exact hn.2.2
      · exact hcols (List.mem_filter.1 ha).1
    · cases ht
  · intro k z _ hz
    simp only [World.ofCsv] at hz
    split at hz
    · simp only [Option.some.injEq] at hz
      subst hz
      exact ⟨_, rows, by simp [World.ofCsv], hs⟩
    · cases hz
  · funext k
    by_cases hk : k = 0
    · subst hk
      rw [if_pos rfl]
      exact plainOf_eq (by simp [World.ofCsv]) (by simp [World.ofCsv]) hs
    · rw [if_neg hk]
      exact plainOf_none (by simp [World.ofCsv, hk])

/-- The registries stay right under every operation. -/
theorem Reg.runOp {w : World} (h : Reg w) (op : DbOp) : Reg (runOp w op).1 := by
  cases op with
  | select i ws c => exact h.select i _ c
  | drop i ids k c => exact h.drop i ids k c
  | unique i cs c => exact h.unique i cs c
  | copy i => exact h.copy i
  | close i => exact h.close' i
  | read i o => exact h.read i o
  | assign i => exact h.assign i
  | removeIds i => exact h.removeIds i
  | apply i c f => exact h.apply i c f
  | openGen i =>
    have := h.record i
    exact ⟨this.own, this.back, this.tab, this.freshT, this.freshI, this.liveNodup, this.live, this.liveNe,
      this.file, this.gone, this.zero⟩
  | closeGen =>
    exact ⟨h.own, h.back, h.tab, h.freshT, h.freshI, h.liveNodup, h.live, h.liveNe, h.file, h.gone, h.zero⟩
  | reopen => exact h.reopen

theorem Reg.runOps {w : World} (h : Reg w) (ops : List DbOp) : Reg (runOps w ops) := by
  induction ops generalizing w with
  | nil => exact h
  | cons op ops ih => exact ih (h.runOp op)

/-- A dataset alone on its table may number it. -/
theorem idSafe_sole {w : World} (h : Reg w) {i : Nat} {x : Inst} (hx : w.insts i = some x)
    (hu : w.users x.table = some [i]) : IdSafe w i := by
  intro y t hy _ _
  rw [hx] at hy; cases hy
  right
  intro k z hk hz hzt
  obtain ⟨us, h1, h2⟩ := h.own k z hz
  rw [hzt, hu] at h1; cases h1
  simp only [List.mem_singleton] at h2
  exact absurd h2 hk

end DRec
