import Verif.Model.DbGen
import Verif.Lemmas.DbKnn
import Verif.Lemmas.Gen

/-! # Generators of the database dataset -/

namespace DRec.Conc

open Spec

/-! ## What operations leave of other objects -/

theorem onCopy_own {names : List String} {w : World} (hg : Good names w) {i : Nat} {x : Inst}
    (hx : w.insts i = some x) {f : World → Nat → World × Option Err}
    (hf : ∀ (v : World) (j : Nat), Reg v → Reg (f v j).1 ∧ Keep j v (f v j).1) :
    ∃ x', (w.onCopy i f).1.insts i = some x' ∧ x'.types = x.types ∧ x'.nBefore ≤ x.nBefore ∧ Steady x x' := by
  obtain ⟨c1, c2, _, c4, c5, c6, c7⟩ := copy_good hg hx
  have ec : w.copy i = ((w.copy i).1, none) := by rw [← c1]
  have hxc : (w.copy i).1.insts i = some x := by rw [c6 i (Ne.symm c5)]; exact hx
  obtain ⟨y, y1, y2, y3⟩ := (record_touch hxc).1.2 x hxc
  obtain ⟨y', z1, z2⟩ := record_steady hxc
  rw [y1] at z1; cases z1
  have hreg : Reg ((w.copy i).1.record i).1 := Reg.record (h := c2.reg) i
  have hni : i ≠ w.nextI := Ne.symm c5
  unfold World.onCopy
  rw [ec]
  simp only
  cases he : ((w.copy i).1.record i).2 with
  | some e =>
    have er : (w.copy i).1.record i = (((w.copy i).1.record i).1, some e) := by rw [← he]
    rw [er]
    exact ⟨y, (keep_close hreg w.nextI i y hni y1).1, y2, y3, z2⟩
  | none =>
    have er : (w.copy i).1.record i = (((w.copy i).1.record i).1, none) := by rw [← he]
    rw [er]
    simp only
    obtain ⟨f1, f2⟩ := hf _ w.nextI hreg
    have hy := (f2 i y hni y1).1
    cases he2 : (f ((w.copy i).1.record i).1 w.nextI).2 with
    | some e =>
      have er2 : f ((w.copy i).1.record i).1 w.nextI = ((f ((w.copy i).1.record i).1 w.nextI).1, some e) := by rw [← he2]
      rw [er2]
      exact ⟨y, (keep_close f1 w.nextI i y hni hy).1, y2, y3, z2⟩
    | none =>
      have er2 : f ((w.copy i).1.record i).1 w.nextI = ((f ((w.copy i).1.record i).1 w.nextI).1, none) := by rw [← he2]
      rw [er2]
      exact ⟨y, hy, y2, y3, z2⟩

theorem assign_other {w : World} (h : Reg w) {i k : Nat} (hk : k ≠ i) {z : Inst} (hz : w.insts k = some z) :
    (w.assign i).1.insts k = some z := by
  have ho := keep_optimize h i true
  unfold World.assign
  split
  · rename_i w1 e he; rw [he] at ho; exact (ho k z hk hz).1
  · rename_i w1 he
    rw [he] at ho
    have h1 := (ho k z hk hz).1
    split
    · exact h1
    · split
      · simpa [World.put, World.putT, hk] using h1
      · rw [put_ne _ _ hk]; exact h1

/-- An operation on another dataset leaves the object alone. -/
theorem runOp_other {names : List String} {w : World} (hg : Good names w) {op : DbOp} (ha : Admissible names w op)
    {k : Nat} (hk : k ≠ op.inst) {z : Inst} (hz : w.insts k = some z) : (runOp w op).1.insts k = some z := by
  have h := hg.reg
  cases op with
  | select i ws c =>
    exact (keep_inPlaceOrCopy h i c _ (fun v j hv => ⟨hv.selectOn j _, keep_selectOn hv j _⟩) k z hk hz).1
  | drop i ids kp c =>
    exact (keep_inPlaceOrCopy h i c _ (fun v j hv => ⟨hv.dropOn j _ _, keep_dropOn hv j _ _⟩) k z hk hz).1
  | unique i cs c => exact (keep_unique h i cs c k z hk hz).1
  | copy i => exact (copy_keep h i k z hz).1
  | close i => exact (keep_close h i k z hk hz).1
  | read i o => exact (keep_read h i o k z hk hz).1
  | assign i => exact assign_other h hk hz
  | removeIds i => exact (keep_removeIds w i k z hk hz).1
  | apply i c f => exact (keep_apply h hg.gens i c f k z hk hz).1
  | openGen i => exact ha.elim
  | closeGen => exact ha.elim
  | reopen => exact ha.elim

/-- An operation that does not change dataset `k` in place. -/
theorem runOp_keeps {names : List String} (hn : NamesOk names) {w : World} (hg : Good names w) {op : DbOp}
    (ha : Admissible names w op) {k : Nat} (hk : op.inst = k → op.keepsOwn = true) (hal : (w.insts k).isSome) :
    Keeps w (runOp w op).1 k := by
  obtain ⟨z, hz⟩ := Option.isSome_iff_exists.1 hal
  obtain ⟨_, hs⟩ := step_good hn hg ha
  by_cases hki : k = op.inst
  · subst hki
    have hko := hk rfl
    constructor
    · unfold StepSpec at hs
      cases hr : (runOp w op).2 with
      | ok j =>
        rw [hr] at hs
        obtain ⟨h1, p, h2, h3⟩ := hs
        rw [h3]
        by_cases hj : j = op.inst
        · subst hj
          cases op with
          | read i o => simp only [DbOp.inst] at h2 ⊢; simp [setAt, DbOp.effect, h2]
          | select i ws c =>
            simp only [DbOp.keepsOwn] at hko
            simp only [DbOp.makesNew, hko, if_true] at h1
            exact absurd rfl h1.2
          | drop i ids kp c =>
            simp only [DbOp.keepsOwn] at hko
            simp only [DbOp.makesNew, hko, if_true] at h1
            exact absurd rfl h1.2
          | unique i cs c =>
            simp only [DbOp.keepsOwn] at hko
            simp only [DbOp.makesNew, hko, if_true] at h1
            exact absurd rfl h1.2
          | copy i =>
            simp only [DbOp.makesNew, if_true] at h1
            exact absurd rfl h1.2
          | openGen i => exact ha.elim
          | _ => simp [DbOp.keepsOwn] at hko
        · simp [setAt, Ne.symm hj]
      | error e =>
        rw [hr] at hs
        rcases hs with h1 | ⟨h1, p, h2, h3⟩
        · rw [h1]
        · cases op with
          | read i o => rw [h3]; simp only [DbOp.inst] at h2 ⊢; simp [setAt, DbOp.effect, h2]
          | select i ws c => simp only [DbOp.keepsOwn] at hko; simp only [DbOp.makesNew, hko] at h1; cases h1
          | drop i ids kp c => simp only [DbOp.keepsOwn] at hko; simp only [DbOp.makesNew, hko] at h1; cases h1
          | unique i cs c => simp only [DbOp.keepsOwn] at hko; simp only [DbOp.makesNew, hko] at h1; cases h1
          | copy i => simp [DbOp.makesNew] at h1
          | openGen i => exact ha.elim
          | _ => simp [DbOp.keepsOwn] at hko
    · intro x hx
      cases op with
      | read i o =>
        simp only [DbOp.inst] at hx ⊢
        simp only [runOp, read_world]
        obtain ⟨y, y1, y2, y3⟩ := (record_touch hx).1.2 x hx
        obtain ⟨y', z1, z2⟩ := record_steady hx
        rw [y1] at z1; cases z1
        exact ⟨y, y1, y2, y3, z2⟩
      | select i ws c =>
        simp only [DbOp.keepsOwn] at hko
        subst hko
        exact onCopy_own hg hx fun v j hv => ⟨hv.selectOn j _, keep_selectOn hv j _⟩
      | drop i ids kp c =>
        simp only [DbOp.keepsOwn] at hko
        subst hko
        exact onCopy_own hg hx fun v j hv => ⟨hv.dropOn j _ _, keep_dropOn hv j _ _⟩
      | unique i cs c =>
        simp only [DbOp.keepsOwn] at hko
        subst hko
        simp only [DbOp.inst] at hx ⊢
        simp only [runOp, World.unique, hx]
        split
        · exact ⟨x, hx, rfl, le_refl _, Steady.refl x⟩
        · exact onCopy_own hg hx fun v j hv => ⟨hv.uniqueOn j _, keep_uniqueOn hv j _⟩
      | copy i => exact ⟨x, (copy_keep hg.reg i i x hx).1, rfl, le_refl _, Steady.refl x⟩
      | openGen i => exact ha.elim
      | _ => simp [DbOp.keepsOwn] at hko
  · refine Keeps.same ((runOp_other hg ha hki hz).trans hz.symm) ?_
    unfold StepSpec at hs
    cases hr : (runOp w op).2 with
    | ok j =>
      rw [hr] at hs
      obtain ⟨h1, p, h2, h3⟩ := hs
      rw [h3]
      have hj : k ≠ j := by
        rintro rfl
        split at h1
        · obtain ⟨q, hq, _⟩ := plain_some hg hz
          rw [hq] at h1; cases h1.1
        · exact hki h1
      simp [setAt, hj]
    | error e =>
      rw [hr] at hs
      rcases hs with h1 | ⟨h1, p, h2, h3⟩
      · rw [h1]
      · rw [h3]; simp [setAt, hki]

/-! ## Queries -/

theorem queryRecs_rows {names : List String} {w : World} (hg : Good names w) {i : Nat} {m : Mem}
    {T : Option (String → DType)} {B : Nat} (hs : ShowsMem w i m T B) {ws : List (List Char × SCond × List Char)}
    (hpre : SelectPre names ws (memPlain m) T) (hc : ∀ c ∈ ws, c.2.1.col ∈ m.cols) {Q : Row → Bool}
    (hQ : ∀ r ∈ m.rows, Sat ws r ↔ Q r = true) {q : List Char} (hq : q = queryText ws) :
    w.queryRecs i q = .ok ((m.rows.filter Q).map (Row.toRec m.cols)) := by
  subst hq
  obtain ⟨x, t, rows, hx, ht, hsh, hp⟩ := plain_inv hg hs.plain
  obtain ⟨y, hy, hT, _⟩ := hs.inst
  rw [hx] at hy; cases hy
  simp only [memPlain, Plain.mk.injEq] at hp
  obtain ⟨hcols, hrows, _⟩ := hp
  obtain ⟨hw, hall⟩ := hpre
  obtain ⟨ty, hty⟩ := Option.isSome_iff_exists.1 hsh.types
  have htn := (hg.tables _ t ht).names
  have hc' : ∀ c ∈ ws, c.2.1.col ∈ x.columns := fun c h => hcols ▸ hc c h
  rcases parse_text hty ws hw (fun w hw' => (hall w hw').2.1 ty (by rw [← hT, hty])) with ⟨_, hpar⟩ | ⟨hcn, _⟩
  · obtain ⟨qc, h4, h5⟩ := select_rows hsh htn ws hc' (fun w hw' => (hall w hw').1) (by
      intro w hw' r hr
      have hmem : r.toRec x.columns ∈ (memPlain m).recs := by
        simp only [memPlain]
        rw [hrows]
        exact List.mem_map_of_mem hr
      have := (hall w hw').2.2 _ hmem
      rwa [cellOf_toRec _ _ _ (hc' w hw')] at this)
    unfold World.queryRecs
    simp only [hx, ht, hpar, h4]
    congr 1
    rw [filter_plain (P := fun r => decide (SatRec ws r)) (fun r hr => ?_), hrows, ← filter_plain (fun r hr => ?_)]
    · apply List.map_congr_left
      intro r _
      rw [decode_eq h5]
    · rw [Bool.eq_iff_iff, decide_eq_true_eq, decide_eq_true_eq, satRec_toRec hc']
    · rw [Bool.eq_iff_iff, decide_eq_true_eq, satRec_toRec hc, hQ r hr]
  · exact absurd hc' hcn

/-- Which records a condition on an id selects. -/
theorem idSat {c : String} (n : Nat) {r : Row} : Sat [eqWritten c n] r ↔ decide (r.get c = .num (n : ℚ)) = true := by
  simp [Sat, eqWritten, Holds, SLit.value]

theorem idText (c : String) (n : Nat) : DRec.idQuery c n = queryText [eqWritten c n] := by
  rw [← idQuery_written]
  unfold DRec.idQuery idQuery
  rw [cellText_nat]
  have : ¬ ((n : Int) < 0) := by omega
  simp only [SLit.text, if_neg this, natText, Int.natAbs_natCast]

/-! ## Record generators -/

/-- What a draw from rows shows. -/
def recOut (cols : List String) : Option (Row × List Nat) → NextOut (Rec × List Nat)
  | none => .more
  | some (r, rest) => .got (r.toRec cols, rest)

theorem drawLoop_rows {names : List String} {w : World} (hg : Good names w) {i : Nat} {m : Mem}
    {T : Option (String → DType)} {B : Nat} (hs : ShowsMem w i m T B) (hm : Numbers m T) (M : Nat) (draws : List Nat) :
    w.drawLoop i M draws = recOut m.cols (nextRecord M m.rows draws) := by
  induction draws with
  | nil => rfl
  | cons d ds ih =>
    have hq : w.queryRecs i (DRec.idQuery "uid" (randint0 M d)) =
        .ok ((rowsWith "uid" (randint0 M d) m.rows).map (Row.toRec m.cols)) :=
      queryRecs_rows hg hs (numbers_pre hm (by simp) (eqWritten_fits (by simp) _))
        (fun c hc => hm.cols _ ((eqWritten_fits (c := "uid") (by simp) _) c hc).2.2.2)
        (fun r _ => idSat _) (idText "uid" _)
    rw [World.drawLoop.eq_def, nextRecord.eq_def]
    simp only [hq, List.length_map]
    split
    · exact ih
    · cases ds with
      | nil => rfl
      | cons e ds' =>
        simp only [List.getElem?_map]
        cases (rowsWith "uid" (randint0 M d) m.rows)[randint0 ((rowsWith "uid" (randint0 M d) m.rows).length - 1) e]? <;> rfl

theorem max_read {names : List String} (hn : NamesOk names) {w : World} (hg : Good names w) {i : Nat} {m : Mem}
    {T : Option (String → DType)} {B : Nat} (hs : ShowsMem w i m T B) (hf : FullCols m.cols) {c : String} (hc : c ∈ m.cols)
    (hne : m.rows ≠ []) (hid : ∀ r ∈ m.rows, IsId c r) :
    ∃ M, maxId c m.rows = some M ∧ w.read i (.max c) = ((w.read i (.max c)).1, .ok (.val (.num (M : ℚ)))) := by
  obtain ⟨M, h1, ⟨r, hr, hrM⟩, h3⟩ := maxId_ok c m.rows hne hid
  refine ⟨M, h1, ?_⟩
  obtain ⟨x, hx, hT, _⟩ := hs.inst
  obtain ⟨k, hk⟩ := works_good hn hg (op := .read i (.max c)) hs.plain trivial ⟨hf, hc⟩
  simp only [runOp] at hk
  cases hr' : (w.read i (.max c)).2 with
  | error e => rw [hr'] at hk; cases hk
  | ok res =>
    have hsp := read_good hn hg hx hs.plain hr'
    have e : w.read i (.max c) = ((w.read i (.max c)).1, .ok res) := by rw [← hr']
    rw [e]
    congr 2
    cases res with
    | val v =>
      congr 1
      simp only [ReadSpec, memPlain, List.map_map] at hsp
      have hcell : ∀ u ∈ m.rows.map ((cellOf · c) ∘ Row.toRec m.cols), ∃ a ∈ m.rows, ∃ k : ℕ, a.get c = .num (k : ℚ) ∧ u = .num (k : ℚ) := by
        intro u hu
        obtain ⟨a, ha, rfl⟩ := List.mem_map.1 hu
        obtain ⟨k, hk⟩ := hid a ha
        exact ⟨a, ha, k, hk, by simp only [Function.comp_apply]; rw [cellOf_toRec _ _ _ hc, hk]⟩
      have hM : (.num (M : ℚ) : Val) ∈ m.rows.map ((cellOf · c) ∘ Row.toRec m.cols) :=
        List.mem_map.2 ⟨r, hr, by simp only [Function.comp_apply]; rw [cellOf_toRec _ _ _ hc, hrM]⟩
      rcases hsp with ⟨_, hall⟩ | ⟨_, hmem, hmax⟩
      · exact absurd (hall _ hM) (by simp)
      · obtain ⟨a, ha, k, hak, rfl⟩ := hcell v hmem
        have h4 := h3 a ha k hak
        have h5 := hmax _ hM (by simp)
        simp only [SqlLess, Less, not_lt] at h5
        have : (M : ℚ) ≤ (k : ℚ) := h5
        have : M ≤ k := by exact_mod_cast this
        have : k = M := le_antisymm h4 this
        rw [this]
    | recs l => exact hsp.elim
    | one r => exact hsp.elim
    | count n => exact hsp.elim

theorem read_keeps {names : List String} (hn : NamesOk names) {w : World} (hg : Good names w) {i : Nat}
    (op : ReadOp) :
    Good names (w.read i op).1 ∧ ∀ k, (w.insts k).isSome → Keeps w (w.read i op).1 k := by
  have ha : Admissible names w (.read i op) := trivial
  exact ⟨(step_good hn hg ha).1, fun k hk => runOp_keeps hn hg ha (fun _ => rfl) hk⟩

theorem maxOf_rows {names : List String} (hn : NamesOk names) {w : World} (hg : Good names w) {i : Nat} {m : Mem}
    {T : Option (String → DType)} {B : Nat} (hs : ShowsMem w i m T B) (hf : FullCols m.cols) {c : String} (hc : c ∈ m.cols)
    (hne : m.rows ≠ []) (hid : ∀ r ∈ m.rows, IsId c r) :
    ∃ M w', maxId c m.rows = some M ∧ w.maxOf i c = (w', .ok M) ∧ Good names w' ∧
      ∀ k, (w.insts k).isSome → Keeps w w' k := by
  obtain ⟨M, h1, h2⟩ := max_read hn hg hs hf hc hne hid
  obtain ⟨x, hx, _⟩ := hs.inst
  obtain ⟨h3, h4⟩ := read_keeps hn hg (i := i) (.max c)
  refine ⟨M, (w.read i (.max c)).1, h1, ?_, h3, h4⟩
  unfold World.maxOf
  rw [h2]
  simp only [toNat?_num]

/-- What a started generator is. -/
def Started (g : DbRecGen) (rows : List Row) : Prop := ∃ M, maxId "uid" rows = some M ∧ g.state = .running M

theorem recNext_running {names : List String} {w : World} (hg : Good names w) {g : DbRecGen} {m : Mem}
    {T : Option (String → DType)} {B : Nat} (hs : ShowsMem w g.inst m T B) (hm : Numbers m T) {M : Nat}
    (hst : g.state = .running M) (draws : List Nat) :
    w.recNext g draws = (w, g, recOut m.cols (nextRecord M m.rows draws)) := by
  unfold World.recNext
  rw [hst]
  simp only [drawLoop_rows hg hs hm M draws]
  obtain ⟨j, st⟩ := g
  simp only at hst
  subst hst
  cases nextRecord M m.rows draws <;> rfl

theorem showsMem_len {names : List String} {w : World} (hg : Good names w) {i : Nat} {m : Mem}
    {T : Option (String → DType)} {B : Nat} (hs : ShowsMem w i m T B) : w.len i = some m.rows.length := by
  obtain ⟨x, t, rows, hx, ht, hsh, hp⟩ := plain_inv hg hs.plain
  simp only [memPlain, Plain.mk.injEq] at hp
  have := congrArg List.length hp.2.1
  simp only [List.length_map] at this
  unfold World.len
  rw [hx, this]
  simp [hsh.len]

theorem recNext_fresh {names : List String} (hn : NamesOk names) {w : World} (hg : Good names w) {j : Nat} {m : Mem}
    {T : Option (String → DType)} {B : Nat} (hs : ShowsMem w j m T B) (hm : Numbers m T) (hne : m.rows ≠ [])
    (hid : ∀ r ∈ m.rows, IsId "uid" r) (draws : List Nat) :
    ∃ M w', maxId "uid" m.rows = some M ∧
      w.recNext ⟨j, .fresh⟩ draws = (w', ⟨j, .running M⟩, recOut m.cols (nextRecord M m.rows draws)) ∧
      Good names w' ∧ ∀ k, (w.insts k).isSome → Keeps w w' k := by
  obtain ⟨M, h1, h2⟩ := max_read hn hg hs hm.full (hm.cols "uid" (by simp)) hne hid
  obtain ⟨x, hx, _⟩ := hs.inst
  obtain ⟨h3, h4⟩ := read_keeps hn hg (i := j) (.max "uid")
  refine ⟨M, (w.read j (.max "uid")).1, h1, ?_, h3, h4⟩
  have hl := showsMem_len hg hs
  obtain ⟨n, hlen⟩ : ∃ n, m.rows.length = n + 1 := Nat.exists_eq_succ_of_ne_zero (by simpa using hne)
  unfold World.recNext
  simp only
  rw [hl, hlen, h2]
  simp only [toNat?_num]
  rw [drawLoop_rows h3 (hs.keep (h4 j (by rw [hx]; rfl))) hm M draws]
  cases nextRecord M m.rows draws <;> rfl

theorem recNext_empty {names : List String} {w : World} (hg : Good names w) {j : Nat} {m : Mem}
    {T : Option (String → DType)} {B : Nat} (hs : ShowsMem w j m T B) (he : m.rows = []) (draws : List Nat) :
    w.recNext ⟨j, .fresh⟩ draws = (w, ⟨j, .dead⟩, .raised .empty) := by
  have hl := showsMem_len hg hs
  rw [he] at hl
  unfold World.recNext
  simp only
  rw [hl]
  rfl

/-- A copy restricted by conditions. -/
theorem copyWhere_rows {names : List String} (hn : NamesOk names) {w : World} (hg : Good names w) {i : Nat} {m : Mem}
    {T : Option (String → DType)} {B : Nat} (hs : ShowsMem w i m T B) (hf : FullCols m.cols)
    {ws : List (List Char × SCond × List Char)} (hpre : SelectPre names ws (memPlain m) T)
    (hc : ∀ c ∈ ws, c.2.1.col ∈ m.cols) {Q : Row → Bool} (hQ : ∀ r ∈ m.rows, Sat ws r ↔ Q r = true)
    {q : List Char} (hq : q = queryText ws) :
    ∃ w' j, w.copyWhere i q = (w', .ok j) ∧ w.insts j = none ∧ Good names w' ∧
      (∀ k, (w.insts k).isSome → Keeps w w' k) ∧ ShowsMem w' j { m with rows := m.rows.filter Q } T B := by
  subst hq
  obtain ⟨x, hx, hT, hB⟩ := hs.inst
  obtain ⟨c1, c2, c3, c4, c5, c6, c7⟩ := copy_good hg hx
  have ec : w.copy i = ((w.copy i).1, none) := by rw [← c1]
  generalize (w.copy i).1 = w1 at ec c2 c3 c6 c7
  have hp1 : plainOf w1 w.nextI = some (memPlain m) := by rw [c3]; simp [setAt, hs.plain]
  have hadm : Admissible names w1 (.select w.nextI ws false) := by
    intro p z hp hz
    rw [hp1] at hp; cases hp
    rw [c7] at hz; cases hz
    rw [hT]; exact hpre
  obtain ⟨k, hk⟩ := works_good hn c2 (op := .select w.nextI ws false) hp1 hadm ⟨hf, hc⟩
  obtain ⟨g1, g2⟩ := step_good hn c2 hadm
  have hoth := fun k hk z hz => runOp_other c2 hadm (k := k) hk (z := z) hz
  rw [hk] at g2
  obtain ⟨s1, p, s2, s3⟩ := g2
  simp only [DbOp.inst] at s1 s2 hoth
  simp only [DbOp.makesNew, Bool.false_eq_true, if_false] at s1
  subst s1
  rw [hp1] at s2; cases s2
  simp only [DbOp.effect] at s3
  have hrun : runOp w1 (.select w.nextI ws false) = w1.inPlaceOrCopy w.nextI false fun w j => w.selectOn j (queryText ws) := rfl
  rw [hrun] at hk g1 s3 hoth
  unfold World.inPlaceOrCopy at hk g1 s3 hoth
  simp only [Bool.false_eq_true, if_false] at hk g1 s3 hoth
  cases he : (w1.selectOn w.nextI (queryText ws)).2 with
  | some e =>
    have er : w1.selectOn w.nextI (queryText ws) = ((w1.selectOn w.nextI (queryText ws)).1, some e) := by rw [← he]
    rw [er] at hk; cases hk
  | none =>
    have er : w1.selectOn w.nextI (queryText ws) = ((w1.selectOn w.nextI (queryText ws)).1, none) := by rw [← he]
    obtain ⟨_, u2⟩ := (selectOn_touch c7 (queryText ws)).1
    rw [er] at g1 s3 hoth
    simp only at g1 s3 hoth
    refine ⟨(w1.selectOn w.nextI (queryText ws)).1, w.nextI, ?_, c4, g1, ?_, ?_⟩
    · unfold World.copyWhere
      rw [ec]
      simp only
      rw [er]
    · intro k hk'
      obtain ⟨z, hz⟩ := Option.isSome_iff_exists.1 hk'
      have hne : k ≠ w.nextI := by rintro rfl; rw [c4] at hz; cases hz
      refine Keeps.same ?_ ?_
      · rw [hz]; exact hoth k hne z (by rw [c6 k hne]; exact hz)
      · rw [s3, c3]; simp [setAt, hne]
    · obtain ⟨y, y1, y2, y3⟩ := u2 _ c7
      refine ⟨?_, y, y1, y2.trans hT, le_trans y3 hB⟩
      rw [s3, ← select_plain hc hQ]
      simp [setAt]

/-! ## Pair generators -/

/-- What a drawn pair shows. -/
def pairOut {σ : Type} : Option ((Nat × Nat) × σ) → NextOut ((Val × Val) × σ)
  | none => .more
  | some (p, rest) => .got ((.num (p.1 : ℚ), .num (p.2 : ℚ)), rest)

theorem freePair_rows {names : List String} {w : World} (hg : Good names w) {i : Nat} {m : Mem}
    {T : Option (String → DType)} {B : Nat} (hs : ShowsMem w i m T B) (hm : Numbers m T) (mu mi e f : Nat) :
    w.freePair i mu mi e f = .ok (if pairFound m.rows (randint0 mu e) (randint0 mi f) then none
      else some (.num (randint0 mu e : ℕ), .num (randint0 mi f : ℕ))) := by
  have hq : w.queryRecs i (pairQuery (randint0 mu e) (randint0 mi f)) =
      .ok ((m.rows.filter fun r => decide (r.get "uid" = .num (randint0 mu e : ℚ) ∧ r.get "iid" = .num (randint0 mi f : ℚ))).map
        (Row.toRec m.cols)) :=
    queryRecs_rows hg hs (numbers_pre hm (by simp [pairWritten]) (pairWritten_fits _ _))
      (fun c hc => hm.cols _ ((pairWritten_fits _ _) c hc).2.2.2)
      (fun r _ => by simp [Sat, pairWritten, Holds, SLit.value]) (pairQuery_written _ _)
  unfold World.freePair
  rw [hq]
  by_cases hf : pairFound m.rows (randint0 mu e) (randint0 mi f) = true
  · rw [if_pos hf]
    obtain ⟨r, hr, h1, h2⟩ := (pairFound_iff _ _ _).1 hf
    have hmem : r.toRec m.cols ∈ (m.rows.filter fun r => decide (r.get "uid" = .num (randint0 mu e : ℚ) ∧
        r.get "iid" = .num (randint0 mi f : ℚ))).map (Row.toRec m.cols) :=
      List.mem_map_of_mem (List.mem_filter.2 ⟨hr, by simp [h1, h2]⟩)
    generalize (m.rows.filter fun r => decide (r.get "uid" = .num (randint0 mu e : ℚ) ∧
        r.get "iid" = .num (randint0 mi f : ℚ))).map (Row.toRec m.cols) = l at hmem
    cases l with
    | nil => simp at hmem
    | cons a l => rfl
  · rw [if_neg hf]
    have : (m.rows.filter fun r => decide (r.get "uid" = .num (randint0 mu e : ℚ) ∧
        r.get "iid" = .num (randint0 mi f : ℚ))) = [] := by
      rw [List.filter_eq_nil_iff]
      intro r hr hd
      exact hf ((pairFound_iff _ _ _).2 ⟨r, hr, by simpa using hd⟩)
    rw [this]
    rfl

theorem nullLoop_rows {names : List String} {w : World} (hg : Good names w) {i : Nat} {m : Mem}
    {T : Option (String → DType)} {B : Nat} (hs : ShowsMem w i m T B) (hm : Numbers m T) (mu mi : Nat) (draws : List Nat) :
    w.nullLoop i mu mi draws = pairOut (nextNullMem m.rows mu mi draws) := by
  fun_induction nextNullMem m.rows mu mi draws with
  | case1 d e ds hf ih =>
    rw [World.nullLoop, freePair_rows hg hs hm, if_pos hf]
    exact ih
  | case2 d e ds hf =>
    rw [World.nullLoop, freePair_rows hg hs hm, if_neg hf]
    rfl
  | case3 ds h =>
    cases ds with
    | nil => rfl
    | cons d ds =>
      cases ds with
      | nil => rfl
      | cons e ds => exact absurd rfl (h d e ds)

theorem lookup_toRec {cols : List String} {c : String} (hc : c ∈ cols) (r : Row) :
    (r.toRec cols).lookup c = some (r.get c) := by
  unfold Row.toRec
  induction cols with
  | nil => simp at hc
  | cons a cs ih =>
    simp only [List.map_cons, List.lookup_cons]
    by_cases h : c = a
    · subst h; simp
    · have : (c == a) = false := by simpa using h
      rw [this]
      exact ih (by simpa [h] using hc)

theorem mixedLoop_rows {names : List String} {w : World} (hg : Good names w) {i : Nat} {m m' : Mem}
    {T : Option (String → DType)} {B : Nat} (hs : ShowsMem w i m T B) (hm : Numbers m T) (mu mi : Nat) {g : DbRecGen}
    (hs' : ShowsMem w g.inst m' T B) (hm' : Numbers m' T) {nu : Nat} (hst : g.state = .running nu)
    (hid : ∀ r ∈ m'.rows, IsId "uid" r ∧ IsId "iid" r) (draws eds : List Nat) :
    w.mixedLoop i mu mi m'.rows.length g draws eds = pairOut (nextNullMixed m.rows m'.rows mu mi nu draws eds) := by
  fun_induction nextNullMixed m.rows m'.rows mu mi nu draws eds with
  | case1 d ds eds hge hnext =>
    rw [World.mixedLoop.eq_def]
    simp only
    rw [if_pos hge, recNext_running hg hs' hm' hst, hnext]
    rfl
  | case2 d ds eds hge r eds' hnext k k' hk' hk =>
    rw [World.mixedLoop.eq_def]
    simp only
    rw [if_pos hge, recNext_running hg hs' hm' hst, hnext]
    obtain ⟨⟨a, ha⟩, b, hb⟩ := hid r (nextRecord_mem hnext)
    rw [ha, toNat?_num] at hk
    rw [hb, toNat?_num] at hk'
    cases hk; cases hk'
    simp only [recOut, lookup_toRec (hm'.cols "uid" (by simp)), lookup_toRec (hm'.cols "iid" (by simp)), ha, hb]
    rfl
  | case3 d ds eds hge r eds' hnext hno =>
    obtain ⟨⟨a, ha⟩, b, hb⟩ := hid r (nextRecord_mem hnext)
    exact (hno a b (by rw [ha, toNat?_num]) (by rw [hb, toNat?_num])).elim
  | case4 d eds hge e f ds' hf ih =>
    rw [World.mixedLoop.eq_def]
    simp only
    rw [if_neg hge, freePair_rows hg hs hm, if_pos hf]
    exact ih
  | case5 d eds hge e f ds' hf =>
    rw [World.mixedLoop.eq_def]
    simp only
    rw [if_neg hge, freePair_rows hg hs hm, if_neg hf]
    rfl
  | case6 d eds ds hge h =>
    rw [World.mixedLoop.eq_def]
    simp only
    rw [if_neg hge]
    cases eds with
    | nil => rfl
    | cons e ds =>
      cases ds with
      | nil => rfl
      | cons f ds => exact absurd rfl (h e f ds)
  | case7 => rfl

end DRec.Conc
