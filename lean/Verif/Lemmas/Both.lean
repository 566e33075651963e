import Verif.Spec.Both
import Verif.Lemmas.DbRead
import Verif.Props.Query
import Verif.Props.MemOps

/-! # The in-memory operations on plain datasets -/

namespace DRec

open Spec

/-- An in-memory dataset with the record id among its columns, records in the order of their ids, and no matrix
kept. -/
structure MemOk (m : Mem) : Prop where
  rid : "rid" ∈ m.cols
  sorted : m.rows.Pairwise fun a b => a.rid < b.rid
  cache : m.cache = none

theorem satRec_toRec {cols : List String} {ws : List (List Char × SCond × List Char)}
    (hc : ∀ c ∈ ws, c.2.1.col ∈ cols) (r : Row) : SatRec ws (r.toRec cols) ↔ Sat ws r := by
  unfold SatRec Sat
  apply forall_congr'; intro c
  apply forall_congr'; intro hm
  rw [cellOf_toRec _ _ _ (hc c hm)]

theorem filter_plain {cols : List String} {rows : List Row} {P : Rec → Bool} {Q : Row → Bool}
    (h : ∀ r ∈ rows, P (r.toRec cols) = Q r) :
    (rows.filter Q).map (Row.toRec cols) = (rows.map (Row.toRec cols)).filter P := by
  rw [List.filter_map]
  congr 1
  exact List.filter_congr fun r hr => (h r hr).symm

theorem mem_select_plain {m : Mem} (hm : MemOk m) {ws : List (List Char × SCond × List Char)} (copy : Bool)
    (hw : WellWritten ws) (hc : ∀ c ∈ ws, c.2.1.col ∈ m.cols ∧ Fits m c.2.1 ∧ Direct m c.2.1)
    (hk : ∀ c ∈ ws, ∀ r ∈ (memPlain m).recs, Comparable c.2.1.op (cellOf r c.2.1.col) c.2.1.lit.value) :
    ∃ m', (BothOp.select ws copy).onMem m = .ok m' ∧ MemOk m' ∧ memPlain m' = (memPlain m).select ws := by
  have hk' : ∀ c ∈ ws, ∀ r ∈ m.rows, Comparable c.2.1.op (r.get c.2.1.col) c.2.1.lit.value := by
    intro c hcm r hr
    have := hk c hcm (r.toRec m.cols) (List.mem_map_of_mem hr)
    rwa [cellOf_toRec _ _ _ (hc c hcm).1] at this
  have key : ∀ ds' : Mem, SameSchema ds' m → ds'.rows = m.rows →
      ds'.applyQuery (queryText ws) = .ok (m.rows.filter fun r => Sat ws r) := by
    intro ds' hs hr
    rw [← hr]
    apply applyQuery_means ds' ws hw
    intro w hw'
    obtain ⟨h1, h2, h3⟩ := hc w hw'
    obtain ⟨g1, g2, g3, g4⟩ := hw.2 w hw'
    apply segMeans_direct ds' _ _ _ g1 g2 g3 g4 (hs.1 ▸ h1)
    · unfold Fits at h2 ⊢; rw [hs.2.1]; exact h2
    · unfold Direct at h3 ⊢; rw [hs.2.1, hs.2.2.1]; exact h3
    · rw [hr]; exact hk' w hw'
  have e : ((m.rows.filter fun r => Sat ws r).map (Row.toRec m.cols)) =
      (m.rows.map (Row.toRec m.cols)).filter fun r => SatRec ws r :=
    filter_plain fun r _ => by
      simp only [decide_eq_decide]
      exact satRec_toRec (fun c hcm => (hc c hcm).1) r
  cases copy with
  | true =>
    refine ⟨{ m.copy with rows := m.rows.filter fun r => Sat ws r }, ?_, ?_, ?_⟩
    · simp only [BothOp.onMem, if_true, Mem.select]
      rw [key m.copy ⟨rfl, rfl, rfl, rfl, rfl⟩ rfl]
      rfl
    · exact ⟨hm.rid, hm.sorted.filter _, rfl⟩
    · simp only [memPlain, Mem.copy, Plain.select, e]
  | false =>
    refine ⟨{ m with rows := m.rows.filter fun r => Sat ws r }, ?_, ?_, ?_⟩
    · simp only [BothOp.onMem, Bool.false_eq_true, if_false, Mem.selectInPlace]
      rw [key m ⟨rfl, rfl, rfl, rfl, rfl⟩ rfl]
      rfl
    · exact ⟨hm.rid, hm.sorted.filter _, hm.cache⟩
    · simp only [memPlain, Plain.select, e]

theorem get_rid (r : Row) : r.get "rid" = .num r.rid := by simp [Row.get]

theorem mem_drop_plain {m : Mem} (hm : MemOk m) (ids : List Nat) (keep copy : Bool) :
    ∃ m', (BothOp.drop ids keep copy).onMem m = .ok m' ∧ MemOk m' ∧ memPlain m' = (memPlain m).drop ids keep := by
  have e : (dropRows ids keep m.rows).map (Row.toRec m.cols) = ((memPlain m).drop ids keep).recs := by
    have hr : ∀ r : Row, (∃ n ∈ ids, cellOf (r.toRec m.cols) "rid" = .num (n : ℚ)) ↔ r.rid ∈ ids := by
      intro r
      rw [cellOf_toRec _ _ _ hm.rid, get_rid]
      constructor
      · rintro ⟨n, hn, h⟩
        simp only [Val.num.injEq, Nat.cast_inj] at h
        rw [h]; exact hn
      · intro h; exact ⟨_, h, rfl⟩
    cases keep with
    | true =>
      simp only [dropRows, if_true, Plain.drop, memPlain]
      apply filter_plain
      intro r _
      simp only [hr, beq_true]
    | false =>
      simp only [dropRows, Bool.false_eq_true, if_false, Plain.drop, memPlain]
      apply filter_plain
      intro r _
      simp only [hr, beq_false]
  have hsub : (dropRows ids keep m.rows).Pairwise fun a b => a.rid < b.rid := by
    unfold dropRows
    split <;> exact hm.sorted.filter _
  cases copy with
  | true =>
    exact ⟨_, rfl, ⟨hm.rid, hsub, rfl⟩, by
      simp only [if_true, memPlain, Mem.drop, Mem.copy, e]; rfl⟩
  | false =>
    exact ⟨_, rfl, ⟨hm.rid, hsub, hm.cache⟩, by
      simp only [Bool.false_eq_true, if_false, memPlain, Mem.dropInPlace, e]; rfl⟩

/-- On records in the order of their ids, keeping the first of every key keeps the smallest ids. -/
theorem dedupGo_eq_filter (key : Row → List Val) (rs : List Row) (seen : List (List Val))
    (hs : rs.Pairwise fun a b => a.rid < b.rid) :
    dedupGo key rs seen =
      rs.filter fun r => decide (key r ∉ seen ∧ ∀ r' ∈ rs, key r' = key r → ¬ r'.rid < r.rid) := by
  induction rs generalizing seen with
  | nil => rfl
  | cons a rs ih =>
    obtain ⟨h1, h2⟩ := List.pairwise_cons.1 hs
    unfold dedupGo
    by_cases hk : key a ∈ seen
    · rw [if_pos hk, List.filter_cons_of_neg (by simp [hk]), ih _ h2]
      apply List.filter_congr
      intro r hr
      simp only [decide_eq_decide, List.mem_cons, forall_eq_or_imp]
      constructor
      · rintro ⟨g1, g2⟩
        exact ⟨g1, fun e => absurd (e ▸ hk) g1, g2⟩
      · rintro ⟨g1, _, g3⟩
        exact ⟨g1, g3⟩
    · rw [if_neg hk, List.filter_cons_of_pos, ih _ h2]
      · congr 1
        apply List.filter_congr
        intro r hr
        simp only [decide_eq_decide, List.mem_cons, forall_eq_or_imp, not_or]
        constructor
        · rintro ⟨⟨g0, g1⟩, g2⟩
          exact ⟨g1, fun e => absurd e.symm g0, g2⟩
        · rintro ⟨g1, g2, g3⟩
          exact ⟨⟨fun e => g2 e.symm (h1 r hr), g1⟩, g3⟩
      · simp only [decide_eq_true_eq]
        refine ⟨hk, ?_⟩
        intro r' hr' _
        rcases List.mem_cons.1 hr' with rfl | hr'
        · exact lt_irrefl _
        · exact not_lt.2 (h1 r' hr').le

theorem mem_uniqueOn_plain {m : Mem} (hrid : "rid" ∈ m.cols) (hs : m.rows.Pairwise fun a b => a.rid < b.rid)
    {cs : List String} (hsub : cs ⊆ m.cols) (hr : "rid" ∉ cs) :
    memPlain (m.uniqueOn cs) = (memPlain m).unique (some cs) := by
  have hsub' : cs ++ ["rid"] ⊆ m.cols := by
    intro a ha
    rcases List.mem_append.1 ha with ha | ha
    · exact hsub ha
    · simp only [List.mem_singleton] at ha; subst ha; exact hrid
  have hf : (cs ++ ["rid"]).filter (fun c => decide (c ≠ "rid")) = cs := by
    rw [List.filter_append]
    have h1 : cs.filter (fun c => decide (c ≠ "rid")) = cs :=
      List.filter_eq_self.2 fun a ha => by
        simp only [ne_eq, decide_eq_true_eq]; rintro rfl; exact hr ha
    rw [h1]; simp
  simp only [memPlain, Mem.uniqueOn, Plain.unique, Option.getD_some, if_neg hr, hf]
  congr 1
  rw [dedupGo_eq_filter _ _ _ hs]
  have e : (m.rows.map (Row.toRec m.cols)).filter
      (fun r => decide (FirstOn cs (m.rows.map (Row.toRec m.cols)) r)) =
      (m.rows.filter fun r => decide (keyOn cs r ∉ ([] : List (List Val)) ∧
        ∀ r' ∈ m.rows, keyOn cs r' = keyOn cs r → ¬ r'.rid < r.rid)).map (Row.toRec m.cols) := by
    symm
    apply filter_plain
    intro r _
    simp only [decide_eq_decide, FirstOn, List.mem_map, forall_exists_index, and_imp, forall_apply_eq_imp_iff₂,
      List.not_mem_nil, not_false_eq_true, true_and]
    apply forall_congr'; intro r'
    apply forall_congr'; intro _
    have hk : ∀ q : Row, cs.map (cellOf (q.toRec m.cols)) = keyOn cs q := by
      intro q
      unfold keyOn
      exact List.map_congr_left fun c hc => cellOf_toRec _ _ _ (hsub hc)
    rw [hk, hk, cellOf_toRec _ _ _ hrid, cellOf_toRec _ _ _ hrid, get_rid, get_rid]
    simp only [Less, Nat.cast_lt]
  refine Eq.trans ?_ (congrArg (List.map (project (cs ++ ["rid"]))) e.symm)
  rw [List.map_map]
  apply List.map_congr_left
  intro r _
  exact (project_toRec _ _ _ hsub').symm

theorem mem_unique_plain {m : Mem} (hm : MemOk m) {cs : List String} (copy : Bool) (hsub : cs ⊆ m.cols)
    (hr : "rid" ∉ cs) :
    ∃ m', (BothOp.unique cs copy).onMem m = .ok m' ∧ MemOk m' ∧ memPlain m' = (memPlain m).unique (some cs) := by
  have hh : handleColumns m.cols (some cs) = .ok cs := by
    simp only [handleColumns]
    rw [if_pos]
    simp only [List.all_eq_true, decide_eq_true_eq]
    exact fun a ha => hsub ha
  have hok : ∀ d : Mem, d.rows = m.rows → d.cache = none → MemOk (d.uniqueOn cs) := by
    intro d hd hc
    refine ⟨?_, ?_, hc⟩
    · simp [Mem.uniqueOn, hr]
    · simp only [Mem.uniqueOn, hd]
      exact hm.sorted.sublist (dedupGo_sublist _ _ _)
  cases copy with
  | true =>
    refine ⟨m.copy.uniqueOn cs, ?_, hok _ rfl rfl, ?_⟩
    · simp only [BothOp.onMem, if_true, Mem.unique, hh]; rfl
    · exact mem_uniqueOn_plain (m := m.copy) hm.rid hm.sorted hsub hr
  | false =>
    refine ⟨m.uniqueOn cs, ?_, hok _ rfl hm.cache, ?_⟩
    · simp only [BothOp.onMem, Bool.false_eq_true, if_false, Mem.uniqueInPlace, hh]; rfl
    · exact mem_uniqueOn_plain hm.rid hm.sorted hsub hr

theorem mem_assign_plain {m : Mem} (hm : MemOk m) (hu : "user" ∈ m.cols) (hi : "item" ∈ m.cols)
    (hnn : ∀ r ∈ (memPlain m).recs, cellOf r "user" ≠ .null ∧ cellOf r "item" ≠ .null) :
    ∃ m', BothOp.assign.onMem m = .ok m' ∧ MemOk m' ∧ memPlain m' = (memPlain m).assign := by
  have h1 : ∀ r ∈ m.rows, r.get "user" ≠ .null ∧ r.get "item" ≠ .null := by
    intro r hr
    have := hnn _ (List.mem_map_of_mem hr)
    rwa [cellOf_toRec _ _ _ hu, cellOf_toRec _ _ _ hi] at this
  simp only [BothOp.onMem, memOutcome]
  rw [assignIds_eq m hu hi]
  refine ⟨_, rfl, ⟨?_, ?_, hm.cache⟩, ?_⟩
  · simp only [mem_addCol]; exact Or.inr (Or.inr hm.rid)
  · simp only [List.pairwise_map]
    exact hm.sorted
  · simp only [memPlain]
    rw [assign_plain m.cols m.rows m.hasIds hu hi (fun r hr => (h1 r hr).1) (fun r hr => (h1 r hr).2)]
    congr 1
    rw [List.map_map, List.map_map]
    apply List.map_congr_left
    intro r hr
    simp only [Function.comp_apply]
    unfold Row.toRec
    apply List.map_congr_left
    intro d _
    rw [idRow_get m.rows r hr (h1 r hr).1 (h1 r hr).2, stamp_get,
      codeOf_numberOf (List.mem_map_of_mem hr), codeOf_numberOf (List.mem_map_of_mem hr)]

theorem apply_cache (m : Mem) (c : String) (f : Val → Option Val) (h : m.cache = none) :
    (m.apply c f).1.cache = none := by
  unfold Mem.apply
  split
  · split
    · exact h
    · split
      · exact h
      · split
        · exact h
        · exact h
        · split
          · exact h
          · dsimp only
            rw [if_neg (by rw [h]; simp)]
            exact h
  · exact h

theorem mem_apply_plain {m : Mem} (hm : MemOk m) {c : String} {f : Val → Option Lit} {d : DType}
    (hf : ∀ r ∈ (memPlain m).recs, ∃ l, f (cellOf r c) = some l ∧ l.dtype = some d)
    (hc : c ∈ m.cols) (hid : c ∉ ["rid", "uid", "iid", "user", "item"]) (hne : (memPlain m).recs ≠ []) :
    ∃ m', (BothOp.apply c f).onMem m = .ok m' ∧ MemOk m' ∧
      memPlain m' = (memPlain m).apply c fun v => ((f v).map Lit.toVal).getD v := by
  have hne' : m.rows ≠ [] := by
    intro h; apply hne; simp [memPlain, h]
  have hrid : c ≠ "rid" := fun h => hid (by simp [h])
  have hf' : ∀ r ∈ m.rows, ∃ l, f (r.get c) = some l ∧ l.dtype = some d := by
    intro r hr
    have := hf (r.toRec m.cols) (List.mem_map_of_mem hr)
    rwa [cellOf_toRec _ _ _ hc] at this
  obtain ⟨m', h1, h2, h3, h4, h5, h6, h7, h8⟩ := C14_returns m c (fun v => (f v).map Lit.toVal)
    (fun v => ((f v).map Lit.toVal).getD v) hc hid hne' (by
      intro r hr
      obtain ⟨l, hl, hd⟩ := hf' r hr
      rw [hl]
      refine ⟨rfl, ?_⟩
      cases l <;> simp_all [Lit.toVal, Lit.dtype]) hm.cache
  have hcache : m'.cache = none := by
    have e : m' = (m.apply c fun v => (f v).map Lit.toVal).1 := by rw [h1]
    rw [e]
    exact apply_cache _ _ _ hm.cache
  refine ⟨m', by simp only [BothOp.onMem, memOutcome, h1], ⟨by rw [h2]; exact hm.rid, ?_, hcache⟩, ?_⟩
  · have hp : (m'.rows.map (·.rid)).Pairwise (· < ·) := by
      rw [h3, List.pairwise_map]; exact hm.sorted
    rwa [List.pairwise_map] at hp
  · simp only [memPlain, Plain.apply, h2, h6]
    congr 1
    have hl : m'.rows.length = m.rows.length := by simpa using congrArg List.length h3
    apply List.ext_getElem (by simp [hl])
    intro k g1 g2
    simp only [List.length_map] at g1 g2
    simp only [List.getElem_map, Row.toRec, List.map_map, Function.comp_apply]
    apply List.map_congr_left
    intro e he
    simp only [Function.comp_apply]
    congr 1
    by_cases hec : e = c
    · subst hec
      rw [if_pos rfl]
      have := List.getElem_of_eq h4 (i := k) (by simpa using g1)
      simpa using this
    · rw [if_neg hec]
      have := List.getElem_of_eq (h5 e hec) (i := k) (by simpa using g1)
      simpa using this

/-- What an operation means does not depend on the number of the dataset. -/
theorem works_inst (p : Plain) (op : BothOp) (i j : Nat) (h : Works p (op.onDb i)) : Works p (op.onDb j) := by
  cases op with
  | read o => cases o <;> exact h
  | _ => exact h

/-- A database operation that returned, on a dataset without a missing column. -/
theorem apply_returned {w : World} {i k : Nat} {c : String} {f : Val → Option Lit} {x : Inst}
    (hx : w.insts i = some x) (h : (runOp w (.apply i c f)).2 = .ok k) :
    c ∈ x.columns ∧ c ∉ ["rid", "uid", "iid", "user", "item"] ∧
      ∃ r0 rs, (w.read i (.values (some [c]))).2 = .ok (.recs (r0 :: rs)) := by
  have h' : (w.apply i c f).2 = none := by
    simp only [runOp, outcome] at h
    split at h
    · assumption
    · cases h
  simp only [World.apply, hx] at h'
  split at h'
  · rename_i h1
    split at h'
    · cases h'
    · rename_i h2
      refine ⟨h1, h2, ?_⟩
      split at h'
      · cases h'
      · rename_i w1 r0 rs heq
        exact ⟨r0, rs, by rw [heq]⟩
      · cases h'
  · cases h'

/-- One supported operation that returns on the database returns in memory and shows the same. -/
theorem both_step {names : List String} (hn : NamesOk names) {m : Mem} {w : World} {i k : Nat} {op : BothOp}
    (hm : MemOk m) (hg : Good names w) (hp : plainOf w i = some (memPlain m)) (hs : Shared names m w i op)
    (hk : (runOp w (op.onDb i)).2 = .ok k) :
    ∃ m', op.onMem m = .ok m' ∧ MemOk m' ∧ Good names (runOp w (op.onDb i)).1 ∧
      plainOf (runOp w (op.onDb i)).1 k = some (memPlain m') := by
  obtain ⟨g1, g2⟩ := step_good hn hg hs.1
  rw [hk] at g2
  obtain ⟨_, p, h1, h2⟩ := g2
  have hi : (op.onDb i).inst = i := by cases op <;> rfl
  rw [hi, hp] at h1
  cases h1
  obtain ⟨x, hx, hxc⟩ : ∃ x, w.insts i = some x ∧ x.columns = m.cols := by
    unfold plainOf at hp
    split at hp
    · rename_i x recs hx hv
      simp only [Option.some.injEq] at hp
      exact ⟨x, hx, congrArg Plain.cols hp⟩
    · cases hp
  have fin : ∀ m', op.onMem m = .ok m' → MemOk m' → (op.onDb i).effect (memPlain m) = some (memPlain m') →
      ∃ m', op.onMem m = .ok m' ∧ MemOk m' ∧ Good names (runOp w (op.onDb i)).1 ∧
        plainOf (runOp w (op.onDb i)).1 k = some (memPlain m') := by
    intro m' e1 e2 e3
    refine ⟨m', e1, e2, g1, ?_⟩
    rw [h2]
    simp only [setAt, if_true]
    exact e3
  cases op with
  | select ws cp =>
    obtain ⟨x1, x2⟩ := hs.1 _ x hp hx
    obtain ⟨m', e1, e2, e3⟩ := mem_select_plain hm cp x1 hs.2 (fun c hc r hr => ((x2 c hc).2.2 r hr).1)
    exact fin m' e1 e2 (by rw [e3]; rfl)
  | drop ids keep cp =>
    obtain ⟨m', e1, e2, e3⟩ := mem_drop_plain hm ids keep cp
    exact fin m' e1 e2 (by rw [e3]; rfl)
  | unique cs cp =>
    obtain ⟨m', e1, e2, e3⟩ := mem_unique_plain hm cp hs.2.1 hs.2.2
    exact fin m' e1 e2 (by rw [e3]; rfl)
  | assign =>
    obtain ⟨a1, a2, a3, _⟩ := hs.1 _ hp
    obtain ⟨m', e1, e2, e3⟩ := mem_assign_plain hm a1 a2 a3
    exact fin m' e1 e2 (by rw [e3]; rfl)
  | apply c f =>
    obtain ⟨d, hd⟩ := hs.1
    obtain ⟨b1, b2, r0, rs, b3⟩ := apply_returned hx hk
    have b4 := read_good hn hg hx hp b3
    simp only [ReadSpec] at b4
    obtain ⟨m', e1, e2, e3⟩ := mem_apply_plain hm (hd _ hp) (by rw [← hxc]; exact b1) b2
      (by intro h0; rw [h0] at b4; cases b4)
    exact fin m' e1 e2 (by rw [e3]; rfl)
  | copy => exact fin _ rfl ⟨hm.rid, hm.sorted, rfl⟩ rfl
  | read o => exact fin _ rfl hm rfl

end DRec
