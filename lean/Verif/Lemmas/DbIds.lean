import Verif.Lemmas.DbOps
import Verif.Lemmas.MemIds

/-! # Internal ids of the database dataset -/

namespace DRec

open Spec

/-! ## Removing -/

theorem filter_noIds {l : List String} (h1 : "uid" ∉ l) (h2 : "iid" ∉ l) :
    (l.filter fun c => decide (c ≠ "uid" ∧ c ≠ "iid")) = l := by
  rw [List.filter_eq_self]
  intro a ha
  simp only [decide_eq_true_eq]
  exact ⟨fun h => h1 (h ▸ ha), fun h => h2 (h ▸ ha)⟩

theorem removeIds_good {names : List String} {w : World} {j : Nat} {p : Plain} (h : Good names w)
    (hp : plainOf w j = some p) (hl : IdsLast p.cols) :
    (w.removeIds j).2 = none ∧ Good names (w.removeIds j).1 ∧
      plainOf (w.removeIds j).1 = setAt (plainOf w) j (some p.removeIds) := by
  obtain ⟨x, t, rows, hx, ht, hs, rfl⟩ := plain_inv h hp
  unfold World.removeIds
  simp only [hx]
  rcases hl with ⟨c0, hc, hu, hi⟩ | ⟨hu, hi⟩
  · simp only at hc
    have e1 : (x.columns.erase "uid").erase "iid" = c0 := by
      rw [hc, List.erase_append_right _ hu]
      simp only [List.erase_cons_head]
      rw [List.erase_append_right _ hi]
      simp
    rw [if_pos (by rw [hc]; simp), if_pos (by rw [hc]; simp), e1]
    obtain ⟨sc, h1, h2, h3⟩ := hs.ev
    have hrid : "rid" ∈ c0 := by
      have := hs.rid
      rw [hc] at this
      simpa using this
    have hsub : c0 ⊆ x.columns := by rw [hc]; simp
    have hy : Shows t { x with hasIds := false, columns := c0 } rows :=
      ⟨hrid, hs.types, ⟨sc, h1, fun a ha => h2 (hsub ha), h3.imp id fun h3 =>
        List.IsPrefix.trans ⟨_, hc.symm⟩ h3⟩, hs.len⟩
    obtain ⟨g1, g2⟩ := (h.but j).put (y := { x with hasIds := false, columns := c0 }) hx rfl ht hy
    refine ⟨rfl, g1, g2.trans ?_⟩
    congr 2
    have ef : (x.columns.filter fun c => decide (c ≠ "uid" ∧ c ≠ "iid")) = c0 := by
      rw [hc, List.filter_append, filter_noIds hu hi]
      simp
    simp only [Plain.removeIds, ef, List.map_map]
    congr 1
    apply List.map_congr_left
    intro r _
    exact (project_toRec _ _ _ hsub).symm
  · simp only at hu hi
    rw [if_neg hu]
    have hy : Shows t { x with hasIds := false } rows := ⟨hs.rid, hs.types, hs.ev, hs.len⟩
    obtain ⟨g1, g2⟩ := (h.but j).put (y := { x with hasIds := false }) hx rfl ht hy
    refine ⟨rfl, g1, g2.trans ?_⟩
    congr 2
    simp only [Plain.removeIds, filter_noIds hu hi, List.map_map]
    congr 1
    apply List.map_congr_left
    intro r _
    exact (project_toRec _ _ _ (fun _ h => h)).symm

/-! ## Assigning -/

/-- A map on rows that only touches the id columns. -/
structure IdMap (g : Row → Row) : Prop where
  rid : ∀ r, (g r).rid = r.rid
  get : ∀ r c, NotId c → (g r).get c = r.get c

theorem IdMap.keyOn {g : Row → Row} (h : IdMap g) {cs : List String} (hc : ∀ c ∈ cs, NotId c) (r : Row) :
    keyOn cs (g r) = keyOn cs r := by
  unfold DRec.keyOn
  exact List.map_congr_left fun c hm => h.get r c (hc c hm)

theorem IdMap.toRec {g : Row → Row} (h : IdMap g) {cs : List String} (hc : ∀ c ∈ cs, NotId c) (r : Row) :
    (g r).toRec cs = r.toRec cs := by
  unfold Row.toRec
  exact List.map_congr_left fun c hm => by rw [h.get r c (hc c hm)]

theorem IdMap.holds {g : Row → Row} (h : IdMap g) {c : SqlCond} (hc : NoIdsCond c) (sc : List String) (rows : List Row)
    (r : Row) : c.holds sc (rows.map g) (g r) = c.holds sc rows r := by
  cases c with
  | cmp c op rhs =>
    obtain ⟨h1, h2⟩ := hc
    simp only [SqlCond.holds, h.get r c h1]
    congr 1
    cases rhs with
    | num q => rfl
    | quoted s =>
      simp only [Rhs.value]
      cases hf : sc.find? (sameName s) with
      | none => rfl
      | some n =>
        have hn := List.find?_some hf
        apply h.get
        refine ⟨?_, ?_⟩
        · rintro rfl; rw [h2.1] at hn; cases hn
        · rintro rfl; rw [h2.2] at hn; cases hn
  | ridIn l => simp only [SqlCond.holds, h.rid]
  | ridNotIn l => simp only [SqlCond.holds, h.rid]
  | ridFirst cs =>
    simp only [SqlCond.holds, List.all_map]
    congr 1
    funext r'
    simp only [Function.comp_apply, h.keyOn hc, h.rid]

theorem IdMap.evalSrc {g : Row → Row} (h : IdMap g) {t : Table} {s : Src} (hs : NoIdsSrc s) {sc : List String}
    {rows : List Row} (he : evalSrc t s = .ok (sc, rows)) :
    DRec.evalSrc ⟨t.cols, t.rows.map g⟩ s = .ok (sc, rows.map g) := by
  induction s generalizing sc rows with
  | table =>
    simp only [DRec.evalSrc, Except.ok.injEq, Prod.mk.injEq] at he ⊢
    obtain ⟨rfl, rfl⟩ := he
    exact ⟨rfl, rfl⟩
  | sub cols src conds ih =>
    obtain ⟨_, h2, h3⟩ := hs
    simp only [DRec.evalSrc] at he
    cases hsrc : DRec.evalSrc t src with
    | error e => rw [hsrc] at he; cases he
    | ok q =>
      obtain ⟨sc0, rows0⟩ := q
      rw [hsrc] at he
      simp only at he
      simp only [DRec.evalSrc, ih h2 hsrc]
      split at he
      · rename_i hc
        rw [if_pos hc]
        simp only [Except.ok.injEq, Prod.mk.injEq] at he
        obtain ⟨rfl, rfl⟩ := he
        congr 2
        rw [List.filter_map]
        congr 1
        apply List.filter_congr
        intro r _
        simp only [Function.comp_apply]
        rw [Bool.eq_iff_iff, List.all_eq_true, List.all_eq_true]
        constructor
        · intro hh c hm; rw [← h.holds (h3 c hm)]; exact hh c hm
        · intro hh c hm; rw [h.holds (h3 c hm)]; exact hh c hm
      · cases he

theorem IdMap.comp {f g : Row → Row} (hf : IdMap f) (hg : IdMap g) : IdMap (f ∘ g) :=
  ⟨fun r => (hf.rid _).trans (hg.rid r), fun r c hc => (hf.get _ c hc).trans (hg.get r c hc)⟩

/-- The map of `numberBy`. -/
def numberRow (raw idc : String) (vs : List Val) (r : Row) : Row :=
  if r.get raw = .null then r else r.set idc (codeOf (distinctVals vs) (r.get raw))

theorem numberBy_eq (raw idc : String) (rows : List Row) :
    numberBy raw idc rows = rows.map (numberRow raw idc (rows.map (·.get raw))) := rfl

theorem numberRow_idMap (raw idc : String) (vs : List Val) (h : idc = "uid" ∨ idc = "iid") :
    IdMap (numberRow raw idc vs) := by
  have hr : idc ≠ "rid" := by rcases h with rfl | rfl <;> decide
  constructor
  · intro r; unfold numberRow; split <;> rfl
  · intro r c hc
    unfold numberRow
    split
    · rfl
    · rw [Row.get_set _ _ _ _ hr, if_neg]
      rcases h with rfl | rfl
      · exact hc.1
      · exact hc.2

/-- The map of an assignment. -/
def idRow (rows : List Row) : Row → Row :=
  numberRow "item" "iid" (rows.map (·.get "item")) ∘ numberRow "user" "uid" (rows.map (·.get "user"))

theorem idRow_idMap (rows : List Row) : IdMap (idRow rows) :=
  (numberRow_idMap _ _ _ (Or.inr rfl)).comp (numberRow_idMap _ _ _ (Or.inl rfl))

theorem number_both (rows : List Row) :
    numberBy "item" "iid" (numberBy "user" "uid" rows) = rows.map (idRow rows) := by
  rw [numberBy_eq, numberBy_eq, List.map_map, List.map_map]
  congr 3
  apply List.map_congr_left
  intro r _
  exact (numberRow_idMap _ _ _ (Or.inl rfl)).get r "item" (by decide)

theorem takeWhile_first {pre post : List Val} {v : Val} (h : v ∉ pre) :
    (pre ++ v :: post).takeWhile (fun a => decide (a ≠ v)) = pre := by
  induction pre with
  | nil => simp
  | cons a pre ih =>
    simp only [List.mem_cons, not_or] at h
    rw [List.cons_append, List.takeWhile_cons_of_pos (by simpa using Ne.symm h.1), ih h.2]

theorem codeOf_numberOf {vs : List Val} {v : Val} (h : v ∈ vs) : codeOf (distinctVals vs) v = numberOf vs v := by
  obtain ⟨pre, post, rfl, hv⟩ := List.eq_append_cons_of_mem h
  unfold codeOf numberOf
  rw [idxOf_distinctVals_first _ _ _ hv, takeWhile_first hv]

/-- Writing to the table of an object, changing the object. -/
theorem touch_good {names : List String} {w : World} {i : Nat} {x y : Inst} {t t' : Table} {rows : List Row}
    (h : Good names w) (hx : w.insts i = some x) (ht : w.tables x.table = some t) (hok : TableOk names t')
    (hy : y.table = x.table) (hs : Shows t' y rows)
    (hoth : ∀ k z rows, k ≠ i → w.insts k = some z → z.table = x.table → Shows t z rows →
      ∃ rows', Shows t' z rows' ∧ rows'.map (Row.toRec z.columns) = rows.map (Row.toRec z.columns)) :
    Good names ((w.putT x.table (some t')).put i y) ∧
      plainOf ((w.putT x.table (some t')).put i y) =
        setAt (plainOf w) i (some ⟨y.columns, rows.map (Row.toRec y.columns), y.hasIds⟩) := by
  have hreg : Reg (w.putT x.table (some t')) := h.reg.putT _ _
  have hself : (w.putT x.table (some t')).tables x.table = some t' := by simp [World.putT]
  have hother : ∀ n, n ≠ x.table → (w.putT x.table (some t')).tables n = w.tables n := by
    intro n hn; simp [World.putT, hn]
  have hbut : GoodBut names (some i) (w.putT x.table (some t')) := by
    refine ⟨hreg, h.gens, ?_, ?_⟩
    · intro n u hu
      by_cases hn : n = x.table
      · subst hn; rw [hself] at hu; cases hu; exact hok
      · rw [hother n hn] at hu; exact h.tables _ _ hu
    · intro k z hk hz
      have hki : k ≠ i := by simpa using hk
      have hz' : w.insts k = some z := hz
      obtain ⟨tz, rz, h1, h2⟩ := h.get hz'
      by_cases hn : z.table = x.table
      · rw [hn, ht] at h1; cases h1
        obtain ⟨rows', h3, _⟩ := hoth k z rz hki hz' hn h2
        exact ⟨t', rows', by rw [hn]; exact hself, h3⟩
      · exact ⟨tz, rz, by rw [hother _ hn]; exact h1, h2⟩
  obtain ⟨g1, g2⟩ := hbut.put (x := x) (y := y) hx hy hself hs
  refine ⟨g1, g2.trans ?_⟩
  funext k
  by_cases hki : k = i
  · simp [setAt, hki]
  · simp only [setAt, hki, if_false]
    cases hz : w.insts k with
    | none =>
      rw [plainOf_none hz, plainOf_none (w := w.putT x.table (some t')) hz]
    | some z =>
      obtain ⟨tz, rz, h1, h2⟩ := h.get hz
      by_cases hn : z.table = x.table
      · rw [hn, ht] at h1; cases h1
        obtain ⟨rows', h3, h4⟩ := hoth k z rz hki hz hn h2
        rw [plainOf_eq (w := w.putT x.table (some t')) hz (by rw [hn]; exact hself) h3, h4,
          plainOf_eq hz (by rw [hn]; exact ht) h2]
      · exact plainOf_congr (w := w) rfl fun u hu => by rw [hz] at hu; cases hu; exact hother _ hn

theorem TableOk.map {names : List String} {t : Table} (h : TableOk names t) {g : Row → Row}
    (hg : ∀ r, (g r).rid = r.rid) : TableOk names ⟨t.cols, t.rows.map g⟩ := by
  refine ⟨?_, h.names, h.ids⟩
  simp only [List.pairwise_map, hg]
  exact h.sorted

theorem IdMap.shows {g : Row → Row} (h : IdMap g) {t : Table} {x : Inst} {rows : List Row} (hs : Shows t x rows)
    (hx : NoIdsSrc x.state) : Shows ⟨t.cols, t.rows.map g⟩ x (rows.map g) := by
  obtain ⟨sc, h1, h2, h3⟩ := hs.ev
  exact ⟨hs.rid, hs.types, ⟨sc, h.evalSrc hx h1, h2, h3⟩, by rw [List.length_map]; exact hs.len⟩

theorem write_toRec {cols : List String} {c : String} {f : Rec → Val} {rows : List Row} {b : Bool} {g : Row → Row}
    (hg : ∀ r ∈ rows, ∀ d ∈ (if c ∈ cols then cols else cols ++ [c]),
      (g r).get d = if d = c then f (r.toRec cols) else r.get d) :
    (Plain.write c f ⟨cols, rows.map (Row.toRec cols), b⟩) =
      ⟨addCol cols c, (rows.map g).map (Row.toRec (addCol cols c)), b⟩ := by
  unfold Plain.write addCol
  simp only [List.map_map]
  congr 1
  apply List.map_congr_left
  intro r hr
  simp only [Function.comp_apply]
  conv_rhs => rw [Row.toRec]
  apply List.map_congr_left
  intro d hd
  rw [hg r hr d hd]
  congr 1
  by_cases hdc : d = c
  · simp [hdc]
  · simp only [hdc, if_false]
    apply cellOf_toRec
    split at hd
    · exact hd
    · simpa [hdc] using hd

theorem idRow_get (rows : List Row) (r : Row) (hr : r ∈ rows) (hu : r.get "user" ≠ .null)
    (hi : r.get "item" ≠ .null) (d : String) :
    (idRow rows r).get d = if d = "iid" then numberOf (rows.map (·.get "item")) (r.get "item")
      else if d = "uid" then numberOf (rows.map (·.get "user")) (r.get "user") else r.get d := by
  unfold idRow
  simp only [Function.comp_apply]
  have e1 : numberRow "user" "uid" (rows.map (·.get "user")) r =
      r.set "uid" (codeOf (distinctVals (rows.map (·.get "user"))) (r.get "user")) := by
    unfold numberRow; rw [if_neg hu]
  rw [e1]
  have e2 : (r.set "uid" (codeOf (distinctVals (rows.map (·.get "user"))) (r.get "user"))).get "item" =
      r.get "item" := by
    rw [Row.get_set _ _ _ _ (by decide), if_neg (by decide)]
  unfold numberRow
  rw [e2, if_neg hi, Row.get_set _ _ _ _ (by decide), Row.get_set _ _ _ _ (by decide),
    codeOf_numberOf (List.mem_map_of_mem hr), codeOf_numberOf (List.mem_map_of_mem hr)]

/-- What an assignment shows. -/
theorem assign_plain (cols : List String) (rows : List Row) (b : Bool) (hu : "user" ∈ cols) (hi : "item" ∈ cols)
    (hnu : ∀ r ∈ rows, r.get "user" ≠ .null) (hni : ∀ r ∈ rows, r.get "item" ≠ .null) :
    Plain.assign ⟨cols, rows.map (Row.toRec cols), b⟩ =
      ⟨addCol (addCol cols "uid") "iid",
        (rows.map (idRow rows)).map (Row.toRec (addCol (addCol cols "uid") "iid")), true⟩ := by
  have hus : (rows.map (Row.toRec cols)).map (cellOf · "user") = rows.map (·.get "user") := by
    rw [List.map_map]
    exact List.map_congr_left fun r _ => cellOf_toRec _ _ _ hu
  have his : (rows.map (Row.toRec cols)).map (cellOf · "item") = rows.map (·.get "item") := by
    rw [List.map_map]
    exact List.map_congr_left fun r _ => cellOf_toRec _ _ _ hi
  unfold Plain.assign
  simp only [hus, his]
  rw [write_toRec (g := fun r => r.set "uid" (numberOf (rows.map (·.get "user")) (r.get "user"))) (by
    intro r _ d _
    rw [Row.get_set _ _ _ _ (by decide), cellOf_toRec _ _ _ hu])]
  rw [write_toRec (g := fun r => r.set "iid" (numberOf (rows.map (·.get "item")) (r.get "item"))) (by
    intro r _ d _
    rw [Row.get_set _ _ _ _ (by decide), cellOf_toRec _ _ _ (by simp [mem_addCol, hi])])]
  congr 1
  rw [List.map_map, List.map_map, List.map_map]
  apply List.map_congr_left
  intro r hr
  simp only [Function.comp_apply]
  unfold Row.toRec
  apply List.map_congr_left
  intro d _
  rw [idRow_get rows r hr (hnu r hr) (hni r hr), Row.get_set _ _ _ _ (by decide), Row.get_set _ _ _ _ (by decide),
    Row.get_set _ _ _ _ (by decide), if_neg (show "item" ≠ "uid" by decide)]

theorem assign_good {names : List String} (hn : NamesOk names) {w : World} {j : Nat} {p : Plain}
    (h : Good names w) (hp : plainOf w j = some p) (hu : "user" ∈ p.cols) (hi : "item" ∈ p.cols)
    (hnn : ∀ r ∈ p.recs, cellOf r "user" ≠ .null ∧ cellOf r "item" ≠ .null) (hsafe : IdSafe w j) :
    Good names (w.assign j).1 ∧
    ((w.assign j).2 = none → plainOf (w.assign j).1 = setAt (plainOf w) j (some p.assign)) ∧
    ((w.assign j).2 ≠ none → plainOf (w.assign j).1 = plainOf w) ∧
    (FullCols p.cols → (w.assign j).2 = none) := by
  obtain ⟨x, t0, rows0, hx, ht0, hs0, hpe⟩ := plain_inv h hp
  obtain ⟨k1, k2, k3, k4, k5⟩ := optimize_good hn h hx true
  unfold World.assign
  cases he : (w.optimize j true).2 with
  | some e =>
    have eo : w.optimize j true = ((w.optimize j true).1, some e) := by rw [← he]
    rw [eo]
    refine ⟨k1, fun h => by simp at h, fun _ => k2, fun hf => ?_⟩
    rw [hpe] at hf
    have := k5 hf
    rw [he] at this; cases this
  | none =>
    have eo : w.optimize j true = ((w.optimize j true).1, none) := by rw [← he]
    rw [eo]
    have hred := k4 he
    obtain ⟨y, t, rows, hy, ht, hst, hc, hh, hty, hs, hsole⟩ := hred.now
    obtain ⟨ty, hty'⟩ := Option.isSome_iff_exists.1 hs.types
    simp only [hy, hty', ht]
    -- the rows of the view are those of the table
    have hrows : rows = t.rows := by
      obtain ⟨sc, h1, _, _⟩ := hs.ev
      rw [hst] at h1
      simp only [evalSrc, Except.ok.injEq, Prod.mk.injEq] at h1
      exact h1.2.symm
    subst hrows
    have hpy : p = ⟨y.columns, t.rows.map (Row.toRec y.columns), y.hasIds⟩ := by
      have := plainOf_eq hy ht hs
      rw [k2, hp] at this
      exact Option.some.inj this
    have hu' : "user" ∈ y.columns := by rw [hpy] at hu; exact hu
    have hi' : "item" ∈ y.columns := by rw [hpy] at hi; exact hi
    have hnu : ∀ r ∈ t.rows, r.get "user" ≠ .null ∧ r.get "item" ≠ .null := by
      intro r hr
      have := hnn (r.toRec y.columns) (by rw [hpy]; exact List.mem_map_of_mem hr)
      rwa [cellOf_toRec _ _ _ hu', cellOf_toRec _ _ _ hi'] at this
    have hok := (k1.tables _ _ ht)
    rw [number_both]
    have hoth : ∀ k z rz, k ≠ j → (w.optimize j true).1.insts k = some z → z.table = y.table → Shows t z rz →
        ∃ rz', Shows ⟨t.cols, t.rows.map (idRow t.rows)⟩ z rz' ∧
          rz'.map (Row.toRec z.columns) = rz.map (Row.toRec z.columns) := by
      intro k z rz hkj hz hzt hsz
      have hxt : x.state = .table := by
        by_contra hxt
        have hus := hsole (Or.inl hxt)
        obtain ⟨us, hus', hk⟩ := k1.reg.own k z hz
        rw [hzt, hus] at hus'
        cases hus'
        simp only [List.mem_singleton] at hk
        exact hkj hk
      have hw1 := hred.skip hxt rfl
      have hyx : y = x.reset := by
        rw [hw1, put_self] at hy
        exact (Option.some.inj hy).symm
      have htab : y.table = x.table := by rw [hyx]; rfl
      have ht' : w.tables x.table = some t := by
        rw [hw1, htab] at ht; exact ht
      rw [k3 k hkj] at hz
      rcases hsafe x t hx hxt ht' with hfix | hfree
      · rw [number_both] at hfix
        rw [hfix]
        exact ⟨rz, hsz, rfl⟩
      · obtain ⟨f1, f2⟩ := hfree k z hkj hz (hzt.trans htab)
        refine ⟨rz.map (idRow t.rows), (idRow_idMap _).shows hsz f2, ?_⟩
        rw [List.map_map]
        exact List.map_congr_left fun r _ => (idRow_idMap _).toRec f1 r
    obtain ⟨g1, g2⟩ := touch_good (t' := ⟨t.cols, t.rows.map (idRow t.rows)⟩)
      (y := { y with columns := addCol (addCol y.columns "uid") "iid", hasIds := true,
                     types := some fun c => if c = "uid" ∨ c = "iid" then .int else ty c })
      (rows := t.rows.map (idRow t.rows)) k1 hy ht (hok.map (idRow_idMap _).rid) rfl
      ⟨by simp only [mem_addCol]; exact Or.inr (Or.inr hs.rid), rfl,
        ⟨t.cols, by simp only [hst, evalSrc], by
          intro a ha
          simp only [mem_addCol] at ha
          rcases ha with rfl | rfl | ha
          · exact hok.ids.2
          · exact hok.ids.1
          · exact hs.cols ha, Or.inl hst⟩, by simp only [List.length_map]; exact hs.len⟩ hoth
    refine ⟨g1, fun _ => ?_, fun h => absurd rfl h, fun _ => by simp⟩
    rw [g2, k2]
    congr 2
    rw [hpy, assign_plain _ _ _ hu' hi' (fun r hr => (hnu r hr).1) (fun r hr => (hnu r hr).2)]

end DRec
