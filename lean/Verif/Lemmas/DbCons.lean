import Verif.Lemmas.DbHistory

/-! # Ids and raw values in the tables of a database dataset -/

namespace DRec

open Spec

/-- The two columns go together: equal raw values have equal ids, and equal ids belong to equal raw values. -/
def Cons (raw idc : String) (rows : List Row) : Prop :=
  ∀ r ∈ rows, ∀ r' ∈ rows, (r.get raw = r'.get raw → r.get idc = r'.get idc) ∧
    (r.get idc ≠ .null → r.get idc = r'.get idc → r.get raw = r'.get raw)

/-- Both pairs of columns. -/
def Cons2 (rows : List Row) : Prop := Cons "user" "uid" rows ∧ Cons "item" "iid" rows

theorem Cons.sub {raw idc : String} {rows rows' : List Row} (h : Cons raw idc rows) (hs : rows' ⊆ rows) :
    Cons raw idc rows' := fun r hr r' hr' => h r (hs hr) r' (hs hr')

theorem Cons2.sub {rows rows' : List Row} (h : Cons2 rows) (hs : rows' ⊆ rows) : Cons2 rows' :=
  ⟨h.1.sub hs, h.2.sub hs⟩

/-- Any map that keeps the raw column, and keeps or empties the id column. -/
theorem Cons.map {raw idc : String} {rows : List Row} (h : Cons raw idc rows) (g : Row → Row)
    (h1 : ∀ r ∈ rows, (g r).get raw = r.get raw)
    (h2 : (∀ r ∈ rows, (g r).get idc = r.get idc) ∨ ∀ r ∈ rows, (g r).get idc = .null) :
    Cons raw idc (rows.map g) := by
  intro r hr r' hr'
  obtain ⟨a, ha, rfl⟩ := List.mem_map.1 hr
  obtain ⟨a', ha', rfl⟩ := List.mem_map.1 hr'
  rw [h1 a ha, h1 a' ha']
  rcases h2 with h2 | h2
  · rw [h2 a ha, h2 a' ha']; exact h a ha a' ha'
  · rw [h2 a ha, h2 a' ha']; exact ⟨fun _ => rfl, fun h => absurd rfl h⟩

theorem get_restrict (cs : List String) (r : Row) (c : String) :
    (r.restrict cs).get c = if c = "rid" then .num r.rid else if c ∈ cs then r.get c else .null := by
  unfold Row.restrict Row.get
  by_cases h : c = "rid"
  · simp [h]
  · simp [h]

theorem Cons.restrict {raw idc : String} {rows : List Row} (h : Cons raw idc rows) {cs : List String}
    (hr : raw ∈ cs) (hid : idc ≠ "rid") : Cons raw idc (rows.map (Row.restrict cs)) := by
  apply h.map
  · intro r _
    rw [get_restrict]
    rw [if_pos hr]
    split
    · rename_i e; rw [e]; rfl
    · rfl
  · by_cases hc : idc ∈ cs
    · left; intro r _; rw [get_restrict, if_neg hid, if_pos hc]
    · right; intro r _; rw [get_restrict, if_neg hid, if_neg hc]

theorem Cons2.restrict {rows : List Row} (h : Cons2 rows) {cs : List String} (hu : "user" ∈ cs) (hi : "item" ∈ cs) :
    Cons2 (rows.map (Row.restrict cs)) := ⟨h.1.restrict hu (by decide), h.2.restrict hi (by decide)⟩

/-- In every table the columns go together. -/
def AllCons (w : World) : Prop := ∀ n t, w.tables n = some t → Cons2 t.rows

theorem AllCons.putT {w : World} (h : AllCons w) (n : Nat) (t : Option Table) (ht : ∀ t', t = some t' → Cons2 t'.rows) :
    AllCons (w.putT n t) := by
  intro m t' hm
  simp only [World.putT] at hm
  split at hm
  · exact ht t' hm
  · exact h m t' hm

theorem buildTable_cols {x : Inst} {cols : List String} (h : x.buildTable = .ok cols) :
    "user" ∈ x.columns ∧ "item" ∈ x.columns := by
  unfold Inst.buildTable at h
  split at h
  · rename_i hc
    rw [List.all_eq_true] at hc
    exact ⟨by simpa using hc "user" (by decide), by simpa using hc "item" (by decide)⟩
  · cases h

theorem cons_shrink {w : World} (h : AllCons w) {i : Nat} {x : Inst} {t : Table} (ht : Cons2 t.rows) :
    AllCons (w.shrink i x t).1 := by
  unfold World.shrink
  split
  · exact h
  · split
    · exact h
    · split
      · refine h.putT _ _ fun t' e => ?_
        cases e
        exact ht.sub List.filter_sublist.subset
      · exact h

theorem cons_split {w : World} (h : AllCons w) {i : Nat} {x : Inst} {t : Table} (us : List Nat) (ht : Cons2 t.rows) :
    AllCons (w.split i x t us).1 := by
  unfold World.split
  split
  · exact h
  · rename_i cols hb
    split
    · exact h
    · rename_i sc rows he
      split
      · refine h.putT _ _ fun t' e => ?_
        cases e
        obtain ⟨hu, hi⟩ := buildTable_cols hb
        exact (ht.sub (evalSrc_sub he).1.subset).restrict hu hi
      · exact h

theorem cons_optimize {w : World} (h : AllCons w) (i : Nat) (b : Bool) : AllCons (w.optimize i b).1 := by
  unfold World.optimize
  split
  · exact h
  · split
    · exact h
    · split
      · exact h
      · split
        · rename_i us t hu ht
          split
          · exact cons_shrink (w := w.put i _) h (h _ _ ht)
          · exact cons_split (w := w.put i _) h _ (h _ _ ht)
        · exact h

theorem cons_record {w : World} (h : AllCons w) (i : Nat) : AllCons (w.record i).1 := by
  unfold World.record
  split
  · exact h
  · split
    · exact cons_optimize (w := w.put i _) h _ _
    · exact h

theorem cons_update {w : World} (h : AllCons w) (i : Nat) (s : Src) : AllCons (w.update i s).1 := by
  unfold World.update
  split
  · exact h
  · split
    · exact h
    · split
      · exact h
      · dsimp only
        split
        · exact cons_optimize (w := w.put i _) h _ _
        · exact h

theorem cons_copy {w : World} (h : AllCons w) (i : Nat) : AllCons (w.copy i).1 := by
  unfold World.copy
  split
  · exact h
  · split <;> exact h

theorem cons_leaveTable {w : World} (h : AllCons w) (i n : Nat) : AllCons (w.leaveTable i n).1 := by
  unfold World.leaveTable
  split
  · exact h
  · split
    · split
      · split
        · exact AllCons.putT (w := w.putU n none) h _ _ (by simp)
        · exact h
      · exact h
    · exact h

theorem cons_leaveFile {w : World} (h : AllCons w) (i : Nat) : AllCons (w.leaveFile i).1 := by
  unfold World.leaveFile
  split
  · exact h
  · split
    · split
      · split
        · intro n t ht; cases ht
        · exact h
      · exact h
    · exact h

theorem cons_close {w : World} (h : AllCons w) (i : Nat) : AllCons (w.close i).1 := by
  unfold World.close
  split
  · exact h
  · rename_i x hx
    have := cons_leaveTable h i x.table
    split
    · rename_i w1 e he; rw [he] at this; exact this
    · rename_i w1 he
      rw [he] at this
      exact cons_leaveFile this i

theorem cons_onCopy {w : World} (h : AllCons w) (i : Nat) (f : World → Nat → World × Option Err)
    (hf : ∀ w j, AllCons w → AllCons (f w j).1) : AllCons (w.onCopy i f).1 := by
  have hc := cons_copy h i
  unfold World.onCopy
  split
  · rename_i w1 e he; rw [he] at hc; exact hc
  · rename_i w1 he
    rw [he] at hc
    have hr := cons_record hc i
    split
    · rename_i w2 e hr2
      rw [hr2] at hr
      exact cons_close hr _
    · rename_i w2 hr2
      rw [hr2] at hr
      have h3 := hf w2 w.nextI hr
      split
      · rename_i w3 e hw3
        rw [hw3] at h3
        exact cons_close h3 _
      · rename_i w3 hw3
        rw [hw3] at h3
        exact h3

theorem cons_inPlaceOrCopy {w : World} (h : AllCons w) (i : Nat) (c : Bool) (f : World → Nat → World × Option Err)
    (hf : ∀ w j, AllCons w → AllCons (f w j).1) : AllCons (w.inPlaceOrCopy i c f).1 := by
  unfold World.inPlaceOrCopy
  split
  · exact cons_onCopy h i f hf
  · have := hf w i h
    split
    · rename_i w1 e he; rw [he] at this; exact this
    · rename_i w1 he; rw [he] at this; exact this

theorem cons_selectOn {w : World} (h : AllCons w) (i : Nat) (q : List Char) : AllCons (w.selectOn i q).1 := by
  unfold World.selectOn
  split
  · exact h
  · split
    · exact h
    · exact cons_update h _ _

theorem cons_dropOn {w : World} (h : AllCons w) (i : Nat) (ids : List Nat) (b : Bool) :
    AllCons (w.dropOn i ids b).1 := by
  unfold World.dropOn
  split
  · exact h
  · exact cons_update h _ _

theorem cons_uniqueOn {w : World} (h : AllCons w) (i : Nat) (l : List String) : AllCons (w.uniqueOn i l).1 := by
  unfold World.uniqueOn
  split
  · exact h
  · exact cons_update (w := w.put i _) h _ _

theorem cons_read {w : World} (h : AllCons w) (i : Nat) (op : ReadOp) : AllCons (w.read i op).1 := by
  unfold World.read
  have := cons_record h i
  split
  · rename_i w1 e he; rw [he] at this; exact this
  · rename_i w1 he; rw [he] at this; exact this

theorem numberOf_inj {vs : List Val} {v v' : Val} (h : v ∈ vs) (h' : v' ∈ vs) (he : numberOf vs v = numberOf vs v') :
    v = v' := by
  rw [← codeOf_numberOf h, ← codeOf_numberOf h'] at he
  unfold codeOf at he
  have hi : (distinctVals vs).idxOf v = (distinctVals vs).idxOf v' := by
    have := Val.num.inj he
    exact_mod_cast this
  have hm : v ∈ distinctVals vs := (mem_distinctVals _ _).2 h
  exact List.idxOf_inj hm |>.1 hi

theorem idRow_cons {rows : List Row} (hu : ∀ r ∈ rows, r.get "user" ≠ .null) (hi : ∀ r ∈ rows, r.get "item" ≠ .null) :
    Cons2 (rows.map (idRow rows)) := by
  have hget := fun r hr d => idRow_get rows r hr (hu r hr) (hi r hr) d
  constructor
  · intro r hr r' hr'
    obtain ⟨a, ha, rfl⟩ := List.mem_map.1 hr
    obtain ⟨a', ha', rfl⟩ := List.mem_map.1 hr'
    rw [hget a ha "user", hget a ha "uid", hget a' ha' "user", hget a' ha' "uid"]
    simp only [show ("user" : String) ≠ "iid" from by decide, show ("user" : String) ≠ "uid" from by decide,
      show ("uid" : String) ≠ "iid" from by decide, if_false, if_true]
    exact ⟨fun h => by rw [h], fun _ h => numberOf_inj (List.mem_map_of_mem (f := (·.get "user")) ha)
      (List.mem_map_of_mem (f := (·.get "user")) ha') h⟩
  · intro r hr r' hr'
    obtain ⟨a, ha, rfl⟩ := List.mem_map.1 hr
    obtain ⟨a', ha', rfl⟩ := List.mem_map.1 hr'
    rw [hget a ha "item", hget a ha "iid", hget a' ha' "item", hget a' ha' "iid"]
    simp only [show ("item" : String) ≠ "iid" from by decide, show ("item" : String) ≠ "uid" from by decide,
      if_false, if_true]
    exact ⟨fun h => by rw [h], fun _ h => numberOf_inj (List.mem_map_of_mem (f := (·.get "item")) ha)
      (List.mem_map_of_mem (f := (·.get "item")) ha') h⟩

theorem cons_assign {names : List String} (hn : NamesOk names) {w : World} {j : Nat} {p : Plain}
    (h : Good names w) (hc : AllCons w) (hp : plainOf w j = some p) (hu : "user" ∈ p.cols) (hi : "item" ∈ p.cols)
    (hnn : ∀ r ∈ p.recs, cellOf r "user" ≠ .null ∧ cellOf r "item" ≠ .null) : AllCons (w.assign j).1 := by
  obtain ⟨x, t0, rows0, hx, ht0, hs0, hpe⟩ := plain_inv h hp
  obtain ⟨k1, k2, k3, k4, k5⟩ := optimize_good hn h hx true
  have hco := cons_optimize hc j true
  unfold World.assign
  cases he : (w.optimize j true).2 with
  | some e =>
    have ef : w.optimize j true = ((w.optimize j true).1, some e) := by rw [← he]
    rw [ef]
    exact hco
  | none =>
    have ef : w.optimize j true = ((w.optimize j true).1, none) := by rw [← he]
    rw [ef]
    obtain ⟨⟨y, t, rows, hy, ht, hst, hyc, hyh, hyt, hs, _⟩, _⟩ := k4 he
    dsimp only
    rw [hy]
    dsimp only
    split
    · rename_i ty t' hty ht'
      rw [ht] at ht'; cases ht'
      refine AllCons.putT hco _ _ fun t' e => ?_
      cases e
      show Cons2 (numberBy "item" "iid" (numberBy "user" "uid" t.rows))
      rw [number_both]
      obtain ⟨sc, hev, _, _⟩ := hs.ev
      rw [hst] at hev
      simp only [evalSrc, Except.ok.injEq, Prod.mk.injEq] at hev
      obtain ⟨rfl, rfl⟩ := hev
      have hpy : p = ⟨y.columns, t.rows.map (Row.toRec y.columns), y.hasIds⟩ := by
        have e1 := plainOf_eq hy ht hs
        rw [k2, hp] at e1
        exact Option.some.inj e1
      have hnn' : ∀ r ∈ t.rows, r.get "user" ≠ .null ∧ r.get "item" ≠ .null := by
        intro r hr
        have := hnn (r.toRec y.columns) (by rw [hpy]; exact List.mem_map_of_mem hr)
        rwa [cellOf_toRec _ _ _ (by rw [hpy] at hu; exact hu), cellOf_toRec _ _ _ (by rw [hpy] at hi; exact hi)] at this
      exact idRow_cons (fun r hr => (hnn' r hr).1) fun r hr => (hnn' r hr).2
    · exact hco

/-- Writing other columns. -/
theorem Cons2.set {rows : List Row} (h : Cons2 rows) {c : String} (hc : c ∉ ["rid", "uid", "iid", "user", "item"])
    (g : Row → Row) (hg : ∀ r ∈ rows, g r = r ∨ ∃ v, g r = r.set c v) : Cons2 (rows.map g) := by
  have hk : ∀ d ∈ ["uid", "iid", "user", "item"], ∀ r ∈ rows, (g r).get d = r.get d := by
    intro d hd r hr
    rcases hg r hr with e | ⟨v, e⟩
    · rw [e]
    · rw [e, Row.get_set _ _ _ _ (fun h => hc (by simp [h]))]
      rw [if_neg]
      rintro rfl
      simp only [List.mem_cons, List.not_mem_nil, or_false] at hd hc
      tauto
  exact ⟨h.1.map g (hk _ (by decide)) (Or.inl (hk _ (by decide))), h.2.map g (hk _ (by decide)) (Or.inl (hk _ (by decide)))⟩

theorem Cons2.agree {rows rows' : List Row} (h : Cons2 rows)
    (hr : ∀ b ∈ rows', ∃ a ∈ rows, ∀ d ∈ ["uid", "iid", "user", "item"], b.get d = a.get d) : Cons2 rows' := by
  constructor
  · intro b hb b' hb'
    obtain ⟨a, ha, e⟩ := hr b hb
    obtain ⟨a', ha', e'⟩ := hr b' hb'
    rw [e _ (by decide), e _ (by decide), e' _ (by decide), e' _ (by decide)]
    exact h.1 a ha a' ha'
  · intro b hb b' hb'
    obtain ⟨a, ha, e⟩ := hr b hb
    obtain ⟨a', ha', e'⟩ := hr b' hb'
    rw [e _ (by decide), e _ (by decide), e' _ (by decide), e' _ (by decide)]
    exact h.2 a ha a' ha'

theorem cons_updateLoop {d : DType} {c : String} {f : Val → Option Lit}
    (hc : c ∉ ["rid", "uid", "iid", "user", "item"]) :
    ∀ (ids : List Nat) (rows : List Row), Cons2 rows → Cons2 (updateLoop d c f rows ids).1 := by
  intro ids
  induction ids with
  | nil => intro rows h; exact h
  | cons id ids ih =>
    intro rows h
    unfold updateLoop
    split
    · exact ih rows h
    · split
      · exact h
      · apply ih
        apply h.set hc
        intro r _
        split
        · exact Or.inr ⟨_, rfl⟩
        · exact Or.inl rfl

theorem cons_applySame {w : World} (h : AllCons w) (i : Nat) (c : String) (f : Val → Option Lit) (d : DType)
    (hc : c ∉ ["rid", "uid", "iid", "user", "item"]) : AllCons (w.applySame i c f d).1 := by
  unfold World.applySame
  have := cons_optimize h i false
  split
  · rename_i w1 e he; rw [he] at this; exact this
  · rename_i w1 he
    rw [he] at this
    split
    · exact this
    · split
      · exact this
      · rename_i t ht
        split
        · exact this
        · refine this.putT _ _ fun t' e => ?_
          cases e
          exact cons_updateLoop hc _ _ (this _ _ ht)

theorem mapM_mem {α β : Type} {f : α → Option β} : ∀ {l : List α} {l' : List β}, l.mapM f = some l' →
    ∀ b ∈ l', ∃ a ∈ l, f a = some b := by
  intro l
  induction l with
  | nil => intro l' h b hb; simp at h; subst h; simp at hb
  | cons a l ih =>
    intro l' h b hb
    rw [List.mapM_cons] at h
    cases hf : f a with
    | none => rw [hf] at h; cases h
    | some v =>
      cases hm : l.mapM f with
      | none => rw [hf, hm] at h; cases h
      | some vs =>
        rw [hf, hm] at h
        cases h
        rcases List.mem_cons.1 hb with rfl | hb
        · exact ⟨a, by simp, hf⟩
        · obtain ⟨a', ha', e⟩ := ih hm b hb
          exact ⟨a', by simp [ha'], e⟩

theorem cons_applyNew {w : World} (h : AllCons w) (i : Nat) (c : String) (f : Val → Option Lit) (d : DType)
    (hc : c ∉ ["rid", "uid", "iid", "user", "item"]) : AllCons (w.applyNew i c f d).1 := by
  unfold World.applyNew
  split
  · exact h
  · rename_i x0 hx0
    split
    · rename_i ty t us hty ht hus
      split
      · exact h
      · rename_i sc rows he
        dsimp only
        split
        · exact h
        · rename_i cols hb
          split
          · exact h
          · rename_i rows' hm
            split
            · refine h.putT _ _ fun t' e => ?_
              cases e
              obtain ⟨hu, hi⟩ := buildTable_cols hb
              have h0 : Cons2 (rows.map (Row.restrict x0.columns)) :=
                ((h _ _ ht).sub (evalSrc_sub he).1.subset).restrict hu hi
              refine h0.agree fun b hb => ?_
              obtain ⟨a, ha, e⟩ := mapM_mem hm b hb
              refine ⟨a.restrict x0.columns, List.mem_map_of_mem ha, fun d hd => ?_⟩
              cases hf : f (a.get c) with
              | none => rw [hf] at e; cases e
              | some l =>
                rw [hf] at e
                cases e
                rw [Row.get_set _ _ _ _ (fun h => hc (by simp [h])), if_neg]
                rintro rfl
                simp only [List.mem_cons, List.not_mem_nil, or_false] at hd hc
                tauto
            · exact h
    · exact h

theorem cons_apply {w : World} (h : AllCons w) (i : Nat) (c : String) (f : Val → Option Lit) :
    AllCons (w.apply i c f).1 := by
  unfold World.apply
  split
  · exact h
  · split
    · split
      · exact h
      · rename_i hc
        have hk := cons_read h i (.values (some [c]))
        split
        · rename_i w1 e he; rw [he] at hk; exact hk
        · rename_i w1 r0 rest he
          rw [he] at hk
          split
          · exact hk
          · split
            · split
              · exact cons_applySame hk _ _ _ _ hc
              · exact cons_applyNew hk _ _ _ _ hc
            · exact hk
        · rename_i w1 r _ he; rw [he] at hk; exact hk
    · exact h

theorem cons_runOp {names : List String} (hn : NamesOk names) {w : World} (h : Good names w) (hc : AllCons w)
    {op : DbOp} (ha : Admissible names w op) : AllCons (runOp w op).1 := by
  cases op with
  | select i ws c => exact cons_inPlaceOrCopy hc _ _ _ fun _ _ h => cons_selectOn h _ _
  | drop i ids k c => exact cons_inPlaceOrCopy hc _ _ _ fun _ _ h => cons_dropOn h _ _ _
  | unique i cs c =>
    simp only [runOp, World.unique]
    split
    · exact hc
    · split
      · exact hc
      · exact cons_inPlaceOrCopy hc _ _ _ fun _ _ h => cons_uniqueOn h _ _
  | copy i => exact cons_copy hc i
  | close i => exact cons_close hc i
  | read i o => exact cons_read hc i o
  | assign i =>
    cases hx : w.insts i with
    | none =>
      simp only [runOp, outcome, World.assign, World.optimize, hx]
      exact hc
    | some x =>
      obtain ⟨p, hp, _, _⟩ := plain_some h hx
      obtain ⟨h1, h2, h3, _⟩ := ha p hp
      exact cons_assign hn h hc hp h1 h2 h3
  | removeIds i =>
    simp only [runOp, outcome, World.removeIds]
    split
    · exact hc
    · split
      · split <;> exact hc
      · exact hc
  | apply i c f => exact cons_apply hc i c f
  | openGen i => exact ha.elim
  | closeGen => exact hc
  | reopen => exact ha.elim

theorem cons_runOps {names : List String} (hn : NamesOk names) {w : World} (h : Good names w) (hc : AllCons w)
    {ops : List DbOp} (ha : AdmissibleAll names w ops) : AllCons (runOps w ops) := by
  induction ops generalizing w with
  | nil => exact hc
  | cons op ops ih => exact ih (step_good hn h ha.1).1 (cons_runOp hn h hc ha.1) ha.2

end DRec
