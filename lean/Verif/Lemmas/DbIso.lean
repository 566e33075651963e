import Verif.Lemmas.DbIds

/-! # Isolation of database datasets, for any operation -/

namespace DRec

open Spec

/-- Objects other than `i` keep their fields and the content of their tables. -/
def Keep (i : Nat) (w w' : World) : Prop :=
  ∀ k z, k ≠ i → w.insts k = some z → w'.insts k = some z ∧ w'.tables z.table = w.tables z.table

theorem Keep.refl (i : Nat) (w : World) : Keep i w w := fun _ _ _ h => ⟨h, rfl⟩

theorem Keep.trans {i : Nat} {a b c : World} (h1 : Keep i a b) (h2 : Keep i b c) : Keep i a c := by
  intro k z hk hz
  obtain ⟨g1, g2⟩ := h1 k z hk hz
  obtain ⟨g3, g4⟩ := h2 k z hk g1
  exact ⟨g3, g4.trans g2⟩

theorem Keep.plain {i : Nat} {w w' : World} (h : Keep i w w') {k : Nat} {z : Inst} (hk : k ≠ i)
    (hz : w.insts k = some z) : plainOf w' k = plainOf w k := by
  obtain ⟨g1, g2⟩ := h k z hk hz
  exact plainOf_congr (g1.trans hz.symm) fun y hy => by rw [hz] at hy; cases hy; exact g2

theorem keep_put (w : World) (i : Nat) (y : Inst) : Keep i w (w.put i y) :=
  fun _ _ hk hz => ⟨(put_ne w y hk).trans hz, rfl⟩

/-- Writing to a table that only `i` uses. -/
theorem keep_putT {w : World} (h : Reg w) {i n : Nat} (hu : w.users n = some [i]) (t : Option Table) :
    Keep i w (w.putT n t) := by
  intro k z hk hz
  refine ⟨hz, ?_⟩
  have : z.table ≠ n := by
    rintro rfl
    obtain ⟨us, h1, h2⟩ := h.own k z hz
    rw [hu] at h1; cases h1
    simp only [List.mem_singleton] at h2
    exact hk h2
  simp [World.putT, this]

theorem keep_move {w : World} (h : Reg w) (i : Nat) (y : Inst) (t : Table) (n : Nat) (a b : Option (List Nat)) :
    Keep i w { (((w.putT w.nextT (some t)).putU n a).putU w.nextT b).put i y with nextT := w.nextT + 1 } := by
  intro k z hk hz
  have : z.table ≠ w.nextT := Nat.ne_of_lt (h.table_lt hz)
  exact ⟨by simp [World.putT, World.putU, World.put, hk, hz], by simp [World.putT, World.putU, World.put, this]⟩

theorem keep_shrink {w : World} (h : Reg w) {i : Nat} {x : Inst} (hu : w.users x.table = some [i]) (t : Table) :
    Keep i w (w.shrink i x t).1 := by
  unfold World.shrink
  split
  · exact Keep.refl _ _
  · split
    · exact Keep.refl _ _
    · split
      · exact (keep_putT h hu _).trans (keep_put _ _ _)
      · exact Keep.refl _ _

theorem keep_split {w : World} (h : Reg w) (i : Nat) (x : Inst) (t : Table) (us : List Nat) :
    Keep i w (w.split i x t us).1 := by
  unfold World.split
  split
  · exact Keep.refl _ _
  · split
    · exact Keep.refl _ _
    · split
      · exact keep_move h i _ _ _ _ _
      · exact Keep.refl _ _

theorem keep_optimize {w : World} (h : Reg w) (i : Nat) (b : Bool) : Keep i w (w.optimize i b).1 := by
  unfold World.optimize
  split
  · exact Keep.refl _ _
  · rename_i x hx
    have hr : Reg (w.put i x.reset) := h.put hx rfl
    split
    · exact keep_put _ _ _
    · split
      · exact keep_put _ _ _
      · split
        · rename_i us t hus ht
          split
          · rename_i hlen
            obtain ⟨us', hus', hi⟩ := h.own i x hx
            rw [hus] at hus'; cases hus'
            exact (keep_put _ _ _).trans (keep_shrink hr (by rw [← sole hlen hi]; exact hus) t)
          · exact (keep_put _ _ _).trans (keep_split hr i _ t us)
        · exact keep_put _ _ _

theorem optimize_gens (w : World) (i : Nat) (b : Bool) : (w.optimize i b).1.gens = w.gens := by
  unfold World.optimize World.shrink World.split
  split
  · rfl
  · split
    · rfl
    · split
      · rfl
      · split
        · split
          · split
            · rfl
            · split
              · rfl
              · split <;> rfl
          · split
            · rfl
            · split
              · rfl
              · split <;> rfl
        · rfl

theorem record_gens (w : World) (i : Nat) : (w.record i).1.gens = w.gens := by
  unfold World.record
  split
  · rfl
  · split
    · exact optimize_gens _ _ _
    · rfl

/-- After a reduction that returned, the object is alone on its table. -/
theorem optimize_sole {w : World} (h : Reg w) {i : Nat} {x : Inst} (hx : w.insts i = some x) (b : Bool)
    (hg : w.gens = 0) (he : (w.optimize i b).2 = none) (hb : x.state ≠ .table ∨ b = false) :
    ∃ y, (w.optimize i b).1.insts i = some y ∧ (w.optimize i b).1.users y.table = some [i] := by
  unfold World.optimize at he ⊢
  simp only [hx] at he ⊢
  rw [if_neg (by
    rintro ⟨h1, h2⟩
    rcases hb with hb | hb
    · exact hb h1
    · rw [hb] at h2; cases h2), if_neg (by omega)] at he ⊢
  obtain ⟨us, hus, hi⟩ := h.own i x hx
  obtain ⟨t, ht⟩ := h.tab i x hx
  simp only [hus, ht] at he ⊢
  split at he
  · rename_i hlen
    rw [if_pos hlen]
    have husi := sole hlen hi
    subst husi
    unfold World.shrink at he ⊢
    split at he
    · rename_i hst
      rw [if_pos hst]
      exact ⟨_, put_self _ _ _, hus⟩
    · rename_i hst
      rw [if_neg hst]
      split at he
      · cases he
      · rename_i sc rows hev
        split at he
        · rename_i hrid
          simp only [if_pos hrid]
          exact ⟨_, put_self _ _ _, hus⟩
        · cases he
  · rename_i hlen
    rw [if_neg hlen]
    unfold World.split at he ⊢
    split at he
    · cases he
    · rename_i cols hcols
      split at he
      · cases he
      · rename_i sc rows hev
        split at he
        · rename_i hall
          rw [if_pos hall]
          refine ⟨{ x.reset with state := .table, table := w.nextT }, ?_, ?_⟩
          · simp [World.putT, World.putU, World.put]
          · simp [World.putT, World.putU, World.put]
        · cases he

theorem keep_record {w : World} (h : Reg w) (i : Nat) : Keep i w (w.record i).1 := by
  unfold World.record
  split
  · exact Keep.refl _ _
  · rename_i x hx
    split
    · exact (keep_put _ _ _).trans (keep_optimize (Reg.put h hx (by rfl)) _ _)
    · exact keep_put _ _ _

theorem keep_update {w : World} (h : Reg w) (i : Nat) (s : Src) : Keep i w (w.update i s).1 := by
  unfold World.update
  split
  · exact Keep.refl _ _
  · rename_i x hx
    split
    · exact keep_put _ _ _
    · split
      · exact keep_put _ _ _
      · dsimp only
        split
        · exact (keep_put _ _ _).trans (keep_optimize (Reg.put h hx (by rfl)) _ _)
        · exact keep_put _ _ _

theorem keep_close {w : World} (h : Reg w) (i : Nat) : Keep i w (w.close i).1 := by
  cases hx : w.insts i with
  | none => simp only [World.close, hx]; exact Keep.refl _ _
  | some x =>
    obtain ⟨us, hu, hiu, ls, hls, hil, heq⟩ := close_eq h hx
    rw [heq]
    intro k z hk hz
    refine ⟨by simp [hk, hz], ?_⟩
    have h1 : ls.erase i ≠ [] := by
      intro he
      have hkl : k ∈ ls := by
        have := (h.live k).2 ⟨z, hz⟩
        simpa [hls] using this
      exact hk (erase_nil_only he hkl)
    have h2 : ¬ (z.table = x.table ∧ us.erase i = [] ∧ w.gens = 0) := by
      rintro ⟨hzt, he, _⟩
      obtain ⟨vs, hv, hkv⟩ := h.own k z hz
      rw [hzt, hu] at hv; cases hv
      exact hk (erase_nil_only he hkv)
    dsimp only
    rw [if_neg (fun hh => h1 hh.1), if_neg h2]

/-- A copy changes nobody. -/
theorem copy_keep {w : World} (h : Reg w) (i k : Nat) (z : Inst) (hz : w.insts k = some z) :
    (w.copy i).1.insts k = some z ∧ (w.copy i).1.tables z.table = w.tables z.table := by
  have hk : k ≠ w.nextI := by
    rintro rfl
    rw [h.freshI _ (le_refl _)] at hz; cases hz
  unfold World.copy
  split
  · exact ⟨hz, rfl⟩
  · split
    · exact ⟨hz, rfl⟩
    · exact ⟨by simp [World.put, World.putU, hk, hz], rfl⟩

theorem keep_onCopy {w : World} (h : Reg w) (i : Nat) (f : World → Nat → World × Option Err)
    (hf : ∀ w j, Reg w → Reg (f w j).1 ∧ Keep j w (f w j).1) : Keep i w (w.onCopy i f).1 := by
  have hc := h.copy i
  have kc : Keep i w (w.copy i).1 := fun k z _ hz => copy_keep h i k z hz
  have swap : ∀ a b, Keep i w a → Keep w.nextI a b → Keep i w b := by
    intro a b h1 h2 k z hk hz
    have hk' : k ≠ w.nextI := by
      rintro rfl
      rw [h.freshI _ (le_refl _)] at hz; cases hz
    obtain ⟨g1, g2⟩ := h1 k z hk hz
    obtain ⟨g3, g4⟩ := h2 k z hk' g1
    exact ⟨g3, g4.trans g2⟩
  unfold World.onCopy
  split
  · rename_i w1 e he; rw [he] at kc; exact kc
  · rename_i w1 he
    rw [he] at kc hc
    have kr := kc.trans (keep_record hc i)
    have hr := Reg.record hc i
    split
    · rename_i w2 e hr2
      rw [hr2] at kr hr
      exact swap _ _ kr (keep_close hr _)
    · rename_i w2 hr2
      rw [hr2] at kr hr
      obtain ⟨f1, f2⟩ := hf w2 w.nextI hr
      have k3 := swap _ _ kr f2
      split
      · rename_i w3 e hw3
        rw [hw3] at f1 k3
        exact swap _ _ k3 (keep_close f1 _)
      · rename_i w3 hw3
        rw [hw3] at k3
        exact k3

theorem keep_inPlaceOrCopy {w : World} (h : Reg w) (i : Nat) (c : Bool) (f : World → Nat → World × Option Err)
    (hf : ∀ w j, Reg w → Reg (f w j).1 ∧ Keep j w (f w j).1) : Keep i w (w.inPlaceOrCopy i c f).1 := by
  unfold World.inPlaceOrCopy
  split
  · exact keep_onCopy h i f hf
  · have := (hf w i h).2
    split
    · rename_i w1 e he; rw [he] at this; exact this
    · rename_i w1 he; rw [he] at this; exact this

theorem keep_selectOn {w : World} (h : Reg w) (i : Nat) (q : List Char) : Keep i w (w.selectOn i q).1 := by
  unfold World.selectOn
  split
  · exact Keep.refl _ _
  · split
    · exact Keep.refl _ _
    · exact keep_update h _ _

theorem keep_dropOn {w : World} (h : Reg w) (i : Nat) (ids : List Nat) (b : Bool) :
    Keep i w (w.dropOn i ids b).1 := by
  unfold World.dropOn
  split
  · exact Keep.refl _ _
  · exact keep_update h _ _

theorem keep_uniqueOn {w : World} (h : Reg w) (i : Nat) (l : List String) : Keep i w (w.uniqueOn i l).1 := by
  unfold World.uniqueOn
  split
  · exact Keep.refl _ _
  · rename_i x hx
    exact (keep_put _ _ _).trans (keep_update (Reg.put h hx (by rfl)) _ _)

theorem keep_unique {w : World} (h : Reg w) (i : Nat) (cs : Option (List String)) (c : Bool) :
    Keep i w (w.unique i cs c).1 := by
  unfold World.unique
  split
  · exact Keep.refl _ _
  · split
    · exact Keep.refl _ _
    · exact keep_inPlaceOrCopy h i c _ fun _ j hw => ⟨hw.uniqueOn j _, keep_uniqueOn hw j _⟩

theorem keep_read {w : World} (h : Reg w) (i : Nat) (op : ReadOp) : Keep i w (w.read i op).1 := by
  unfold World.read
  have := keep_record h i
  split
  · rename_i w1 e he; rw [he] at this; exact this
  · rename_i w1 he; rw [he] at this; exact this

theorem keep_removeIds (w : World) (i : Nat) : Keep i w (w.removeIds i).1 := by
  unfold World.removeIds
  split
  · exact Keep.refl _ _
  · split
    · split <;> exact keep_put _ _ _
    · exact keep_put _ _ _

theorem keep_applySame {w : World} (h : Reg w) (hg : w.gens = 0) (i : Nat) (c : String) (f : Val → Option Lit)
    (d : DType) : Keep i w (w.applySame i c f d).1 := by
  have ho := h.optimize i false
  have hk := keep_optimize h i false
  unfold World.applySame
  split
  · rename_i w1 e he; rw [he] at hk; exact hk
  · rename_i w1 he
    have hsole := fun x hx => optimize_sole (x := x) h hx false hg (by rw [he]) (Or.inr rfl)
    rw [he] at hk ho hsole
    split
    · exact hk
    · rename_i y hy
      split
      · exact hk
      · split
        · exact hk
        · dsimp only
          cases hx : w.insts i with
          | none =>
            simp only [World.optimize, hx] at he
            cases he
          | some x =>
            obtain ⟨y', hy', hu⟩ := hsole x hx
            simp only at hy' hu
            rw [hy] at hy'; cases hy'
            exact hk.trans (keep_putT ho hu _)

theorem keep_applyNew {w : World} (h : Reg w) (i : Nat) (c : String) (f : Val → Option Lit)
    (d : DType) : Keep i w (w.applyNew i c f d).1 := by
  unfold World.applyNew
  split
  · exact Keep.refl _ _
  · split
    · split
      · exact Keep.refl _ _
      · dsimp only
        split
        · exact keep_put _ _ _
        · split
          · exact keep_put _ _ _
          · split
            · exact keep_move h i _ _ _ _ _
            · exact keep_put _ _ _
    · exact Keep.refl _ _

theorem keep_apply {w : World} (h : Reg w) (hg : w.gens = 0) (i : Nat) (c : String) (f : Val → Option Lit) :
    Keep i w (w.apply i c f).1 := by
  unfold World.apply
  split
  · exact Keep.refl _ _
  · split
    · split
      · exact Keep.refl _ _
      · have hr := h.read i (.values (some [c]))
        have hk := keep_read h i (.values (some [c]))
        have hg' : (w.read i (.values (some [c]))).1.gens = 0 := by
          rw [← hg, ← record_gens w i]
          unfold World.read
          split <;> rename_i heq <;> rw [heq]
        split
        · rename_i w1 e he; rw [he] at hk; exact hk
        · rename_i w1 r0 rest he
          rw [he] at hk hr hg'
          split
          · exact hk
          · split
            · split
              · exact hk.trans (keep_applySame hr hg' _ _ _ _)
              · exact hk.trans (keep_applyNew hr _ _ _ _)
            · exact hk
        · rename_i w1 r _ he; rw [he] at hk; exact hk
    · exact Keep.refl _ _

/-! ## Assigning ids -/

theorem IdMap.evalSrc_map {g : Row → Row} (h : IdMap g) {t : Table} {s : Src} (hs : NoIdsSrc s) :
    DRec.evalSrc ⟨t.cols, t.rows.map g⟩ s = (DRec.evalSrc t s).map fun p => (p.1, p.2.map g) := by
  induction s with
  | table => rfl
  | sub cols src conds ih =>
    simp only [DRec.evalSrc, ih hs.2.1]
    cases hsrc : DRec.evalSrc t src with
    | error e => rfl
    | ok q =>
      obtain ⟨sc0, rows0⟩ := q
      simp only [Except.map]
      split
      · rename_i hc
        congr 2
        rw [List.filter_map]
        congr 1
        apply List.filter_congr
        intro r _
        simp only [Function.comp_apply]
        rw [Bool.eq_iff_iff, List.all_eq_true, List.all_eq_true]
        constructor
        · intro hh c hm; rw [← h.holds (hs.2.2 c hm)]; exact hh c hm
        · intro hh c hm; rw [h.holds (hs.2.2 c hm)]; exact hh c hm
      · rfl

theorem evalSrc_cols {t : Table} {cols : List String} {src : Src} {conds : List SqlCond} {p : List String × List Row}
    (h : evalSrc t (.sub cols src conds) = .ok p) : p.1 = cols := by
  simp only [evalSrc] at h
  split at h
  · cases h
  · split at h
    · cases h; rfl
    · cases h

theorem IdMap.view {g : Row → Row} (h : IdMap g) {w w' : World} {k : Nat} {z : Inst} {t : Table}
    (hz : w.insts k = some z) (hz' : w'.insts k = some z) (ht : w.tables z.table = some t)
    (ht' : w'.tables z.table = some ⟨t.cols, t.rows.map g⟩) (hc : ∀ c ∈ z.columns, NotId c)
    (hs : NoIdsSrc z.state) : plainOf w' k = plainOf w k := by
  have hq : NoIdsSrc z.query := by
    by_cases hst : z.state = .table
    · rw [query_table hst]; exact ⟨hc, trivial, by simp⟩
    · rw [query_state hst]; exact hs
  have hv : w'.view k = w.view k := by
    simp only [World.view, hz, hz', ht, ht', h.evalSrc_map hq]
    cases he : DRec.evalSrc t z.query with
    | error e => rfl
    | ok p =>
      simp only [Except.map, List.map_map]
      congr 1
      apply List.map_congr_left
      intro r _
      simp only [Function.comp_apply, Inst.decode]
      congr 1
      have hp : ∀ c ∈ p.1, NotId c := by
        cases hst : z.query with
        | table =>
          exfalso
          by_cases hst' : z.state = .table
          · rw [query_table hst'] at hst; cases hst
          · rw [query_state hst'] at hst; exact hst' hst
        | sub cols src conds =>
          rw [hst] at he hq
          rw [evalSrc_cols he]
          exact hq.1
      exact List.map_congr_left fun c hm => h.get r c (hp c hm)
  simp only [plainOf, hz, hz', hv]

theorem assign_iso {w : World} (h : Reg w) (hg : w.gens = 0) {i : Nat} (hsafe : IdSafe w i) {k : Nat} {z : Inst}
    (hk : k ≠ i) (hz : w.insts k = some z) : plainOf (w.assign i).1 k = plainOf w k := by
  have ho := h.optimize i true
  have hkp := keep_optimize h i true
  unfold World.assign
  split
  · rename_i w1 e he; rw [he] at hkp; exact hkp.plain hk hz
  · rename_i w1 he
    have hpl : plainOf w1 k = plainOf w k := by rw [he] at hkp; exact hkp.plain hk hz
    split
    · exact hpl
    · rename_i y hy
      split
      swap
      · rw [he] at hkp; exact (hkp.trans (keep_put _ _ _)).plain hk hz
      rename_i ty t hty ht
      cases hx : w.insts i with
      | none =>
        simp only [World.optimize, hx] at he
        cases he
      | some x =>
        by_cases hst : x.state = .table
        · have hw1 : w1 = w.put i x.reset := by
            simp only [World.optimize, hx, hst, true_and, if_true] at he
            exact (Prod.mk.inj he).1.symm
          subst hw1
          rw [put_self] at hy; cases hy
          have hz1 : (w.put i x.reset).insts k = some z := (put_ne _ _ hk).trans hz
          have ht0 : w.tables x.table = some t := ht
          rw [← hpl]
          by_cases hzt : z.table = x.table
          · rcases hsafe x t hx hst ht0 with hfix | hfree
            · rw [hfix]
              refine plainOf_congr (w := w.put i x.reset) ?_ ?_
              · exact put_ne _ _ hk
              · intro u hu
                rw [hz1] at hu; cases hu
                simp only [World.put, World.putT, hzt]
                simp only [Inst.reset, if_true]
                exact ht0.symm
            · obtain ⟨f1, f2⟩ := hfree k z hk hz hzt
              rw [number_both]
              refine (idRow_idMap t.rows).view (t := t) hz1 ?_ (by rw [hzt]; exact ht0) ?_ f1 f2
              · exact (put_ne _ _ hk).trans hz1
              · rw [hzt]; simp [World.put, World.putT, Inst.reset]
          · refine plainOf_congr (w := w.put i x.reset) ?_ ?_
            · exact put_ne _ _ hk
            · intro u hu
              rw [hz1] at hu; cases hu
              have : z.table ≠ x.reset.table := hzt
              simp [World.put, World.putT, this]
        · obtain ⟨y', hy', hu⟩ := optimize_sole h hx true hg (by rw [he]) (Or.inl hst)
          rw [he] at hkp ho hy' hu
          simp only at hy' hu ho hkp
          rw [hy] at hy'; cases hy'
          exact ((hkp.trans (keep_putT ho hu _)).trans (keep_put _ _ _)).plain hk hz

end DRec
