import Verif.Lemmas.DbView

/-! # Hidden reductions are not visible -/

namespace DRec

open Spec

/-- Nothing can go wrong when rebuilding the table. -/
def Full (x : Inst) : Prop := tableCols ⊆ x.columns ∧ x.columns.Nodup

theorem rids_nodup {rows : List Row} (h : rows.Pairwise fun a b => a.rid < b.rid) :
    (rows.map (·.rid)).Nodup := by
  rw [List.nodup_iff_pairwise_ne, List.pairwise_map]
  exact h.imp fun hab => Nat.ne_of_lt hab

theorem filter_rid_sublist {l s : List Row} (h : s.Sublist l) (hp : l.Pairwise fun a b => a.rid < b.rid) :
    (l.filter fun r => s.any (·.rid = r.rid)) = s := by
  induction h with
  | slnil => rfl
  | cons a hs ih =>
    rename_i l₁ l₂
    obtain ⟨h1, h2⟩ := List.pairwise_cons.1 hp
    rw [List.filter_cons_of_neg, ih h2]
    simp only [List.any_eq_true, decide_eq_true_eq, not_exists, not_and]
    intro b hb
    have := h1 b (hs.subset hb)
    omega
  | cons_cons a hs ih =>
    rename_i l₁ l₂
    obtain ⟨h1, h2⟩ := List.pairwise_cons.1 hp
    rw [List.filter_cons_of_pos (by simp)]
    congr 1
    rw [← ih h2]
    apply List.filter_congr
    intro b hb
    have := h1 b hb
    have hne : a.rid ≠ b.rid := by omega
    simp only [List.any_cons, hne, decide_false, Bool.false_or]
    rw [ih h2]

theorem toRec_restrict (cs : List String) (r : Row) : (r.restrict cs).toRec cs = r.toRec cs := by
  unfold Row.toRec
  apply List.map_congr_left
  intro c hc
  simp only [Row.get, Row.restrict, hc, if_true]

/-- The result of a reduction that returned. -/
structure Reduced (w w' : World) (i : Nat) (x : Inst) (b : Bool) : Prop where
  now : ∃ y t rows, w'.insts i = some y ∧ w'.tables y.table = some t ∧ y.state = .table ∧
    y.columns = x.columns ∧ y.hasIds = x.hasIds ∧ y.types = x.types ∧ Shows t y rows ∧
    ((x.state ≠ .table ∨ b = false) → w'.users y.table = some [i])
  skip : x.state = .table → b = true → w' = w.put i x.reset

theorem sole {us : List Nat} {i : Nat} (h : us.length = 1) (hi : i ∈ us) : us = [i] := by
  obtain ⟨a, rfl⟩ := List.length_eq_one_iff.1 h
  simp only [List.mem_singleton] at hi
  rw [hi]

theorem shrink_good {names : List String} {w : World} (h : Good names w) {i : Nat} {x : Inst} {t : Table}
    {us : List Nat} (hx : w.insts i = some x) (ht : w.tables x.table = some t)
    (hu : w.users x.table = some us) (hlen : us.length = 1) :
    (w.shrink i x t).2 = none ∧ Good names (w.shrink i x t).1 ∧ plainOf (w.shrink i x t).1 = plainOf w ∧
    (∀ k, k ≠ i → (w.shrink i x t).1.insts k = w.insts k) ∧
    ∃ y t' rows, (w.shrink i x t).1.insts i = some y ∧ (w.shrink i x t).1.tables y.table = some t' ∧
      y.state = .table ∧ y.columns = x.columns ∧ y.hasIds = x.hasIds ∧ y.types = x.types ∧ Shows t' y rows ∧
      (w.shrink i x t).1.users y.table = some [i] := by
  obtain ⟨t0, rows, ht0, hs⟩ := h.get hx
  rw [ht] at ht0; cases ht0
  obtain ⟨us', hu', hiu⟩ := h.reg.own i x hx
  rw [hu] at hu'; cases hu'
  have hus := sole hlen hiu
  unfold World.shrink
  by_cases hst : x.state = .table
  · rw [if_pos hst]
    refine ⟨rfl, h, rfl, fun _ _ => rfl, x, t, rows, hx, ht, hst, rfl, rfl, rfl, hs, ?_⟩
    rw [hu, hus]
  · rw [if_neg hst]
    obtain ⟨sc, h1, h2, h3⟩ := hs.ev
    simp only [h1]
    rw [if_pos (h2 hs.rid)]
    have hrows : (t.rows.filter fun r => rows.any (·.rid = r.rid)) = rows :=
      filter_rid_sublist hs.sub (h.tables _ _ ht).sorted
    rw [hrows]
    have hsub : ∀ k z, w.insts k = some z → z.table = x.table → k = i := by
      intro k z hk hz
      obtain ⟨vs, hv, hkv⟩ := h.reg.own k z hk
      rw [hz, hu, hus] at hv; cases hv
      simpa using hkv
    have hy : Shows ⟨t.cols, rows⟩ { x with state := .table } rows :=
      ⟨hs.rid, hs.types, ⟨t.cols, rfl, hs.cols, Or.inl rfl⟩, hs.len⟩
    have hgb : GoodBut names (some i) (w.putT x.table (some ⟨t.cols, rows⟩)) := by
      refine ⟨h.reg.putT _ _, h.gens, ?_, ?_⟩
      · intro n t' hn
        by_cases hnx : n = x.table
        · simp only [World.putT, hnx, if_true, Option.some.injEq] at hn
          subst hn
          have := h.tables _ _ ht
          exact ⟨this.sorted.sublist hs.sub, this.names, this.ids⟩
        · simp only [World.putT, hnx, if_false] at hn
          exact h.tables _ _ hn
      · intro k z hk hz
        obtain ⟨t', rows', h4, h5⟩ := h.get (k := k) hz
        have : z.table ≠ x.table := fun he => hk (by rw [hsub k z hz he])
        exact ⟨t', rows', by simp [World.putT, this, h4], h5⟩
    obtain ⟨g1, g2⟩ := hgb.put (y := { x with state := .table }) hx rfl (by simp [World.putT]) hy
    refine ⟨rfl, g1, ?_, ?_, ?_⟩
    · rw [g2]
      funext k
      by_cases hki : k = i
      · subst hki
        simp only [setAt, if_true]
        rw [plainOf_eq hx ht hs]
      · simp only [setAt, hki, if_false]
        refine plainOf_congr (w := w) rfl ?_
        intro z hz
        have : z.table ≠ x.table := fun he => hki (hsub k z hz he)
        simp [World.putT, this]
    · intro k hk; exact put_ne _ _ hk
    · refine ⟨{ x with state := .table }, ⟨t.cols, rows⟩, rows, put_self _ _ _, ?_, rfl, rfl, rfl, rfl, hy, ?_⟩
      · simp [World.putT, World.put]
      · show w.users x.table = some [i]
        rw [hu, hus]

theorem split_good {names : List String} {w : World} (h : Good names w) {i : Nat} {x : Inst} {t : Table}
    {us : List Nat} (hx : w.insts i = some x) (ht : w.tables x.table = some t)
    (hu : w.users x.table = some us) (hn : tableCols ⊆ names ∧ "uid" ∈ names ∧ "iid" ∈ names) :
    Good names (w.split i x t us).1 ∧ plainOf (w.split i x t us).1 = plainOf w ∧
    (∀ k, k ≠ i → (w.split i x t us).1.insts k = w.insts k) ∧
    ((w.split i x t us).2 ≠ none → (w.split i x t us).1 = w) ∧
    ((w.split i x t us).2 = none →
      ∃ y t' rows, (w.split i x t us).1.insts i = some y ∧ (w.split i x t us).1.tables y.table = some t' ∧
      y.state = .table ∧ y.columns = x.columns ∧ y.hasIds = x.hasIds ∧ y.types = x.types ∧ Shows t' y rows ∧
      (w.split i x t us).1.users y.table = some [i]) ∧
    (Full x → (w.split i x t us).2 = none) := by
  obtain ⟨t0, rows, ht0, hs⟩ := h.get hx
  rw [ht] at ht0; cases ht0
  obtain ⟨sc, h1, h2, h3⟩ := hs.ev
  unfold World.split
  cases hb : x.buildTable with
  | error e =>
    refine ⟨h, rfl, fun _ _ => rfl, fun _ => rfl, fun hh => by simp at hh, fun hf => ?_⟩
    exfalso
    unfold Inst.buildTable at hb
    rw [if_pos, if_pos hs.types, if_pos hf.2] at hb
    · cases hb
    · rw [List.all_eq_true]; intro a ha; simpa using hf.1 ha
  | ok cols =>
    simp only [h1]
    have hall : x.columns.all (· ∈ sc) = true := by
      rw [List.all_eq_true]; intro a ha; simpa using h2 ha
    rw [if_pos hall]
    have hcols : cols = ["rid", "uid", "iid"] ++ x.columns.filter (· ∉ ["rid", "uid", "iid"]) := by
      unfold Inst.buildTable at hb
      split at hb
      · split at hb
        · split at hb
          · exact (Except.ok.inj hb).symm
          · cases hb
        · cases hb
      · cases hb
    have hcsub : x.columns ⊆ cols := by
      intro a ha
      rw [hcols, List.mem_append, List.mem_filter]
      by_cases hm : a ∈ ["rid", "uid", "iid"]
      · exact Or.inl hm
      · exact Or.inr ⟨ha, by simpa using hm⟩
    have hnext : ∀ k z, w.insts k = some z → z.table ≠ w.nextT := fun k z hk =>
      Nat.ne_of_lt (h.reg.table_lt hk)
    let y : Inst := { x with state := .table, table := w.nextT }
    have hy : Shows ⟨cols, rows.map (Row.restrict x.columns)⟩ y (rows.map (Row.restrict x.columns)) :=
      ⟨hs.rid, hs.types, ⟨cols, rfl, hcsub, Or.inl rfl⟩, by rw [List.length_map]; exact hs.len⟩
    have hto : TableOk names ⟨cols, rows.map (Row.restrict x.columns)⟩ := by
      have hok := h.tables _ _ ht
      refine ⟨?_, ?_, ?_⟩
      · show (rows.map (Row.restrict x.columns)).Pairwise _
        rw [List.pairwise_map]
        exact hok.sorted.sublist hs.sub
      · intro a ha
        have ha' : a ∈ cols := ha
        rw [hcols, List.mem_append, List.mem_filter] at ha'
        rcases ha' with ha' | ha'
        · simp only [List.mem_cons, List.not_mem_nil, or_false] at ha'
          rcases ha' with rfl | rfl | rfl
          · exact hn.1 (by decide)
          · exact hn.2.1
          · exact hn.2.2
        · exact hok.names (hs.cols ha'.1)
      · show "uid" ∈ cols ∧ "iid" ∈ cols
        rw [hcols]; simp
    refine ⟨?_, ?_, ?_, fun hh => absurd rfl hh, fun _ => ?_, fun _ => rfl⟩
    · refine ⟨h.reg.move hx hu _ rfl, h.gens, ?_, ?_⟩
      · intro n t' hn'
        by_cases hnx : n = w.nextT
        · have : t' = ⟨cols, rows.map (Row.restrict x.columns)⟩ := by
            simpa [World.put, World.putU, World.putT, hnx, eq_comm] using hn'
          rw [this]; exact hto
        · have : w.tables n = some t' := by simpa [World.put, World.putU, World.putT, hnx] using hn'
          exact h.tables _ _ this
      · intro k z _ hk
        by_cases hki : k = i
        · subst hki
          have : z = y := by simpa [World.put, World.putU, World.putT, eq_comm] using hk
          subst this
          exact ⟨_, _, by simp [World.put, World.putU, World.putT, y], hy⟩
        · have hk' : w.insts k = some z := by simpa [World.put, World.putU, World.putT, hki] using hk
          obtain ⟨t', rows', h4, h5⟩ := h.get hk'
          exact ⟨t', rows', by simpa [World.put, World.putU, World.putT, hnext k z hk'] using h4, h5⟩
    · funext k
      by_cases hki : k = i
      · subst hki
        rw [plainOf_eq hx ht hs,
          plainOf_eq (x := y) (t := ⟨cols, rows.map (Row.restrict x.columns)⟩)
            (by simp [World.put, y]) (by simp [World.put, World.putU, World.putT, y]) hy]
        congr 2
        rw [List.map_map]
        exact List.map_congr_left fun r _ => toRec_restrict _ _
      · apply plainOf_congr
        · simp [World.put, World.putU, World.putT, hki]
        · intro z hz
          simp [World.put, World.putU, World.putT, hnext k z hz]
    · intro k hk
      simp [World.put, World.putU, World.putT, hk]
    · exact ⟨y, _, _, by simp [World.put, y], by simp [World.put, World.putU, World.putT, y], rfl, rfl, rfl,
        rfl, hy, by simp [World.put, World.putU, y]⟩

/-- **Hidden reductions**: in a world without open value generators nothing visible changes. -/
theorem optimize_good {names : List String} (hn : tableCols ⊆ names ∧ "uid" ∈ names ∧ "iid" ∈ names)
    {w : World} (h : Good names w) {i : Nat} {x : Inst} (hx : w.insts i = some x) (b : Bool) :
    Good names (w.optimize i b).1 ∧ plainOf (w.optimize i b).1 = plainOf w ∧
    (∀ k, k ≠ i → (w.optimize i b).1.insts k = w.insts k) ∧
    ((w.optimize i b).2 = none → Reduced w (w.optimize i b).1 i x b) ∧
    (Full x → (w.optimize i b).2 = none) := by
  obtain ⟨t, rows, ht, hs⟩ := h.get hx
  obtain ⟨us, hu, hiu⟩ := h.reg.own i x hx
  obtain ⟨g1, g2⟩ := h.counters (y := x.reset) hx rfl rfl rfl rfl hs.types rfl
  have hx' : (w.put i x.reset).insts i = some x.reset := put_self _ _ _
  have hins : ∀ k, k ≠ i → (w.put i x.reset).insts k = w.insts k := fun k hk => put_ne _ _ hk
  unfold World.optimize
  simp only [hx]
  by_cases hc : x.state = .table ∧ b = true
  · rw [if_pos hc]
    refine ⟨g1, g2, hins, fun _ => ⟨?_, fun _ _ => rfl⟩, fun _ => rfl⟩
    refine ⟨x.reset, t, rows, hx', ht, hc.1, rfl, rfl, rfl, ⟨hs.rid, hs.types, hs.ev, hs.len⟩, ?_⟩
    rintro (h1 | h1)
    · exact absurd hc.1 h1
    · rw [hc.2] at h1; cases h1
  · rw [if_neg hc, if_neg (by rw [h.gens]; omega)]
    simp only [hu, ht]
    have hskip : ∀ w' : World, x.state = .table → b = true → w' = w.put i x.reset :=
      fun _ h1 h2 => absurd ⟨h1, h2⟩ hc
    by_cases hlen : us.length = 1
    · rw [if_pos hlen]
      obtain ⟨k1, k2, k3, k4, y, t', rows', k5⟩ := shrink_good g1 hx' ht hu hlen
      refine ⟨k2, k3.trans g2, fun k hk => (k4 k hk).trans (hins k hk), fun _ => ⟨?_, hskip _⟩, fun _ => k1⟩
      obtain ⟨a1, a2, a3, a4, a5, a6, a7, a8⟩ := k5
      exact ⟨y, t', rows', a1, a2, a3, a4, a5, a6, a7, fun _ => a8⟩
    · rw [if_neg hlen]
      obtain ⟨k1, k2, k3, _, k4, k5⟩ := split_good g1 hx' ht hu hn
      refine ⟨k1, k2.trans g2, fun k hk => (k3 k hk).trans (hins k hk), fun he => ⟨?_, hskip _⟩, fun hf => k5 hf⟩
      obtain ⟨y, t', rows', a1, a2, a3, a4, a5, a6, a7, a8⟩ := k4 he
      exact ⟨y, t', rows', a1, a2, a3, a4, a5, a6, a7, fun _ => a8⟩

end DRec
