import Verif.Lemmas.DbIds

/-! # `apply` on the database dataset -/

namespace DRec

open Spec

theorem stored_self {d : DType} {l : Lit} (h : l.dtype = some d) : stored d l = l.toVal := by
  cases l <;> simp only [Lit.dtype, Option.some.injEq] at h <;> (try cases h) <;> rfl

/-- All results on the records are of one type. -/
def Uniform (c : String) (f : Val → Option Lit) (d : DType) (rows : List Row) : Prop :=
  ∀ r ∈ rows, ∃ l, f (r.get c) = some l ∧ l.dtype = some d

/-- The function on values. -/
abbrev onVal (f : Val → Option Lit) (v : Val) : Val := ((f v).map Lit.toVal).getD v

theorem updateLoop_all {d : DType} {c : String} {f : Val → Option Lit} :
    ∀ (rows done : List Row), Uniform c f d rows → ((done ++ rows).map (·.rid)).Nodup →
      updateLoop d c f (done ++ rows) (rows.map (·.rid)) =
        (done ++ rows.map fun r => r.set c (onVal f (r.get c)), true) := by
  intro rows
  induction rows with
  | nil => intro done _ _; rfl
  | cons r rows ih =>
    intro done hu hnd
    obtain ⟨l, hl, hd⟩ := hu r (by simp)
    have hnd' := hnd
    rw [List.map_append, List.map_cons, List.nodup_append] at hnd'
    obtain ⟨_, h2, h3⟩ := hnd'
    have hne1 : ∀ a ∈ done, a.rid ≠ r.rid := fun a ha =>
      h3 a.rid (List.mem_map_of_mem ha) r.rid (by simp)
    have hne2 : ∀ a ∈ rows, a.rid ≠ r.rid := by
      intro a ha he
      rw [List.nodup_cons] at h2
      exact h2.1 (he ▸ List.mem_map_of_mem ha)
    have hf : (done ++ r :: rows).find? (fun a => decide (a.rid = r.rid)) = some r := by
      rw [List.find?_append, List.find?_eq_none.2 (by simpa using hne1)]
      simp
    simp only [List.map_cons, updateLoop, hf, hl]
    have hmap : (done ++ r :: rows).map (fun a => if a.rid = r.rid then a.set c (stored d l) else a) =
        (done ++ [r.set c (onVal f (r.get c))]) ++ rows := by
      rw [List.map_append, List.map_cons, if_pos rfl, List.append_assoc]
      congr 1
      · conv_rhs => rw [← List.map_id done]
        exact List.map_congr_left fun a ha => by rw [if_neg (hne1 a ha)]; rfl
      · simp only [List.singleton_append, List.cons.injEq]
        constructor
        · rw [stored_self hd]; simp [onVal, hl]
        · conv_rhs => rw [← List.map_id rows]
          exact List.map_congr_left fun a ha => by rw [if_neg (hne2 a ha)]; rfl
    rw [hmap, ih _ (fun a ha => hu a (by simp [ha]))]
    · simp
    · simpa [Row.rid_set] using hnd

theorem apply_toRec {cols : List String} {rows : List Row} {b : Bool} {c : String} {g : Val → Val}
    (hc : c ≠ "rid") :
    Plain.apply c g ⟨cols, rows.map (Row.toRec cols), b⟩ =
      ⟨cols, (rows.map fun r => r.set c (g (r.get c))).map (Row.toRec cols), b⟩ := by
  unfold Plain.apply
  simp only [List.map_map]
  congr 1
  apply List.map_congr_left
  intro r _
  simp only [Function.comp_apply, Row.toRec, List.map_map]
  apply List.map_congr_left
  intro d _
  simp only [Function.comp_apply, Row.get_set _ _ _ _ hc]
  by_cases h : d = c
  · subst h; simp
  · simp [h]

theorem applySame_good {names : List String} (hn : NamesOk names) {w : World} {j : Nat} {p : Plain}
    (h : Good names w) (hp : plainOf w j = some p) {c : String} (hc : c ∈ p.cols) (hrid : c ≠ "rid")
    {f : Val → Option Lit} {d : DType} (hf : ∀ r ∈ p.recs, ∃ l, f (cellOf r c) = some l ∧ l.dtype = some d) :
    Good names (w.applySame j c f d).1 ∧
    ((w.applySame j c f d).2 = none →
      plainOf (w.applySame j c f d).1 = setAt (plainOf w) j (some (p.apply c (onVal f)))) ∧
    ((w.applySame j c f d).2 ≠ none → plainOf (w.applySame j c f d).1 = plainOf w) ∧
    (FullCols p.cols → (w.applySame j c f d).2 = none) := by
  obtain ⟨x, t0, rows0, hx, ht0, hs0, hpe⟩ := plain_inv h hp
  obtain ⟨k1, k2, k3, k4, k5⟩ := optimize_good hn h hx false
  unfold World.applySame
  cases he : (w.optimize j false).2 with
  | some e =>
    have eo : w.optimize j false = ((w.optimize j false).1, some e) := by rw [← he]
    rw [eo]
    refine ⟨k1, fun h => by simp at h, fun _ => k2, fun hf => ?_⟩
    rw [hpe] at hf
    have := k5 hf
    rw [he] at this; cases this
  | none =>
    have eo : w.optimize j false = ((w.optimize j false).1, none) := by rw [← he]
    rw [eo]
    obtain ⟨y, t, rows, hy, ht, hst, hcs, hh, hty, hs, hsole⟩ := (k4 he).now
    have hrows : rows = t.rows := by
      obtain ⟨sc, h1, _, _⟩ := hs.ev
      rw [hst] at h1
      simp only [evalSrc, Except.ok.injEq, Prod.mk.injEq] at h1
      exact h1.2.symm
    subst hrows
    have hpy : p = ⟨y.columns, t.rows.map (Row.toRec y.columns), y.hasIds⟩ := by
      have := plainOf_eq hy ht hs
      rw [k2, hp] at this
      exact Option.some.inj this
    obtain ⟨qc, hq, _⟩ := hs.query
    simp only [hy, ht, hq]
    have hcy : c ∈ y.columns := by rw [hpy] at hc; exact hc
    have hu : Uniform c f d t.rows := by
      intro r hr
      have := hf (r.toRec y.columns) (by rw [hpy]; exact List.mem_map_of_mem hr)
      rwa [cellOf_toRec _ _ _ hcy] at this
    have hok := k1.tables _ _ ht
    have hloop := updateLoop_all (d := d) (c := c) (f := f) t.rows [] hu (by simpa using rids_nodup hok.sorted)
    simp only [List.nil_append] at hloop
    rw [hloop]
    simp only [if_true]
    have hput : (w.optimize j false).1.putT y.table (some ⟨t.cols, t.rows.map fun r => r.set c (onVal f (r.get c))⟩) =
        ((w.optimize j false).1.putT y.table
          (some ⟨t.cols, t.rows.map fun r => r.set c (onVal f (r.get c))⟩)).put j y := by
      have : (fun k => if k = j then some y else (w.optimize j false).1.insts k) = (w.optimize j false).1.insts := by
        funext k
        by_cases hk : k = j
        · simp [hk, hy]
        · simp [hk]
      simp only [World.putT, World.put, this]
    rw [hput]
    obtain ⟨g1, g2⟩ := touch_good (t' := ⟨t.cols, t.rows.map fun r => r.set c (onVal f (r.get c))⟩) (y := y)
      (rows := t.rows.map fun r => r.set c (onVal f (r.get c))) k1 hy ht (hok.map (fun r => Row.rid_set _ _ _)) rfl
      ⟨hs.rid, hs.types, ⟨t.cols, by simp only [hst, evalSrc], hs.cols, Or.inl hst⟩,
        by simp only [List.length_map]; exact hs.len⟩ (by
        intro k z rz hkj hz hzt _
        have hus := hsole (Or.inr rfl)
        obtain ⟨us, hus', hk⟩ := k1.reg.own k z hz
        rw [hzt, hus] at hus'
        cases hus'
        simp only [List.mem_singleton] at hk
        exact absurd hk hkj)
    refine ⟨g1, fun _ => ?_, fun h => absurd rfl h, fun _ => by simp⟩
    rw [g2, k2, hpy, apply_toRec hrid]

theorem mapM_some {α β : Type} (f : α → Option β) (g : α → β) (l : List α) (h : ∀ a ∈ l, f a = some (g a)) :
    l.mapM f = some (l.map g) := by
  induction l with
  | nil => rfl
  | cons a l ih =>
    rw [List.mapM_cons, h a (by simp), ih fun b hb => h b (by simp [hb])]
    rfl

theorem applyNew_good {names : List String} (hn : NamesOk names) {w : World} {j : Nat} {p : Plain}
    (h : Good names w) (hp : plainOf w j = some p) {c : String} (hc : c ∈ p.cols) (hrid : c ≠ "rid")
    {f : Val → Option Lit} {d : DType} (hf : ∀ r ∈ p.recs, ∃ l, f (cellOf r c) = some l ∧ l.dtype = some d) :
    Good names (w.applyNew j c f d).1 ∧
    ((w.applyNew j c f d).2 = none →
      plainOf (w.applyNew j c f d).1 = setAt (plainOf w) j (some (p.apply c (onVal f)))) ∧
    ((w.applyNew j c f d).2 ≠ none → plainOf (w.applyNew j c f d).1 = plainOf w) ∧
    (FullCols p.cols → (w.applyNew j c f d).2 = none) := by
  obtain ⟨x, t, rows, hx, ht, hs, rfl⟩ := plain_inv h hp
  simp only at hc hf
  obtain ⟨us, hus, hju⟩ := h.reg.own j x hx
  obtain ⟨ty, hty⟩ := Option.isSome_iff_exists.1 hs.types
  obtain ⟨qc, hq, hpre⟩ := hs.query
  have hreg := h.reg.applyNew j c f d
  have hu : Uniform c f d rows := by
    intro r hr
    have := hf (r.toRec x.columns) (List.mem_map_of_mem hr)
    rwa [cellOf_toRec _ _ _ hc] at this
  have hmapM : rows.mapM (fun r => (f (r.get c)).map fun l => (r.restrict x.columns).set c (stored d l)) =
      some (rows.map fun r => (r.restrict x.columns).set c (onVal f (r.get c))) := by
    apply mapM_some
    intro r hr
    obtain ⟨l, hl, hd⟩ := hu r hr
    simp [hl, onVal, stored_self hd]
  unfold World.applyNew at hreg ⊢
  simp only [hx, hty, ht, hus, hq] at hreg ⊢
  cases hb : ({ x with types := some fun c' => if c' = c then d else ty c' } : Inst).buildTable with
  | error e =>
    simp only [hb] at hreg ⊢
    obtain ⟨g1, g2⟩ := h.counters (y := { x with types := some fun c' => if c' = c then d else ty c' }) hx rfl rfl
      rfl rfl rfl rfl
    refine ⟨g1, fun h => by simp at h, fun _ => g2, fun hfull => ?_⟩
    obtain ⟨f1, f2⟩ := hfull
    simp only [Inst.buildTable] at hb
    rw [if_pos (by
      rw [List.all_eq_true]; intro a ha; simpa using f1 ha)] at hb
    simp only [Option.isSome_some, if_true, if_pos f2] at hb
    cases hb
  | ok cols =>
    simp only [hb, hmapM] at hreg ⊢
    rw [if_pos (List.isPrefixOf_iff_prefix.2 hpre)] at hreg ⊢
    have hcols : cols = ["rid", "uid", "iid"] ++ x.columns.filter (· ∉ ["rid", "uid", "iid"]) := by
      simp only [Inst.buildTable] at hb
      split at hb
      · split at hb
        · split at hb
          · exact (Except.ok.inj hb).symm
          · cases hb
        · cases hb
      · cases hb
    have hsubc : x.columns ⊆ cols := by
      intro a ha
      rw [hcols]
      by_cases h3 : a ∈ ["rid", "uid", "iid"]
      · exact List.mem_append_left _ h3
      · exact List.mem_append_right _ (List.mem_filter.2 ⟨ha, by simpa using h3⟩)
    have htok := h.tables _ _ ht
    have hok : TableOk names ⟨cols, rows.map fun r => (r.restrict x.columns).set c (onVal f (r.get c))⟩ := by
      refine ⟨?_, ?_, ?_⟩
      · simp only [List.pairwise_map]
        exact htok.sorted.sublist hs.sub
      · simp only [hcols]
        intro a ha
        rcases List.mem_append.1 ha with ha | ha
        · simp only [List.mem_cons, List.not_mem_nil, or_false] at ha
          rcases ha with rfl | rfl | rfl
          · exact hn.1 (by simp [tableCols])
          · exact hn.2.1
          · exact hn.2.2
        · exact htok.names (hs.cols (List.mem_filter.1 ha).1)
      · rw [hcols]; simp
    have hfresh : ∀ k z, w.insts k = some z → z.table ≠ w.nextT := by
      intro k z hz
      exact Nat.ne_of_lt (h.reg.table_lt hz)
    have hs' : Shows ⟨cols, rows.map fun r => (r.restrict x.columns).set c (onVal f (r.get c))⟩
        { x with types := some fun c' => if c' = c then d else ty c', state := .table, table := w.nextT }
        (rows.map fun r => (r.restrict x.columns).set c (onVal f (r.get c))) :=
      ⟨hs.rid, rfl, ⟨cols, rfl, hsubc, Or.inl rfl⟩, by simp only [List.length_map]; exact hs.len⟩
    refine ⟨⟨hreg, h.gens, ?_, ?_⟩, fun _ => ?_, fun h => absurd rfl h, fun _ => rfl⟩
    · intro n u hnu
      by_cases hnn : n = w.nextT
      · subst hnn
        simp only [World.putT, World.putU, World.put, if_true, Option.some.injEq] at hnu
        subst hnu; exact hok
      · simp only [World.putT, World.putU, World.put, hnn, if_false] at hnu
        exact h.tables _ _ hnu
    · intro k z _ hz
      by_cases hkj : k = j
      · subst hkj
        simp only [World.putT, World.putU, World.put, if_true, Option.some.injEq] at hz
        subst hz
        exact ⟨_, _, by simp [World.putT, World.putU, World.put], hs'⟩
      · have hz' : w.insts k = some z := by simpa [World.putT, World.putU, World.put, hkj] using hz
        obtain ⟨tz, rz, h1, h2⟩ := h.get hz'
        exact ⟨tz, rz, by simpa [World.putT, World.putU, World.put, hfresh k z hz'] using h1, h2⟩
    · funext k
      by_cases hkj : k = j
      · subst hkj
        rw [plainOf_eq (by simp [World.putT, World.putU, World.put]) (by simp [World.putT, World.putU, World.put]) hs']
        simp only [setAt, if_true]
        rw [apply_toRec hrid]
        congr 2
        simp only [List.map_map]
        apply List.map_congr_left
        intro r _
        simp only [Function.comp_apply]
        unfold Row.toRec
        apply List.map_congr_left
        intro a ha
        rw [Row.get_set _ _ _ _ hrid, Row.get_set _ _ _ _ hrid]
        congr 2
        simp only [Row.get, Row.restrict, ha, if_true]
      · simp only [setAt, hkj, if_false]
        refine plainOf_congr (w := w) ?_ ?_
        · simp [World.putT, World.putU, World.put, hkj]
        · intro z hz
          simp [World.putT, World.putU, World.put, hfresh k z hz]

theorem cellOf_pick {cols : List String} {c : String} (hc : c ∈ cols) (r : Row) :
    cellOf (pick [c] (r.toRec cols)) c = r.get c := by
  unfold pick Row.toRec cellOf
  induction cols with
  | nil => simp at hc
  | cons a cols ih =>
    by_cases h : a = c
    · subst h; simp
    · have hc' : c ∈ cols := by simpa [Ne.symm h] using hc
      rw [List.map_cons, List.filter_cons_of_neg (by simpa using h)]
      exact ih hc'

theorem apply_good {names : List String} (hn : NamesOk names) {w : World} {j : Nat} {p : Plain}
    (h : Good names w) (hp : plainOf w j = some p) {c : String} {f : Val → Option Lit} {d : DType}
    (hf : ∀ r ∈ p.recs, ∃ l, f (cellOf r c) = some l ∧ l.dtype = some d) :
    Good names (w.apply j c f).1 ∧
    ((w.apply j c f).2 = none →
      plainOf (w.apply j c f).1 = setAt (plainOf w) j (some (p.apply c (onVal f)))) ∧
    ((w.apply j c f).2 ≠ none → plainOf (w.apply j c f).1 = plainOf w) ∧
    (FullCols p.cols → c ∈ p.cols → c ∉ ["rid", "uid", "iid", "user", "item"] → p.recs ≠ [] →
      (w.apply j c f).2 = none) := by
  obtain ⟨x, t, rows, hx, ht, hs, hpe⟩ := plain_inv h hp
  unfold World.apply
  simp only [hx]
  by_cases hc : c ∈ x.columns
  swap
  · rw [if_neg hc]
    exact ⟨h, fun h => by simp at h, fun _ => rfl, fun _ hc' => absurd (by rw [hpe] at hc'; exact hc') hc⟩
  rw [if_pos hc]
  by_cases hro : c ∈ ["rid", "uid", "iid", "user", "item"]
  · rw [if_pos hro]
    exact ⟨h, fun h => by simp at h, fun _ => rfl, fun _ _ hro' => absurd hro hro'⟩
  rw [if_neg hro]
  have hrid : c ≠ "rid" := by rintro rfl; exact hro (by simp)
  obtain ⟨r1, r2, r3, r4, r5⟩ := record_good hn h hx
  unfold World.read
  cases he : (w.record j).2 with
  | some e =>
    have er : w.record j = ((w.record j).1, some e) := by rw [← he]
    rw [er]
    refine ⟨r1, fun h => by simp at h, fun _ => r2, fun hfull => ?_⟩
    rw [hpe] at hfull
    have := r4 hfull
    rw [he] at this; cases this
  | none =>
    have er : w.record j = ((w.record j).1, none) := by rw [← he]
    rw [er]
    obtain ⟨y, hy, hyc, hyt⟩ := r5 he
    obtain ⟨t', rows', ht', hs'⟩ := r1.get hy
    have hp1 : plainOf (w.record j).1 j = some p := by rw [r2]; exact hp
    have hpy : p = ⟨y.columns, rows'.map (Row.toRec y.columns), y.hasIds⟩ := by
      have := plainOf_eq hy ht' hs'
      rw [hp1] at this
      exact Option.some.inj this
    have hcy : c ∈ y.columns := by rw [hyc]; exact hc
    obtain ⟨qc, hq, hpre⟩ := hs'.query
    have hlook : (w.record j).1.look j (.values (some [c])) =
        .ok (.recs (rows'.map fun r => pick [c] (r.toRec y.columns))) := by
      simp only [World.look, hy, ht', handleColumns, List.all_cons, List.all_nil, Bool.and_true,
        decide_eq_true hcy, if_true, bind, Except.bind, hq]
      congr 2
      apply List.map_congr_left
      intro r _
      rw [decode_eq hpre]
    simp only [hlook]
    cases hr : rows' with
    | nil =>
      simp only [List.map_nil]
      refine ⟨r1, fun h => by simp at h, fun _ => r2, fun _ _ _ hne => absurd ?_ hne⟩
      rw [hpy, hr]; rfl
    | cons r rest =>
      simp only [List.map_cons]
      have hcell : ((pick [c] (r.toRec y.columns)).lookup c).getD .null = r.get c := cellOf_pick hcy r
      obtain ⟨l, hl, hd⟩ := hf (r.toRec y.columns) (by rw [hpy, hr]; simp)
      rw [cellOf_toRec _ _ _ hcy] at hl
      obtain ⟨ty, hty⟩ := Option.isSome_iff_exists.1 hs.types
      have hcp : c ∈ p.cols := by rw [hpe]; exact hc
      simp only [hcell, hl, hd, hty]
      split
      · obtain ⟨g1, g2, g3, g4⟩ := applySame_good hn r1 hp1 hcp hrid hf
        rw [r2] at g2 g3
        exact ⟨g1, g2, g3, fun hfull _ _ _ => g4 hfull⟩
      · obtain ⟨g1, g2, g3, g4⟩ := applyNew_good hn r1 hp1 hcp hrid hf
        rw [r2] at g2 g3
        exact ⟨g1, g2, g3, fun hfull _ _ _ => g4 hfull⟩

theorem mapM_none {α β : Type} (f : α → Option β) (l : List α) (h : ∃ a ∈ l, f a = none) : l.mapM f = none := by
  induction l with
  | nil => obtain ⟨a, ha, _⟩ := h; simp at ha
  | cons b l ih =>
    rw [List.mapM_cons]
    cases hb : f b with
    | none => rfl
    | some v =>
      have : ∃ a ∈ l, f a = none := by
        obtain ⟨a, ha, hf⟩ := h
        rcases List.mem_cons.1 ha with rfl | ha
        · rw [hb] at hf; cases hf
        · exact ⟨a, ha, hf⟩
      simp [ih this]

/-- A failure that is noticed before anything is written: on the first record, or on any record when the type
of the column changes. -/
theorem apply_fails_good {names : List String} (hn : NamesOk names) {w : World} {j : Nat} {p : Plain} {x : Inst}
    (h : Good names w) (hp : plainOf w j = some p) (hx : w.insts j = some x) {c : String} {f : Val → Option Lit}
    (hf : ∃ r ∈ p.recs, f (cellOf r c) = none)
    (hd : ∀ r0 l, p.recs.head? = some r0 → f (cellOf r0 c) = some l → ∀ ty, x.types = some ty → l.dtype ≠ some (ty c)) :
    (w.apply j c f).2 ≠ none ∧ Good names (w.apply j c f).1 ∧ plainOf (w.apply j c f).1 = plainOf w := by
  obtain ⟨x', t, rows, hx', ht, hs, hpe⟩ := plain_inv h hp
  rw [hx] at hx'; cases hx'
  unfold World.apply
  simp only [hx]
  by_cases hc : c ∈ x.columns
  swap
  · rw [if_neg hc]; exact ⟨by simp, h, rfl⟩
  rw [if_pos hc]
  by_cases hro : c ∈ ["rid", "uid", "iid", "user", "item"]
  · rw [if_pos hro]; exact ⟨by simp, h, rfl⟩
  rw [if_neg hro]
  obtain ⟨r1, r2, r3, r4, r5⟩ := record_good hn h hx
  unfold World.read
  cases he : (w.record j).2 with
  | some e =>
    have er : w.record j = ((w.record j).1, some e) := by rw [← he]
    rw [er]
    exact ⟨by simp, r1, r2⟩
  | none =>
    have er : w.record j = ((w.record j).1, none) := by rw [← he]
    rw [er]
    obtain ⟨y, hy, hyc, hyt⟩ := r5 he
    obtain ⟨t', rows', ht', hs'⟩ := r1.get hy
    have hp1 : plainOf (w.record j).1 j = some p := by rw [r2]; exact hp
    have hpy : p = ⟨y.columns, rows'.map (Row.toRec y.columns), y.hasIds⟩ := by
      have := plainOf_eq hy ht' hs'
      rw [hp1] at this
      exact Option.some.inj this
    have hcy : c ∈ y.columns := by rw [hyc]; exact hc
    obtain ⟨qc, hq, hpre⟩ := hs'.query
    have hlook : (w.record j).1.look j (.values (some [c])) =
        .ok (.recs (rows'.map fun r => pick [c] (r.toRec y.columns))) := by
      simp only [World.look, hy, ht', handleColumns, List.all_cons, List.all_nil, Bool.and_true,
        decide_eq_true hcy, if_true, bind, Except.bind, hq]
      congr 2
      apply List.map_congr_left
      intro r _
      rw [decode_eq hpre]
    simp only [hlook]
    have hrow : ∃ r ∈ rows', f (r.get c) = none := by
      obtain ⟨r, hr, hfr⟩ := hf
      rw [hpy] at hr
      obtain ⟨r', hr', rfl⟩ := List.mem_map.1 hr
      exact ⟨r', hr', by rwa [cellOf_toRec _ _ _ hcy] at hfr⟩
    cases hr : rows' with
    | nil =>
      simp only [List.map_nil]
      exact ⟨by simp, r1, r2⟩
    | cons r rest =>
      simp only [List.map_cons]
      have hcell : ((pick [c] (r.toRec y.columns)).lookup c).getD .null = r.get c := cellOf_pick hcy r
      obtain ⟨ty, hty⟩ := Option.isSome_iff_exists.1 hs.types
      rw [hcell]
      cases hl : f (r.get c) with
      | none => exact ⟨by simp, r1, r2⟩
      | some l =>
        have hne := hd (r.toRec y.columns) l (by rw [hpy, hr]; rfl) (by rw [cellOf_toRec _ _ _ hcy]; exact hl) ty hty
        cases hdl : l.dtype with
        | none => simp only [hty, hdl]; exact ⟨by simp, r1, r2⟩
        | some d =>
          simp only [hty, hdl]
          rw [if_neg (fun hh => hne (by rw [hdl, hh]))]
          -- the new table is not put in place
          obtain ⟨us, hus, _⟩ := r1.reg.own j y hy
          have hm : rows'.mapM (fun r => (f (r.get c)).map fun l => (r.restrict y.columns).set c (stored d l)) =
              none := by
            apply mapM_none
            obtain ⟨r', hr', hfr⟩ := hrow
            exact ⟨r', hr', by rw [hfr]; rfl⟩
          obtain ⟨g1, g2⟩ := r1.counters (y := { y with types := some fun c' => if c' = c then d else ty c' }) hy rfl
            rfl rfl rfl rfl rfl
          unfold World.applyNew
          simp only [hy, hyt, hty, ht', hus, hq]
          cases hb : ({ y with types := some fun c' => if c' = c then d else ty c' } : Inst).buildTable with
          | error e => exact ⟨by simp, g1, g2.trans r2⟩
          | ok cols =>
            simp only [hm]
            exact ⟨by simp, g1, g2.trans r2⟩

end DRec
