import Verif.Lemmas.DbOpt

/-! # Steps of the database dataset: counters, states, copies, closing -/

namespace DRec

open Spec

/-- The names every table needs are known. -/
abbrev NamesOk (names : List String) : Prop := tableCols ⊆ names ∧ "uid" ∈ names ∧ "iid" ∈ names

theorem plain_inv {names : List String} {w : World} (h : Good names w) {i : Nat} {p : Plain}
    (hp : plainOf w i = some p) :
    ∃ x t rows, w.insts i = some x ∧ w.tables x.table = some t ∧ Shows t x rows ∧
      p = ⟨x.columns, rows.map (Row.toRec x.columns), x.hasIds⟩ := by
  cases hx : w.insts i with
  | none => rw [plainOf_none hx] at hp; cases hp
  | some x =>
    obtain ⟨t, rows, ht, hs⟩ := h.get hx
    rw [plainOf_eq hx ht hs] at hp
    exact ⟨x, t, rows, rfl, ht, hs, (Option.some.inj hp).symm⟩

theorem plain_some {names : List String} {w : World} (h : Good names w) {i : Nat} {x : Inst}
    (hx : w.insts i = some x) : ∃ p, plainOf w i = some p ∧ p.cols = x.columns ∧ p.hasIds = x.hasIds := by
  obtain ⟨t, rows, ht, hs⟩ := h.get hx
  exact ⟨_, plainOf_eq hx ht hs, rfl, rfl⟩

theorem record_good {names : List String} (hn : NamesOk names) {w : World} (h : Good names w) {i : Nat} {x : Inst}
    (hx : w.insts i = some x) :
    Good names (w.record i).1 ∧ plainOf (w.record i).1 = plainOf w ∧
    (∀ k, k ≠ i → (w.record i).1.insts k = w.insts k) ∧ (FullCols x.columns → (w.record i).2 = none) ∧
    ((w.record i).2 = none → ∃ y, (w.record i).1.insts i = some y ∧ y.columns = x.columns ∧ y.types = x.types) := by
  obtain ⟨t, rows, ht, hs⟩ := h.get hx
  obtain ⟨g1, g2⟩ := h.counters (y := { x with direct := x.direct + 1 }) hx rfl rfl rfl rfl hs.types rfl
  have hins : ∀ k, k ≠ i → (w.put i { x with direct := x.direct + 1 }).insts k = w.insts k :=
    fun k hk => put_ne _ _ hk
  unfold World.record
  simp only [hx]
  split
  · obtain ⟨k1, k2, k3, k4, k5⟩ := optimize_good hn g1 (put_self _ _ _) true
    refine ⟨k1, k2.trans g2, fun k hk => (k3 k hk).trans (hins k hk), fun hf => k5 hf, fun he => ?_⟩
    obtain ⟨y, t', rows', a1, _, _, a4, _, a6, _⟩ := (k4 he).now
    exact ⟨y, a1, a4, a6⟩
  · exact ⟨g1, g2, hins, fun _ => rfl, fun _ => ⟨_, put_self _ _ _, rfl, rfl⟩⟩

theorem update_good {names : List String} (hn : NamesOk names) {w : World} {i : Nat}
    (h : GoodBut names (some i) w) {x : Inst} {t : Table} {s : Src} {sc : List String} {rows : List Row}
    (hx : w.insts i = some x) (ht : w.tables x.table = some t) (hev : evalSrc t s = .ok (sc, rows))
    (hpre : x.columns <+: sc) (hrid : "rid" ∈ x.columns) (hty : x.types.isSome = true) :
    Good names (w.update i s).1 ∧
    plainOf (w.update i s).1 =
      setAt (plainOf w) i (some ⟨x.columns, rows.map (Row.toRec x.columns), x.hasIds⟩) ∧
    (FullCols x.columns → (w.update i s).2 = none) := by
  have key : ∀ y : Inst, y.columns = x.columns → y.types = x.types → y.table = x.table → y.hasIds = x.hasIds →
      y.state = s → y.nRows = rows.length → Good names (w.put i y) ∧ plainOf (w.put i y) =
        setAt (plainOf w) i (some ⟨x.columns, rows.map (Row.toRec x.columns), x.hasIds⟩) := by
    intro y e1 e2 e3 e4 e5 e6
    have hs : Shows t y rows := ⟨e1 ▸ hrid, e2 ▸ hty,
      ⟨sc, by rw [e5]; exact hev, by rw [e1]; exact hpre.subset, Or.inr (by rw [e1]; exact hpre)⟩, e6⟩
    have := h.put hx e3 ht hs
    rw [e1, e4] at this
    exact this
  unfold World.update
  simp only [hx, ht, hev]
  split
  · obtain ⟨g1, g2⟩ := key { x with queries := x.queries + 1, nRows := rows.length, state := s, nBefore := rows.length }
      rfl rfl rfl rfl rfl rfl
    obtain ⟨k1, k2, _, _, k5⟩ := optimize_good hn g1 (put_self _ _ _) true
    exact ⟨k1, k2.trans g2, fun hf => k5 hf⟩
  · obtain ⟨g1, g2⟩ := key { x with queries := x.queries + 1, nRows := rows.length, state := s }
      rfl rfl rfl rfl rfl rfl
    exact ⟨g1, g2, fun _ => rfl⟩

theorem copy_good {names : List String} {w : World} (h : Good names w) {i : Nat} {x : Inst}
    (hx : w.insts i = some x) :
    (w.copy i).2 = none ∧ Good names (w.copy i).1 ∧
    plainOf (w.copy i).1 = setAt (plainOf w) w.nextI (plainOf w i) ∧ w.insts w.nextI = none ∧ w.nextI ≠ i ∧
    (∀ k, k ≠ w.nextI → (w.copy i).1.insts k = w.insts k) ∧
    (w.copy i).1.insts w.nextI = some { x with direct := 0 } := by
  obtain ⟨t, rows, ht, hs⟩ := h.get hx
  have hfr := h.reg.freshI w.nextI (le_refl _)
  have hne : w.nextI ≠ i := by rintro he; rw [he, hx] at hfr; cases hfr
  have hreg := h.reg.copy i
  have e : w.copy i = ({ ((w.put w.nextI { x with direct := 0 }).putU x.table
            (some (w.nextI :: (w.users x.table).getD []))) with
          live := some (w.nextI :: w.live.getD []), nextI := w.nextI + 1 }, none) := by
    simp only [World.copy, hx, ht]
  rw [e] at hreg ⊢
  have hy : Shows t { x with direct := 0 } rows := ⟨hs.rid, hs.types, hs.ev, hs.len⟩
  have hins : ∀ k, k ≠ w.nextI → (if k = w.nextI then some { x with direct := 0 } else w.insts k) = w.insts k :=
    fun k hk => by simp [hk]
  refine ⟨rfl, ⟨hreg, h.gens, h.tables, ?_⟩, ?_, hfr, hne, ?_, ?_⟩
  · intro k z _ hk
    by_cases hki : k = w.nextI
    · subst hki
      have : z = { x with direct := 0 } := by simpa [World.put, World.putU, eq_comm] using hk
      subst this
      exact ⟨t, rows, ht, hy⟩
    · have hk' : w.insts k = some z := by simpa [World.put, World.putU, hki] using hk
      exact h.get hk'
  · funext k
    by_cases hki : k = w.nextI
    · subst hki
      rw [plainOf_eq (x := { x with direct := 0 }) (t := t) (by simp [World.put, World.putU])
        (by simpa [World.put, World.putU] using ht) hy]
      simp only [setAt, if_true]
      rw [plainOf_eq hx ht hs]
    · simp only [setAt, hki, if_false]
      apply plainOf_congr
      · simp [World.put, World.putU, hki]
      · intro z _; rfl
  · intro k hk; simp [World.put, World.putU, hk]
  · simp [World.put, World.putU]

theorem close_good {names : List String} {w : World} (h : Good names w) {i : Nat} {x : Inst}
    (hx : w.insts i = some x) :
    (w.close i).2 = none ∧ Good names (w.close i).1 ∧ plainOf (w.close i).1 = setAt (plainOf w) i none := by
  obtain ⟨hreg, hnone⟩ := h.reg.close hx
  obtain ⟨us, hu, hiu, ls, hls, hil, heq⟩ := close_eq h.reg hx
  rw [heq] at hreg
  rw [heq]
  have hkeep : ∀ k z, k ≠ i → w.insts k = some z →
      (if ls.erase i = [] ∧ w.temp = true then none
        else if z.table = x.table ∧ us.erase i = [] ∧ w.gens = 0 then none else w.tables z.table) =
        w.tables z.table := by
    intro k z hki hz
    have h1 : ls.erase i ≠ [] := by
      intro he
      have hk : k ∈ ls := by
        have := (h.reg.live k).2 ⟨z, hz⟩
        simpa [hls] using this
      exact hki (erase_nil_only he hk)
    have h2 : ¬ (z.table = x.table ∧ us.erase i = [] ∧ w.gens = 0) := by
      rintro ⟨hzt, he, _⟩
      obtain ⟨vs, hv, hkv⟩ := h.reg.own k z hz
      rw [hzt, hu] at hv; cases hv
      exact hki (erase_nil_only he hkv)
    rw [if_neg (fun hh => h1 hh.1), if_neg h2]
  refine ⟨rfl, ⟨hreg, h.gens, ?_, ?_⟩, ?_⟩
  · intro n t hn
    simp only at hn
    split at hn
    · cases hn
    · split at hn
      · cases hn
      · exact h.tables _ _ hn
  · intro k z _ hk
    by_cases hki : k = i
    · simp [hki] at hk
    · have hz : w.insts k = some z := by simpa [hki] using hk
      obtain ⟨t, rows, ht, hs⟩ := h.get hz
      exact ⟨t, rows, (hkeep k z hki hz).trans ht, hs⟩
  · funext k
    by_cases hki : k = i
    · subst hki
      rw [plainOf_none (by simp)]
      simp [setAt]
    · simp only [setAt, hki, if_false]
      refine plainOf_congr (w := w) ?_ ?_
      · simp [hki]
      · intro z hz
        exact hkeep k z hki hz

/-- A step on an object that carries out `eff` on what it shows when it returns, and otherwise either does
that or nothing; it returns when the columns before and after allow rebuilding tables and `ok` holds. -/
def Means (names : List String) (f : World → Nat → World × Option Err)
    (pre : Plain → Option (String → DType) → Prop) (eff : Plain → Plain) (ok : Plain → Prop) : Prop :=
  ∀ w j p, Good names w → plainOf w j = some p → (∀ x, w.insts j = some x → pre p x.types) →
    Good names (f w j).1 ∧
    ((f w j).2 = none → plainOf (f w j).1 = setAt (plainOf w) j (some (eff p))) ∧
    (plainOf (f w j).1 = plainOf w ∨ plainOf (f w j).1 = setAt (plainOf w) j (some (eff p))) ∧
    (FullCols p.cols → FullCols (eff p).cols → ok p → (f w j).2 = none)

theorem onCopy_good {names : List String} (hn : NamesOk names) {f : World → Nat → World × Option Err}
    {pre : Plain → Option (String → DType) → Prop} {eff : Plain → Plain} {ok : Plain → Prop}
    (hf : Means names f pre eff ok) {w : World} (h : Good names w) {i : Nat} {p : Plain}
    (hp : plainOf w i = some p) (hpre : ∀ x, w.insts i = some x → pre p x.types) :
    Good names (w.onCopy i f).1 ∧
    ((∃ e, (w.onCopy i f).2 = .error e ∧ plainOf (w.onCopy i f).1 = plainOf w) ∨
      ((w.onCopy i f).2 = .ok w.nextI ∧ plainOf (w.onCopy i f).1 = setAt (plainOf w) w.nextI (some (eff p)))) ∧
    plainOf w w.nextI = none ∧ w.nextI ≠ i ∧
    (FullCols p.cols → FullCols (eff p).cols → ok p →
      (w.onCopy i f).2 = .ok w.nextI) := by
  obtain ⟨x, t, rows, hx, ht, hs, hpe⟩ := plain_inv h hp
  obtain ⟨c1, c2, c3, c4, c5, c6, c7⟩ := copy_good h hx
  have hno : plainOf w w.nextI = none := plainOf_none c4
  -- after the copy
  have hi1 : (w.copy i).1.insts i = some x := by rw [c6 i (Ne.symm c5)]; exact hx
  obtain ⟨r1, r2, r3, r4, _⟩ := record_good hn c2 hi1
  have hundo : ∀ q, setAt (setAt (plainOf w) w.nextI q) w.nextI none = plainOf w := by
    intro q
    rw [setAt_setAt, setAt_self _ _ _ hno]
  have hj2 : ((w.copy i).1.record i).1.insts w.nextI = some { x with direct := 0 } := by
    rw [r3 _ c5]; exact c7
  have hpj : plainOf ((w.copy i).1.record i).1 w.nextI = some p := by
    rw [r2, c3]
    simp [setAt, hp]
  unfold World.onCopy
  have ec : w.copy i = ((w.copy i).1, none) := by rw [← c1]
  rw [ec]
  simp only
  cases he : ((w.copy i).1.record i).2 with
  | some e =>
    have er : (w.copy i).1.record i = (((w.copy i).1.record i).1, some e) := by rw [← he]
    rw [er]
    simp only
    obtain ⟨_, k2, k3⟩ := close_good r1 hj2
    refine ⟨k2, Or.inl ⟨e, rfl, ?_⟩, hno, c5, ?_⟩
    · rw [k3, r2, c3, hundo]
    · intro hfull
      have := r4 (by rw [hpe] at hfull; exact hfull)
      rw [he] at this; cases this
  | none =>
    have er : (w.copy i).1.record i = (((w.copy i).1.record i).1, none) := by rw [← he]
    rw [er]
    simp only
    obtain ⟨m1, m2, m3, m4⟩ := hf _ _ p r1 hpj (fun z hz => by rw [hj2] at hz; cases hz; exact hpre x hx)
    cases hfe : (f ((w.copy i).1.record i).1 w.nextI).2 with
    | some e =>
      have ef : f ((w.copy i).1.record i).1 w.nextI = ((f ((w.copy i).1.record i).1 w.nextI).1, some e) := by
        rw [← hfe]
      rw [ef]
      simp only
      have hsome : ∃ q, plainOf (f ((w.copy i).1.record i).1 w.nextI).1 = setAt (plainOf w) w.nextI q ∧
          ∃ z, (f ((w.copy i).1.record i).1 w.nextI).1.insts w.nextI = some z := by
        have hl : ∀ q, plainOf (f ((w.copy i).1.record i).1 w.nextI).1 w.nextI = some q →
            ∃ z, (f ((w.copy i).1.record i).1 w.nextI).1.insts w.nextI = some z := by
          intro q hq
          obtain ⟨z, _, _, hz, _⟩ := plain_inv m1 hq
          exact ⟨z, hz⟩
        rcases m3 with m3 | m3
        · refine ⟨some p, ?_, hl p ?_⟩
          · rw [m3, r2, c3, hp]
          · rw [m3]; exact hpj
        · refine ⟨some (eff p), ?_, hl (eff p) ?_⟩
          · rw [m3, r2, c3, setAt_setAt]
          · rw [m3]; simp [setAt]
      obtain ⟨q, hq, z, hz⟩ := hsome
      obtain ⟨_, k2, k3⟩ := close_good m1 hz
      refine ⟨k2, Or.inl ⟨e, rfl, ?_⟩, hno, c5, ?_⟩
      · rw [k3, hq, hundo]
      · intro hfull hfull' hok
        have := m4 hfull hfull' hok
        rw [hfe] at this; cases this
    | none =>
      have ef : f ((w.copy i).1.record i).1 w.nextI = ((f ((w.copy i).1.record i).1 w.nextI).1, none) := by
        rw [← hfe]
      rw [ef]
      refine ⟨m1, Or.inr ⟨rfl, ?_⟩, hno, c5, fun _ _ _ => rfl⟩
      rw [m2 hfe, r2, c3, setAt_setAt]

theorem inPlaceOrCopy_good {names : List String} (hn : NamesOk names) {f : World → Nat → World × Option Err}
    {pre : Plain → Option (String → DType) → Prop} {eff : Plain → Plain} {ok : Plain → Prop}
    (hf : Means names f pre eff ok) {w : World} (h : Good names w) {i : Nat} {p : Plain}
    (hp : plainOf w i = some p) (hpre : ∀ x, w.insts i = some x → pre p x.types) (c : Bool) :
    Good names (w.inPlaceOrCopy i c f).1 ∧
    ((∃ e, (w.inPlaceOrCopy i c f).2 = .error e ∧ (plainOf (w.inPlaceOrCopy i c f).1 = plainOf w ∨
        (c = false ∧ plainOf (w.inPlaceOrCopy i c f).1 = setAt (plainOf w) i (some (eff p))))) ∨
      (∃ k, (w.inPlaceOrCopy i c f).2 = .ok k ∧ (if c then plainOf w k = none ∧ k ≠ i else k = i) ∧
        plainOf (w.inPlaceOrCopy i c f).1 = setAt (plainOf w) k (some (eff p)))) ∧
    (FullCols p.cols → FullCols (eff p).cols → ok p →
      ∃ k, (w.inPlaceOrCopy i c f).2 = .ok k) := by
  unfold World.inPlaceOrCopy
  cases c with
  | true =>
    simp only [if_true]
    obtain ⟨g1, g2, g3, g4, g5⟩ := onCopy_good hn hf h hp hpre
    refine ⟨g1, ?_, fun a b d => ⟨_, g5 a b d⟩⟩
    rcases g2 with ⟨e, he, hq⟩ | ⟨he, hq⟩
    · exact Or.inl ⟨e, he, Or.inl hq⟩
    · exact Or.inr ⟨_, he, ⟨g3, g4⟩, hq⟩
  | false =>
    simp only [Bool.false_eq_true, if_false]
    obtain ⟨m1, m2, m3, m4⟩ := hf w i p h hp hpre
    cases he : (f w i).2 with
    | some e =>
      have ef : f w i = ((f w i).1, some e) := by rw [← he]
      rw [ef]
      refine ⟨m1, Or.inl ⟨e, rfl, ?_⟩, ?_⟩
      · rcases m3 with m3 | m3
        · exact Or.inl m3
        · exact Or.inr ⟨trivial, m3⟩
      · intro hfull hfull' hok
        have := m4 hfull hfull' hok
        rw [he] at this; cases this
    | none =>
      have ef : f w i = ((f w i).1, none) := by rw [← he]
      rw [ef]
      exact ⟨m1, Or.inr ⟨i, rfl, rfl, m2 he⟩, fun _ _ _ => ⟨i, rfl⟩⟩

end DRec
