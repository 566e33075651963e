import Verif.Lemmas.MemQuery
import Verif.Spec.Mem

/-! # Reading written conditions -/

namespace DRec

open Spec

theorem numLit (l : SLit) (hw : l.Writable) (h : l.isStr = false) :
    ∃ q, pyFloat l.text = some q ∧ l.value = .num q := by
  cases l with
  | str s => simp [SLit.isStr] at h
  | int n => exact ⟨n, pyFloat_text _ hw _ rfl, rfl⟩
  | dec neg w f => exact ⟨_, pyFloat_text _ hw _ rfl, rfl⟩

theorem parseValue_text (ds : Mem) (c : SCond) (hw : c.lit.Writable) (hf : Fits ds c) :
    ∃ l, ds.parseValue c.col c.lit.text = .ok l ∧ l.toVal = c.lit.value ∧
      (ds.colDType c.col = .obj → l = litOf c.lit) := by
  unfold Fits at hf
  unfold Mem.parseValue
  by_cases hid : c.col = "iid" ∨ c.col = "uid" ∨ c.col = "rid"
  · have hid' : c.col = "uid" ∨ c.col = "iid" ∨ c.col = "rid" := by tauto
    simp only [hid', if_true] at hf
    obtain ⟨n, hn⟩ : ∃ n, c.lit = .int n := by
      cases hl : c.lit <;> simp_all [SLit.isInt]
    simp only [hid, if_true, hn, pyInt_text]
    exact ⟨.int n, rfl, rfl, fun _ => rfl⟩
  · have hid' : ¬ (c.col = "uid" ∨ c.col = "iid" ∨ c.col = "rid") := by tauto
    simp only [hid', if_false] at hf
    have hrid : c.col ≠ "rid" := fun h => hid' (by simp [h])
    rw [if_neg hid]
    simp only [Mem.colDType, hrid, if_false]
    cases hd : ds.dtype c.col with
    | obj =>
      simp only [pyEval_text c.lit hw]
      exact ⟨_, rfl, litOf_toVal _, fun _ => rfl⟩
    | int =>
      rcases hf with hf | hf
      · simp [hd] at hf
      · obtain ⟨q, h1, h2⟩ := numLit c.lit hw hf
        simp only [h1]
        exact ⟨.flt q, rfl, h2.symm, by simp⟩
    | float =>
      rcases hf with hf | hf
      · simp [hd] at hf
      · obtain ⟨q, h1, h2⟩ := numLit c.lit hw hf
        simp only [h1]
        exact ⟨.flt q, rfl, h2.symm, by simp⟩

/-- A written condition compared directly tests what it says. -/
theorem segTest_direct (ds : Mem) (c : SCond) (a b : List Char) (ha : Blank a) (hb : Blank b)
    (hn : NameOk c.col) (hw : c.lit.Writable) (hc : c.col ∈ ds.cols) (hf : Fits ds c)
    (hd : Direct ds c) :
    ds.segTest (a ++ c.text ++ b) = .ok fun r => cmpPy c.op (r.get c.col) c.lit.value := by
  obtain ⟨l, hl, hv, _⟩ := parseValue_text ds c hw hf
  have h2 : ds.readCond (rawOf c) = .ok ⟨c.col, c.op, l⟩ := by
    simp [Mem.readCond, rawOf, hc, hl, op_ofText, bind, Except.bind]
  have h3 : ds.target ⟨c.col, c.op, l⟩ = .ok (c.col, c.lit.value) := by
    unfold Mem.target
    have e1 : ¬ (c.col = "user" ∧ ds.hasIds ∧ ds.dtype "user" ≠ .int) := by
      rintro ⟨h1, h2, h3⟩
      rcases hd with hd | hd | hd
      · simp [hd] at h2
      · rw [h1] at hd; exact h3 hd
      · exact hd.1 h1
    have e2 : ¬ (c.col = "item" ∧ ds.hasIds ∧ ds.dtype "item" ≠ .int) := by
      rintro ⟨h1, h2, h3⟩
      rcases hd with hd | hd | hd
      · simp [hd] at h2
      · rw [h1] at hd; exact h3 hd
      · exact hd.2 h1
    simp only [e1, e2, if_false, hv]
  unfold Mem.segTest
  rw [parseSegment_text c a b ha hb hn hw]
  simp [bind, Except.bind, h2, h3, hc]

theorem lookup_eq_iff (m : List Val) (v w : Val) (hv : v ∈ m) :
    Val.num ((m.idxOf v : ℕ) : ℚ) = optVal (lookupCode m w) ↔ v = w := by
  unfold lookupCode
  by_cases hw : w ∈ m
  · simp only [hw, if_true, optVal, Val.num.injEq, Nat.cast_inj]
    constructor
    · intro h
      exact (List.idxOf_inj hv).1 h
    · rintro rfl; rfl
  · simp only [hw, if_false, optVal]
    constructor
    · intro h; cases h
    · rintro rfl; exact absurd hv hw

/-- An equality on a text id column that goes through the internal ids tests what it says. -/
theorem segTest_user (ds : Mem) (c : SCond) (a b : List Char) (ha : Blank a) (hb : Blank b)
    (s : String) (hcol : c.col = "user") (hlit : c.lit = .str s)
    (hw : c.lit.Writable) (hdt : ds.dtype "user" = .obj) (hids : ds.hasIds = true)
    (h : IdsFor ds "user" "uid" ds.userMap) :
    ds.segTest (a ++ c.text ++ b) =
      .ok fun r => cmpPy c.op (r.get "uid") (optVal (lookupCode ds.userMap (.str s))) := by
  have hn : NameOk c.col := by rw [hcol]; unfold NameOk; decide
  have hf : Fits ds c := by
    unfold Fits; rw [hcol]; simp [hdt]
  obtain ⟨l, hl, hv, hl2⟩ := parseValue_text ds c hw hf
  have hlo : l = litOf c.lit := hl2 (by simp [Mem.colDType, hcol, hdt])
  subst hlo
  have hc : c.col ∈ ds.cols := hcol ▸ h.hasRaw
  have h2 : ds.readCond (rawOf c) = .ok ⟨c.col, c.op, litOf c.lit⟩ := by
    simp [Mem.readCond, rawOf, hc, hl, op_ofText, bind, Except.bind]
  have h3 : ds.target ⟨c.col, c.op, litOf c.lit⟩ =
      .ok ("uid", optVal (lookupCode ds.userMap (.str s))) := by
    simp [Mem.target, hcol, hids, hdt, Mem.userToUid, h.hasRaw, normId, hlit, litOf, Lit.pyStr,
      Except.map]
  unfold Mem.segTest
  rw [parseSegment_text c a b ha hb hn hw]
  simp [bind, Except.bind, h2, h3, h.hasCol]

theorem segTest_item (ds : Mem) (c : SCond) (a b : List Char) (ha : Blank a) (hb : Blank b)
    (s : String) (hcol : c.col = "item") (hlit : c.lit = .str s)
    (hw : c.lit.Writable) (hdt : ds.dtype "item" = .obj) (hids : ds.hasIds = true)
    (h : IdsFor ds "item" "iid" ds.itemMap) :
    ds.segTest (a ++ c.text ++ b) =
      .ok fun r => cmpPy c.op (r.get "iid") (optVal (lookupCode ds.itemMap (.str s))) := by
  have hn : NameOk c.col := by rw [hcol]; unfold NameOk; decide
  have hf : Fits ds c := by
    unfold Fits; rw [hcol]; simp [hdt]
  obtain ⟨l, hl, hv, hl2⟩ := parseValue_text ds c hw hf
  have hlo : l = litOf c.lit := hl2 (by simp [Mem.colDType, hcol, hdt])
  subst hlo
  have hc : c.col ∈ ds.cols := hcol ▸ h.hasRaw
  have h2 : ds.readCond (rawOf c) = .ok ⟨c.col, c.op, litOf c.lit⟩ := by
    simp [Mem.readCond, rawOf, hc, hl, op_ofText, bind, Except.bind]
  have h3 : ds.target ⟨c.col, c.op, litOf c.lit⟩ =
      .ok ("iid", optVal (lookupCode ds.itemMap (.str s))) := by
    simp [Mem.target, hcol, hids, hdt, Mem.itemToIid, h.hasRaw, normId, hlit, litOf, Lit.pyStr,
      Except.map]
  unfold Mem.segTest
  rw [parseSegment_text c a b ha hb hn hw]
  simp [bind, Except.bind, h2, h3, h.hasCol]

/-- A segment means a predicate on the rows of a dataset. -/
def Mem.SegMeans (ds : Mem) (seg : List Char) (p : Row → Prop) : Prop :=
  ds.SegOk seg ∧ ∀ r ∈ ds.rows, ds.segHolds seg r = true ↔ p r

theorem segMeans_direct (ds : Mem) (c : SCond) (a b : List Char) (ha : Blank a) (hb : Blank b)
    (hn : NameOk c.col) (hw : c.lit.Writable) (hc : c.col ∈ ds.cols) (hf : Fits ds c)
    (hd : Direct ds c) (hcmp : ∀ r ∈ ds.rows, Comparable c.op (r.get c.col) c.lit.value) :
    ds.SegMeans (a ++ c.text ++ b) fun r => Holds c.op (r.get c.col) c.lit.value := by
  have ht := segTest_direct ds c a b ha hb hn hw hc hf hd
  refine ⟨⟨_, ht, fun r hr => ⟨_, by rw [cmpPy_eq, if_pos (hcmp r hr)]⟩⟩, ?_⟩
  intro r hr
  simp only [Mem.segHolds, ht, cmpPy_eq, hcmp r hr, if_true, decide_eq_true_eq]

theorem eqne_iff (op : Op) (hop : op = .eq ∨ op = .ne) (m : List Val) (v w : Val)
    (hv : v ∈ m) :
    Holds op (.num ((m.idxOf v : ℕ) : ℚ)) (optVal (lookupCode m w)) ↔ Holds op v w := by
  rcases hop with rfl | rfl
  · simp only [Holds]; exact lookup_eq_iff m v w hv
  · simp only [Holds, ne_eq]; exact not_congr (lookup_eq_iff m v w hv)

theorem eqne_comparable (op : Op) (hop : op = .eq ∨ op = .ne) (a b : Val) : Comparable op a b := by
  rcases hop with rfl | rfl <;> trivial

theorem segMeans_user (ds : Mem) (c : SCond) (a b : List Char) (ha : Blank a) (hb : Blank b)
    (s : String) (hcol : c.col = "user") (hlit : c.lit = .str s) (hop : c.op = .eq ∨ c.op = .ne)
    (hw : c.lit.Writable) (hdt : ds.dtype "user" = .obj) (hids : ds.hasIds = true)
    (h : IdsFor ds "user" "uid" ds.userMap) :
    ds.SegMeans (a ++ c.text ++ b) fun r => Holds c.op (r.get c.col) c.lit.value := by
  have ht := segTest_user ds c a b ha hb s hcol hlit hw hdt hids h
  refine ⟨⟨_, ht, fun r hr => ⟨_, by rw [cmpPy_eq, if_pos (eqne_comparable _ hop _ _)]⟩⟩, ?_⟩
  intro r hr
  obtain ⟨h1, h2⟩ := h.code r hr
  have := eqne_iff c.op hop ds.userMap (r.get "user") (.str s) h1
  simp only [Mem.segHolds, ht, cmpPy_eq, eqne_comparable c.op hop, if_true, decide_eq_true_eq,
    hcol, hlit, SLit.value, h2]
  exact this

theorem segMeans_item (ds : Mem) (c : SCond) (a b : List Char) (ha : Blank a) (hb : Blank b)
    (s : String) (hcol : c.col = "item") (hlit : c.lit = .str s) (hop : c.op = .eq ∨ c.op = .ne)
    (hw : c.lit.Writable) (hdt : ds.dtype "item" = .obj) (hids : ds.hasIds = true)
    (h : IdsFor ds "item" "iid" ds.itemMap) :
    ds.SegMeans (a ++ c.text ++ b) fun r => Holds c.op (r.get c.col) c.lit.value := by
  have ht := segTest_item ds c a b ha hb s hcol hlit hw hdt hids h
  refine ⟨⟨_, ht, fun r hr => ⟨_, by rw [cmpPy_eq, if_pos (eqne_comparable _ hop _ _)]⟩⟩, ?_⟩
  intro r hr
  obtain ⟨h1, h2⟩ := h.code r hr
  have := eqne_iff c.op hop ds.itemMap (r.get "item") (.str s) h1
  simp only [Mem.segHolds, ht, cmpPy_eq, eqne_comparable c.op hop, if_true, decide_eq_true_eq,
    hcol, hlit, SLit.value, h2]
  exact this

/-- A query all of whose segments mean something keeps the rows satisfying all of them. -/
theorem applyQuery_means (ds : Mem) (ws : List (List Char × SCond × List Char))
    (hw : WellWritten ws)
    (h : ∀ w ∈ ws, ds.SegMeans (w.1 ++ w.2.1.text ++ w.2.2)
      fun r => Holds w.2.1.op (r.get w.2.1.col) w.2.1.lit.value) :
    ds.applyQuery (queryText ws) = .ok (ds.rows.filter fun r => decide (Sat ws r)) := by
  have hs := pySplit_queryText ws hw
  rw [Mem.applyQuery_ok]
  · congr 1
    apply List.filter_congr
    intro r hr
    rw [hs, Bool.eq_iff_iff]
    simp only [segsOf, List.all_map, List.all_eq_true, Function.comp_apply, decide_eq_true_eq]
    constructor
    · intro hh w hw'
      exact ((h w hw').2 r hr).1 (hh w hw')
    · intro hh w hw'
      exact ((h w hw').2 r hr).2 (hh w hw')
  · rw [hs]
    intro s hsm
    simp only [segsOf, List.mem_map] at hsm
    obtain ⟨w, hw', rfl⟩ := hsm
    exact (h w hw').1

end DRec
