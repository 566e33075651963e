import Verif.Lemmas.FloatCosine
import Verif.Spec.FloatCosine
import Verif.Props.FloatSim
import Verif.Lemmas.DmfFloat

/-!
# C137: the cosine of whole rows and the adjusted cosine in doubles
-/

namespace DRec

open DRec.Spec

theorem columns_length {es : List (Nat × Nat × ℝ)} {i : Nat} {ci : List Nat} (h : Columns es i ci) :
    ci.length ≤ es.length := by
  have : ci ⊆ es.map fun e => e.2.1 := by
    intro c hc
    obtain ⟨v, hv⟩ := (h.2 c).1 hc
    exact List.mem_map.2 ⟨_, hv, rfl⟩
  have := (List.subperm_of_subset h.1 this).length_le
  rwa [List.length_map] at this

/-- C137: computed in doubles, the cosine of two rows is there exactly when they have a column in common, and is close to the
cosine in exact arithmetic: the difference is at most one more than the number of values, divided by `2 ^ 48`. -/
theorem C137_cosine_close (es : List (Nat × Nat × ℝ)) (hl : es.length ≤ 2 ^ 40) (i j : Nat) (ci cj cs : List Nat)
    (hi : Columns es i ci) (hj : Columns es j cj) (hcs : Common es i j cs) :
    ((∃ s, (i, j, s) ∈ cosineFloat es) ↔ cs ≠ []) ∧
    ∀ s, (i, j, s) ∈ cosineFloat es →
      |s - cosRows ci cj cs (cell es i) (cell es j)| ≤ (ci.length + cj.length + 1) / 2 ^ 48 := by
  have key : i < (csrRows es).length → j < (csrRows es).length → ∃ t,
      (∀ s, cosineRowFloat ((csrRows es).getD i []) ((csrRows es).getD j []) = some s ↔ cs ≠ [] ∧ s = t) ∧
      |t - cosRows ci cj cs (cell es i) (cell es j)| ≤ (ci.length + cj.length + 1) / 2 ^ 48 := by
    intro hil hjl
    obtain ⟨ci', p1, o1, e1⟩ := csr_rowOf es i hil hi
    obtain ⟨cj', p2, o2, e2⟩ := csr_rowOf es j hjl hj
    have n1 : ci'.Nodup := o1.imp fun h => h.ne
    have n2 : cj'.Nodup := o2.imp fun h => h.ne
    have hb := both_cols hi hj hcs p1 p2
    have hb' : Both ci' cj' (ci'.filter fun c => decide (c ∈ cj')) :=
      ⟨n1.filter _, fun c => by rw [List.mem_filter, decide_eq_true_eq]⟩
    refine ⟨_, fun s => by rw [e1, e2]; exact cosineRowFloat_rowOf n2 hb _ _ s, ?_⟩
    have h1 : (ci.length : ℝ) ≤ 2 ^ 40 := by exact_mod_cast (columns_length hi).trans hl
    have h2 : (cj.length : ℝ) ≤ 2 ^ 40 := by exact_mod_cast (columns_length hj).trans hl
    have h3 : (0 : ℝ) ≤ ci.length := Nat.cast_nonneg _
    have h4 : (0 : ℝ) ≤ cj.length := Nat.cast_nonneg _
    have := cosFullFloat_close n1 n2 hb' (cell es i) (cell es j) (cell es i) (cell es j) (ρ := 0)
      (d := ((ci.length : ℝ) + cj.length + 1) / 2 ^ 52) le_rfl (by norm_num)
      (by rw [p1.length_eq]; exact div_le_div_of_nonneg_right (by linarith) (by positivity))
      (by rw [p2.length_eq]; exact div_le_div_of_nonneg_right (by linarith) (by positivity))
      (by rw [div_le_div_iff₀ (by positivity) (by norm_num)]; nlinarith) (by simp) (by simp)
    have e : cosFull ci' cj' (ci'.filter fun c => decide (c ∈ cj')) (cell es i) (cell es j) =
        cosRows ci cj cs (cell es i) (cell es j) := by
      unfold cosFull cosRows
      rw [(p1.map fun c => cell es i c ^ 2).sum_eq, (p2.map fun c => cell es j c ^ 2).sum_eq,
        ((both_filter n1 hb).map fun c => cell es i c * cell es j c).sum_eq]
    rw [e] at this
    refine this.trans ?_
    have h5 : (0 : ℝ) ≤ (ci.length + cj.length + 1) / 2 ^ 52 := by positivity
    have e : ((ci.length : ℝ) + cj.length + 1) / 2 ^ 48 = 16 * ((ci.length + cj.length + 1) / 2 ^ 52) := by ring
    rw [e]
    linarith
  unfold cosineFloat
  simp only [mem_fullLoop]
  refine ⟨⟨?_, fun hne => ?_⟩, ?_⟩
  · rintro ⟨s, hil, hjl, h⟩
    obtain ⟨t, ht, _⟩ := key hil hjl
    exact ((ht s).1 h).1
  · obtain ⟨hil, hjl⟩ := common_small hcs hne
    obtain ⟨t, ht, _⟩ := key hil hjl
    exact ⟨t, hil, hjl, (ht t).2 ⟨hne, rfl⟩⟩
  · rintro s ⟨hil, hjl, h⟩
    obtain ⟨t, ht, hc⟩ := key hil hjl
    rw [((ht s).1 h).2]
    exact hc

/-- Symmetry, range and diagonal for rows of any numbers. -/
theorem full_cosine (rows : List (SRow ℝ)) (L : Nat) (hL : L ≤ 2 ^ 40) (h : ∀ i, i < rows.length → ∃ (ci : List Nat) (f : Nat → ℝ),
      ci.Pairwise (· < ·) ∧ ci.length ≤ L ∧ rows.getD i [] = rowOf ci f) :
    Symmetric (fullLoop cosineRowFloat rows) ∧ ∀ i j s, (i, j, s) ∈ fullLoop cosineRowFloat rows →
      |s| ≤ 1 + (L + 1) / 2 ^ 48 ∧ (i = j → (∃ e ∈ rows.getD i [], e.2 ≠ 0) → |s - 1| ≤ (L + 1) / 2 ^ 48) := by
  have hpos : (0 : ℝ) ≤ ((L : ℝ) + 1) / 2 ^ 52 := by positivity
  have h48 : ((L : ℝ) + 1) / 2 ^ 48 = 16 * ((L + 1) / 2 ^ 52) := by ring
  have hd : ((L : ℝ) + 1) / 2 ^ 52 ≤ 1 / 1000 := by
    have : (L : ℝ) ≤ 2 ^ 40 := by exact_mod_cast hL
    rw [div_le_div_iff₀ (by positivity) (by norm_num)]
    nlinarith
  have hlen : ∀ l : List Nat, l.length ≤ L → ((l.length : ℝ) + 1) / 2 ^ 52 ≤ (L + 1) / 2 ^ 52 := by
    intro l hl
    have : (l.length : ℝ) ≤ L := by exact_mod_cast hl
    exact div_le_div_of_nonneg_right (by linarith) (by positivity)
  refine ⟨⟨?_, ?_⟩, ?_⟩
  · intro i j s hs
    rw [mem_fullLoop] at hs ⊢
    obtain ⟨hi, hj, hs⟩ := hs
    obtain ⟨ci, f, o1, l1, e1⟩ := h i hi
    obtain ⟨cj, g, o2, l2, e2⟩ := h j hj
    refine ⟨hj, hi, ?_⟩
    have n1 : ci.Nodup := o1.imp fun h => h.ne
    have n2 : cj.Nodup := o2.imp fun h => h.ne
    obtain ⟨cs, hb⟩ := exists_both ci cj n1
    rw [e1, e2, cosineRowFloat_rowOf n2 hb] at hs
    rw [e1, e2, cosineRowFloat_rowOf n1 (both_symm hb), ← filter_common o1 o2, cosFullFloat_symm]
    exact hs
  · intro i j s s' hs hs'
    rw [mem_fullLoop] at hs hs'
    exact Option.some.inj (hs.2.2.symm.trans hs'.2.2)
  · intro i j s hs
    rw [mem_fullLoop] at hs
    obtain ⟨hi, hj, hs⟩ := hs
    obtain ⟨ci, f, o1, l1, e1⟩ := h i hi
    obtain ⟨cj, g, o2, l2, e2⟩ := h j hj
    have n1 : ci.Nodup := o1.imp fun h => h.ne
    have n2 : cj.Nodup := o2.imp fun h => h.ne
    have hb : Both ci cj (ci.filter fun c => decide (c ∈ cj)) :=
      ⟨n1.filter _, fun c => by rw [List.mem_filter, decide_eq_true_eq]⟩
    have hs0 := hs
    rw [e1, e2, cosineRowFloat_rowOf n2 hb] at hs
    have c := cosFullFloat_close n1 n2 hb f g f g (ρ := 0) le_rfl (by norm_num) (hlen ci l1) (hlen cj l2) hd (by simp) (by simp)
    rw [← hs.2] at c
    have bd := cosFull_bounds n1 n2 hb f g
    constructor
    · have h1 := abs_add_le (s - cosFull ci cj (ci.filter fun c => decide (c ∈ cj)) f g)
        (cosFull ci cj (ci.filter fun c => decide (c ∈ cj)) f g)
      rw [sub_add_cancel] at h1
      have h2 := abs_le.2 bd
      rw [h48]
      linarith
    · rintro rfl ⟨e, he, hne⟩
      rw [e1] at he
      obtain ⟨k, hk, rfl⟩ := List.mem_map.1 he
      have hbs : Both ci ci (ci.filter fun c => decide (c ∈ ci)) :=
        ⟨n1.filter _, fun c => by rw [List.mem_filter, decide_eq_true_eq]⟩
      have cc := cosFullFloat_close n1 n1 hbs f f f f (ρ := 0) le_rfl (by norm_num) (hlen ci l1) (hlen ci l1) hd (by simp) (by simp)
      rw [cosFull_self n1 hbs f hk hne] at cc
      rw [e1, cosineRowFloat_rowOf n1 hbs] at hs0
      rw [hs0.2, h48]
      linarith

/-- The full claim for the cosine of whole rows: computed in doubles it stays within [-1, 1].  `C137_range_refuted` shows it
false. -/
def CosineRowsInRange : Prop := ∀ (es : List (Nat × Nat × ℝ)) i j s, (i, j, s) ∈ cosineFloat es → |s| ≤ 1

/-- C137 (range): computed in doubles, the cosine of whole rows and the adjusted cosine are symmetric, exceed 1 at most by
`(n + 1) / 2 ^ 48` with `n` records, and are that close to 1 on the diagonal (of a row that is not all zeros; adjusted
cosines are only there for rows with a value other than zero left).  Missing: that they stay within [-1, 1], which is
false. -/
theorem C137_range_partial (es : List (Nat × Nat × ℝ)) (hl : es.length ≤ 2 ^ 40) :
    (Symmetric (cosineFloat es) ∧ ∀ i j s, (i, j, s) ∈ cosineFloat es → |s| ≤ 1 + (es.length + 1) / 2 ^ 48 ∧
      (i = j → (∃ c, cell es i c ≠ 0) → |s - 1| ≤ (es.length + 1) / 2 ^ 48)) ∧
    Symmetric (adjustedFloat es) ∧ ∀ i j s, (i, j, s) ∈ adjustedFloat es → |s| ≤ 1 + (es.length + 1) / 2 ^ 48 ∧
      (i = j → |s - 1| ≤ (es.length + 1) / 2 ^ 48) := by
  have hrow : ∀ i, i < (csrRows es).length → ∃ ci : List Nat, ci.Pairwise (· < ·) ∧ ci.length ≤ es.length ∧ Columns es i ci ∧
      (csrRows es).getD i [] = rowOf ci (cell es i) := by
    intro i hi
    obtain ⟨ci, hci⟩ := exists_columns es i
    obtain ⟨ci', p, o, e⟩ := csr_rowOf es i hi hci
    exact ⟨ci', o, p.length_eq ▸ columns_length hci, ⟨o.imp fun h => h.ne, fun c => by rw [p.mem_iff, hci.2]⟩, e⟩
  constructor
  · have := full_cosine (csrRows es) es.length hl (by
      intro i hi
      obtain ⟨ci, h1, h2, _, h3⟩ := hrow i hi
      exact ⟨ci, _, h1, h2, h3⟩)
    refine ⟨this.1, fun i j s hs => ⟨(this.2 i j s hs).1, fun hij hne => (this.2 i j s hs).2 hij ?_⟩⟩
    obtain ⟨c, hc⟩ := hne
    obtain ⟨ci, _, _, h2, h3⟩ := hrow i (mem_fullLoop.1 hs).1
    rw [h3]
    exact ⟨(c, cell es i c), List.mem_map.2 ⟨c, (h2.2 c).2 (hasCell_of_ne hc), rfl⟩, hc⟩
  · have hget : ∀ k, k < (csrRows es).length → ((csrRows es).map subtractMeanFloat).getD k [] =
        subtractMeanFloat ((csrRows es).getD k []) := by
      intro k hk
      rw [List.getD_eq_getElem?_getD, List.getElem?_map, List.getElem?_eq_getElem hk, List.getD_eq_getElem?_getD,
        List.getElem?_eq_getElem hk]
      rfl
    have := full_cosine ((csrRows es).map subtractMeanFloat) es.length hl (by
      intro i hi
      rw [List.length_map] at hi
      obtain ⟨ci, h1, h2, _, h3⟩ := hrow i hi
      rw [hget i hi, h3, subtractMeanFloat_rowOf]
      exact ⟨_, _, h1.filter _, (List.length_filter_le _ _).trans h2, rfl⟩)
    refine ⟨this.1, fun i j s hs => ⟨(this.2 i j s hs).1, fun hij => (this.2 i j s hs).2 hij ?_⟩⟩
    subst hij
    unfold adjustedFloat at hs
    rw [mem_fullLoop] at hs
    obtain ⟨hi, _, hs⟩ := hs
    unfold cosineRowFloat at hs
    split at hs
    · rename_i hsh
      unfold share at hsh
      rw [List.any_eq_true] at hsh
      obtain ⟨e, he, _⟩ := hsh
      refine ⟨e, he, ?_⟩
      rw [List.length_map] at hi
      rw [hget i hi] at he
      unfold subtractMeanFloat at he
      rw [List.mem_filter, decide_eq_true_eq] at he
      exact he.2
    · cases hs

/-! ## The adjusted cosine -/

/-- The full claim for the adjusted cosine: for data made of doubles, it is there for the same rows as in exact arithmetic.
`C137_adjusted_refuted` shows it false. -/
def AdjustedSame : Prop := ∀ es : List (Nat × Nat × ℝ), (∀ e ∈ es, IsDouble e.2.2) → es.length ≤ 2 ^ 40 →
  ∀ i j, (∃ s, (i, j, s) ∈ adjustedFloat es) ↔ ∃ s, (i, j, s) ∈ adjustedCosineSim es

/-- C137 (adjusted cosine): when the values are whole multiples of a power of two, not too large, the adjusted cosine of two
rows in doubles is there exactly when there is a column where both deviate from their means, and then is within
`n * (B + 1) / 2 ^ 47` of the adjusted cosine in exact arithmetic, where the rows have `n` values.  Missing: any doubles,
for which it is false. -/
theorem C137_adjusted_partial (es : List (Nat × Nat × ℝ)) (e : ℤ) (B : ℕ)
    (hgrid : ∀ i c, ∃ z : ℤ, |z| ≤ B ∧ cell es i c = z * 2 ^ e) (hB : es.length * (B + 1) ≤ 2 ^ 40) (i j : Nat)
    (ci cj cs : List Nat) (hi : Columns es i ci) (hj : Columns es j cj) (hcs : Common es i j cs) :
    ((∃ s, (i, j, s) ∈ adjustedFloat es) ↔
      ∃ c ∈ cs, cell es i c ≠ meanOver ci (cell es i) ∧ cell es j c ≠ meanOver cj (cell es j)) ∧
    ∀ s, (i, j, s) ∈ adjustedFloat es →
      |s - cosRows ci cj cs (fun c => cell es i c - meanOver ci (cell es i)) (fun c => cell es j c - meanOver cj (cell es j))| ≤
        (ci.length + cj.length) * (B + 1) / 2 ^ 47 := by
  choose z hz using hgrid
  have hget : ∀ k, k < (csrRows es).length → ((csrRows es).map subtractMeanFloat).getD k [] =
      subtractMeanFloat ((csrRows es).getD k []) := by
    intro k hk
    rw [List.getD_eq_getElem?_getD, List.getElem?_map, List.getElem?_eq_getElem hk, List.getD_eq_getElem?_getD,
      List.getElem?_eq_getElem hk]
    rfl
  have hcell : ∀ k, cell es k = fun c => (z k c : ℝ) * 2 ^ e := fun k => funext fun c => (hz k c).2
  -- one row
  have hrow : ∀ k ck ck', Columns es k ck → ck'.Perm ck → ∀ c ∈ ck',
      |devFloat ck' (cell es k) c - (cell es k c - meanOver ck (cell es k))| ≤
        4 * (ck.length * B) / 2 ^ 53 * |cell es k c - meanOver ck (cell es k)| := by
    intro k ck ck' hk p c hc
    have hlen : ck'.length * B ≤ 2 ^ 53 := by
      have h1 := columns_length hk
      rw [p.length_eq]
      calc ck.length * B ≤ es.length * (B + 1) := Nat.mul_le_mul h1 (Nat.le_succ B)
        _ ≤ 2 ^ 53 := hB.trans (by norm_num)
    have := devFloat_close ck' (z k) e (fun c _ => (hz k c).1) hlen hc
    rw [p.length_eq, (p.map fun c => (z k c : ℝ) * 2 ^ e).sum_eq] at this
    rw [hcell k]
    exact this
  have hl : (es.length : ℝ) * (B + 1) ≤ 2 ^ 40 := by exact_mod_cast hB
  have hB0 : (0 : ℝ) ≤ B := Nat.cast_nonneg _
  have hn1 : (ci.length : ℝ) ≤ es.length := by exact_mod_cast columns_length hi
  have hn2 : (cj.length : ℝ) ≤ es.length := by exact_mod_cast columns_length hj
  have hm1 : (0 : ℝ) ≤ ci.length := Nat.cast_nonneg _
  have hm2 : (0 : ℝ) ≤ cj.length := Nat.cast_nonneg _
  have hn : ((ci.length : ℝ) + cj.length) * (B + 1) ≤ 2 ^ 41 := by nlinarith
  set n : ℝ := (ci.length : ℝ) + cj.length with hndef
  have hn0 : 0 ≤ n := by linarith
  have hnB : 0 ≤ n * B := mul_nonneg hn0 hB0
  have hρ : 4 * (n * B) / 2 ^ 53 ≤ 1 / 1000 := by
    rw [div_le_div_iff₀ (by positivity) (by norm_num)]
    nlinarith
  have hd : (n + 1) / 2 ^ 52 ≤ 1 / 1000 := by
    rw [div_le_div_iff₀ (by positivity) (by norm_num)]
    nlinarith
  have drop : ∀ (l : List Nat) (f : Nat → ℝ) (q : Nat → Bool), (∀ c ∈ l, q c = false → f c = 0) →
      ((l.filter q).map fun c => f c ^ 2).sum = (l.map fun c => f c ^ 2).sum := by
    intro l f q h
    apply sum_filter_zero
    intro c hc hq
    rw [h c hc hq]; simp
  have key : i < (csrRows es).length → j < (csrRows es).length → ∃ t,
      (∀ s, cosineRowFloat (((csrRows es).map subtractMeanFloat).getD i []) (((csrRows es).map subtractMeanFloat).getD j []) =
        some s ↔ (∃ c ∈ cs, cell es i c ≠ meanOver ci (cell es i) ∧ cell es j c ≠ meanOver cj (cell es j)) ∧ s = t) ∧
      (cs ≠ [] → |t - cosRows ci cj cs (fun c => cell es i c - meanOver ci (cell es i))
        (fun c => cell es j c - meanOver cj (cell es j))| ≤ n * (B + 1) / 2 ^ 47) := by
    intro hil hjl
    obtain ⟨ci', p1, o1, e1⟩ := csr_rowOf es i hil hi
    obtain ⟨cj', p2, o2, e2⟩ := csr_rowOf es j hjl hj
    have n1 : ci'.Nodup := o1.imp fun h => h.ne
    have n2 : cj'.Nodup := o2.imp fun h => h.ne
    rw [hget i hil, hget j hjl, e1, e2, subtractMeanFloat_rowOf, subtractMeanFloat_rowOf]
    have r1 := hrow i ci ci' hi p1
    have r2 := hrow j cj cj' hj p2
    have hb := both_cols hi hj hcs p1 p2
    generalize devFloat ci' (cell es i) = F at *
    generalize devFloat cj' (cell es j) = G at *
    generalize hf : (fun c => cell es i c - meanOver ci (cell es i)) = f
    generalize hg : (fun c => cell es j c - meanOver cj (cell es j)) = g
    have hf' : ∀ c, cell es i c - meanOver ci (cell es i) = f c := fun c => congrFun hf c
    have hg' : ∀ c, cell es j c - meanOver cj (cell es j) = g c := fun c => congrFun hg c
    have r1' : ∀ c ∈ ci', |F c - f c| ≤ 4 * (n * B) / 2 ^ 53 * |f c| := by
      intro c hc
      have := r1 c hc
      rw [hf' c] at this
      refine this.trans (mul_le_mul_of_nonneg_right (div_le_div_of_nonneg_right ?_ (by positivity)) (abs_nonneg _))
      nlinarith [mul_nonneg hm2 hB0]
    have r2' : ∀ c ∈ cj', |G c - g c| ≤ 4 * (n * B) / 2 ^ 53 * |g c| := by
      intro c hc
      have := r2 c hc
      rw [hg' c] at this
      refine this.trans (mul_le_mul_of_nonneg_right (div_le_div_of_nonneg_right ?_ (by positivity)) (abs_nonneg _))
      nlinarith [mul_nonneg hm1 hB0]
    have same : ∀ {x y : ℝ}, |x - y| ≤ 4 * (n * B) / 2 ^ 53 * |y| → (x ≠ 0 ↔ y ≠ 0) := by
      intro x y h
      constructor
      · rintro hx rfl
        rw [abs_zero, mul_zero, sub_zero] at h
        exact hx (abs_nonpos_iff.1 h)
      · rintro hy rfl
        rw [zero_sub, abs_neg] at h
        have : 0 < |y| := abs_pos.2 hy
        nlinarith
    have hb' : Both (ci'.filter fun c => decide (F c ≠ 0)) (cj'.filter fun c => decide (G c ≠ 0))
        (cs.filter fun c => decide (F c ≠ 0) && decide (G c ≠ 0)) :=
      ⟨hcs.1.filter _, fun c => by
        simp only [List.mem_filter, Bool.and_eq_true, decide_eq_true_eq, hb.2 c]; tauto⟩
    have m1 := n1.filter fun c => decide (F c ≠ 0)
    have m2 := n2.filter fun c => decide (G c ≠ 0)
    have hb'' : Both (ci'.filter fun c => decide (F c ≠ 0)) (cj'.filter fun c => decide (G c ≠ 0))
        ((ci'.filter fun c => decide (F c ≠ 0)).filter fun c => decide (c ∈ cj'.filter fun c => decide (G c ≠ 0))) :=
      ⟨m1.filter _, fun c => by rw [List.mem_filter (p := fun c => decide (c ∈ _)), decide_eq_true_eq]⟩
    have c1 : (cs.filter fun c => decide (F c ≠ 0) && decide (G c ≠ 0)) ≠ [] ↔
        ∃ c ∈ cs, cell es i c ≠ meanOver ci (cell es i) ∧ cell es j c ≠ meanOver cj (cell es j) := by
      rw [ne_eq, List.filter_eq_nil_iff]
      push Not
      simp only [Bool.and_eq_true, decide_eq_true_eq]
      constructor
      · rintro ⟨c, hc, hF, hG⟩
        refine ⟨c, hc, ?_, ?_⟩
        · rw [← sub_ne_zero, hf' c]; exact (same (r1' c ((hb.2 c).1 hc).1)).1 hF
        · rw [← sub_ne_zero, hg' c]; exact (same (r2' c ((hb.2 c).1 hc).2)).1 hG
      · rintro ⟨c, hc, hF, hG⟩
        rw [← sub_ne_zero, hf' c] at hF
        rw [← sub_ne_zero, hg' c] at hG
        exact ⟨c, hc, (same (r1' c ((hb.2 c).1 hc).1)).2 hF, (same (r2' c ((hb.2 c).1 hc).2)).2 hG⟩
    refine ⟨_, fun s => by rw [← c1]; exact cosineRowFloat_rowOf m2 hb' F G s, fun hcne => ?_⟩
    have q1 : ((ci'.filter fun c => decide (F c ≠ 0)).length : ℝ) ≤ n := by
      have : ((ci'.filter fun c => decide (F c ≠ 0)).length : ℝ) ≤ ci'.length := by exact_mod_cast List.length_filter_le _ _
      rw [p1.length_eq] at this
      linarith
    have q2 : ((cj'.filter fun c => decide (G c ≠ 0)).length : ℝ) ≤ n := by
      have : ((cj'.filter fun c => decide (G c ≠ 0)).length : ℝ) ≤ cj'.length := by exact_mod_cast List.length_filter_le _ _
      rw [p2.length_eq] at this
      linarith
    have close := cosFullFloat_close m1 m2 hb'' f g F G (ρ := 4 * (n * B) / 2 ^ 53) (d := (n + 1) / 2 ^ 52) (by positivity) hρ
      (div_le_div_of_nonneg_right (by linarith) (by positivity)) (div_le_div_of_nonneg_right (by linarith) (by positivity)) hd
      (fun c hc => r1' c (List.mem_filter.1 hc).1) (fun c hc => r2' c (List.mem_filter.1 hc).1)
    have e : cosFull (ci'.filter fun c => decide (F c ≠ 0)) (cj'.filter fun c => decide (G c ≠ 0))
        ((ci'.filter fun c => decide (F c ≠ 0)).filter fun c => decide (c ∈ cj'.filter fun c => decide (G c ≠ 0))) f g =
        cosRows ci cj cs f g := by
      have z1 : ∀ c ∈ ci', decide (F c ≠ 0) = false → f c = 0 := by
        intro c hc h0
        by_contra h1
        exact of_decide_eq_false h0 ((same (r1' c hc)).2 h1)
      have z2 : ∀ c ∈ cj', decide (G c ≠ 0) = false → g c = 0 := by
        intro c hc h0
        by_contra h1
        exact of_decide_eq_false h0 ((same (r2' c hc)).2 h1)
      unfold cosFull cosRows
      rw [drop ci' f _ z1, drop cj' g _ z2, (p1.map fun c => f c ^ 2).sum_eq, (p2.map fun c => g c ^ 2).sum_eq,
        ((both_filter m1 hb').map fun c => f c * g c).sum_eq, sum_filter_zero]
      intro c hc h0
      rw [Bool.and_eq_false_iff] at h0
      rcases h0 with h | h
      · rw [z1 c ((hb.2 c).1 hc).1 h, zero_mul]
      · rw [z2 c ((hb.2 c).1 hc).2 h, mul_zero]
    rw [e] at close
    refine close.trans ?_
    have hci1 : 1 ≤ n := by
      obtain ⟨c, hc⟩ := List.exists_mem_of_ne_nil _ hcne
      have : (1 : ℝ) ≤ ci.length := by
        exact_mod_cast List.length_pos_of_mem ((hi.2 c).2 ((hcs.2 c).1 hc).1)
      linarith
    have e : 10 * (4 * (n * B) / 2 ^ 53 + (n + 1) / 2 ^ 52) = (10 * (2 * (n * B) + (n + 1))) / 2 ^ 52 := by ring
    have e' : n * (B + 1) / 2 ^ 47 = (32 * (n * (B + 1))) / 2 ^ 52 := by ring
    rw [e, e']
    exact div_le_div_of_nonneg_right (by nlinarith) (by positivity)
  unfold adjustedFloat
  simp only [mem_fullLoop, List.length_map]
  refine ⟨⟨?_, fun hne => ?_⟩, ?_⟩
  · rintro ⟨s, hil, hjl, h⟩
    obtain ⟨t, ht, _⟩ := key hil hjl
    exact ((ht s).1 h).1
  · obtain ⟨c, hc, _⟩ := id hne
    obtain ⟨hil, hjl⟩ := common_small hcs (List.ne_nil_of_mem hc)
    obtain ⟨t, ht, _⟩ := key hil hjl
    exact ⟨t, hil, hjl, (ht t).2 ⟨hne, rfl⟩⟩
  · rintro s ⟨hil, hjl, h⟩
    obtain ⟨t, ht, hc⟩ := key hil hjl
    have h' := (ht s).1 h
    rw [h'.2]
    obtain ⟨c, hcm, _⟩ := h'.1
    exact hc (List.ne_nil_of_mem hcm)

/-! ## What goes wrong -/

/-- Two users that rate the same three items with the same number. -/
noncomputable def exSame (x : ℝ) : List (Nat × Nat × ℝ) := [(0, 0, x), (0, 1, x), (0, 2, x), (1, 0, x), (1, 1, x), (1, 2, x)]

theorem exSame_columns (x : ℝ) : Columns (exSame x) 0 [0, 1, 2] ∧ Columns (exSame x) 1 [0, 1, 2] ∧
    Common (exSame x) 0 1 [0, 1, 2] := by
  refine ⟨⟨by decide, fun c => ?_⟩, ⟨by decide, fun c => ?_⟩, ⟨by decide, fun c => ?_⟩⟩
  all_goals
    simp only [exSame, HasCell, List.mem_cons, Prod.mk.injEq, List.not_mem_nil, or_false]
    constructor
  · rintro (rfl | rfl | rfl) <;> exact ⟨x, by simp⟩
  · rintro ⟨v, h1⟩; omega
  · rintro (rfl | rfl | rfl) <;> exact ⟨x, by simp⟩
  · rintro ⟨v, h1⟩; omega
  · rintro (rfl | rfl | rfl) <;> exact ⟨⟨x, by simp⟩, ⟨x, by simp⟩⟩
  · rintro ⟨⟨v, h1⟩, ⟨w, h2⟩⟩; omega

theorem exSame_cell (x : ℝ) {i c : Nat} (hi : i = 0 ∨ i = 1) (hc : c ∈ [0, 1, 2]) : cell (exSame x) i c = x := by
  simp only [List.mem_cons, List.not_mem_nil, or_false] at hc
  rcases hi with rfl | rfl <;> rcases hc with rfl | rfl | rfl <;> simp [cell, exSame]

theorem exSame_rows (x : ℝ) : 0 < (csrRows (exSame x)).length ∧ 1 < (csrRows (exSame x)).length ∧
    ∀ i, i = 0 ∨ i = 1 → (csrRows (exSame x)).getD i [] = rowOf [0, 1, 2] fun _ => x := by
  obtain ⟨h0, h1, hc⟩ := exSame_columns x
  obtain ⟨l0, l1⟩ := common_small hc (by simp)
  refine ⟨l0, l1, fun i hi => ?_⟩
  have hcol : Columns (exSame x) i [0, 1, 2] := by rcases hi with rfl | rfl <;> assumption
  have hil : i < (csrRows (exSame x)).length := by rcases hi with rfl | rfl <;> assumption
  obtain ⟨ci, p, o, e⟩ := csr_rowOf (exSame x) i hil hcol
  have : ci = [0, 1, 2] := by
    apply List.Perm.eq_of_pairwise (le := (· < ·)) _ o (by decide) p
    intro a b _ _ h h'; exact absurd h (lt_asymm h')
  rw [e, this]
  exact List.map_congr_left fun c hc => by rw [exSame_cell x hi hc]

theorem toFloat_sqrt_three : toFloat √(3 : ℝ) = (7800463371553962 : ℤ) * 2 ^ (-52 : ℤ) := by
  apply toFloat_close (by norm_num)
  · apply Real.le_sqrt_of_sq_le
    norm_num
  · have l1 : (7800463371553962 - 1 / 4 : ℝ) * 2 ^ (-52 : ℤ) ≤ √3 := by
      apply Real.le_sqrt_of_sq_le
      norm_num
    have l2 : √(3 : ℝ) ≤ (7800463371553962 + 49 / 100 : ℝ) * 2 ^ (-52 : ℤ) := by
      apply Real.sqrt_le_iff.2
      constructor <;> norm_num
    rw [abs_lt]
    push_cast
    constructor <;> norm_num at l1 l2 ⊢ <;> linarith

/-- C137 (negation): two users that give 1 to the same three items have a cosine above 1. -/
theorem C137_range_refuted : ¬ CosineRowsInRange := by
  intro h
  obtain ⟨l0, l1, hr⟩ := exSame_rows 1
  have hs : sumFloat [(1 : ℝ), 1, 1] = 3 := by
    have := sumFloat_grid (K := ℝ) 0 [1, 1, 1] (by decide)
    norm_num at this
    exact this
  have hnorm : normFloat [0, 1, 2] (fun _ => 1) = (7800463371553962 : ℤ) * 2 ^ (-52 : ℤ) := by
    unfold normFloat
    simp only [List.map_cons, List.map_nil, one_pow, toFloat_one, hs]
    rw [if_neg (by norm_num), toFloat_sqrt_three]
  have hunit : ∀ c, unitFloat [0, 1, 2] (fun _ => 1) c = (5200308914369309 : ℤ) * 2 ^ (-53 : ℤ) := by
    intro c
    unfold unitFloat
    rw [hnorm]
    apply toFloat_close (by norm_num)
    · norm_num
    · rw [abs_lt]
      constructor <;> norm_num
  have hprod : toFloat (((5200308914369309 : ℤ) : ℝ) * 2 ^ (-53 : ℤ) * (((5200308914369309 : ℤ) : ℝ) * 2 ^ (-53 : ℤ))) =
      (6004799503160663 : ℤ) * 2 ^ (-54 : ℤ) := by
    apply toFloat_close (by norm_num)
    · norm_num
    · rw [abs_lt]
      constructor <;> norm_num
  have t1 : toFloat (0 + ((6004799503160663 : ℤ) : ℝ) * 2 ^ (-54 : ℤ)) = (6004799503160663 : ℤ) * 2 ^ (-54 : ℤ) := by
    apply toFloat_close (by norm_num)
    · norm_num
    · rw [abs_lt]
      constructor <;> norm_num
  have t2 : toFloat (((6004799503160663 : ℤ) : ℝ) * 2 ^ (-54 : ℤ) + ((6004799503160663 : ℤ) : ℝ) * 2 ^ (-54 : ℤ)) =
      (6004799503160663 : ℤ) * 2 ^ (-53 : ℤ) := by
    apply toFloat_close (by norm_num)
    · norm_num
    · rw [abs_lt]
      constructor <;> norm_num
  have t3 : toFloat (((6004799503160663 : ℤ) : ℝ) * 2 ^ (-53 : ℤ) + ((6004799503160663 : ℤ) : ℝ) * 2 ^ (-54 : ℤ)) =
      (4503599627370497 : ℤ) * 2 ^ (-52 : ℤ) := by
    apply toFloat_close (by norm_num)
    · norm_num
    · rw [abs_lt]
      constructor <;> norm_num
  have hv : cosineRowFloat (rowOf [0, 1, 2] fun _ => 1) (rowOf [0, 1, 2] fun _ => 1) =
      some (((4503599627370497 : ℤ) : ℝ) * 2 ^ (-52 : ℤ)) := by
    rw [cosineRowFloat_rowOf (cs := [0, 1, 2]) (by decide) ⟨by decide, fun c => by simp⟩]
    refine ⟨by simp, ?_⟩
    rw [show ([0, 1, 2].filter fun c : Nat => decide (c ∈ [0, 1, 2])) = [0, 1, 2] by decide]
    unfold cosFullFloat sumFloat
    simp only [List.map_cons, List.map_nil, hunit, hprod, List.foldl_cons, List.foldl_nil, t1, t2, t3]
  have hm : (0, 1, ((4503599627370497 : ℤ) : ℝ) * 2 ^ (-52 : ℤ)) ∈ cosineFloat (exSame 1) := by
    unfold cosineFloat
    rw [mem_fullLoop]
    refine ⟨l0, l1, ?_⟩
    rw [hr 0 (.inl rfl), hr 1 (.inr rfl)]
    exact hv
  have := h (exSame 1) 0 1 _ hm
  rw [abs_of_pos (by positivity)] at this
  norm_num at this

/-- C137 (negation): two users that rate everything 0.1 do not deviate from their means, so that in exact arithmetic they
have no adjusted cosine.  In doubles the mean of three times 0.1 is not 0.1, and what the subtraction leaves is normalised
to an adjusted cosine of about 1. -/
theorem C137_adjusted_fails : (¬ ∃ s, (0, 1, s) ∈ adjustedCosineSim (exSame (toFloat (1 / 10)))) ∧
    ∃ s, (0, 1, s) ∈ adjustedFloat (exSame (toFloat (1 / 10))) ∧ 1 - 1 / 2 ^ 45 ≤ s := by
  obtain ⟨l0, l1, hr⟩ := exSame_rows (toFloat (1 / 10))
  obtain ⟨h0, h1, hc⟩ := exSame_columns (toFloat (1 / 10))
  constructor
  · rintro ⟨s, hs⟩
    rw [C60_adjusted_value _ 0 1 s _ _ _ h0 h1 hc] at hs
    obtain ⟨⟨c, hcm, hne, _⟩, _⟩ := hs
    apply hne
    rw [exSame_cell _ (.inl rfl) hcm]
    unfold meanOver
    rw [show [0, 1, 2].map (cell (exSame (toFloat (1 / 10))) 0) = [0, 1, 2].map fun _ => toFloat (1 / 10) from
      List.map_congr_left fun c hc => exSame_cell _ (.inl rfl) hc]
    simp only [List.map_cons, List.map_nil, List.sum_cons, List.sum_nil, List.length_cons, List.length_nil]
    push_cast
    ring
  · have hdev : ∀ c, devFloat [0, 1, 2] (fun _ => toFloat (1 / 10)) c = (((-1 / 2 ^ 56 : ℚ)) : ℝ) := by
      intro c
      have hq : toFloat (toFloat (1 / 10 : ℚ) - toFloat (sumFloat [toFloat (1 / 10 : ℚ), toFloat (1 / 10 : ℚ), toFloat (1 / 10 : ℚ)] / 3)) =
          -1 / 2 ^ 56 := by decide +kernel
      rw [← hq]
      unfold devFloat sumFloat
      simp only [List.map_cons, List.map_nil, List.foldl_cons, List.foldl_nil, List.length_cons, List.length_nil]
      have e : (1 / 10 : ℝ) = ((1 / 10 : ℚ) : ℝ) := by norm_num
      rw [e]
      rw [Dm.toFloat_cast]
      generalize toFloat (1 / 10 : ℚ) = v
      have e3 : (((0 + 1 + 1 + 1 : ℕ)) : ℝ) = ((3 : ℚ) : ℝ) := by norm_num
      have e0 : (0 : ℝ) = ((0 : ℚ) : ℝ) := by norm_num
      rw [e3, e0]
      rw [← Rat.cast_add, Dm.toFloat_cast, ← Rat.cast_add, Dm.toFloat_cast, ← Rat.cast_add, Dm.toFloat_cast,
        ← Rat.cast_div, Dm.toFloat_cast, ← Rat.cast_sub, Dm.toFloat_cast]
    have hne : ((((-1 / 2 ^ 56 : ℚ)) : ℝ)) ≠ 0 := by norm_num
    have hget : ∀ k, k = 0 ∨ k = 1 → ((csrRows (exSame (toFloat (1 / 10)))).map subtractMeanFloat).getD k [] =
        rowOf [0, 1, 2] fun _ => (((-1 / 2 ^ 56 : ℚ)) : ℝ) := by
      intro k hk
      have hkl : k < (csrRows (exSame (toFloat (1 / 10)))).length := by rcases hk with rfl | rfl <;> assumption
      have e : (csrRows (exSame (toFloat (1 / 10))))[k] = rowOf [0, 1, 2] fun _ => toFloat (1 / 10) := by
        rw [← hr k hk, List.getD_eq_getElem?_getD, List.getElem?_eq_getElem hkl]
        rfl
      rw [List.getD_eq_getElem?_getD, List.getElem?_map, List.getElem?_eq_getElem hkl, e]
      change subtractMeanFloat _ = _
      rw [subtractMeanFloat_rowOf]
      simp only [hdev, ne_eq, hne, not_false_eq_true, decide_true, List.filter_true]
      exact List.map_congr_left fun c _ => by rw [hdev]
    have hb : Both [0, 1, 2] [0, 1, 2] [0, 1, 2] := ⟨by decide, fun c => by simp⟩
    have hclose := cosFullFloat_close (by decide) (by decide) hb (fun _ => (((-1 / 2 ^ 56 : ℚ)) : ℝ)) (fun _ => (((-1 / 2 ^ 56 : ℚ)) : ℝ))
      (fun _ => (((-1 / 2 ^ 56 : ℚ)) : ℝ)) (fun _ => (((-1 / 2 ^ 56 : ℚ)) : ℝ)) (ρ := 0) (d := 4 / 2 ^ 52) le_rfl (by norm_num)
      (by norm_num) (by norm_num) (by norm_num) (by simp) (by simp)
    rw [cosFull_self (by decide) hb _ (c := 0) (by simp) hne] at hclose
    refine ⟨cosFullFloat [0, 1, 2] [0, 1, 2] [0, 1, 2] (fun _ => (((-1 / 2 ^ 56 : ℚ)) : ℝ)) fun _ => (((-1 / 2 ^ 56 : ℚ)) : ℝ),
      ?_, ?_⟩
    · unfold adjustedFloat
      rw [mem_fullLoop, List.length_map]
      refine ⟨l0, l1, ?_⟩
      rw [hget 0 (.inl rfl), hget 1 (.inr rfl), cosineRowFloat_rowOf (by decide) hb,
        show ([0, 1, 2].filter fun c : Nat => decide (c ∈ [0, 1, 2])) = [0, 1, 2] by decide]
      exact ⟨by simp, rfl⟩
    · have := (abs_le.1 hclose).1
      have e : (10 : ℝ) * (0 + 4 / 2 ^ 52) ≤ 1 / 2 ^ 45 := by norm_num
      linarith

/-- C137 (negation): rounding makes adjusted cosines appear. -/
theorem C137_adjusted_refuted : ¬ AdjustedSame := by
  intro h
  have := (h (exSame (toFloat (1 / 10))) (by
    intro e he
    simp only [exSame, List.mem_cons, List.not_mem_nil, or_false] at he
    rcases he with rfl | rfl | rfl | rfl | rfl | rfl <;> exact toFloat_isDouble _) (by simp [exSame]) 0 1).1
      (C137_adjusted_fails.2.imp fun _ h => h.1)
  exact C137_adjusted_fails.1 this

theorem exMatrix_columns : Columns (exMatrix ℝ) 0 [0, 2] ∧ Columns (exMatrix ℝ) 1 [0, 1, 2] := by
  refine ⟨⟨by decide, fun c => ?_⟩, ⟨by decide, fun c => ?_⟩⟩
  all_goals
    simp only [exMatrix, HasCell, List.mem_cons, Prod.mk.injEq, List.not_mem_nil, or_false]
    constructor
  · rintro (rfl | rfl)
    · exact ⟨3, by simp⟩
    · exact ⟨4, by simp⟩
  · rintro ⟨v, h1⟩; omega
  · rintro (rfl | rfl | rfl)
    · exact ⟨5, by simp⟩
    · exact ⟨2, by simp⟩
    · exact ⟨3, by simp⟩
  · rintro ⟨v, h1⟩; omega

/-- Two rows have a cosine in doubles, close to the exact one, 27 / (5 * √38). -/
example : ∃ s, (0, 1, s) ∈ cosineFloat (exMatrix ℝ) ∧ |s - 27 / (√25 * √38)| ≤ 6 / 2 ^ 48 := by
  obtain ⟨h0, h1⟩ := exMatrix_columns
  have := C137_cosine_close (exMatrix ℝ) (by simp [exMatrix]) 0 1 _ _ _ h0 h1 (exMatrix_common ℝ)
  obtain ⟨s, hs⟩ := this.1.2 (by simp)
  refine ⟨s, hs, ?_⟩
  have h := this.2 s hs
  have e : cosRows [0, 2] [0, 1, 2] [0, 2] (cell (exMatrix ℝ) 0) (cell (exMatrix ℝ) 1) = 27 / (√25 * √38) := by
    simp only [cosRows, cell, exMatrix, List.map_cons, List.map_nil, List.sum_cons, List.sum_nil]
    norm_num
  rw [e] at h
  refine h.trans (le_of_eq ?_)
  norm_num

/-- They have an adjusted cosine, too, and it is close to the exact one, -1 / (√(1 / 2) * √(14 / 3)). -/
example : ∃ s, (0, 1, s) ∈ adjustedFloat (exMatrix ℝ) ∧ |s - -1 / (√(1 / 2) * √(14 / 3))| ≤ 30 / 2 ^ 47 := by
  obtain ⟨h0, h1⟩ := exMatrix_columns
  have := C137_adjusted_partial (exMatrix ℝ) 0 5 exMatrix_cell (by simp [exMatrix]) 0 1 _ _ _ h0 h1 (exMatrix_common ℝ)
  obtain ⟨s, hs⟩ := this.1.2 ⟨0, by simp, by norm_num [cell, exMatrix, meanOver], by norm_num [cell, exMatrix, meanOver]⟩
  refine ⟨s, hs, ?_⟩
  have h := this.2 s hs
  have e : cosRows [0, 2] [0, 1, 2] [0, 2] (fun c => cell (exMatrix ℝ) 0 c - meanOver [0, 2] (cell (exMatrix ℝ) 0))
      (fun c => cell (exMatrix ℝ) 1 c - meanOver [0, 1, 2] (cell (exMatrix ℝ) 1)) = -1 / (√(1 / 2) * √(14 / 3)) := by
    simp only [cosRows, cell, exMatrix, meanOver, List.map_cons, List.map_nil, List.sum_cons, List.sum_nil]
    norm_num
  rw [e] at h
  refine h.trans (le_of_eq ?_)
  norm_num

end DRec
