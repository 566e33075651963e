import Verif.Lemmas.Similarity

/-!
# C60, C61: the similarity metrics
-/

namespace DRec

open Spec

/-! ## C61: the merge walk -/

/-- C61: the walk over two rows visits exactly the pairs of positions that hold the same column, each once. -/
theorem C61_walk {K : Type} (a b : SRow K) (ha : (a.map (·.1)).Nodup) (hb : (b.map (·.1)).Nodup) :
    (walk (userItems a) (userItems b)).Nodup ∧
    ∀ p q, (p, q) ∈ walk (userItems a) (userItems b) ↔
      ∃ c, (a.map (·.1))[p]? = some c ∧ (b.map (·.1))[q]? = some c := by
  constructor
  · have h1 : ((userItems a).map (·.2)).Nodup := by
      apply ((userItems_perm a).map (·.2)).nodup_iff.2
      rw [List.zipIdx_map_snd]
      exact List.nodup_range'
    exact List.Nodup.of_map _ (h1.sublist (walk_sublist _ _))
  · intro p q
    rw [mem_walk _ _ _ le_rfl (userItems_sorted a ha) (userItems_sorted b hb)]
    simp only [mem_userItems]

/-- C61: the values used by CF-cosine, Pearson and MSD are the values of the two rows at exactly the columns both
have, each once. -/
theorem C61_values {K : Type} [AddCommMonoid K] (es : List (Nat × Nat × K)) (i j : Nat)
    (hi : i < (csrRows es).length) (hj : j < (csrRows es).length) (cs : List Nat) (hcs : Common es i j cs) :
    (pairsOf ((csrRows es).getD i []) ((csrRows es).getD j [])).Perm (cs.map fun c => (cell es i c, cell es j c)) :=
  pairsOf_csr es i j hi hj cs hcs

theorem sortedCols_eq {K : Type} (a : SRow K) :
    sortedCols a = ((a.map (·.1)).insertionSort (· ≤ ·)).map fun c => (c, ()) := rfl

/-- C61: the walk of the iterative Jaccard counts the common columns. -/
theorem C61_count {K : Type} (a b : SRow K) (ha : (a.map (·.1)).Nodup) (hb : (b.map (·.1)).Nodup) (cs : List Nat)
    (hn : cs.Nodup) (hcs : ∀ c, c ∈ cs ↔ c ∈ a.map (·.1) ∧ c ∈ b.map (·.1)) :
    (walk (sortedCols a) (sortedCols b)).length = cs.length := by
  have hsort : ∀ a : SRow K, (a.map (·.1)).Nodup → ((a.map (·.1)).insertionSort (· ≤ ·)).Pairwise (· < ·) := by
    intro a ha
    have h1 := List.pairwise_insertionSort (r := (· ≤ ·)) (a.map (·.1))
    have h2 := (List.perm_insertionSort (r := (· ≤ ·)) (a.map (·.1))).nodup_iff.2 ha
    exact (h1.and h2).imp fun h => lt_of_le_of_ne h.1 h.2
  rw [sortedCols_eq, sortedCols_eq, walk_eq (fun _ => ()) (fun _ => ()) _ _ _ le_rfl (hsort a ha) (hsort b hb),
    List.length_map]
  refine List.Perm.length_eq ((List.perm_ext_iff_of_nodup
    (((List.perm_insertionSort (r := (· ≤ ·)) _).nodup_iff.2 ha).filter _) hn).2 fun c => ?_)
  rw [List.mem_filter, decide_eq_true_eq, (List.perm_insertionSort (r := (· ≤ ·)) _).mem_iff,
    (List.perm_insertionSort (r := (· ≤ ·)) _).mem_iff, hcs]

/-- Two rows in no particular order with two common columns. -/
example : walk (userItems [(4, (2 : ℚ)), (1, 3), (9, 1)]) (userItems [(1, (5 : ℚ)), (3, 1), (4, 4)]) = [(1, 0), (0, 2)] ∧
    (([(4, (2 : ℚ)), (1, 3), (9, 1)] : SRow ℚ).map (·.1)).Nodup := by decide +kernel

/-! ## C60 -/

/-- The columns two rows share always can be listed. -/
theorem exists_common {K : Type} (es : List (Nat × Nat × K)) (i j : Nat) : ∃ cs, Common es i j cs := by
  refine ⟨(((es.filter fun e => e.1 = i).map fun e => e.2.1).filter fun c =>
    decide (c ∈ (es.filter fun e => e.1 = j).map fun e => e.2.1)).dedup, List.nodup_dedup _, ?_⟩
  have key : ∀ i c, c ∈ ((es.filter fun e => e.1 = i).map fun e => e.2.1) ↔ HasCell es i c := by
    intro i c
    simp only [List.mem_map, List.mem_filter, decide_eq_true_eq, HasCell]
    constructor
    · rintro ⟨⟨i', c', v⟩, ⟨h1, rfl⟩, rfl⟩; exact ⟨v, h1⟩
    · rintro ⟨v, h1⟩; exact ⟨_, ⟨h1, rfl⟩, rfl⟩
  intro c
  rw [List.mem_dedup, List.mem_filter, decide_eq_true_eq, key, key]

theorem exists_columns {K : Type} (es : List (Nat × Nat × K)) (i : Nat) : ∃ cs, Columns es i cs := by
  obtain ⟨cs, h1, h2⟩ := exists_common es i i
  exact ⟨cs, h1, fun c => by rw [h2, and_self]⟩

theorem common_symm {K : Type} {es : List (Nat × Nat × K)} {i j : Nat} {cs : List Nat} (h : Common es i j cs) :
    Common es j i cs := ⟨h.1, fun c => by rw [h.2, and_comm]⟩

theorem common_small {K : Type} [AddCommMonoid K] {es : List (Nat × Nat × K)} {i j : Nat} {cs : List Nat}
    (h : Common es i j cs) (hne : cs ≠ []) : i < (csrRows es).length ∧ j < (csrRows es).length := by
  obtain ⟨c, hc⟩ := List.exists_mem_of_ne_nil _ hne
  have := (h.2 c).1 hc
  exact ⟨csr_length es i c this.1, csr_length es j c this.2⟩

theorem cosOf_perm {l l' : List (ℝ × ℝ)} (h : l.Perm l') : cosOf l = cosOf l' := by
  unfold cosOf
  rw [(h.map _).sum_eq, (h.map fun p => p.1 ^ 2).sum_eq, (h.map fun p => p.2 ^ 2).sum_eq]

theorem cosOf_map (cs : List Nat) (f g : Nat → ℝ) : cosOf (cs.map fun c => (f c, g c)) = Spec.cos cs f g := by
  unfold cosOf Spec.cos
  simp only [List.map_map, Function.comp_def]

theorem cos_symm (cs : List Nat) (f g : Nat → ℝ) : Spec.cos cs f g = Spec.cos cs g f := cosFull_symm cs cs cs f g

theorem cos_bounds (cs : List Nat) (f g : Nat → ℝ) : -1 ≤ Spec.cos cs f g ∧ Spec.cos cs f g ≤ 1 := by
  rw [← cosOf_map]; exact cosOf_bounds _

/-- What a row loop over the upper triangle stores, when the value only depends on the visited pairs. -/
theorem upperLoop_value {K : Type} [AddCommMonoid K] (es : List (Nat × Nat × K)) (F : List (K × K) → Option K)
    (hperm : ∀ l l', l.Perm l' → F l = F l') (hsymm : ∀ l, F (l.map Prod.swap) = F l) (hnil : F [] = none)
    (i j : Nat) (s : K) (cs : List Nat) (hcs : Common es i j cs) :
    (i, j, s) ∈ upperLoop (fun a b => F (pairsOf a b)) (csrRows es) ↔
      F (cs.map fun c => (cell es i c, cell es j c)) = some s := by
  rw [mem_upperLoop]
  by_cases hne : cs = []
  · subst hne
    rw [List.map_nil, hnil]
    simp only [reduceCtorEq, iff_false, not_and]
    intro hi hj
    rcases le_total i j with h | h
    · rw [Nat.min_eq_left h, Nat.max_eq_right h, hperm _ _ (pairsOf_csr es i j hi hj [] hcs), List.map_nil, hnil]
      simp
    · rw [Nat.min_eq_right h, Nat.max_eq_left h, hperm _ _ (pairsOf_csr es j i hj hi [] (common_symm hcs)), List.map_nil,
        hnil]
      simp
  · obtain ⟨hi, hj⟩ := common_small hcs hne
    simp only [hi, hj, true_and]
    rcases le_total i j with h | h
    · rw [Nat.min_eq_left h, Nat.max_eq_right h, hperm _ _ (pairsOf_csr es i j hi hj cs hcs)]
    · rw [Nat.min_eq_right h, Nat.max_eq_left h, hperm _ _ (pairsOf_csr es j i hj hi cs (common_symm hcs)), ← hsymm,
        List.map_map]
      rfl

/-! ### CF-cosine -/

/-- C60: the CF-cosine of two rows is the cosine over the columns both have, absent when the product is zero. -/
theorem C60_cosine_cf_value (es : List (Nat × Nat × ℝ)) (i j : Nat) (s : ℝ) (cs : List Nat) (hcs : Common es i j cs) :
    (i, j, s) ∈ cosineSimCf es ↔ (cs.map fun c => cell es i c * cell es j c).sum ≠ 0 ∧
      s = Spec.cos cs (cell es i) (cell es j) := by
  have := upperLoop_value es (fun l => if (l.map fun p => p.1 * p.2).sum = 0 then none else some (cosOf l))
    (by intro l l' h; simp only [(h.map fun p : ℝ × ℝ => p.1 * p.2).sum_eq, cosOf_perm h])
    (by
      intro l
      have e : ((l.map Prod.swap).map fun p : ℝ × ℝ => p.1 * p.2) = l.map fun p => p.1 * p.2 := by
        rw [List.map_map]; exact List.map_congr_left fun p _ => mul_comm _ _
      have e2 : cosOf (l.map Prod.swap) = cosOf l := by
        unfold cosOf
        rw [e, mul_comm, List.map_map, List.map_map]
        rfl
      simp only [e, e2])
    (by simp) i j s cs hcs
  refine this.trans ?_
  simp only [List.map_map, Function.comp_def]
  rw [cosOf_map]
  split
  · rename_i h; simp [h]
  · rename_i h; simp only [Option.some.injEq, ne_eq, h, not_false_eq_true, true_and]; exact eq_comm

/-- C60: CF-cosine is symmetric, within [-1, 1], and 1 on the diagonal. -/
theorem C60_cosine_cf (es : List (Nat × Nat × ℝ)) : Symmetric (cosineSimCf es) ∧
    ∀ i j s, (i, j, s) ∈ cosineSimCf es → -1 ≤ s ∧ s ≤ 1 ∧ (i = j → s = 1) := by
  refine ⟨symmetric_upperLoop _ _, ?_⟩
  intro i j s h
  obtain ⟨cs, hcs⟩ := exists_common es i j
  rw [C60_cosine_cf_value es i j s cs hcs] at h
  obtain ⟨h1, rfl⟩ := h
  refine ⟨(cos_bounds _ _ _).1, (cos_bounds _ _ _).2, ?_⟩
  rintro rfl
  rw [← cosOf_map]
  apply cosOf_diag
  · intro p hp; obtain ⟨c, _, rfl⟩ := List.mem_map.1 hp; rfl
  · rw [List.map_map]
    intro h0
    apply h1
    rw [← h0]
    congr 1
    exact List.map_congr_left fun c _ => (sq _).symm

/-- Two rows sharing two columns have a CF-cosine. -/
example : ∃ s, (1, 0, s) ∈ cosineSimCf [(0, 0, 3), (0, 2, 4), (1, 2, 3), (1, 0, 4), (1, 1, 2)] := by
  refine ⟨_, (C60_cosine_cf_value _ 1 0 _ [0, 2] ⟨by decide, ?_⟩).2 ⟨?_, rfl⟩⟩
  · intro c
    simp only [HasCell, List.mem_cons, Prod.mk.injEq, List.not_mem_nil, or_false]
    constructor
    · rintro (rfl | rfl)
      · exact ⟨⟨4, by simp⟩, ⟨3, by simp⟩⟩
      · exact ⟨⟨3, by simp⟩, ⟨4, by simp⟩⟩
    · rintro ⟨⟨v, h1⟩, ⟨w, h2⟩⟩; omega
  · norm_num [cell]

/-! ### Pearson -/

theorem centred_map (cs : List Nat) (f g : Nat → ℝ) : centred (cs.map fun c => (f c, g c)) =
    cs.map fun c => (f c - meanOver cs f, g c - meanOver cs g) := by
  unfold centred meanOver
  rw [List.map_map, List.map_map, List.map_map, List.length_map]
  rfl

theorem centred_perm {l l' : List (ℝ × ℝ)} (h : l.Perm l') : (centred l).Perm (centred l') := by
  unfold centred
  rw [(h.map (·.1)).sum_eq, (h.map (·.2)).sum_eq, h.length_eq]
  exact h.map _

/-- C60: the Pearson correlation of two rows is the cosine of the deviations from the means over the columns both
have, absent when one of the two does not vary there. -/
theorem C60_pearson_value (es : List (Nat × Nat × ℝ)) (i j : Nat) (s : ℝ) (cs : List Nat) (hcs : Common es i j cs) :
    (i, j, s) ∈ pearsonCorr es ↔ (∃ c ∈ cs, cell es i c ≠ meanOver cs (cell es i)) ∧
      (∃ c ∈ cs, cell es j c ≠ meanOver cs (cell es j)) ∧
      s = Spec.cos cs (fun c => cell es i c - meanOver cs (cell es i)) (fun c => cell es j c - meanOver cs (cell es j)) := by
  have swap1 : ∀ l : List (ℝ × ℝ), centred (l.map Prod.swap) = (centred l).map Prod.swap := by
    intro l
    unfold centred
    rw [List.map_map, List.map_map, List.map_map, List.map_map, List.length_map]
    rfl
  have := upperLoop_value es (fun l => if l.length = 0 then none
      else if ((centred l).map fun p => p.1 ^ 2).sum = 0 ∨ ((centred l).map fun p => p.2 ^ 2).sum = 0 then none
      else some (cosOf (centred l)))
    (by
      intro l l' h
      have h' := centred_perm h
      simp only [h.length_eq, (h'.map fun p : ℝ × ℝ => p.1 ^ 2).sum_eq, (h'.map fun p : ℝ × ℝ => p.2 ^ 2).sum_eq,
        cosOf_perm h'])
    (by
      intro l
      have e : (((centred l).map Prod.swap).map fun p : ℝ × ℝ => p.1 * p.2) = (centred l).map fun p => p.1 * p.2 := by
        rw [List.map_map]; exact List.map_congr_left fun p _ => mul_comm _ _
      have e2 : cosOf ((centred l).map Prod.swap) = cosOf (centred l) := by
        unfold cosOf
        rw [e, mul_comm, List.map_map, List.map_map]
        rfl
      rw [swap1, e2, List.length_map, List.map_map, List.map_map]
      simp only [Function.comp_def, Prod.fst_swap, Prod.snd_swap]
      exact if_congr Iff.rfl rfl (if_congr or_comm rfl rfl))
    (by simp) i j s cs hcs
  refine this.trans ?_
  rw [centred_map, cosOf_map]
  simp only [List.map_map, Function.comp_def, List.length_map]
  have hz : ∀ f : Nat → ℝ, (cs.map fun c => (f c - meanOver cs f) ^ 2).sum = 0 ↔ ¬ ∃ c ∈ cs, f c ≠ meanOver cs f := by
    intro f
    constructor
    · rintro h ⟨c, hc, hne⟩
      exact hne (sub_eq_zero.1 (sqsum_zero h c hc))
    · intro h
      push Not at h
      apply List.sum_eq_zero
      intro x hx
      obtain ⟨c, hc, rfl⟩ := List.mem_map.1 hx
      rw [h c hc, sub_self]; simp
  by_cases h0 : cs.length = 0
  · rw [List.length_eq_zero_iff] at h0
    subst h0
    simp
  · rw [if_neg h0]
    by_cases h1 : ∃ c ∈ cs, cell es i c ≠ meanOver cs (cell es i)
    · by_cases h2 : ∃ c ∈ cs, cell es j c ≠ meanOver cs (cell es j)
      · rw [if_neg (by rw [hz, hz, not_or, not_not, not_not]; exact ⟨h1, h2⟩), Option.some.injEq]
        exact ⟨fun h => ⟨h1, h2, h.symm⟩, fun h => h.2.2.symm⟩
      · rw [if_pos (.inr ((hz _).2 h2))]
        simp only [reduceCtorEq, false_iff]
        rintro ⟨_, h, _⟩; exact h2 h
    · rw [if_pos (.inl ((hz _).2 h1))]
      simp only [reduceCtorEq, false_iff]
      rintro ⟨h, _⟩; exact h1 h

/-- C60: the Pearson correlation is symmetric, within [-1, 1], and 1 on the diagonal. -/
theorem C60_pearson (es : List (Nat × Nat × ℝ)) : Symmetric (pearsonCorr es) ∧
    ∀ i j s, (i, j, s) ∈ pearsonCorr es → -1 ≤ s ∧ s ≤ 1 ∧ (i = j → s = 1) := by
  refine ⟨symmetric_upperLoop _ _, ?_⟩
  intro i j s h
  obtain ⟨cs, hcs⟩ := exists_common es i j
  rw [C60_pearson_value es i j s cs hcs] at h
  obtain ⟨⟨c, hc, h1⟩, -, rfl⟩ := h
  refine ⟨(cos_bounds _ _ _).1, (cos_bounds _ _ _).2, ?_⟩
  rintro rfl
  rw [← cosOf_map]
  apply cosOf_diag
  · intro p hp; obtain ⟨c, _, rfl⟩ := List.mem_map.1 hp; rfl
  · rw [List.map_map]
    intro h0
    exact h1 (sub_eq_zero.1 (sqsum_zero h0 c hc))

/-- Two rows that vary over two shared columns have a Pearson correlation. -/
example : ∃ s, (0, 1, s) ∈ pearsonCorr [(0, 0, 3), (0, 2, 4), (1, 2, 3), (1, 0, 4), (1, 1, 2)] := by
  refine ⟨_, (C60_pearson_value _ 0 1 _ [0, 2] ⟨by decide, ?_⟩).2 ⟨⟨0, by simp, ?_⟩, ⟨0, by simp, ?_⟩, rfl⟩⟩
  · intro c
    simp only [HasCell, List.mem_cons, Prod.mk.injEq, List.not_mem_nil, or_false]
    constructor
    · rintro (rfl | rfl)
      · exact ⟨⟨3, by simp⟩, ⟨4, by simp⟩⟩
      · exact ⟨⟨4, by simp⟩, ⟨3, by simp⟩⟩
    · rintro ⟨⟨v, h1⟩, ⟨w, h2⟩⟩; omega
  · norm_num [cell, meanOver]
  · norm_num [cell, meanOver]

/-! ### MSD -/

/-- C60: the similarity by mean squared difference, absent when the rows share no column or all values of the
matrix are equal. -/
theorem C60_msd_value {K : Type} [Field K] [LinearOrder K] [IsStrictOrderedRing K] (es : List (Nat × Nat × K)) (D : K)
    (hD : MaxDiff es D) (i j : Nat) (s : K) (cs : List Nat) (hcs : Common es i j cs) :
    (i, j, s) ∈ msdSim es ↔ cs ≠ [] ∧ D ≠ 0 ∧
      s = 1 - (cs.map fun c => ((cell es i c - cell es j c) / D) ^ 2).sum / cs.length := by
  have hDe : maxDiff (csrRows es) (csrCols es) = D := maxDiff_eq es hD
  unfold msdSim
  rw [hDe]
  have := upperLoop_value es (fun l => if l.length = 0 then none else if D = 0 then none
      else some (1 - (l.map fun p => ((p.1 - p.2) / D) ^ 2).sum / l.length))
    (by
      intro l l' h
      simp only [h.length_eq, (h.map fun p : K × K => ((p.1 - p.2) / D) ^ 2).sum_eq])
    (by
      intro l
      rw [List.length_map, List.map_map]
      have e : ((fun p : K × K => ((p.1 - p.2) / D) ^ 2) ∘ Prod.swap) = fun p => ((p.1 - p.2) / D) ^ 2 := by
        funext p
        simp only [Function.comp_apply, Prod.fst_swap, Prod.snd_swap]
        rw [← neg_sub p.1 p.2, neg_div, neg_sq]
      rw [e])
    (by simp) i j s cs hcs
  refine this.trans ?_
  simp only [List.map_map, Function.comp_def, List.length_map]
  by_cases h0 : cs.length = 0
  · rw [if_pos h0]
    rw [List.length_eq_zero_iff] at h0
    simp [h0]
  · rw [if_neg h0]
    have hne : cs ≠ [] := fun h => h0 (by rw [h]; rfl)
    by_cases hD0 : D = 0
    · rw [if_pos hD0]; simp [hD0]
    · rw [if_neg hD0, Option.some.injEq]
      exact ⟨fun h => ⟨hne, hD0, h.symm⟩, fun h => h.2.2.symm⟩

/-- C60: MSD similarity is symmetric, within [0, 1], and 1 on the diagonal. -/
theorem C60_msd {K : Type} [Field K] [LinearOrder K] [IsStrictOrderedRing K] (es : List (Nat × Nat × K)) :
    Symmetric (msdSim es) ∧ ∀ i j s, (i, j, s) ∈ msdSim es → 0 ≤ s ∧ s ≤ 1 ∧ (i = j → s = 1) := by
  refine ⟨symmetric_upperLoop _ _, ?_⟩
  intro i j s h
  obtain ⟨cs, hcs⟩ := exists_common es i j
  have hmem : es ≠ [] := by
    rintro rfl
    simp [msdSim, upperLoop, csrRows] at h
  obtain ⟨D, hD⟩ := exists_maxDiff es hmem
  rw [C60_msd_value es D hD i j s cs hcs] at h
  obtain ⟨hne, hD0, rfl⟩ := h
  have hle : ∀ c ∈ cs, ((cell es i c - cell es j c) / D) ^ 2 ≤ 1 := by
    intro c hc
    have hb := (hcs.2 c).1 hc
    have vi := value_of_hasCell hb.1
    have vj := value_of_hasCell hb.2
    have h1 := hD.2 _ _ vi vj
    have h2 := hD.2 _ _ vj vi
    have hDn : 0 ≤ D := by have := hD.2 _ _ vi vi; rwa [sub_self] at this
    have hDp : 0 < D := lt_of_le_of_ne hDn (Ne.symm hD0)
    rw [div_pow, div_le_iff₀ (pow_pos hDp 2), one_mul]
    exact sq_le_sq' (by linarith) h1
  have hnn : 0 ≤ (cs.map fun c => ((cell es i c - cell es j c) / D) ^ 2).sum := by
    apply List.sum_nonneg
    intro x hx
    obtain ⟨c, _, rfl⟩ := List.mem_map.1 hx
    exact sq_nonneg _
  have hsum : (cs.map fun c => ((cell es i c - cell es j c) / D) ^ 2).sum ≤ (cs.length : K) := by
    clear hcs hne hnn
    induction cs with
    | nil => simp
    | cons c l ih =>
      simp only [List.map_cons, List.sum_cons, List.length_cons, Nat.cast_add, Nat.cast_one]
      have := hle c (by simp)
      have := ih fun c hc => hle c (List.mem_cons_of_mem _ hc)
      linarith
  have hpos : (0 : K) < cs.length := by exact_mod_cast List.length_pos_of_ne_nil hne
  refine ⟨?_, ?_, ?_⟩
  · rw [sub_nonneg]; exact div_le_one_of_le₀ hsum hpos.le
  · rw [sub_le_self_iff]; exact div_nonneg hnn hpos.le
  · rintro rfl
    simp

/-- A matrix of three users with an MSD similarity: the largest difference is the one to an absent cell. -/
example : (1, 0, (24 / 25 : ℚ)) ∈ msdSim [(0, 0, (3 : ℚ)), (0, 2, 4), (1, 2, 5), (1, 0, 4), (1, 1, 2)] := by
  decide +kernel

/-! ### Jaccard -/

/-- C60: the iterative Jaccard similarity: number of common columns over the number of columns of either row. -/
theorem C60_jaccard_iterative_value {K : Type} [Field K] [DecidableEq K] (es : List (Nat × Nat × K)) (i j : Nat) (s : K)
    (ci cj cs : List Nat) (hi : Columns es i ci) (hj : Columns es j cj) (hcs : Common es i j cs) :
    (i, j, s) ∈ jaccardSim true es ↔ cs ≠ [] ∧ s = (cs.length : K) / ((ci.length : K) + cj.length - cs.length) := by
  unfold jaccardSim
  rw [if_pos rfl, mem_upperLoop]
  have key : ∀ i j ci cj cs, Columns es i ci → Columns es j cj → Common es i j cs → i < (csrRows es).length →
      j < (csrRows es).length → ∀ s, (jaccIter ((csrRows es).getD i []) ((csrRows es).getD j []) = some s ↔
        cs ≠ [] ∧ s = (cs.length : K) / ((ci.length : K) + cj.length - cs.length)) := by
    intro i j ci cj cs hi hj hcs hil hjl s
    obtain ⟨ci', p1, o1, e1⟩ := csr_rowOf es i hil hi
    obtain ⟨cj', p2, o2, e2⟩ := csr_rowOf es j hjl hj
    unfold jaccIter
    rw [e1, e2]
    have hlen := C61_count (rowOf ci' (cell es i)) (rowOf cj' (cell es j)) (by rw [rowOf_cols]; exact o1.imp fun h => h.ne)
      (by rw [rowOf_cols]; exact o2.imp fun h => h.ne) cs hcs.1 (fun c => by
        rw [rowOf_cols, rowOf_cols, p1.mem_iff, p2.mem_iff, hi.2, hj.2, hcs.2])
    simp only [hlen]
    have l1 : (rowOf ci' (cell es i)).length = ci.length := by rw [rowOf, List.length_map, p1.length_eq]
    have l2 : (rowOf cj' (cell es j)).length = cj.length := by rw [rowOf, List.length_map, p2.length_eq]
    rw [l1, l2]
    by_cases h0 : cs.length = 0
    · rw [if_pos h0]
      rw [List.length_eq_zero_iff] at h0
      simp [h0]
    · rw [if_neg h0, Option.some.injEq]
      exact ⟨fun h => ⟨fun h' => h0 (by rw [h']; rfl), h.symm⟩, fun h => h.2.symm⟩
  constructor
  · rintro ⟨hil, hjl, h⟩
    rcases le_total i j with hle | hle
    · rw [Nat.min_eq_left hle, Nat.max_eq_right hle] at h
      exact (key i j ci cj cs hi hj hcs hil hjl s).1 h
    · rw [Nat.min_eq_right hle, Nat.max_eq_left hle] at h
      have := (key j i cj ci cs hj hi (common_symm hcs) hjl hil s).1 h
      rw [add_comm (ci.length : K)]; exact this
  · intro h
    obtain ⟨hil, hjl⟩ := common_small hcs h.1
    refine ⟨hil, hjl, ?_⟩
    rcases le_total i j with hle | hle
    · rw [Nat.min_eq_left hle, Nat.max_eq_right hle]
      exact (key i j ci cj cs hi hj hcs hil hjl s).2 h
    · rw [Nat.min_eq_right hle, Nat.max_eq_left hle]
      rw [add_comm (ci.length : K)] at h
      exact (key j i cj ci cs hj hi (common_symm hcs) hjl hil s).2 h

theorem indicator_rowOf {K : Type} [Field K] [DecidableEq K] (cs : List Nat) (f : Nat → K) :
    indicator (rowOf cs f) = rowOf cs fun c => if f c = 0 then 0 else 1 := rowOf_map cs f _

theorem indicator_sum {K : Type} [Field K] [DecidableEq K] (p : Nat → Bool) : ∀ cs : List Nat,
    (cs.map fun c => if p c = true then (1 : K) else 0).sum = ((cs.filter p).length : K)
  | [] => by simp
  | c :: cs => by
    rw [List.map_cons, List.sum_cons, indicator_sum p cs, List.filter_cons]
    split
    · rw [List.length_cons]; push_cast; ring
    · rw [zero_add]

/-- The nonzero columns of a row. -/
theorem jaccMatrix_rowOf {K : Type} [Field K] [DecidableEq K] {ci cj cs : List Nat} (hi : ci.Nodup) (hj : cj.Nodup)
    (h : Both ci cj cs) (f g : Nat → K) (s : K) :
    jaccMatrix (rowOf ci f) (rowOf cj g) = some s ↔ cs ≠ [] ∧
      ((ci.filter fun c => decide (f c ≠ 0)).length + (cj.filter fun c => decide (g c ≠ 0)).length -
        (cs.filter fun c => decide (f c ≠ 0) && decide (g c ≠ 0)).length : K) ≠ 0 ∧
      s = ((cs.filter fun c => decide (f c ≠ 0) && decide (g c ≠ 0)).length : K) /
        ((ci.filter fun c => decide (f c ≠ 0)).length + (cj.filter fun c => decide (g c ≠ 0)).length -
        (cs.filter fun c => decide (f c ≠ 0) && decide (g c ≠ 0)).length) := by
  have d1 : dot (indicator (rowOf ci f)) (indicator (rowOf cj g)) =
      ((cs.filter fun c => decide (f c ≠ 0) && decide (g c ≠ 0)).length : K) := by
    rw [indicator_rowOf, indicator_rowOf, dot_rowOf hi hj h, ← indicator_sum]
    congr 1
    apply List.map_congr_left
    intro c _
    by_cases h1 : f c = 0 <;> by_cases h2 : g c = 0 <;> simp [h1, h2]
  have d2 : ∀ (ci : List Nat) (f : Nat → K), ci.Nodup → dot (indicator (rowOf ci f)) (indicator (rowOf ci f)) =
      ((ci.filter fun c => decide (f c ≠ 0)).length : K) := by
    intro ci f hi
    rw [indicator_rowOf, dot_rowOf hi hi (cs := ci) ⟨hi, fun c => by rw [and_self]⟩, ← indicator_sum]
    congr 1
    apply List.map_congr_left
    intro c _
    by_cases h1 : f c = 0 <;> simp [h1]
  unfold jaccMatrix
  simp only
  rw [d1, d2 ci f hi, d2 cj g hj]
  by_cases hs : share (rowOf ci f) (rowOf cj g) = true
  · rw [if_pos hs]
    have hne := (share_rowOf h f g).1 hs
    split
    · rename_i h0
      exact ⟨fun h => (by cases h), fun h => absurd h0 h.2.1⟩
    · rename_i h0
      rw [Option.some.injEq]
      exact ⟨fun h => ⟨hne, h0, h.symm⟩, fun h => h.2.2.symm⟩
  · rw [if_neg hs]
    have := mt (share_rowOf h f g).2 hs
    simp only [reduceCtorEq, false_iff, not_and]
    exact fun h => absurd h this

theorem both_cols {K : Type} [AddCommMonoid K] {es : List (Nat × Nat × K)} {i j : Nat} {ci cj cs ci' cj' : List Nat}
    (hi : Columns es i ci) (hj : Columns es j cj) (hcs : Common es i j cs) (p1 : ci'.Perm ci) (p2 : cj'.Perm cj) :
    Both ci' cj' cs := ⟨hcs.1, fun c => by rw [p1.mem_iff, p2.mem_iff, hi.2, hj.2, hcs.2]⟩

theorem hasCell_of_ne {K : Type} [AddCommMonoid K] {es : List (Nat × Nat × K)} {i c : Nat} (h : cell es i c ≠ 0) :
    HasCell es i c := by
  by_contra hn
  exact h (cell_absent hn)

/-- C60: the Jaccard similarity by matrix products: columns where both rows are nonzero over columns where one is. -/
theorem C60_jaccard_matrix_value {K : Type} [Field K] [DecidableEq K] [CharZero K] (es : List (Nat × Nat × K))
    (i j : Nat) (s : K) (ni nj ns : List Nat) (hi : ni.Nodup ∧ ∀ c, c ∈ ni ↔ cell es i c ≠ 0)
    (hj : nj.Nodup ∧ ∀ c, c ∈ nj ↔ cell es j c ≠ 0) (hs : ns.Nodup ∧ ∀ c, c ∈ ns ↔ cell es i c ≠ 0 ∧ cell es j c ≠ 0) :
    (i, j, s) ∈ jaccardSim false es ↔ (∃ c, HasCell es i c ∧ HasCell es j c) ∧ (ni ≠ [] ∨ nj ≠ []) ∧
      s = (ns.length : K) / ((ni.length : K) + nj.length - ns.length) := by
  unfold jaccardSim
  rw [if_neg (by simp), mem_fullLoop]
  obtain ⟨ci, hci⟩ := exists_columns es i
  obtain ⟨cj, hcj⟩ := exists_columns es j
  obtain ⟨cs, hcs⟩ := exists_common es i j
  have hcs' : cs ≠ [] ↔ ∃ c, HasCell es i c ∧ HasCell es j c := by
    constructor
    · intro h
      obtain ⟨c, hc⟩ := List.exists_mem_of_ne_nil _ h
      exact ⟨c, (hcs.2 c).1 hc⟩
    · rintro ⟨c, h⟩ he
      have := (hcs.2 c).2 h
      rw [he] at this
      simp at this
  have key : i < (csrRows es).length → j < (csrRows es).length →
      (jaccMatrix ((csrRows es).getD i []) ((csrRows es).getD j []) = some s ↔
      (∃ c, HasCell es i c ∧ HasCell es j c) ∧ (ni ≠ [] ∨ nj ≠ []) ∧
      s = (ns.length : K) / ((ni.length : K) + nj.length - ns.length)) := by
    intro hil hjl
    obtain ⟨ci', p1, o1, e1⟩ := csr_rowOf es i hil hci
    obtain ⟨cj', p2, o2, e2⟩ := csr_rowOf es j hjl hcj
    have n1 : ci'.Nodup := o1.imp fun h => h.ne
    have n2 : cj'.Nodup := o2.imp fun h => h.ne
    rw [e1, e2, jaccMatrix_rowOf n1 n2 (both_cols hci hcj hcs p1 p2), hcs']
    have l1 : (ci'.filter fun c => decide (cell es i c ≠ 0)).length = ni.length :=
      ((List.perm_ext_iff_of_nodup (n1.filter _) hi.1).2 fun c => by
        rw [List.mem_filter, decide_eq_true_eq, p1.mem_iff, hci.2, hi.2]
        exact ⟨fun h => h.2, fun h => ⟨hasCell_of_ne h, h⟩⟩).length_eq
    have l2 : (cj'.filter fun c => decide (cell es j c ≠ 0)).length = nj.length :=
      ((List.perm_ext_iff_of_nodup (n2.filter _) hj.1).2 fun c => by
        rw [List.mem_filter, decide_eq_true_eq, p2.mem_iff, hcj.2, hj.2]
        exact ⟨fun h => h.2, fun h => ⟨hasCell_of_ne h, h⟩⟩).length_eq
    have l3 : (cs.filter fun c => decide (cell es i c ≠ 0) && decide (cell es j c ≠ 0)).length = ns.length :=
      ((List.perm_ext_iff_of_nodup (hcs.1.filter _) hs.1).2 fun c => by
        rw [List.mem_filter, Bool.and_eq_true, decide_eq_true_eq, decide_eq_true_eq, hcs.2, hs.2]
        exact ⟨fun h => h.2, fun h => ⟨⟨hasCell_of_ne h.1, hasCell_of_ne h.2⟩, h⟩⟩).length_eq
    rw [l1, l2, l3]
    have hsub1 : ns.length ≤ ni.length := (List.subperm_of_subset hs.1 fun c hc =>
      (hi.2 c).2 ((hs.2 c).1 hc).1).length_le
    have hsub2 : ns.length ≤ nj.length := (List.subperm_of_subset hs.1 fun c hc =>
      (hj.2 c).2 ((hs.2 c).1 hc).2).length_le
    have hz : ((ni.length : K) + nj.length - ns.length ≠ 0) ↔ (ni ≠ [] ∨ nj ≠ []) := by
      rw [← Nat.cast_add, ← Nat.cast_sub (by omega), Nat.cast_ne_zero, ← List.length_pos_iff, ← List.length_pos_iff]
      omega
    rw [hz]
  constructor
  · rintro ⟨hil, hjl, h⟩; exact (key hil hjl).1 h
  · intro h
    obtain ⟨c, h1, h2⟩ := h.1
    have hil := csr_length es i c h1
    have hjl := csr_length es j c h2
    exact ⟨hil, hjl, (key hil hjl).2 h⟩

/-- A list of the columns with a property that only stored columns have. -/
theorem exists_cols_where {K : Type} (es : List (Nat × Nat × K)) (i : Nat) (P : Nat → Prop) [DecidablePred P]
    (hP : ∀ c, P c → HasCell es i c) : ∃ cs : List Nat, cs.Nodup ∧ ∀ c, c ∈ cs ↔ P c := by
  obtain ⟨ci, h1, h2⟩ := exists_columns es i
  refine ⟨ci.filter fun c => decide (P c), h1.filter _, fun c => ?_⟩
  rw [List.mem_filter, decide_eq_true_eq, h2]
  exact ⟨fun h => h.2, fun h => ⟨hP c h, h⟩⟩

/-- A quotient of the sizes of an intersection and a union. -/
theorem jaccard_range {K : Type} [Field K] [LinearOrder K] [IsStrictOrderedRing K] {a b c : Nat} (h1 : c ≤ a)
    (h2 : c ≤ b) : 0 ≤ (c : K) / ((a : K) + b - c) ∧ (c : K) / ((a : K) + b - c) ≤ 1 := by
  have e : (a : K) + b - c = ((a + b - c : Nat) : K) := by
    rw [Nat.cast_sub (by omega), Nat.cast_add]
  rw [e]
  refine ⟨div_nonneg (Nat.cast_nonneg _) (Nat.cast_nonneg _), div_le_one_of_le₀ ?_ (Nat.cast_nonneg _)⟩
  exact_mod_cast (by omega : c ≤ a + b - c)

/-- C60: the Jaccard similarity, by either implementation, is symmetric, within [0, 1], and 1 on the diagonal. -/
theorem C60_jaccard {K : Type} [Field K] [LinearOrder K] [IsStrictOrderedRing K] (memoryError : Bool)
    (es : List (Nat × Nat × K)) : Symmetric (jaccardSim memoryError es) ∧
    ∀ i j s, (i, j, s) ∈ jaccardSim memoryError es → 0 ≤ s ∧ s ≤ 1 ∧ (i = j → s = 1) := by
  cases memoryError with
  | true =>
    refine ⟨symmetric_upperLoop _ _, fun i j s h => ?_⟩
    obtain ⟨ci, hi⟩ := exists_columns es i
    obtain ⟨cj, hj⟩ := exists_columns es j
    obtain ⟨cs, hcs⟩ := exists_common es i j
    rw [C60_jaccard_iterative_value es i j s ci cj cs hi hj hcs] at h
    obtain ⟨hne, rfl⟩ := h
    have h1 : cs.length ≤ ci.length := (List.subperm_of_subset hcs.1 fun c hc => (hi.2 c).2 ((hcs.2 c).1 hc).1).length_le
    have h2 : cs.length ≤ cj.length := (List.subperm_of_subset hcs.1 fun c hc => (hj.2 c).2 ((hcs.2 c).1 hc).2).length_le
    refine ⟨(jaccard_range h1 h2).1, (jaccard_range h1 h2).2, ?_⟩
    rintro rfl
    have e1 : ci.length = cs.length := ((List.perm_ext_iff_of_nodup hi.1 hcs.1).2 fun c => by
      rw [hi.2, hcs.2, and_self]).length_eq
    have e2 : cj.length = cs.length := ((List.perm_ext_iff_of_nodup hj.1 hcs.1).2 fun c => by
      rw [hj.2, hcs.2, and_self]).length_eq
    rw [e1, e2, add_sub_cancel_right, div_self]
    exact Nat.cast_ne_zero.2 fun h => hne (List.length_eq_zero_iff.1 h)
  | false =>
    have lists : ∀ i j, ∃ ni nj ns : List Nat, (ni.Nodup ∧ ∀ c, c ∈ ni ↔ cell es i c ≠ 0) ∧
        (nj.Nodup ∧ ∀ c, c ∈ nj ↔ cell es j c ≠ 0) ∧ (ns.Nodup ∧ ∀ c, c ∈ ns ↔ cell es i c ≠ 0 ∧ cell es j c ≠ 0) := by
      intro i j
      obtain ⟨ni, h1⟩ := exists_cols_where es i (fun c => cell es i c ≠ 0) fun c h => hasCell_of_ne h
      obtain ⟨nj, h2⟩ := exists_cols_where es j (fun c => cell es j c ≠ 0) fun c h => hasCell_of_ne h
      obtain ⟨ns, h3⟩ := exists_cols_where es i (fun c => cell es i c ≠ 0 ∧ cell es j c ≠ 0) fun c h => hasCell_of_ne h.1
      exact ⟨ni, nj, ns, h1, h2, h3⟩
    refine ⟨⟨?_, ?_⟩, fun i j s h => ?_⟩
    · intro i j s h
      obtain ⟨ni, nj, ns, h1, h2, h3⟩ := lists i j
      rw [C60_jaccard_matrix_value es i j s ni nj ns h1 h2 h3] at h
      rw [C60_jaccard_matrix_value es j i s nj ni ns h2 h1 ⟨h3.1, fun c => by rw [h3.2, and_comm]⟩]
      obtain ⟨⟨c, a, b⟩, h5, h6⟩ := h
      exact ⟨⟨c, b, a⟩, h5.symm, by rw [h6, add_comm (ni.length : K)]⟩
    · intro i j s s' h h'
      obtain ⟨ni, nj, ns, h1, h2, h3⟩ := lists i j
      rw [C60_jaccard_matrix_value es i j _ ni nj ns h1 h2 h3] at h h'
      rw [h.2.2, h'.2.2]
    · obtain ⟨ni, nj, ns, h1, h2, h3⟩ := lists i j
      rw [C60_jaccard_matrix_value es i j s ni nj ns h1 h2 h3] at h
      obtain ⟨_, hne, rfl⟩ := h
      have l1 : ns.length ≤ ni.length := (List.subperm_of_subset h3.1 fun c hc => (h1.2 c).2 ((h3.2 c).1 hc).1).length_le
      have l2 : ns.length ≤ nj.length := (List.subperm_of_subset h3.1 fun c hc => (h2.2 c).2 ((h3.2 c).1 hc).2).length_le
      refine ⟨(jaccard_range l1 l2).1, (jaccard_range l1 l2).2, ?_⟩
      rintro rfl
      have e1 : ni.length = ns.length := ((List.perm_ext_iff_of_nodup h1.1 h3.1).2 fun c => by
        rw [h1.2, h3.2, and_self]).length_eq
      have e2 : nj.length = ns.length := ((List.perm_ext_iff_of_nodup h2.1 h3.1).2 fun c => by
        rw [h2.2, h3.2, and_self]).length_eq
      rw [e1, e2, add_sub_cancel_right, div_self]
      rw [Nat.cast_ne_zero]
      intro h0
      rcases hne with hne | hne
      · exact hne (List.length_eq_zero_iff.1 (e1.trans h0))
      · exact hne (List.length_eq_zero_iff.1 (e2.trans h0))

/-- C60: when no stored value is zero the two Jaccard implementations give the same matrix. -/
theorem C60_jaccard_same {K : Type} [Field K] [LinearOrder K] [IsStrictOrderedRing K] (es : List (Nat × Nat × K))
    (hnz : ∀ i c, HasCell es i c → cell es i c ≠ 0) (i j : Nat) (s : K) :
    (i, j, s) ∈ jaccardSim true es ↔ (i, j, s) ∈ jaccardSim false es := by
  obtain ⟨ci, hi⟩ := exists_columns es i
  obtain ⟨cj, hj⟩ := exists_columns es j
  obtain ⟨cs, hcs⟩ := exists_common es i j
  have hiff : ∀ i c, HasCell es i c ↔ cell es i c ≠ 0 := fun i c => ⟨hnz i c, hasCell_of_ne⟩
  rw [C60_jaccard_iterative_value es i j s ci cj cs hi hj hcs, C60_jaccard_matrix_value es i j s ci cj cs
    ⟨hi.1, fun c => by rw [hi.2, hiff]⟩ ⟨hj.1, fun c => by rw [hj.2, hiff]⟩ ⟨hcs.1, fun c => by rw [hcs.2, hiff, hiff]⟩]
  constructor
  · rintro ⟨hne, rfl⟩
    obtain ⟨c, hc⟩ := List.exists_mem_of_ne_nil _ hne
    have := (hcs.2 c).1 hc
    exact ⟨⟨c, this⟩, .inl (List.ne_nil_of_mem ((hi.2 c).2 this.1)), rfl⟩
  · rintro ⟨⟨c, hc⟩, _, rfl⟩
    exact ⟨List.ne_nil_of_mem ((hcs.2 c).2 hc), rfl⟩

/-- With a stored zero the two differ: the iterative implementation counts the column, the other does not. -/
example : (0, 1, (1 / 2 : ℚ)) ∈ jaccardSim true [(0, 0, (3 : ℚ)), (0, 1, 0), (1, 0, 5)] ∧
    (0, 1, (1 : ℚ)) ∈ jaccardSim false [(0, 0, (3 : ℚ)), (0, 1, 0), (1, 0, 5)] := by decide +kernel

/-! ### Cosine and adjusted cosine -/

/-- C60: the cosine of two rows, present when they share a column. -/
theorem C60_cosine_value (es : List (Nat × Nat × ℝ)) (i j : Nat) (s : ℝ) (ci cj cs : List Nat) (hi : Columns es i ci)
    (hj : Columns es j cj) (hcs : Common es i j cs) :
    (i, j, s) ∈ cosineSim es ↔ cs ≠ [] ∧ s = (cs.map fun c => cell es i c * cell es j c).sum /
      (√(ci.map fun c => cell es i c ^ 2).sum * √(cj.map fun c => cell es j c ^ 2).sum) := by
  unfold cosineSim
  rw [mem_fullLoop]
  have key : i < (csrRows es).length → j < (csrRows es).length →
      (cosine ((csrRows es).getD i []) ((csrRows es).getD j []) = some s ↔ cs ≠ [] ∧
      s = cosFull ci cj cs (cell es i) (cell es j)) := by
    intro hil hjl
    obtain ⟨ci', p1, o1, e1⟩ := csr_rowOf es i hil hi
    obtain ⟨cj', p2, o2, e2⟩ := csr_rowOf es j hjl hj
    rw [e1, e2, cosine_rowOf (o1.imp fun h => h.ne) (o2.imp fun h => h.ne) (both_cols hi hj hcs p1 p2)]
    unfold cosFull
    rw [(p1.map fun c => cell es i c ^ 2).sum_eq, (p2.map fun c => cell es j c ^ 2).sum_eq]
  constructor
  · rintro ⟨hil, hjl, h⟩; exact (key hil hjl).1 h
  · intro h
    obtain ⟨hil, hjl⟩ := common_small hcs h.1
    exact ⟨hil, hjl, (key hil hjl).2 h⟩

/-- C60: cosine is symmetric, within [-1, 1], and 1 on the diagonal for every row that is not all zeros. -/
theorem C60_cosine (es : List (Nat × Nat × ℝ)) : Symmetric (cosineSim es) ∧
    ∀ i j s, (i, j, s) ∈ cosineSim es → -1 ≤ s ∧ s ≤ 1 ∧ (i = j → (∃ c, cell es i c ≠ 0) → s = 1) := by
  refine ⟨⟨?_, ?_⟩, ?_⟩
  · intro i j s h
    obtain ⟨ci, hi⟩ := exists_columns es i
    obtain ⟨cj, hj⟩ := exists_columns es j
    obtain ⟨cs, hcs⟩ := exists_common es i j
    rw [C60_cosine_value es i j s ci cj cs hi hj hcs] at h
    rw [C60_cosine_value es j i s cj ci cs hj hi (common_symm hcs)]
    exact ⟨h.1, h.2.trans (cosFull_symm ci cj cs (cell es i) (cell es j))⟩
  · intro i j s s' h h'
    obtain ⟨ci, hi⟩ := exists_columns es i
    obtain ⟨cj, hj⟩ := exists_columns es j
    obtain ⟨cs, hcs⟩ := exists_common es i j
    rw [C60_cosine_value es i j _ ci cj cs hi hj hcs] at h h'
    rw [h.2, h'.2]
  · intro i j s h
    obtain ⟨ci, hi⟩ := exists_columns es i
    obtain ⟨cj, hj⟩ := exists_columns es j
    obtain ⟨cs, hcs⟩ := exists_common es i j
    have hb := both_cols hi hj hcs (List.Perm.refl _) (List.Perm.refl _)
    rw [C60_cosine_value es i j s ci cj cs hi hj hcs] at h
    obtain ⟨hne, h⟩ := h
    have hbd := cosFull_bounds hi.1 hj.1 hb (cell es i) (cell es j)
    rw [show s = cosFull ci cj cs (cell es i) (cell es j) from h]
    refine ⟨hbd.1, hbd.2, ?_⟩
    rintro rfl ⟨c, hc⟩
    have hpp : cj.Perm ci := (List.perm_ext_iff_of_nodup hj.1 hi.1).2 fun c => by rw [hj.2, hi.2]
    have hb' : Both ci ci cs := both_cols hi hi hcs (List.Perm.refl _) (List.Perm.refl _)
    have := cosFull_self hi.1 hb' (cell es i) ((hi.2 c).2 (hasCell_of_ne hc)) hc
    rw [← this]
    unfold cosFull
    rw [(hpp.map fun c => cell es i c ^ 2).sum_eq]

/-- A row of the matrix with its mean subtracted, in functional form. -/
theorem subtractMean_rowOf {ci' ci : List Nat} (p : ci'.Perm ci) (f : Nat → ℝ) :
    subtractMean (rowOf ci' f) = rowOf (ci'.filter fun c => decide (f c - meanOver ci f ≠ 0)) fun c => f c - meanOver ci f := by
  unfold subtractMean
  rw [rowOf_vals, show (rowOf ci' f).length = ci.length by rw [rowOf, List.length_map, p.length_eq],
    (p.map f).sum_eq, rowOf_map]
  unfold rowOf
  rw [List.filter_map]
  rfl

/-- C60: the adjusted cosine of two rows: the cosine of the deviations from the row means; present when there is a
column where both deviate. -/
theorem C60_adjusted_value (es : List (Nat × Nat × ℝ)) (i j : Nat) (s : ℝ) (ci cj cs : List Nat) (hi : Columns es i ci)
    (hj : Columns es j cj) (hcs : Common es i j cs) :
    (i, j, s) ∈ adjustedCosineSim es ↔
      (∃ c ∈ cs, cell es i c ≠ meanOver ci (cell es i) ∧ cell es j c ≠ meanOver cj (cell es j)) ∧
      s = (cs.map fun c => (cell es i c - meanOver ci (cell es i)) * (cell es j c - meanOver cj (cell es j))).sum /
        (√(ci.map fun c => (cell es i c - meanOver ci (cell es i)) ^ 2).sum *
          √(cj.map fun c => (cell es j c - meanOver cj (cell es j)) ^ 2).sum) := by
  unfold adjustedCosineSim
  rw [mem_fullLoop, List.length_map]
  have hget : ∀ k, k < (csrRows es).length → ((csrRows es).map subtractMean).getD k [] =
      subtractMean ((csrRows es).getD k []) := by
    intro k hk
    rw [List.getD_eq_getElem?_getD, List.getElem?_map, List.getElem?_eq_getElem hk, List.getD_eq_getElem?_getD,
      List.getElem?_eq_getElem hk]
    rfl
  have drop : ∀ (l : List Nat) (f : Nat → ℝ), ((l.filter fun c => decide (f c ≠ 0)).map fun c => f c ^ 2).sum =
      (l.map fun c => f c ^ 2).sum := by
    intro l f
    apply sum_filter_zero
    intro c _ hc
    have := of_decide_eq_false hc
    rw [not_not] at this
    rw [this]; simp
  have key : i < (csrRows es).length → j < (csrRows es).length →
      (cosine (((csrRows es).map subtractMean).getD i []) (((csrRows es).map subtractMean).getD j []) = some s ↔
      (∃ c ∈ cs, cell es i c ≠ meanOver ci (cell es i) ∧ cell es j c ≠ meanOver cj (cell es j)) ∧
      s = cosFull ci cj cs (fun c => cell es i c - meanOver ci (cell es i))
        fun c => cell es j c - meanOver cj (cell es j)) := by
    intro hil hjl
    obtain ⟨ci', p1, o1, e1⟩ := csr_rowOf es i hil hi
    obtain ⟨cj', p2, o2, e2⟩ := csr_rowOf es j hjl hj
    have n1 : ci'.Nodup := o1.imp fun h => h.ne
    have n2 : cj'.Nodup := o2.imp fun h => h.ne
    rw [hget i hil, hget j hjl, e1, e2, subtractMean_rowOf p1, subtractMean_rowOf p2]
    have hb := both_cols hi hj hcs p1 p2
    have hb' : Both (ci'.filter fun c => decide (cell es i c - meanOver ci (cell es i) ≠ 0))
        (cj'.filter fun c => decide (cell es j c - meanOver cj (cell es j) ≠ 0))
        (cs.filter fun c => decide (cell es i c - meanOver ci (cell es i) ≠ 0) &&
          decide (cell es j c - meanOver cj (cell es j) ≠ 0)) :=
      ⟨hcs.1.filter _, fun c => by
        simp only [List.mem_filter, Bool.and_eq_true, decide_eq_true_eq, hb.2 c]; tauto⟩
    rw [cosine_rowOf (n1.filter _) (n2.filter _) hb']
    have c1 : (cs.filter fun c => decide (cell es i c - meanOver ci (cell es i) ≠ 0) &&
          decide (cell es j c - meanOver cj (cell es j) ≠ 0)) ≠ [] ↔
        ∃ c ∈ cs, cell es i c ≠ meanOver ci (cell es i) ∧ cell es j c ≠ meanOver cj (cell es j) := by
      rw [ne_eq, List.filter_eq_nil_iff]
      push Not
      simp only [Bool.and_eq_true, decide_eq_true_eq, ne_eq, sub_eq_zero]
    rw [c1]
    unfold cosFull
    rw [drop ci' fun c => cell es i c - meanOver ci (cell es i), drop cj' fun c => cell es j c - meanOver cj (cell es j),
      (p1.map fun c => (cell es i c - meanOver ci (cell es i)) ^ 2).sum_eq,
      (p2.map fun c => (cell es j c - meanOver cj (cell es j)) ^ 2).sum_eq, sum_filter_zero]
    intro c _ hc
    rw [Bool.and_eq_false_iff, decide_eq_false_iff_not, decide_eq_false_iff_not, not_not, not_not] at hc
    rcases hc with h | h <;> simp only [h, zero_mul, mul_zero]
  constructor
  · rintro ⟨hil, hjl, h⟩; exact (key hil hjl).1 h
  · intro h
    obtain ⟨c, hc, _⟩ := h.1
    obtain ⟨hil, hjl⟩ := common_small hcs (List.ne_nil_of_mem hc)
    exact ⟨hil, hjl, (key hil hjl).2 h⟩

/-- C60: adjusted cosine is symmetric, within [-1, 1], and 1 on the diagonal. -/
theorem C60_adjusted (es : List (Nat × Nat × ℝ)) : Symmetric (adjustedCosineSim es) ∧
    ∀ i j s, (i, j, s) ∈ adjustedCosineSim es → -1 ≤ s ∧ s ≤ 1 ∧ (i = j → s = 1) := by
  refine ⟨⟨?_, ?_⟩, ?_⟩
  · intro i j s h
    obtain ⟨ci, hi⟩ := exists_columns es i
    obtain ⟨cj, hj⟩ := exists_columns es j
    obtain ⟨cs, hcs⟩ := exists_common es i j
    rw [C60_adjusted_value es i j s ci cj cs hi hj hcs] at h
    rw [C60_adjusted_value es j i s cj ci cs hj hi (common_symm hcs)]
    obtain ⟨⟨c, h1, h2, h3⟩, h4⟩ := h
    exact ⟨⟨c, h1, h3, h2⟩, h4.trans (cosFull_symm ci cj cs (fun c => cell es i c - meanOver ci (cell es i))
      fun c => cell es j c - meanOver cj (cell es j))⟩
  · intro i j s s' h h'
    obtain ⟨ci, hi⟩ := exists_columns es i
    obtain ⟨cj, hj⟩ := exists_columns es j
    obtain ⟨cs, hcs⟩ := exists_common es i j
    rw [C60_adjusted_value es i j _ ci cj cs hi hj hcs] at h h'
    rw [h.2, h'.2]
  · intro i j s h
    obtain ⟨ci, hi⟩ := exists_columns es i
    obtain ⟨cj, hj⟩ := exists_columns es j
    obtain ⟨cs, hcs⟩ := exists_common es i j
    have hb := both_cols hi hj hcs (List.Perm.refl _) (List.Perm.refl _)
    rw [C60_adjusted_value es i j s ci cj cs hi hj hcs] at h
    obtain ⟨⟨c, hc, hc1, hc2⟩, h⟩ := h
    have hbd := cosFull_bounds hi.1 hj.1 hb (fun c => cell es i c - meanOver ci (cell es i))
      fun c => cell es j c - meanOver cj (cell es j)
    rw [show s = cosFull ci cj cs (fun c => cell es i c - meanOver ci (cell es i))
      (fun c => cell es j c - meanOver cj (cell es j)) from h]
    refine ⟨hbd.1, hbd.2, ?_⟩
    rintro rfl
    have hpp : cj.Perm ci := (List.perm_ext_iff_of_nodup hj.1 hi.1).2 fun c => by rw [hj.2, hi.2]
    have hm : meanOver cj (cell es i) = meanOver ci (cell es i) := by
      unfold meanOver
      rw [(hpp.map _).sum_eq, hpp.length_eq]
    have hb' : Both ci ci cs := both_cols hi hi hcs (List.Perm.refl _) (List.Perm.refl _)
    have := cosFull_self hi.1 hb' (fun c => cell es i c - meanOver ci (cell es i)) ((hi.2 c).2 ((hcs.2 c).1 hc).1)
      (sub_ne_zero.2 hc1)
    rw [hm, ← this]
    unfold cosFull
    rw [(hpp.map fun c => (cell es i c - meanOver ci (cell es i)) ^ 2).sum_eq]

/-- Two rows sharing two columns have a cosine and an adjusted cosine. -/
example : (∃ s, (1, 0, s) ∈ cosineSim [(0, 0, 3), (0, 2, 4), (1, 2, 3), (1, 0, 4), (1, 1, 2)]) ∧
    ∃ s, (1, 0, s) ∈ adjustedCosineSim [(0, 0, 3), (0, 2, 4), (1, 2, 3), (1, 0, 4), (1, 1, 2)] := by
  have h1 : Columns [(0, 0, (3 : ℝ)), (0, 2, 4), (1, 2, 3), (1, 0, 4), (1, 1, 2)] 1 [2, 0, 1] := by
    refine ⟨by decide, fun c => ?_⟩
    simp only [HasCell, List.mem_cons, Prod.mk.injEq, List.not_mem_nil, or_false]
    constructor
    · rintro (rfl | rfl | rfl)
      · exact ⟨3, by simp⟩
      · exact ⟨4, by simp⟩
      · exact ⟨2, by simp⟩
    · rintro ⟨v, h⟩; omega
  have h0 : Columns [(0, 0, (3 : ℝ)), (0, 2, 4), (1, 2, 3), (1, 0, 4), (1, 1, 2)] 0 [0, 2] := by
    refine ⟨by decide, fun c => ?_⟩
    simp only [HasCell, List.mem_cons, Prod.mk.injEq, List.not_mem_nil, or_false]
    constructor
    · rintro (rfl | rfl)
      · exact ⟨3, by simp⟩
      · exact ⟨4, by simp⟩
    · rintro ⟨v, h⟩; omega
  have hc : Common [(0, 0, (3 : ℝ)), (0, 2, 4), (1, 2, 3), (1, 0, 4), (1, 1, 2)] 1 0 [0, 2] := by
    refine ⟨by decide, fun c => ?_⟩
    rw [← h1.2, ← h0.2]
    simp only [List.mem_cons, List.not_mem_nil, or_false]
    omega
  constructor
  · exact ⟨_, (C60_cosine_value _ 1 0 _ _ _ _ h1 h0 hc).2 ⟨by simp, rfl⟩⟩
  · refine ⟨_, (C60_adjusted_value _ 1 0 _ _ _ _ h1 h0 hc).2 ⟨⟨0, by simp, ?_, ?_⟩, rfl⟩⟩
    · norm_num [cell, meanOver]
    · norm_num [cell, meanOver]

end DRec
