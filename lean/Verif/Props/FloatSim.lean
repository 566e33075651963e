import Verif.Lemmas.FloatPearson
import Verif.Lemmas.FloatMsd
import Verif.Lemmas.FloatShrink
import Verif.Props.FloatKnn

/-!
# C129: similarities in doubles are close to the exact ones
-/

namespace DRec

open DRec.Spec

/-- A loop over the upper triangle looks at the values of the common columns, maybe with the two rows exchanged. -/
theorem upperLoop_pairs {K : Type} [AddCommMonoid K] (es : List (Nat × Nat × K)) (F : List (K × K) → Option K)
    (hnil : F [] = none) (i j : Nat) (cs : List Nat) (hcs : Common es i j cs) :
    ∃ l : List (K × K), (l.Perm (cs.map fun c => (cell es i c, cell es j c)) ∨
        (l.map Prod.swap).Perm (cs.map fun c => (cell es i c, cell es j c))) ∧
      ∀ s, (i, j, s) ∈ upperLoop (fun a b => F (pairsOf a b)) (csrRows es) ↔ F l = some s := by
  by_cases hne : cs = []
  · subst hne
    refine ⟨[], .inl (by simp), fun s => ?_⟩
    rw [hnil, mem_upperLoop]
    simp only [reduceCtorEq, iff_false, not_and]
    intro hi hj
    rcases le_total i j with h | h
    · have := pairsOf_csr es i j hi hj [] hcs
      rw [List.map_nil, List.perm_nil] at this
      rw [Nat.min_eq_left h, Nat.max_eq_right h, this, hnil]
      simp
    · have := pairsOf_csr es j i hj hi [] (common_symm hcs)
      rw [List.map_nil, List.perm_nil] at this
      rw [Nat.min_eq_right h, Nat.max_eq_left h, this, hnil]
      simp
  · obtain ⟨hi, hj⟩ := common_small hcs hne
    refine ⟨pairsOf ((csrRows es).getD (min i j) []) ((csrRows es).getD (max i j) []), ?_, fun s => ?_⟩
    · rcases le_total i j with h | h
      · rw [Nat.min_eq_left h, Nat.max_eq_right h]
        exact .inl (pairsOf_csr es i j hi hj cs hcs)
      · rw [Nat.min_eq_right h, Nat.max_eq_left h]
        have := (pairsOf_csr es j i hj hi cs (common_symm hcs)).map Prod.swap
        rw [List.map_map] at this
        exact .inr this
    · rw [mem_upperLoop]
      simp [hi, hj]

theorem cosOf_swap (l : List (ℝ × ℝ)) : cosOf (l.map Prod.swap) = cosOf l := by
  unfold cosOf
  rw [List.map_map, List.map_map, List.map_map, mul_comm √_]
  congr 2
  exact List.map_congr_left fun p _ => mul_comm _ _

theorem centred_swap (l : List (ℝ × ℝ)) : centred (l.map Prod.swap) = (centred l).map Prod.swap := by
  unfold centred
  rw [List.map_map, List.map_map, List.map_map, List.map_map, List.length_map]
  rfl

/-- C129: the CF-cosine of two rows in doubles is absent exactly when the cosine over the columns both have is absent in
exact arithmetic, and else is within `(n + 1) / 2 ^ 48` of it, with `n` common columns. -/
theorem C129_cosine_close (es : List (Nat × Nat × ℝ)) (hpos : ∀ e ∈ es, 0 ≤ e.2.2) (hl : es.length ≤ 2 ^ 44) (i j : Nat)
    (cs : List Nat) (hcs : Common es i j cs) :
    ((∃ s, (i, j, s) ∈ cosineCfFloat es) ↔ (cs.map fun c => cell es i c * cell es j c).sum ≠ 0) ∧
      ∀ s, (i, j, s) ∈ cosineCfFloat es → |s - Spec.cos cs (cell es i) (cell es j)| ≤ (cs.length + 1) / 2 ^ 48 := by
  obtain ⟨l, hl1, hs⟩ := upperLoop_pairs es
    (fun l => if sumFloat (l.map fun p => toFloat (p.1 * p.2)) = 0 then none else some (cosFloat l)) (by simp [sumFloat]) i j cs hcs
  have hlen : l.length = cs.length := by
    rcases hl1 with h | h
    · simpa using h.length_eq
    · simpa using h.length_eq
  have hcell : ∀ i c, 0 ≤ cell es i c := by
    intro i c
    refine List.sum_nonneg ?_
    intro x hx
    obtain ⟨e, he, rfl⟩ := List.mem_map.1 hx
    exact hpos e (List.mem_filter.1 he).1
  have hl0 : ∀ p ∈ l, 0 ≤ p.1 * p.2 := by
    intro p hp
    rcases hl1 with h | h
    · obtain ⟨c, _, rfl⟩ := List.mem_map.1 (h.mem_iff.1 hp)
      exact mul_nonneg (hcell i c) (hcell j c)
    · obtain ⟨c, _, e⟩ := List.mem_map.1 (h.mem_iff.1 (List.mem_map.2 ⟨p, hp, rfl⟩))
      have e1 : cell es i c = p.2 := congrArg Prod.fst e
      have e2 : cell es j c = p.1 := congrArg Prod.snd e
      rw [← e1, ← e2]
      exact mul_nonneg (hcell j c) (hcell i c)
  have hsum : (cs.map fun c => cell es i c * cell es j c).sum = (l.map fun p => p.1 * p.2).sum := by
    have e : (cs.map fun c => cell es i c * cell es j c) = (cs.map fun c => (cell es i c, cell es j c)).map fun p => p.1 * p.2 := by
      rw [List.map_map]; rfl
    rw [e]
    rcases hl1 with h | h
    · exact (h.map fun p => p.1 * p.2).sum_eq.symm
    · rw [← (h.map fun p => p.1 * p.2).sum_eq, List.map_map]
      congr 1
      exact List.map_congr_left fun p _ => mul_comm _ _
  have hcos : cosOf l = Spec.cos cs (cell es i) (cell es j) := by
    rw [← cosOf_map]
    rcases hl1 with h | h
    · exact cosOf_perm h
    · rw [← cosOf_perm h, cosOf_swap]
  have hll : l.length ≤ 2 ^ 44 := by rw [hlen]; exact (common_length hcs).trans hl
  have hzero : sumFloat (l.map fun p => toFloat (p.1 * p.2)) = 0 ↔ (l.map fun p => p.1 * p.2).sum = 0 := by
    have := sqs_float_ne l (fun p => √(p.1 * p.2)) (by omega)
    have e1 : (l.map fun p => toFloat (√(p.1 * p.2) ^ 2)) = l.map fun p => toFloat (p.1 * p.2) :=
      List.map_congr_left fun p hp => by rw [Real.sq_sqrt (hl0 p hp)]
    have e2 : (l.map fun p => √(p.1 * p.2) ^ 2) = l.map fun p => p.1 * p.2 :=
      List.map_congr_left fun p hp => Real.sq_sqrt (hl0 p hp)
    rw [e1, e2] at this
    exact not_iff_not.1 this
  have hs' : ∀ s, (i, j, s) ∈ cosineCfFloat es ↔
      (if sumFloat (l.map fun p => toFloat (p.1 * p.2)) = 0 then none else some (cosFloat l)) = some s := hs
  refine ⟨?_, fun s h => ?_⟩
  · rw [hsum, Ne, ← hzero]
    constructor
    · rintro ⟨s, h⟩ h0
      rw [hs', if_pos h0] at h
      cases h
    · intro h0
      exact ⟨_, (hs' _).2 (if_neg h0)⟩
  · rw [hs'] at h
    split at h
    · cases h
    · rw [← Option.some.inj h, ← hcos, ← hlen]
      exact cosFloat_close l hll

/-- C129: when the values are whole multiples of a power of two, not too large, the Pearson correlation of two rows in
doubles is absent exactly when one of them does not vary over the `n` columns both have, and else is within
`n * B / 2 ^ 46` of the correlation in exact arithmetic. -/
theorem C129_pearson_close (es : List (Nat × Nat × ℝ)) (e : ℤ) (B : ℕ)
    (hgrid : ∀ i c, ∃ z : ℤ, |z| ≤ B ∧ cell es i c = z * 2 ^ e) (hB : es.length * (B + 1) ≤ 2 ^ 40) (i j : Nat)
    (cs : List Nat) (hcs : Common es i j cs) :
    ((∃ s, (i, j, s) ∈ pearsonFloat es) ↔ (∃ c ∈ cs, cell es i c ≠ meanOver cs (cell es i)) ∧
      ∃ c ∈ cs, cell es j c ≠ meanOver cs (cell es j)) ∧
    ∀ s, (i, j, s) ∈ pearsonFloat es →
      |s - Spec.cos cs (fun c => cell es i c - meanOver cs (cell es i)) (fun c => cell es j c - meanOver cs (cell es j))| ≤
        cs.length * B / 2 ^ 46 := by
  obtain ⟨l, hl1, hs⟩ := upperLoop_pairs es
    (fun l => if l.length = 0 then none
      else if sumFloat ((centredFloat l).map fun p => toFloat (p.1 ^ 2)) = 0 ∨
        sumFloat ((centredFloat l).map fun p => toFloat (p.2 ^ 2)) = 0 then none
      else some (cosFloat (centredFloat l))) (by simp) i j cs hcs
  have hlen : l.length = cs.length := by
    rcases hl1 with h | h
    · simpa using h.length_eq
    · simpa using h.length_eq
  -- the exact condition and value, over `l`
  have hcos : cosOf (centred l) =
      Spec.cos cs (fun c => cell es i c - meanOver cs (cell es i)) (fun c => cell es j c - meanOver cs (cell es j)) := by
    rw [← cosOf_map, ← centred_map]
    rcases hl1 with h | h
    · exact cosOf_perm (centred_perm h)
    · rw [← cosOf_perm (centred_perm h), centred_swap, cosOf_swap]
  have hz : ∀ f : Nat → ℝ, (cs.map fun c => (f c - meanOver cs f) ^ 2).sum ≠ 0 ↔ ∃ c ∈ cs, f c ≠ meanOver cs f := by
    intro f
    rw [Ne, sqs_zero cs fun c => f c - meanOver cs f]
    push Not
    simp only [sub_ne_zero]
  have hcond : (((centred l).map fun p => p.1 ^ 2).sum ≠ 0 ∧ ((centred l).map fun p => p.2 ^ 2).sum ≠ 0) ↔
      (∃ c ∈ cs, cell es i c ≠ meanOver cs (cell es i)) ∧ ∃ c ∈ cs, cell es j c ≠ meanOver cs (cell es j) := by
    rw [← hz, ← hz]
    have e1 : ((cs.map fun c => (cell es i c - meanOver cs (cell es i)) ^ 2)) =
        (centred (cs.map fun c => (cell es i c, cell es j c))).map fun p => p.1 ^ 2 := by
      rw [centred_map, List.map_map]; rfl
    have e2 : ((cs.map fun c => (cell es j c - meanOver cs (cell es j)) ^ 2)) =
        (centred (cs.map fun c => (cell es i c, cell es j c))).map fun p => p.2 ^ 2 := by
      rw [centred_map, List.map_map]; rfl
    rw [e1, e2]
    rcases hl1 with h | h
    · rw [((centred_perm h).map fun p => p.1 ^ 2).sum_eq, ((centred_perm h).map fun p => p.2 ^ 2).sum_eq]
    · rw [← ((centred_perm h).map fun p => p.1 ^ 2).sum_eq, ← ((centred_perm h).map fun p => p.2 ^ 2).sum_eq, centred_swap,
        List.map_map, List.map_map, and_comm]
      rfl
  have hs' : ∀ s, (i, j, s) ∈ pearsonFloat es ↔
      (if l.length = 0 then none
      else if sumFloat ((centredFloat l).map fun p => toFloat (p.1 ^ 2)) = 0 ∨
        sumFloat ((centredFloat l).map fun p => toFloat (p.2 ^ 2)) = 0 then none
      else some (cosFloat (centredFloat l))) = some s := hs
  by_cases hnil : l = []
  · subst hnil
    have hcs0 : cs = [] := List.length_eq_zero_iff.1 hlen.symm
    subst hcs0
    refine ⟨?_, fun s h => ?_⟩
    · constructor
      · rintro ⟨s, h⟩
        rw [hs'] at h
        simp at h
      · rintro ⟨⟨c, hc, _⟩, _⟩
        cases hc
    · rw [hs'] at h
      simp at h
  -- the grid
  have hmem : ∀ p ∈ l, (∃ z : ℤ, |z| ≤ B ∧ p.1 = z * 2 ^ e) ∧ ∃ z : ℤ, |z| ≤ B ∧ p.2 = z * 2 ^ e := by
    intro p hp
    rcases hl1 with h | h
    · obtain ⟨c, _, rfl⟩ := List.mem_map.1 (h.mem_iff.1 hp)
      exact ⟨hgrid i c, hgrid j c⟩
    · obtain ⟨c, _, e⟩ := List.mem_map.1 (h.mem_iff.1 (List.mem_map.2 ⟨p, hp, rfl⟩))
      have e1 : cell es i c = p.2 := congrArg Prod.fst e
      have e2 : cell es j c = p.1 := congrArg Prod.snd e
      rw [← e1, ← e2]
      exact ⟨hgrid j c, hgrid i c⟩
  have hc : (2 : ℝ) ^ e ≠ 0 := by positivity
  have hfl : ∀ x : ℝ, (∃ z : ℤ, |z| ≤ B ∧ x = z * 2 ^ e) → |⌊x / 2 ^ e⌋| ≤ (B : ℤ) ∧ ((⌊x / 2 ^ e⌋ : ℤ) : ℝ) * 2 ^ e = x := by
    rintro x ⟨z, h1, rfl⟩
    rw [mul_div_cancel_right₀ _ hc, Int.floor_intCast]
    exact ⟨h1, rfl⟩
  have hle : cs.length ≤ es.length := common_length hcs
  have hlB : l.length * (B + 1) ≤ 2 ^ 40 := by
    rw [hlen]
    exact (Nat.mul_le_mul_right _ hle).trans hB
  have key := pearson_close l hnil (fun p => ⌊p.1 / 2 ^ e⌋) (fun p => ⌊p.2 / 2 ^ e⌋) e (B := B)
    (fun p hp => (hfl _ (hmem p hp).1).1) (fun p hp => (hfl _ (hmem p hp).2).1) (by nlinarith) (by nlinarith)
    _ _ _ _ rfl rfl rfl rfl
  have m1 : (l.map fun p : ℝ × ℝ => ((⌊p.1 / 2 ^ e⌋ : ℤ) : ℝ) * 2 ^ e) = l.map (·.1) :=
    List.map_congr_left fun p hp => (hfl _ (hmem p hp).1).2
  have m2 : (l.map fun p : ℝ × ℝ => ((⌊p.2 / 2 ^ e⌋ : ℤ) : ℝ) * 2 ^ e) = l.map (·.2) :=
    List.map_congr_left fun p hp => (hfl _ (hmem p hp).2).2
  rw [m1, m2] at key
  have c1 : ∀ {β : Type} (h : ℝ → ℝ → β), (l.map fun p : ℝ × ℝ =>
      h (((⌊p.1 / 2 ^ e⌋ : ℤ) : ℝ) * 2 ^ e) (((⌊p.2 / 2 ^ e⌋ : ℤ) : ℝ) * 2 ^ e)) = l.map fun p => h p.1 p.2 := by
    intro β h
    exact List.map_congr_left fun p hp => by rw [(hfl _ (hmem p hp).1).2, (hfl _ (hmem p hp).2).2]
  have f1 := c1 fun x _ => toFloat (toFloat (x - toFloat (sumFloat (l.map (·.1)) / l.length)) ^ 2)
  have f2 := c1 fun _ y => toFloat (toFloat (y - toFloat (sumFloat (l.map (·.2)) / l.length)) ^ 2)
  have f3 := c1 fun x _ => (x - (l.map (·.1)).sum / l.length) ^ 2
  have f4 := c1 fun _ y => (y - (l.map (·.2)).sum / l.length) ^ 2
  have f5 := c1 fun x y => (toFloat (x - toFloat (sumFloat (l.map (·.1)) / l.length)),
    toFloat (y - toFloat (sumFloat (l.map (·.2)) / l.length)))
  have f6 := c1 fun x y => (x - (l.map (·.1)).sum / l.length, y - (l.map (·.2)).sum / l.length)
  simp only [f1, f2, f3, f4, f5, f6] at key
  have g1 : ∀ h : ℝ × ℝ → ℝ, (centredFloat l).map h = l.map fun p =>
      h (toFloat (p.1 - toFloat (sumFloat (l.map (·.1)) / l.length)), toFloat (p.2 - toFloat (sumFloat (l.map (·.2)) / l.length))) := by
    intro h; rw [centredFloat, List.map_map]; rfl
  have g2 : ∀ h : ℝ × ℝ → ℝ, (centred l).map h = l.map fun p =>
      h (p.1 - (l.map (·.1)).sum / l.length, p.2 - (l.map (·.2)).sum / l.length) := by
    intro h; rw [centred, List.map_map]; rfl
  obtain ⟨k1, k2, k3⟩ := key
  rw [← g1 fun p => toFloat (p.1 ^ 2), ← g2 fun p => p.1 ^ 2] at k1
  rw [← g1 fun p => toFloat (p.2 ^ 2), ← g2 fun p => p.2 ^ 2] at k2
  rw [← g2 fun p => p.1 ^ 2, ← g2 fun p => p.2 ^ 2] at k3
  have hl0 : l.length ≠ 0 := fun h => hnil (List.length_eq_zero_iff.1 h)
  simp only [if_neg hl0] at hs'
  refine ⟨?_, fun s h => ?_⟩
  · rw [← hcond, ← k1, ← k2, ← not_or]
    constructor
    · rintro ⟨s, h⟩ h0
      rw [hs', if_pos h0] at h
      cases h
    · intro h0
      exact ⟨_, (hs' _).2 (if_neg h0)⟩
  · rw [hs'] at h
    split at h
    · cases h
    · rename_i h0
      rw [not_or] at h0
      rw [← Option.some.inj h, ← hcos, ← hlen]
      exact k3 (k1.1 h0.1) (k2.1 h0.2)

/-- C129: the similarity by mean squared difference in doubles is absent exactly when the rows share no column or all
values of the matrix are equal, and else is within `(n + 8) / 2 ^ 52` of the one in exact arithmetic, with `n` common
columns. -/
theorem C129_msd_close {K : Type} [Field K] [LinearOrder K] [FloorRing K] [IsStrictOrderedRing K] (es : List (Nat × Nat × K))
    (hl : es.length ≤ 2 ^ 48) (D : K) (hD : MaxDiff es D) (i j : Nat) (cs : List Nat) (hcs : Common es i j cs) :
    ((∃ s, (i, j, s) ∈ msdFloat es) ↔ cs ≠ [] ∧ D ≠ 0) ∧
      ∀ s, (i, j, s) ∈ msdFloat es →
        |s - (1 - (cs.map fun c => ((cell es i c - cell es j c) / D) ^ 2).sum / cs.length)| ≤ (cs.length + 8) / 2 ^ 52 := by
  obtain ⟨l, hl1, hs⟩ := upperLoop_pairs es
    (fun l => if l.length = 0 then none
      else if toFloat D = 0 then none
      else some (toFloat (1 - toFloat (sumFloat (l.map fun p =>
        toFloat (toFloat (toFloat (p.1 - p.2) / toFloat D) ^ 2)) / l.length)))) (by simp) i j cs hcs
  have hlen : l.length = cs.length := by
    rcases hl1 with h | h
    · simpa using h.length_eq
    · simpa using h.length_eq
  have hs' : ∀ s, (i, j, s) ∈ msdFloat es ↔ (if l.length = 0 then none
      else if toFloat D = 0 then none
      else some (toFloat (1 - toFloat (sumFloat (l.map fun p =>
        toFloat (toFloat (toFloat (p.1 - p.2) / toFloat D) ^ 2)) / l.length)))) = some s := by
    intro s
    unfold msdFloat
    rw [maxDiff_eq es hD]
    exact hs s
  have hD0 : 0 ≤ D := by
    obtain ⟨⟨v, w, hv, hw, rfl⟩, hmax⟩ := hD
    have := hmax v v hv hv
    rwa [sub_self] at this
  have hDz : toFloat D = 0 ↔ D = 0 := by
    constructor
    · intro h
      by_contra hne
      have := toFloat_pos (lt_of_le_of_ne hD0 (Ne.symm hne))
      rw [h] at this
      exact lt_irrefl _ this
    · rintro rfl; exact toFloat_zero
  have hcs0 : l.length = 0 ↔ cs = [] := by rw [hlen, List.length_eq_zero_iff]
  have habs : ∀ p ∈ l, |p.1 - p.2| ≤ D := by
    have key : ∀ c ∈ cs, |cell es i c - cell es j c| ≤ D := by
      intro c hc
      have hb := (hcs.2 c).1 hc
      have v1 := value_of_hasCell hb.1
      have v2 := value_of_hasCell hb.2
      have a := hD.2 _ _ v1 v2
      have b := hD.2 _ _ v2 v1
      exact abs_le.2 ⟨by linarith, a⟩
    intro p hp
    rcases hl1 with h | h
    · obtain ⟨c, hc, rfl⟩ := List.mem_map.1 (h.mem_iff.1 hp)
      exact key c hc
    · obtain ⟨c, hc, e⟩ := List.mem_map.1 (h.mem_iff.1 (List.mem_map.2 ⟨p, hp, rfl⟩))
      have e1 : cell es i c = p.2 := congrArg Prod.fst e
      have e2 : cell es j c = p.1 := congrArg Prod.snd e
      rw [← e1, ← e2, abs_sub_comm]
      exact key c hc
  have hsum : (l.map fun p => ((p.1 - p.2) / D) ^ 2).sum = (cs.map fun c => ((cell es i c - cell es j c) / D) ^ 2).sum := by
    have e : (cs.map fun c => ((cell es i c - cell es j c) / D) ^ 2) =
        (cs.map fun c => (cell es i c, cell es j c)).map fun p => ((p.1 - p.2) / D) ^ 2 := by
      rw [List.map_map]; rfl
    rw [e]
    rcases hl1 with h | h
    · exact (h.map fun p => ((p.1 - p.2) / D) ^ 2).sum_eq
    · rw [← (h.map fun p => ((p.1 - p.2) / D) ^ 2).sum_eq, List.map_map]
      congr 1
      refine List.map_congr_left fun p _ => ?_
      simp only [Function.comp_apply, Prod.fst_swap, Prod.snd_swap]
      ring
  refine ⟨?_, fun s h => ?_⟩
  · constructor
    · rintro ⟨s, h⟩
      rw [hs'] at h
      refine ⟨fun hc => ?_, fun hd => ?_⟩
      · rw [if_pos (hcs0.2 hc)] at h; cases h
      · rw [if_pos (hDz.2 hd), ite_self] at h; cases h
    · rintro ⟨hc, hd⟩
      exact ⟨_, (hs' _).2 (by rw [if_neg (fun h => hc (hcs0.1 h)), if_neg (fun h => hd (hDz.1 h))])⟩
  · rw [hs'] at h
    split at h
    · cases h
    rename_i h0
    split at h
    · cases h
    rename_i h1
    rw [← Option.some.inj h, ← hsum, ← hlen]
    exact msd_close l (fun h => h0 (by rw [h]; rfl)) (lt_of_le_of_ne hD0 fun h => h1 (hDz.2 h.symm)) habs
      (by rw [hlen]; exact (common_length hcs).trans hl)

/-! ## Stored similarities -/

/-- C129: `_compute_similarities` in doubles.  A similarity `s` of the metric is stored for ids `b < a` with at least `m`
common interactions: as it is without shrinkage, and within `8 |s| / 2 ^ 53` of `s * c / (c + z + 0.000001)` with shrinkage
`z` and `c` common interactions.  All other cells keep what an earlier call stored. -/
theorem C129_stored (cfg : KnnCfg) (rs : List Rating) (M : Knn) (hsym : Symmetric (cfg.metric (matrixEntries cfg.kind rs)))
    (a b : Nat) :
    (∀ s, (a, b, s) ∈ cfg.metric (matrixEntries cfg.kind rs) → b < a → cfg.m ≤ coRated cfg.kind rs a b →
      ∃ y, (fitFloat cfg rs M).sims (a, b) = some y ∧ (cfg.shrinkage = none → y = s) ∧
        ∀ z, cfg.shrinkage = some z → 0 ≤ z →
          |y - s * (coRated cfg.kind rs a b / (coRated cfg.kind rs a b + z + 1 / 1000000))| ≤ 8 * |s| / 2 ^ 53) ∧
    (¬(∃ s, (a, b, s) ∈ cfg.metric (matrixEntries cfg.kind rs) ∧ b < a ∧ cfg.m ≤ coRated cfg.kind rs a b) →
      (fitFloat cfg rs M).sims (a, b) = M.sims (a, b)) := by
  refine ⟨fun s hs hlt hm => ⟨_, foldl_addSimFloat_stores cfg rs _ M.sims a b s hs (hsym.one a b) hlt hm, ?_, ?_⟩, fun h => ?_⟩
  · intro hn
    rw [hn]
    rfl
  · intro z hz hz0
    rw [hz]
    exact shrink_error hz0 _
  · refine foldl_addSimFloat_keeps cfg rs _ M.sims a b ?_
    rintro raw hr ⟨h1, h2⟩
    exact h ⟨raw, hr, h1, h2⟩

/-! ## Examples -/

/-- The values of the examples below: two rows with two common columns. -/
def exMatrix (K : Type) [Field K] : List (Nat × Nat × K) := [(0, 0, 3), (0, 2, 4), (1, 2, 3), (1, 0, 5), (1, 1, 2)]

theorem exMatrix_common (K : Type) [Field K] : Common (exMatrix K) 0 1 [0, 2] := by
  refine ⟨by decide, fun c => ?_⟩
  simp only [HasCell, exMatrix, List.mem_cons, Prod.mk.injEq, List.not_mem_nil, or_false]
  constructor
  · rintro (rfl | rfl)
    · exact ⟨⟨3, by simp⟩, ⟨5, by simp⟩⟩
    · exact ⟨⟨4, by simp⟩, ⟨3, by simp⟩⟩
  · rintro ⟨⟨v, h1⟩, ⟨w, h2⟩⟩; omega

theorem exMatrix_cell (i c : Nat) : ∃ z : ℤ, |z| ≤ (5 : ℕ) ∧ cell (exMatrix ℝ) i c = z * 2 ^ (0 : ℤ) := by
  by_cases h : ∃ v, (i, c, v) ∈ exMatrix ℝ
  · obtain ⟨v, h⟩ := h
    simp only [exMatrix, List.mem_cons, Prod.mk.injEq, List.not_mem_nil, or_false] at h
    rcases h with ⟨rfl, rfl, _⟩ | ⟨rfl, rfl, _⟩ | ⟨rfl, rfl, _⟩ | ⟨rfl, rfl, _⟩ | ⟨rfl, rfl, _⟩
    · exact ⟨3, by norm_num, by norm_num [cell, exMatrix]⟩
    · exact ⟨4, by norm_num, by norm_num [cell, exMatrix]⟩
    · exact ⟨3, by norm_num, by norm_num [cell, exMatrix]⟩
    · exact ⟨5, by norm_num, by norm_num [cell, exMatrix]⟩
    · exact ⟨2, by norm_num, by norm_num [cell, exMatrix]⟩
  · refine ⟨0, by simp, ?_⟩
    have : (exMatrix ℝ).filter (fun e => e.1 = i ∧ e.2.1 = c) = [] := by
      rw [List.filter_eq_nil_iff]
      rintro ⟨a, b, v⟩ he hc
      simp only [decide_eq_true_eq] at hc
      exact h ⟨v, by rw [← hc.1, ← hc.2]; exact he⟩
    rw [cell, this]
    simp

/-- The two rows have a cosine in doubles, and it is close to the exact one. -/
example : ∃ s, (0, 1, s) ∈ cosineCfFloat (exMatrix ℝ) ∧ |s - Spec.cos [0, 2] (cell (exMatrix ℝ) 0) (cell (exMatrix ℝ) 1)| ≤ 3 / 2 ^ 48 := by
  have := C129_cosine_close (exMatrix ℝ) (by
    intro e he
    simp only [exMatrix, List.mem_cons, List.not_mem_nil, or_false] at he
    rcases he with rfl | rfl | rfl | rfl | rfl <;> norm_num) (by simp [exMatrix]) 0 1 [0, 2] (exMatrix_common ℝ)
  obtain ⟨s, hs⟩ := this.1.2 (by norm_num [cell, exMatrix])
  refine ⟨s, hs, (this.2 s hs).trans (le_of_eq ?_)⟩
  norm_num

/-- The two rows have a Pearson correlation in doubles, and it is close to the exact one, -1. -/
example : ∃ s, (0, 1, s) ∈ pearsonFloat (exMatrix ℝ) ∧ |s - -1| ≤ 10 / 2 ^ 46 := by
  have := C129_pearson_close (exMatrix ℝ) 0 5 exMatrix_cell (by simp [exMatrix]) 0 1 [0, 2] (exMatrix_common ℝ)
  obtain ⟨s, hs⟩ := this.1.2 ⟨⟨0, by simp, by norm_num [cell, exMatrix, meanOver]⟩, ⟨0, by simp, by norm_num [cell, exMatrix, meanOver]⟩⟩
  have h := this.2 s hs
  have e : Spec.cos [0, 2] (fun c => cell (exMatrix ℝ) 0 c - meanOver [0, 2] (cell (exMatrix ℝ) 0))
      (fun c => cell (exMatrix ℝ) 1 c - meanOver [0, 2] (cell (exMatrix ℝ) 1)) = -1 := by
    have h2 : √((1 : ℝ) / 2) * √2 = 1 := by rw [← Real.sqrt_mul (by norm_num)]; norm_num
    norm_num [Spec.cos, cell, exMatrix, meanOver]
  rw [e] at h
  refine ⟨s, hs, h.trans (le_of_eq ?_)⟩
  norm_num

/-- Shrinkage 100 with two common interactions. -/
example : ∃ y, (fitFloat ⟨.user, 5, 0, some 100, jaccardFloat true, .mean, false⟩
    [⟨0, 0, 3⟩, ⟨0, 2, 4⟩, ⟨1, 2, 3⟩, ⟨1, 0, 5⟩, ⟨1, 1, 2⟩] Knn.init).sims (1, 0) = some y ∧ 0 < y ∧ y < 1 / 50 := by
  decide +kernel

end DRec
