import Verif.Lemmas.RowOrder
import Verif.Props.Knn
import Verif.Props.KnnMem
import Verif.Props.Vectors
import Verif.Props.Agree

/-!
# C110: the order of the records does not matter to the nearest neighbour recommenders
-/

namespace DRec

open Spec

/-! ## The six metrics -/

theorem relabel_mean {π σ : Nat → Nat} {es es' : List (Nat × Nat × ℝ)} (h : Relabel π σ es es') {i : Nat}
    {cs : List Nat} (hi : HasRow es i) (hcs : ∀ c ∈ cs, HasCol es c) :
    meanOver (cs.map σ) (cell es' (π i)) = meanOver cs (cell es i) := by
  unfold meanOver
  rw [map_cell h hi hi hcs (fun x _ => x), List.length_map]

theorem relabel_exists {π σ : Nat → Nat} {K : Type} [AddCommMonoid K] {es es' : List (Nat × Nat × K)} (h : Relabel π σ es es')
    {i j : Nat} {cs : List Nat} (hi : HasRow es i) (hj : HasRow es j) (hcs : ∀ c ∈ cs, HasCol es c) (P : K → K → Prop) :
    (∃ c ∈ cs.map σ, P (cell es' (π i) c) (cell es' (π j) c)) ↔ ∃ c ∈ cs, P (cell es i c) (cell es j c) := by
  simp only [List.mem_map, exists_exists_and_eq_and]
  constructor
  · rintro ⟨c, hc, hp⟩
    rw [relabel_cell h hi (hcs c hc), relabel_cell h hj (hcs c hc)] at hp
    exact ⟨c, hc, hp⟩
  · rintro ⟨c, hc, hp⟩
    refine ⟨c, hc, ?_⟩
    rw [relabel_cell h hi (hcs c hc), relabel_cell h hj (hcs c hc)]
    exact hp

/-- **C110.** The cosine of two rows does not depend on how rows, columns and entries are ordered. -/
theorem C110_cosine : OrderFree cosineSim := by
  intro π σ es es' h i j s hi hj
  obtain ⟨ci, hci⟩ := exists_columns es i
  obtain ⟨cj, hcj⟩ := exists_columns es j
  obtain ⟨cs, hcs⟩ := exists_common es i j
  rw [C60_cosine_value es i j s ci cj cs hci hcj hcs, C60_cosine_value es' (π i) (π j) s _ _ _
    (relabel_columns h hi hci) (relabel_columns h hj hcj) (relabel_common h hi hj hcs),
    map_cell h hi hj (common_cols hcs) (fun x y => x * y), map_cell h hi hi (columns_cols hci) (fun x _ => x ^ 2),
    map_cell h hj hj (columns_cols hcj) (fun x _ => x ^ 2), ne_eq, ne_eq, List.map_eq_nil_iff]

/-- **C110.** The CF-cosine too. -/
theorem C110_cosine_cf : OrderFree cosineSimCf := by
  intro π σ es es' h i j s hi hj
  obtain ⟨cs, hcs⟩ := exists_common es i j
  rw [C60_cosine_cf_value es i j s cs hcs, C60_cosine_cf_value es' (π i) (π j) s _ (relabel_common h hi hj hcs)]
  unfold Spec.cos
  rw [map_cell h hi hj (common_cols hcs) (fun x y => x * y), map_cell h hi hi (common_cols hcs) (fun x _ => x ^ 2),
    map_cell h hj hj (common_cols hcs) (fun x _ => x ^ 2)]

/-- **C110.** The adjusted cosine too. -/
theorem C110_adjusted : OrderFree adjustedCosineSim := by
  intro π σ es es' h i j s hi hj
  obtain ⟨ci, hci⟩ := exists_columns es i
  obtain ⟨cj, hcj⟩ := exists_columns es j
  obtain ⟨cs, hcs⟩ := exists_common es i j
  rw [C60_adjusted_value es i j s ci cj cs hci hcj hcs, C60_adjusted_value es' (π i) (π j) s _ _ _
    (relabel_columns h hi hci) (relabel_columns h hj hcj) (relabel_common h hi hj hcs),
    relabel_mean h hi (columns_cols hci), relabel_mean h hj (columns_cols hcj),
    relabel_exists h hi hj (common_cols hcs)
      (fun x y => x ≠ meanOver ci (cell es i) ∧ y ≠ meanOver cj (cell es j)),
    map_cell h hi hj (common_cols hcs) (fun x y => (x - meanOver ci (cell es i)) * (y - meanOver cj (cell es j))),
    map_cell h hi hi (columns_cols hci) (fun x _ => (x - meanOver ci (cell es i)) ^ 2),
    map_cell h hj hj (columns_cols hcj) (fun x _ => (x - meanOver cj (cell es j)) ^ 2)]

/-- **C110.** The Pearson correlation too. -/
theorem C110_pearson : OrderFree pearsonCorr := by
  intro π σ es es' h i j s hi hj
  obtain ⟨cs, hcs⟩ := exists_common es i j
  rw [C60_pearson_value es i j s cs hcs, C60_pearson_value es' (π i) (π j) s _ (relabel_common h hi hj hcs)]
  unfold Spec.cos
  rw [relabel_mean h hi (common_cols hcs), relabel_mean h hj (common_cols hcs),
    relabel_exists h hi hi (common_cols hcs) (fun x _ => x ≠ meanOver cs (cell es i)),
    relabel_exists h hj hj (common_cols hcs) (fun x _ => x ≠ meanOver cs (cell es j)),
    map_cell h hi hj (common_cols hcs) (fun x y => (x - meanOver cs (cell es i)) * (y - meanOver cs (cell es j))),
    map_cell h hi hi (common_cols hcs) (fun x _ => (x - meanOver cs (cell es i)) ^ 2),
    map_cell h hj hj (common_cols hcs) (fun x _ => (x - meanOver cs (cell es j)) ^ 2)]

/-- **C110.** The mean squared difference too. -/
theorem C110_msd {K : Type} [Field K] [LinearOrder K] [IsStrictOrderedRing K] : OrderFree (msdSim (K := K)) := by
  intro π σ es es' h i j s hi hj
  obtain ⟨cs, hcs⟩ := exists_common es i j
  obtain ⟨D, hD⟩ := exists_maxDiff es (by
    obtain ⟨c, v, hv⟩ := hi
    intro e
    rw [e] at hv
    cases hv)
  rw [C60_msd_value es D hD i j s cs hcs,
    C60_msd_value es' D (relabel_maxDiff h hD) (π i) (π j) s _ (relabel_common h hi hj hcs),
    map_cell h hi hj (common_cols hcs) (fun x y => ((x - y) / D) ^ 2), List.length_map]
  simp only [ne_eq, List.map_eq_nil_iff]

theorem relabel_nonzero {K : Type} [AddCommMonoid K] {π σ : Nat → Nat} {es es' : List (Nat × Nat × K)}
    (h : Relabel π σ es es') {i j : Nat} (hi : HasRow es i) (hj : HasRow es j) {ns : List Nat}
    (hs : ns.Nodup ∧ ∀ c, c ∈ ns ↔ cell es i c ≠ 0 ∧ cell es j c ≠ 0) :
    (ns.map σ).Nodup ∧ ∀ c, c ∈ ns.map σ ↔ cell es' (π i) c ≠ 0 ∧ cell es' (π j) c ≠ 0 := by
  have hcol : ∀ c ∈ ns, HasCol es c := fun c hc => ⟨i, hasCell_of_ne ((hs.2 c).1 hc).1⟩
  refine ⟨(List.nodup_map_iff_inj_on hs.1).2 fun c hc d hd e => h.colInj c d (hcol c hc) (hcol d hd) e, fun c' => ?_⟩
  rw [List.mem_map]
  constructor
  · rintro ⟨c, hc, rfl⟩
    rw [relabel_cell h hi (hcol c hc), relabel_cell h hj (hcol c hc)]
    exact (hs.2 c).1 hc
  · rintro ⟨h1, h2⟩
    obtain ⟨c, rfl, hc⟩ := relabel_row h hi (hasCell_of_ne h1)
    rw [relabel_cell h hi ⟨i, hc⟩] at h1
    rw [relabel_cell h hj ⟨i, hc⟩] at h2
    exact ⟨c, (hs.2 c).2 ⟨h1, h2⟩, rfl⟩

/-- **C110.** Both Jaccard similarities too. -/
theorem C110_jaccard {K : Type} [Field K] [LinearOrder K] [IsStrictOrderedRing K] (memoryError : Bool) :
    OrderFree (jaccardSim (K := K) memoryError) := by
  intro π σ es es' h i j s hi hj
  obtain ⟨cs, hcs⟩ := exists_common es i j
  cases memoryError with
  | true =>
    obtain ⟨ci, hci⟩ := exists_columns es i
    obtain ⟨cj, hcj⟩ := exists_columns es j
    rw [C60_jaccard_iterative_value es i j s ci cj cs hci hcj hcs, C60_jaccard_iterative_value es' (π i) (π j) s _ _ _
      (relabel_columns h hi hci) (relabel_columns h hj hcj) (relabel_common h hi hj hcs), List.length_map,
      List.length_map, List.length_map, ne_eq, ne_eq, List.map_eq_nil_iff]
  | false =>
    have nz : ∀ a b, HasRow es a → ∃ ns : List Nat, ns.Nodup ∧ ∀ c, c ∈ ns ↔ cell es a c ≠ 0 ∧ cell es b c ≠ 0 := by
      intro a b _
      obtain ⟨ca, hca⟩ := exists_columns es a
      refine ⟨ca.filter fun c => decide (cell es a c ≠ 0 ∧ cell es b c ≠ 0), hca.1.filter _, fun c => ?_⟩
      rw [List.mem_filter, decide_eq_true_eq]
      exact ⟨fun hh => hh.2, fun hh => ⟨(hca.2 c).2 (hasCell_of_ne hh.1), hh⟩⟩
    obtain ⟨ni, hni⟩ := nz i i hi
    obtain ⟨nj, hnj⟩ := nz j j hj
    obtain ⟨ns, hns⟩ := nz i j hi
    have hni' := relabel_nonzero h hi hi hni
    have hnj' := relabel_nonzero h hj hj hnj
    simp only [and_self] at hni hnj hni' hnj'
    rw [C60_jaccard_matrix_value es i j s ni nj ns hni hnj hns, C60_jaccard_matrix_value es' (π i) (π j) s _ _ _
      hni' hnj' (relabel_nonzero h hi hj hns), List.length_map,
      List.length_map, List.length_map, ne_eq, ne_eq, ne_eq, ne_eq, List.map_eq_nil_iff, List.map_eq_nil_iff]
    have : (∃ c, HasCell es' (π i) c ∧ HasCell es' (π j) c) ↔ ∃ c, HasCell es i c ∧ HasCell es j c := by
      constructor
      · rintro ⟨c', h1, h2⟩
        obtain ⟨c, rfl, hc⟩ := relabel_row h hi h1
        exact ⟨c, hc, (relabel_hasCell h hj ⟨i, hc⟩).1 h2⟩
      · rintro ⟨c, h1, h2⟩
        exact ⟨σ c, relabel_fwd h h1, relabel_fwd h h2⟩
    rw [this]

/-! ## Fitting -/

section

variable {cfg : KnnCfg} {rs rs' : List Rating} {ρ τ : Nat → Nat}

theorem hasCell_entries {K : KKind} {rs : List Rating} {a i : Nat} :
    HasCell (matrixEntries K rs) a i ↔ Rated K rs a i := by
  unfold HasCell matrixEntries Rated
  simp only [List.mem_map, Prod.mk.injEq]
  constructor
  · rintro ⟨v, r, hr, h1, h2, _⟩; exact ⟨r, hr, h1, h2⟩
  · rintro ⟨r, hr, h1, h2⟩; exact ⟨r.x, r, hr, h1, h2, rfl⟩

theorem hasRow_entries {K : KKind} {rs : List Rating} {a : Nat} : HasRow (matrixEntries K rs) a ↔ Known K rs a := by
  unfold HasRow
  simp only [hasCell_entries]
  constructor
  · rintro ⟨i, r, hr, h1, _⟩; exact ⟨r, hr, h1⟩
  · rintro ⟨r, hr, h1⟩; exact ⟨_, r, hr, h1, rfl⟩

theorem coRatings_iff {K : KKind} {rs : List Rating} {a b c : Nat} :
    CoRatings K rs a b c ↔ ∃ cs, Common (matrixEntries K rs) a b cs ∧ cs.length = c := by
  unfold CoRatings Common
  simp only [hasCell_entries]
  constructor
  · rintro ⟨l, h1, h2, h3⟩; exact ⟨l, ⟨h1, h3⟩, h2⟩
  · rintro ⟨l, ⟨h1, h3⟩, h2⟩; exact ⟨l, h1, h2, h3⟩

theorem coRatings_relabel {K : KKind} (h : Relabel ρ τ (matrixEntries K rs) (matrixEntries K rs')) {a b c : Nat}
    (ha : Known K rs a) (hb : Known K rs b) : CoRatings K rs' (ρ a) (ρ b) c ↔ CoRatings K rs a b c := by
  rw [coRatings_iff, coRatings_iff]
  have ha' := hasRow_entries.2 ha
  have hb' := hasRow_entries.2 hb
  constructor
  · rintro ⟨cs', hcs', rfl⟩
    obtain ⟨cs, hcs⟩ := exists_common (matrixEntries K rs) a b
    have h2 := relabel_common h ha' hb' hcs
    have : cs'.Perm (cs.map τ) := (List.perm_ext_iff_of_nodup hcs'.1 h2.1).2 fun x => by rw [hcs'.2, h2.2]
    exact ⟨cs, hcs, by rw [this.length_eq, List.length_map]⟩
  · rintro ⟨cs, hcs, rfl⟩
    exact ⟨_, relabel_common h ha' hb' hcs, by rw [List.length_map]⟩

theorem maxMin_iff (hsym : ∀ es, Symmetric (cfg.metric es)) (a b : Nat) (raw : ℚ) :
    (max a b, min a b, raw) ∈ simMatrix cfg rs ↔ (a, b, raw) ∈ simMatrix cfg rs := by
  rcases le_total a b with hab | hab
  · rw [max_eq_right hab, min_eq_left hab]
    exact ⟨(hsym _).symm _ _ _, (hsym _).symm _ _ _⟩
  · rw [max_eq_left hab, min_eq_right hab]

theorem candidate_relabel (hsym : ∀ es, Symmetric (cfg.metric es)) (hfree : OrderFree cfg.metric)
    (h : Relabel ρ τ (matrixEntries cfg.kind rs) (matrixEntries cfg.kind rs')) {a b : Nat} {s : ℚ}
    (ha : Known cfg.kind rs a) (hb : Known cfg.kind rs b) :
    Candidate cfg rs' (ρ a) (ρ b) s ↔ Candidate cfg rs a b s := by
  have ha' := hasRow_entries.2 ha
  have hb' := hasRow_entries.2 hb
  have hs : ∀ raw, (a, b, raw) ∈ simMatrix cfg rs ↔ (ρ a, ρ b, raw) ∈ simMatrix cfg rs' := fun raw =>
    hfree ρ τ _ _ h a b raw ha' hb'
  constructor
  · rintro ⟨h1, h2, h3, raw, c, h4, h5, h6, h7⟩
    refine ⟨fun e => h1 (by rw [e]), hb, h3, raw, c, ?_, (coRatings_relabel h ha hb).1 h5, h6, h7⟩
    rw [maxMin_iff hsym] at h4 ⊢
    exact (hs raw).2 h4
  · rintro ⟨h1, h2, h3, raw, c, h4, h5, h6, h7⟩
    refine ⟨fun e => h1 (h.rowInj b a hb' ha' e), ?_, h3, raw, c, ?_, (coRatings_relabel h ha hb).2 h5, h6, h7⟩
    · obtain ⟨i, hi⟩ := hb'
      exact hasRow_entries.1 ⟨_, relabel_fwd h hi⟩
    · rw [maxMin_iff hsym] at h4 ⊢
      exact (hs raw).1 h4

theorem known_bwd {K : KKind} (h : Relabel ρ τ (matrixEntries K rs) (matrixEntries K rs')) {b' : Nat}
    (hb : Known K rs' b') : ∃ b, b' = ρ b ∧ Known K rs b := by
  obtain ⟨c, hc⟩ := hasRow_entries.2 hb
  obtain ⟨b, d, e, _, hd⟩ := relabel_bwd h hc
  exact ⟨b, e, hasRow_entries.1 ⟨d, hd⟩⟩

theorem known_fwd {K : KKind} (h : Relabel ρ τ (matrixEntries K rs) (matrixEntries K rs')) {b : Nat}
    (hb : Known K rs b) : Known K rs' (ρ b) := by
  obtain ⟨c, hc⟩ := hasRow_entries.2 hb
  exact hasRow_entries.1 ⟨_, relabel_fwd h hc⟩

/-- The best `k` of some candidates without equal scores are determined. -/
theorem best_sub {C : ℚ × Nat → Prop} {k : Nat} {l l' : List (ℚ × Nat)} (n' : l'.Nodup)
    (hk : l.length ≤ k) (c : ∀ p ∈ l, C p) (c' : ∀ p ∈ l', C p)
    (b : ∀ p, C p → p ∉ l → l.length = k ∧ ∀ q ∈ l, p.1 ≤ q.1)
    (b' : ∀ p, C p → p ∉ l' → l'.length = k ∧ ∀ q ∈ l', p.1 ≤ q.1)
    (u : ∀ p q, C p → C q → p.1 = q.1 → p = q) {p : ℚ × Nat} (hp : p ∈ l) : p ∈ l' := by
  by_contra hn
  obtain ⟨e, hle⟩ := b' p (c p hp) hn
  have : ∃ q ∈ l', q ∉ l := by
    by_contra hall
    push Not at hall
    have hs : l'.Subperm (l.erase p) := by
      refine (List.subperm_of_subset n' fun q hq => ?_)
      exact (List.mem_erase_of_ne (by rintro rfl; exact hn hq)).2 (hall q hq)
    have h1 := hs.length_le
    rw [List.length_erase_of_mem hp] at h1
    have h2 : 0 < l.length := List.length_pos_of_mem hp
    omega
  obtain ⟨q, hq, hql⟩ := this
  have h1 := (b q (c' q hq) hql).2 p hp
  have h2 := hle q hq
  exact hql (by rw [← u p q (c p hp) (c' q hq) (le_antisymm h2 h1)]; exact hp)

theorem preimages {K : KKind} (h : Relabel ρ τ (matrixEntries K rs) (matrixEntries K rs')) :
    ∀ L : List Nat, (∀ b ∈ L, Known K rs' b) → ∃ L₀ : List Nat, L₀.map ρ = L ∧ ∀ b ∈ L₀, Known K rs b
  | [], _ => ⟨[], rfl, by simp⟩
  | b' :: L, hL => by
    obtain ⟨L₀, e, hk⟩ := preimages h L fun b hb => hL b (List.mem_cons_of_mem _ hb)
    obtain ⟨b, rfl, hb⟩ := known_bwd h (hL b' List.mem_cons_self)
    refine ⟨b :: L₀, by rw [List.map_cons, e], ?_⟩
    intro c hc
    rcases List.mem_cons.1 hc with rfl | hc
    · exact hb
    · exact hk c hc

theorem all_fit {k a : Nat} {P : Nat → Prop} (hP : ∀ L : List Nat, L.Nodup → (∀ b ∈ L, P b) → L.length ≤ k + 1)
    {nb : List (ℚ × Nat)} (hn : (nb.map (·.2)).Nodup) (ha : P a) (hnb : ∀ p ∈ nb, P p.2 ∧ p.2 ≠ a) {p : ℚ × Nat}
    (hp : P p.2 ∧ p.2 ≠ a) (hk : nb.length = k) (hu : ∀ q ∈ nb, q.2 = p.2 → q = p) : p ∈ nb := by
  by_contra hnot
  have h1 : (a :: p.2 :: nb.map (·.2)).Nodup := by
    rw [List.nodup_cons, List.nodup_cons, List.mem_cons]
    refine ⟨?_, ?_, hn⟩
    · rintro (e | e)
      · exact hp.2 e.symm
      · obtain ⟨q, hq, e⟩ := List.mem_map.1 e
        exact (hnb q hq).2 e
    · intro e
      obtain ⟨q, hq, e⟩ := List.mem_map.1 e
      rw [hu q hq e] at hq
      exact hnot hq
  have h2 := hP _ h1 (by
    intro b hb
    rcases List.mem_cons.1 hb with rfl | hb
    · exact ha
    · rcases List.mem_cons.1 hb with rfl | hb
      · exact hp.1
      · obtain ⟨q, hq, rfl⟩ := List.mem_map.1 hb
        exact (hnb q hq).1)
  simp only [List.length_cons, List.length_map] at h2
  omega

theorem candidate_one (hsym : ∀ es, Symmetric (cfg.metric es)) {a b : Nat} {s s' : ℚ} (h : Candidate cfg rs a b s)
    (h' : Candidate cfg rs a b s') : s = s' := by
  obtain ⟨raw, c, h1, h2, _, h3⟩ := h.sim
  obtain ⟨raw', c', h1', h2', _, h3'⟩ := h'.sim
  have e1 : raw = raw' := (hsym _).one _ _ _ _ h1 h1'
  have e2 : c = c' := by
    obtain ⟨l, n, rfl, hl⟩ := h2
    obtain ⟨l', n', rfl, hl'⟩ := h2'
    exact ((List.perm_ext_iff_of_nodup n n').2 fun x => by rw [hl, hl']).length_eq
  subst e1; subst e2
  unfold Shrunk at h3 h3'
  cases hsh : cfg.shrinkage with
  | none => rw [hsh] at h3 h3'; exact h3.trans h3'.symm
  | some z => rw [hsh] at h3 h3'; exact h3.trans h3'.symm

/-- The neighbours are the same apart from their numbers. -/
theorem neighbours_relabel (hsym : ∀ es, Symmetric (cfg.metric es)) (hfree : OrderFree cfg.metric)
    (h : Relabel ρ τ (matrixEntries cfg.kind rs) (matrixEntries cfg.kind rs')) (hd : Dense cfg.kind rs)
    (hd' : Dense cfg.kind rs') {a : Nat} (ha : Known cfg.kind rs a) (hdec : Decided cfg rs a) :
    ∃ nb nb', (fitKnn cfg rs Knn.init).nbrs a = some nb ∧ (fitKnn cfg rs' Knn.init).nbrs (ρ a) = some nb' ∧
      (∀ p ∈ nb, Known cfg.kind rs p.2) ∧ nb'.Perm (nb.map fun p => (p.1, ρ p.2)) := by
  obtain ⟨nb, e, hk, _, hn, hc, hb⟩ := C62_neighbours cfg rs (hsym _).one hd a ha
  obtain ⟨nb', e', hk', _, hn', hc', hb'⟩ := C62_neighbours cfg rs' (hsym _).one hd' (ρ a) (known_fwd h ha)
  have hinj : ∀ p ∈ nb, ∀ q ∈ nb, ρ p.2 = ρ q.2 → p.2 = q.2 := fun p hp q hq e =>
    h.rowInj _ _ (hasRow_entries.2 (hc p.1 p.2 hp).known) (hasRow_entries.2 (hc q.1 q.2 hq).known) e
  have hn2 : ((nb.map fun p => (p.1, ρ p.2)).map (·.2)).Nodup := by
    rw [List.map_map]
    refine (List.nodup_map_iff_inj_on (List.Nodup.of_map _ hn)).2 fun p hp q hq e => ?_
    exact List.inj_on_of_nodup_map hn hp hq (hinj p hp q hq e)
  let C : ℚ × Nat → Prop := fun p => Candidate cfg rs' (ρ a) p.2 p.1
  have c1 : ∀ p ∈ nb.map fun p => (p.1, ρ p.2), C p := by
    intro p hp
    obtain ⟨q, hq, rfl⟩ := List.mem_map.1 hp
    have hcq := hc q.1 q.2 hq
    exact (candidate_relabel hsym hfree h ha hcq.known).2 hcq
  have c2 : ∀ p ∈ nb', C p := fun p hp => hc' p.1 p.2 hp
  have b1 : ∀ p, C p → p ∉ (nb.map fun p => (p.1, ρ p.2)) →
      (nb.map fun p => (p.1, ρ p.2)).length = cfg.k ∧ ∀ q ∈ nb.map fun p => (p.1, ρ p.2), p.1 ≤ q.1 := by
    rintro ⟨s, b'⟩ hp hnp
    obtain ⟨b, rfl, hbk⟩ := known_bwd h (Candidate.known hp)
    have hcb := (candidate_relabel hsym hfree h ha hbk).1 hp
    obtain ⟨h1, h2⟩ := hb s b hcb fun hm => hnp (List.mem_map.2 ⟨(s, b), hm, rfl⟩)
    refine ⟨by rw [List.length_map, h1], ?_⟩
    intro q hq
    obtain ⟨q, hq2, rfl⟩ := List.mem_map.1 hq
    exact h2 q hq2
  have b2 : ∀ p, C p → p ∉ nb' → nb'.length = cfg.k ∧ ∀ q ∈ nb', p.1 ≤ q.1 := fun p hp hnp => hb' p.1 p.2 hp hnp
  refine ⟨nb, nb', e, e', fun p hp => (hc p.1 p.2 hp).known, ?_⟩
  refine (List.perm_ext_iff_of_nodup (List.Nodup.of_map _ hn') (List.Nodup.of_map _ hn2)).2 fun p => ?_
  rcases hdec with hfit | huniq
  · have hP : ∀ L : List Nat, L.Nodup → (∀ b ∈ L, Known cfg.kind rs' b) → L.length ≤ cfg.k + 1 := by
      intro L hL hLk
      obtain ⟨L₀, rfl, hL₀⟩ := preimages h L hLk
      have n₀ := List.Nodup.of_map _ hL
      have := (List.subperm_of_subset n₀ (l₂ := List.range (cfg.k + 1)) fun b hb => by
        rw [List.mem_range]; have := hfit b (hL₀ b hb); omega).length_le
      rwa [List.length_range, ← List.length_map (f := ρ)] at this
    have fit : ∀ (l : List (ℚ × Nat)), (l.map (·.2)).Nodup → (∀ p ∈ l, C p) →
        (∀ p, C p → p ∉ l → l.length = cfg.k ∧ ∀ q ∈ l, p.1 ≤ q.1) → ∀ p, C p → p ∈ l := by
      intro l hl hlc hlb p hp
      by_contra hnp
      refine hnp (all_fit hP hl (known_fwd h ha) (fun q hq => ⟨(hlc q hq).known, (hlc q hq).other⟩)
        ⟨Candidate.known hp, Candidate.other hp⟩ (hlb p hp hnp).1 ?_)
      rintro ⟨s, b⟩ hq e
      simp only at e
      have h1 := hlc _ hq
      obtain ⟨s', b'⟩ := p
      simp only at e
      subst e
      have es : s = s' := candidate_one hsym h1 hp
      rw [es]
    exact ⟨fun hp => fit _ hn2 c1 b1 p (c2 p hp), fun hp => fit _ hn' c2 b2 p (c1 p hp)⟩
  · have u : ∀ p q, C p → C q → p.1 = q.1 → p = q := by
      rintro ⟨s, b⟩ ⟨s', b'⟩ hp hq es
      simp only at es
      subst es
      obtain ⟨x, e1, hx⟩ := known_bwd h (Candidate.known hp)
      obtain ⟨y, e2, hy⟩ := known_bwd h (Candidate.known hq)
      simp only at e1 e2
      subst e1; subst e2
      rw [huniq x y s ((candidate_relabel hsym hfree h ha hx).1 hp) ((candidate_relabel hsym hfree h ha hy).1 hq)]
    exact ⟨fun hp => best_sub (List.Nodup.of_map _ hn2) hk' c2 c1 b2 b1 u hp,
      fun hp => best_sub (List.Nodup.of_map _ hn') (by rw [List.length_map]; exact hk) c1 c2
        b1 b2 u hp⟩

theorem interactionOf_entries {K : KKind} {rs : List Rating}
    (hn : (rs.map fun r => (K.own r, K.other r)).Nodup) {a o : Nat} {x : ℚ} :
    interactionOf K rs a o = some x ↔ (a, o, x) ∈ matrixEntries K rs := by
  unfold matrixEntries
  constructor
  · intro h
    obtain ⟨r, hr, h1, h2, rfl⟩ := interactionOf_some h
    exact List.mem_map.2 ⟨r, hr, by rw [h1, h2]⟩
  · intro h
    obtain ⟨r, hr, e⟩ := List.mem_map.1 h
    simp only [Prod.mk.injEq] at e
    obtain ⟨rfl, rfl, rfl⟩ := e
    cases hf : interactionOf K rs (K.own r) (K.other r) with
    | none => exact absurd ⟨r, hr, rfl, rfl⟩ (interactionOf_none.1 hf)
    | some y =>
      obtain ⟨r', hr', h1, h2, rfl⟩ := interactionOf_some hf
      rw [List.inj_on_of_nodup_map hn hr' hr (by rw [h1, h2])]

theorem pairs_relabel {K : KKind} (h : Relabel ρ τ (matrixEntries K rs) (matrixEntries K rs'))
    (hn : (rs.map fun r => (K.own r, K.other r)).Nodup) : (rs'.map fun r => (K.own r, K.other r)).Nodup := by
  have e : ∀ rs : List Rating, (rs.map fun r => (K.own r, K.other r)) =
      (matrixEntries K rs).map fun e => (e.1, e.2.1) := by
    intro rs
    unfold matrixEntries
    rw [List.map_map]
    rfl
  rw [e] at hn ⊢
  rw [(h.perm.map _).nodup_iff, List.map_map]
  have hes := List.Nodup.of_map _ hn
  refine (List.nodup_map_iff_inj_on hes).2 fun x hx y hy exy => ?_
  simp only [Function.comp_apply, Prod.mk.injEq] at exy
  refine List.inj_on_of_nodup_map hn hx hy ?_
  simp only [Prod.mk.injEq]
  exact ⟨h.rowInj _ _ ⟨x.2.1, x.2.2, hx⟩ ⟨y.2.1, y.2.2, hy⟩ exy.1,
    h.colInj _ _ ⟨x.1, x.2.2, hx⟩ ⟨y.1, y.2.2, hy⟩ exy.2⟩

theorem interactionOf_relabel {K : KKind} (h : Relabel ρ τ (matrixEntries K rs) (matrixEntries K rs'))
    (hn : (rs.map fun r => (K.own r, K.other r)).Nodup) {a o : Nat} (ha : Known K rs a)
    (ho : HasCol (matrixEntries K rs) o) : interactionOf K rs' (ρ a) (τ o) = interactionOf K rs a o := by
  apply Option.ext
  intro x
  rw [interactionOf_entries hn, interactionOf_entries (pairs_relabel h hn), h.perm.mem_iff, List.mem_map]
  constructor
  · rintro ⟨⟨b, c, y⟩, hm, e⟩
    simp only [Prod.mk.injEq] at e
    obtain ⟨e1, e2, rfl⟩ := e
    rw [← h.rowInj b a ⟨c, y, hm⟩ (hasRow_entries.2 ha) e1, ← h.colInj c o ⟨b, y, hm⟩ ho e2]
    exact hm
  · intro hm
    exact ⟨(a, o, x), hm, rfl⟩

theorem predictDefault_entries (K : KKind) (rs : List Rating) (o : Nat) :
    predictDefault K rs o =
      if (((matrixEntries K rs).filter fun e => e.2.1 = o).map (·.2.2)).length = 0 then .error .zeroDiv
      else .ok (some ((((matrixEntries K rs).filter fun e => e.2.1 = o).map (·.2.2)).sum /
        ((((matrixEntries K rs).filter fun e => e.2.1 = o).map (·.2.2)).length : ℚ))) := by
  have : (((matrixEntries K rs).filter fun e => e.2.1 = o).map (·.2.2)) =
      (rs.filter fun r => K.other r = o).map (·.x) := by
    unfold matrixEntries
    rw [List.filter_map, List.map_map]
    rfl
  rw [this]
  unfold predictDefault
  simp only [List.length_map]

theorem predictDefault_relabel {K : KKind} (h : Relabel ρ τ (matrixEntries K rs) (matrixEntries K rs')) {o : Nat}
    (ho : HasCol (matrixEntries K rs) o) : predictDefault K rs' (τ o) = predictDefault K rs o := by
  rw [predictDefault_entries, predictDefault_entries]
  have : (((matrixEntries K rs').filter fun e => e.2.1 = τ o).map (·.2.2)).Perm
      (((matrixEntries K rs).filter fun e => e.2.1 = o).map (·.2.2)) := by
    refine ((h.perm.filter _).map _).trans ?_
    rw [List.filter_map, List.map_map]
    have : (matrixEntries K rs).filter ((fun e : Nat × Nat × ℚ => decide (e.2.1 = τ o)) ∘
        fun e : Nat × Nat × ℚ => (ρ e.1, τ e.2.1, e.2.2)) =
        (matrixEntries K rs).filter fun e => decide (e.2.1 = o) := by
      apply List.filter_congr
      rintro ⟨j, d, v⟩ hm
      simp only [Function.comp_apply, decide_eq_decide]
      exact ⟨fun e => h.colInj d o ⟨j, v, hm⟩ ho e, fun e => by rw [e]⟩
    rw [this]
    exact List.Perm.refl _
  rw [this.length_eq, this.sum_eq]

theorem agg_perm (g : Agg) {l l' : List (ℚ × ℚ)} (h : l.Perm l') : g.run l = g.run l' := by
  cases g with
  | mean => simp only [Agg.run, aggMean, h.length_eq, (h.map _).sum_eq]
  | weighted => simp only [Agg.run, aggWeighted, (h.map _).sum_eq]

/-- One prediction on relabelled data. -/
theorem predictOwn_relabel (hsym : ∀ es, Symmetric (cfg.metric es)) (hfree : OrderFree cfg.metric)
    (h : Relabel ρ τ (matrixEntries cfg.kind rs) (matrixEntries cfg.kind rs')) (hd : Dense cfg.kind rs)
    (hd' : Dense cfg.kind rs') (hn : (rs.map fun r => (cfg.kind.own r, cfg.kind.other r)).Nodup) {a o : Nat}
    (ha : Known cfg.kind rs a) (ho : HasCol (matrixEntries cfg.kind rs) o) (hdec : Decided cfg rs a) :
    predictOwn cfg rs' (fitKnn cfg rs' Knn.init) (ρ a) (τ o) = predictOwn cfg rs (fitKnn cfg rs Knn.init) a o := by
  obtain ⟨nb, nb', e, e', hk, hp⟩ := neighbours_relabel hsym hfree h hd hd' ha hdec
  unfold predictOwn
  rw [e, e']
  simp only
  have hu : (usedPairs cfg.kind rs' nb' (τ o)).Perm (usedPairs cfg.kind rs nb o) := by
    unfold usedPairs
    refine (hp.filterMap _).trans ?_
    rw [List.filterMap_map]
    refine List.Perm.of_eq (List.filterMap_congr fun p hpm => ?_)
    simp only [Function.comp_apply, interactionOf_relabel h hn (hk p hpm) ho]
  unfold finishPred
  rw [hu.length_eq, agg_perm _ hu, predictDefault_relabel h ho]

end

/-! ## Datasets with the same records -/

/-- The record as a rating, from its raw ids. -/
def rawRating (ds : Mem) (t : Val × Val × Val) : Rating :=
  ⟨ds.userMap.idxOf t.1, ds.itemMap.idxOf t.2.1, ratCell t.2.2⟩

/-- The number in the other dataset of what has number `u` in this one. -/
def recode (m m' : List Val) (u : Nat) : Nat := m'.idxOf (m.getD u .null)

theorem recode_idxOf {m : List Val} (m' : List Val) {v : Val} (h : v ∈ m) : recode m m' (m.idxOf v) = m'.idxOf v := by
  unfold recode
  have hlt := List.idxOf_lt_length_of_mem h
  rw [List.getD_eq_getElem?_getD, List.getElem?_eq_getElem hlt, Option.getD_some, List.getElem_idxOf hlt]

theorem ratingsOf_raw {ds : Mem} (h : Fresh ds) : ratingsOf ds = (ds.rows.map rawTriple).map (rawRating ds) := by
  rw [ratingsOf_eq, List.map_map]
  apply List.map_congr_left
  intro r hr
  simp only [ratingOf, rawRating, rawTriple, Function.comp_apply, (h.ids.user.code r hr).2, (h.ids.item.code r hr).2,
    idCell_nat]

theorem mem_users {ds : Mem} (h : Fresh ds) {t : Val × Val × Val} (ht : t ∈ ds.rows.map rawTriple) :
    t.1 ∈ ds.userMap ∧ t.2.1 ∈ ds.itemMap := by
  obtain ⟨r, hr, rfl⟩ := List.mem_map.1 ht
  exact ⟨(h.ids.user.code r hr).1, (h.ids.item.code r hr).1⟩

theorem ratings_perm {ds ds' : Mem} (h : Fresh ds) (h' : Fresh ds') (hs : SameRecords ds ds') :
    (ratingsOf ds').Perm ((ratingsOf ds).map fun r =>
      ⟨recode ds.userMap ds'.userMap r.uid, recode ds.itemMap ds'.itemMap r.iid, r.x⟩) := by
  rw [ratingsOf_raw h, ratingsOf_raw h']
  refine (hs.perm.map _).trans (List.Perm.of_eq ?_)
  rw [List.map_map (l := ds.rows.map rawTriple)]
  apply List.map_congr_left
  intro t ht
  obtain ⟨h1, h2⟩ := mem_users h ht
  simp only [rawRating, Function.comp_apply, recode_idxOf _ h1, recode_idxOf _ h2]

theorem same_users {ds ds' : Mem} (h : Fresh ds) (h' : Fresh ds') (hs : SameRecords ds ds') (v : Val) :
    (v ∈ ds'.userMap ↔ v ∈ ds.userMap) ∧ (v ∈ ds'.itemMap ↔ v ∈ ds.itemMap) := by
  have key : ∀ {a b : Mem}, Fresh a → Fresh b → (b.rows.map rawTriple).Perm (a.rows.map rawTriple) →
      (v ∈ b.userMap → v ∈ a.userMap) ∧ (v ∈ b.itemMap → v ∈ a.itemMap) := by
    intro a b ha hb hp
    constructor
    · intro hv
      obtain ⟨r, hr, rfl⟩ := hb.users v hv
      exact (mem_users ha (hp.mem_iff.1 (List.mem_map.2 ⟨r, hr, rfl⟩))).1
    · intro hv
      obtain ⟨r, hr, rfl⟩ := hb.items v hv
      exact (mem_users ha (hp.mem_iff.1 (List.mem_map.2 ⟨r, hr, rfl⟩))).2
  have k1 := key h h' hs.perm
  have k2 := key h' h hs.perm.symm
  exact ⟨⟨k1.1, k2.1⟩, ⟨k1.2, k2.2⟩⟩

theorem recode_inj {m m' : List Val} (hm : ∀ v, v ∈ m' ↔ v ∈ m) {i j : Nat} (hi : i < m.length) (hj : j < m.length)
    (hn : m.Nodup) (e : recode m m' i = recode m m' j) : i = j := by
  unfold recode at e
  rw [List.getD_eq_getElem?_getD, List.getElem?_eq_getElem hi, List.getD_eq_getElem?_getD,
    List.getElem?_eq_getElem hj, Option.getD_some, Option.getD_some] at e
  have h1 : m[i] ∈ m' := (hm _).2 (List.getElem_mem hi)
  have := (List.idxOf_inj h1).1 e
  exact (List.Nodup.getElem_inj_iff hn).1 this

/-- The other kind of neighbourhood. -/
def KKind.flip : KKind → KKind
  | .user => .item
  | .item => .user

theorem hasCol_entries {K : KKind} {rs : List Rating} {c : Nat} : HasCol (matrixEntries K rs) c ↔ Known K.flip rs c := by
  unfold HasCol
  simp only [hasCell_entries]
  cases K with
  | user =>
    constructor
    · rintro ⟨i, r, hr, _, h1⟩; exact ⟨r, hr, h1⟩
    · rintro ⟨r, hr, h1⟩; exact ⟨_, r, hr, rfl, h1⟩
  | item =>
    constructor
    · rintro ⟨i, r, hr, _, h1⟩; exact ⟨r, hr, h1⟩
    · rintro ⟨r, hr, h1⟩; exact ⟨_, r, hr, rfl, h1⟩

theorem gapless_of_dense {rs : List Rating} (h : ∀ K, Dense K rs) (K : KKind) : Gapless (matrixEntries K rs) := by
  have down : ∀ K i j, i ≤ j → Known K rs j → Known K rs i := by
    intro K i j hij hj
    obtain ⟨n, hn⟩ := h K
    have := (hn j).1 hj
    exact (hn i).2 (by omega)
  refine ⟨fun i j hij hj => ?_, fun i j hij hj => ?_⟩
  · exact hasRow_entries.2 (down K i j hij (hasRow_entries.1 hj))
  · exact hasCol_entries.2 (down _ i j hij (hasCol_entries.1 hj))

/-- Renumbering of the ids neighbourhoods are made of, and of the others. -/
def recodeOwn (ds ds' : Mem) : KKind → Nat → Nat
  | .user => recode ds.userMap ds'.userMap
  | .item => recode ds.itemMap ds'.itemMap

theorem known_lt {ds : Mem} (h : Fresh ds) {K : KKind} {a : Nat} (ha : Known K (ratingsOf ds) a) :
    a < (match K with | .user => ds.userMap | .item => ds.itemMap).length := by
  obtain ⟨r, hr, rfl⟩ := ha
  rw [ratingsOf_raw h] at hr
  obtain ⟨t, ht, rfl⟩ := List.mem_map.1 hr
  obtain ⟨h1, h2⟩ := mem_users h ht
  cases K with
  | user => exact List.idxOf_lt_length_of_mem h1
  | item => exact List.idxOf_lt_length_of_mem h2

theorem recodeOwn_inj {ds ds' : Mem} (h : Fresh ds) (h' : Fresh ds') (hs : SameRecords ds ds') {K : KKind} {i j : Nat}
    (hi : Known K (ratingsOf ds) i) (hj : Known K (ratingsOf ds) j)
    (e : recodeOwn ds ds' K i = recodeOwn ds ds' K j) : i = j := by
  have h1 := known_lt h hi
  have h2 := known_lt h hj
  cases K with
  | user => exact recode_inj (fun v => (same_users h h' hs v).1) h1 h2 h.ids.user.nodup e
  | item => exact recode_inj (fun v => (same_users h h' hs v).2) h1 h2 h.ids.item.nodup e

theorem relabel_ratings {ds ds' : Mem} (h : Fresh ds) (h' : Fresh ds') (hs : SameRecords ds ds') (K : KKind) :
    Relabel (recodeOwn ds ds' K) (recodeOwn ds ds' K.flip) (matrixEntries K (ratingsOf ds))
      (matrixEntries K (ratingsOf ds')) := by
  refine ⟨?_, ?_, ?_, gapless_of_dense (C62_dense ds h) K, gapless_of_dense (C62_dense ds' h') K⟩
  · refine ((ratings_perm h h' hs).map _).trans (List.Perm.of_eq ?_)
    unfold matrixEntries
    rw [List.map_map, List.map_map]
    cases K <;> rfl
  · intro i j hi hj e
    exact recodeOwn_inj h h' hs (hasRow_entries.1 hi) (hasRow_entries.1 hj) e
  · intro i j hi hj e
    exact recodeOwn_inj h h' hs (hasCol_entries.1 hi) (hasCol_entries.1 hj) e

theorem userToUid_same {ds ds' : Mem} (h : Fresh ds) (h' : Fresh ds') (hs : SameRecords ds ds') (x : Lit) :
    ds'.userToUid x = (ds.userToUid x).map (Option.map (recode ds.userMap ds'.userMap)) := by
  unfold Mem.userToUid
  rw [if_pos h.ids.has, if_pos h'.ids.has, if_pos h.ids.user.hasRaw, if_pos h'.ids.user.hasRaw, hs.users]
  cases normId (ds.dtype "user") x with
  | error e => rfl
  | ok v =>
    simp only [Except.map, lookupCode]
    by_cases hv : v ∈ ds.userMap
    · rw [if_pos hv, if_pos ((same_users h h' hs v).1.2 hv), Option.map_some, recode_idxOf _ hv]
    · rw [if_neg hv, if_neg (mt (same_users h h' hs v).1.1 hv), Option.map_none]

theorem itemToIid_same {ds ds' : Mem} (h : Fresh ds) (h' : Fresh ds') (hs : SameRecords ds ds') (x : Lit) :
    ds'.itemToIid x = (ds.itemToIid x).map (Option.map (recode ds.itemMap ds'.itemMap)) := by
  unfold Mem.itemToIid
  rw [if_pos h.ids.has, if_pos h'.ids.has, if_pos h.ids.item.hasRaw, if_pos h'.ids.item.hasRaw, hs.items]
  cases normId (ds.dtype "item") x with
  | error e => rfl
  | ok v =>
    simp only [Except.map, lookupCode]
    by_cases hv : v ∈ ds.itemMap
    · rw [if_pos hv, if_pos ((same_users h h' hs v).2.2 hv), Option.map_some, recode_idxOf _ hv]
    · rw [if_neg hv, if_neg (mt (same_users h h' hs v).2.1 hv), Option.map_none]

theorem known_of_uid {ds : Mem} (h : Fresh ds) {x : Lit} {u : Nat} (hx : ds.userToUid x = .ok (some u)) :
    Known .user (ratingsOf ds) u := by
  unfold Mem.userToUid at hx
  rw [if_pos h.ids.has, if_pos h.ids.user.hasRaw] at hx
  cases hn : normId (ds.dtype "user") x with
  | error e => rw [hn] at hx; cases hx
  | ok v =>
    rw [hn] at hx
    simp only [Except.map, lookupCode, Except.ok.injEq] at hx
    split at hx
    · next hv =>
      cases hx
      obtain ⟨r, hr, rfl⟩ := h.users v hv
      rw [ratingsOf_raw h]
      exact ⟨_, List.mem_map.2 ⟨_, List.mem_map.2 ⟨r, hr, rfl⟩, rfl⟩, rfl⟩
    · cases hx

theorem known_of_iid {ds : Mem} (h : Fresh ds) {x : Lit} {u : Nat} (hx : ds.itemToIid x = .ok (some u)) :
    Known .item (ratingsOf ds) u := by
  unfold Mem.itemToIid at hx
  rw [if_pos h.ids.has, if_pos h.ids.item.hasRaw] at hx
  cases hn : normId (ds.dtype "item") x with
  | error e => rw [hn] at hx; cases hx
  | ok v =>
    rw [hn] at hx
    simp only [Except.map, lookupCode, Except.ok.injEq] at hx
    split at hx
    · next hv =>
      cases hx
      obtain ⟨r, hr, rfl⟩ := h.items v hv
      rw [ratingsOf_raw h]
      exact ⟨_, List.mem_map.2 ⟨_, List.mem_map.2 ⟨r, hr, rfl⟩, rfl⟩, rfl⟩
    · cases hx

theorem once_pairs {ds : Mem} (h : Fresh ds) (hn : OncePerPair ds) (K : KKind) :
    ((ratingsOf ds).map fun r => (K.own r, K.other r)).Nodup := by
  rw [ratingsOf_raw h, List.map_map, List.map_map]
  unfold OncePerPair at hn
  refine (List.nodup_map_iff_inj_on (List.Nodup.of_map _ hn)).2 fun r hr r' hr' e => ?_
  refine List.inj_on_of_nodup_map hn hr hr' ?_
  have e' : ds.userMap.idxOf (r.get "user") = ds.userMap.idxOf (r'.get "user") ∧
      ds.itemMap.idxOf (r.get "item") = ds.itemMap.idxOf (r'.get "item") := by
    cases K with
    | user => exact Prod.mk.inj e
    | item => exact (Prod.mk.inj e).symm
  rw [(List.idxOf_inj (h.ids.user.code r hr).1).1 e'.1, (List.idxOf_inj (h.ids.item.code r hr).1).1 e'.2]

theorem knnPredict_same (cfg : KnnCfg) (hsym : ∀ es, Symmetric (cfg.metric es)) (hfree : OrderFree cfg.metric)
    {ds ds' : Mem} (h : Fresh ds) (h' : Fresh ds') (hs : SameRecords ds ds') (hn : OncePerPair ds) {u i : Nat}
    (hu : Known .user (ratingsOf ds) u) (hi : Known .item (ratingsOf ds) i)
    (hdec : Decided cfg (ratingsOf ds) (cfg.kind.own ⟨u, i, 0⟩)) :
    knnPredict cfg (ratingsOf ds') (fitKnn cfg (ratingsOf ds') Knn.init) (some (recode ds.userMap ds'.userMap u))
        (some (recode ds.itemMap ds'.itemMap i)) =
      knnPredict cfg (ratingsOf ds) (fitKnn cfg (ratingsOf ds) Knn.init) (some u) (some i) := by
  rw [knnPredict_own, knnPredict_own]
  have hr := relabel_ratings h h' hs cfg.kind
  have hp := once_pairs h hn cfg.kind
  cases hk : cfg.kind with
  | user =>
    have := predictOwn_relabel (a := u) (o := i) hsym hfree hr (C62_dense ds h _) (C62_dense ds' h' _) hp
      (by rw [hk]; exact hu) (hasCol_entries.2 (by rw [hk]; exact hi)) (by rw [hk] at hdec; exact hdec)
    rw [hk] at this
    exact this
  | item =>
    have := predictOwn_relabel (a := i) (o := u) hsym hfree hr (C62_dense ds h _) (C62_dense ds' h' _) hp
      (by rw [hk]; exact hi) (hasCol_entries.2 (by rw [hk]; exact hu)) (by rw [hk] at hdec; exact hdec)
    rw [hk] at this
    exact this

/-- **C110, partial.** Two datasets with the same records in different order, each pair of user and item at most once:
a model fitted on one predicts what a model fitted on the other predicts, for every user and item and with every
setting, as long as the choice of the neighbours does not hang on a tie.  The full claim, without the conditions on
ties and repeated pairs, is refuted by `C110_fails_ties` and `C110_fails_repeated`. -/
theorem C110_predict_partial (cfg : KnnCfg) (hsym : ∀ es, Symmetric (cfg.metric es)) (hfree : OrderFree cfg.metric)
    (ds ds' : Mem) (h : Fresh ds) (h' : Fresh ds') (hs : SameRecords ds ds') (hn : OncePerPair ds) (x y : Lit)
    (skip : Bool) (hdec : ∀ u i, ds.userToUid x = .ok (some u) → ds.itemToIid y = .ok (some i) →
      Decided cfg (ratingsOf ds) (cfg.kind.own ⟨u, i, 0⟩)) :
    predict ds' true (knnPredict cfg (ratingsOf ds') (fitKnn cfg (ratingsOf ds') Knn.init)) x y skip =
      predict ds true (knnPredict cfg (ratingsOf ds) (fitKnn cfg (ratingsOf ds) Knn.init)) x y skip := by
  have ht : tryPredict ds' (knnPredict cfg (ratingsOf ds') (fitKnn cfg (ratingsOf ds') Knn.init)) x y =
      tryPredict ds (knnPredict cfg (ratingsOf ds) (fitKnn cfg (ratingsOf ds) Knn.init)) x y := by
    unfold tryPredict
    rw [userToUid_same h h' hs, itemToIid_same h h' hs]
    cases hx : ds.userToUid x with
    | error e => rfl
    | ok u =>
      cases hy : ds.itemToIid y with
      | error e => rfl
      | ok i =>
        cases u with
        | none => rfl
        | some u =>
          cases i with
          | none => rfl
          | some i =>
            simp only [Except.map, Option.map_some]
            rw [knnPredict_same cfg hsym hfree h h' hs hn (known_of_uid h hx) (known_of_iid h hy) (hdec u i hx hy)]
  have hk : ∀ (r : Except Err (Option Nat)) (f : Nat → Nat), assertKnown (r.map (Option.map f)) = assertKnown r := by
    intro r f
    cases r with
    | error e => rfl
    | ok o => cases o <;> rfl
  unfold predict
  rw [ht, userToUid_same h h' hs, itemToIid_same h h' hs, hk, hk]

/-! ## Recommendations -/

theorem recommend_iff {ds : Mem} (h : IdsOk ds) {rk : RankFn} {x : Lit} {n : Option Nat} {novelty : Bool}
    {threshold : Option ℚ} {out : List (ℚ × Option Val)} (hout : recommend ds rk x n novelty threshold = .ok out) :
    ∃ uid l, ds.userToUid x = .ok (some uid) ∧
      rk uid (List.range (nItemsOf ds)) (n.getD (nItemsOf ds)) novelty = .ok l ∧
      ∀ s item, (s, some item) ∈ out ↔ ∃ i, (s, i) ∈ l ∧ ds.itemMap[i]? = some item ∧ ∀ t, threshold = some t → t ≤ s := by
  unfold recommend at hout
  cases hu : ds.userToUid x with
  | error e => rw [hu] at hout; cases hout
  | ok o =>
    cases o with
    | none => rw [hu] at hout; cases hout
    | some uid =>
      rw [hu] at hout
      simp only [recommendIids] at hout
      cases hl : rk uid (List.range (nItemsOf ds)) (n.getD (nItemsOf ds)) novelty with
      | error e => rw [hl] at hout; cases hout
      | ok l =>
        rw [hl] at hout
        simp only [Except.map, toRaw_ok h.has, Except.ok.injEq] at hout
        subst hout
        refine ⟨uid, l, rfl, hl, fun s item => ?_⟩
        cases threshold with
        | none =>
          simp only [List.mem_map, Prod.mk.injEq, Prod.exists]
          constructor
          · rintro ⟨s', i, hm, rfl, e⟩; exact ⟨i, hm, e, by simp⟩
          · rintro ⟨i, hm, e, _⟩; exact ⟨s, i, hm, rfl, e⟩
        | some t =>
          simp only [List.mem_map, List.mem_filter, Prod.mk.injEq, Prod.exists, decide_eq_true_eq]
          constructor
          · rintro ⟨s', i, ⟨hm, ht⟩, rfl, e⟩
            exact ⟨i, hm, e, fun t' ht' => by cases ht'; exact ht⟩
          · rintro ⟨i, hm, e, ht⟩; exact ⟨s, i, ⟨hm, ht t rfl⟩, rfl, e⟩

theorem knnRank_agrees {cfg : KnnCfg} (hav : cfg.kind = .user → cfg.useAverages = false) {rs : List Rating}
    (hn : (rs.map fun r => (r.uid, r.iid)).Nodup) {M : Knn} {uid : Nat} {iids : List Nat} {n : Nat} {novelty : Bool}
    {out : List (ℚ × Nat)} (h : knnRank cfg rs M uid iids n novelty = .ok out) :
    Agrees rs (knnPredict cfg rs M) uid iids n novelty out := by
  unfold knnRank at h
  cases hk : cfg.kind with
  | user => rw [hk] at h; exact C64_user_partial cfg hk (hav hk) rs hn M uid iids n novelty out h
  | item => rw [hk] at h; exact C64_item cfg hk rs M uid iids n novelty out h

/-- With room for everything a ranking has exactly the wanted items with a value. -/
theorem agrees_mem {rs : List Rating} {f : PredictFn ℚ} {uid n : Nat} {novelty : Bool} {out : List (ℚ × Nat)}
    (h : Agrees rs f uid (List.range n) n novelty out) (s : ℚ) (i : Nat) :
    (s, i) ∈ out ↔ Wanted rs uid (List.range n) novelty i ∧ f (some uid) (some i) = .ok (some s) := by
  constructor
  · intro hm; exact ⟨(h.score _ hm).2, (h.score _ hm).1⟩
  · rintro ⟨hw, hf⟩
    by_contra hno
    obtain ⟨hl, _⟩ := h.complete i s hw hf hno
    have hsub : (i :: out.map (·.2)).Subperm (List.range n) := by
      refine List.subperm_of_subset ?_ ?_
      · rw [List.nodup_cons]
        refine ⟨fun hm => ?_, h.nodup⟩
        obtain ⟨⟨t, j⟩, hj, e⟩ := List.mem_map.1 hm
        simp only at e
        subst e
        have := (h.score _ hj).1
        rw [hf] at this
        cases this
        exact hno hj
      · intro j hj
        rcases List.mem_cons.1 hj with rfl | hj
        · exact hw.1
        · obtain ⟨p, hp, rfl⟩ := List.mem_map.1 hj
          exact (h.score _ hp).2.1
    have := hsub.length_le
    rw [List.length_range, List.length_cons, List.length_map, hl] at this
    omega

theorem sameRecords_symm {ds ds' : Mem} (hs : SameRecords ds ds') : SameRecords ds' ds :=
  ⟨hs.perm.symm, hs.users.symm, hs.items.symm⟩

theorem once_same {ds ds' : Mem} (hs : SameRecords ds ds') (hn : OncePerPair ds) : OncePerPair ds' := by
  unfold OncePerPair at *
  have e : ∀ d : Mem, (d.rows.map fun r => (r.get "user", r.get "item")) =
      (d.rows.map rawTriple).map fun t => (t.1, t.2.1) := by
    intro d
    rw [List.map_map]
    rfl
  rw [e] at hn ⊢
  exact ((hs.perm.map _).nodup_iff).2 hn

theorem owned_raw {ds : Mem} (h : Fresh ds) {u v : Val} (hu : u ∈ ds.userMap) (hv : v ∈ ds.itemMap) :
    (∃ r ∈ ratingsOf ds, r.uid = ds.userMap.idxOf u ∧ r.iid = ds.itemMap.idxOf v) ↔
      ∃ t ∈ ds.rows.map rawTriple, t.1 = u ∧ t.2.1 = v := by
  rw [ratingsOf_raw h]
  constructor
  · rintro ⟨r, hr, h1, h2⟩
    obtain ⟨t, ht, rfl⟩ := List.mem_map.1 hr
    obtain ⟨m1, m2⟩ := mem_users h ht
    exact ⟨t, ht, (List.idxOf_inj m1).1 h1, (List.idxOf_inj m2).1 h2⟩
  · rintro ⟨t, ht, rfl, rfl⟩
    exact ⟨_, List.mem_map.2 ⟨t, ht, rfl⟩, rfl, rfl⟩

theorem uid_raw {ds : Mem} (h : Fresh ds) {x : Lit} {u : Nat} (hx : ds.userToUid x = .ok (some u)) :
    ∃ v ∈ ds.userMap, u = ds.userMap.idxOf v := by
  unfold Mem.userToUid at hx
  rw [if_pos h.ids.has, if_pos h.ids.user.hasRaw] at hx
  cases hn : normId (ds.dtype "user") x with
  | error e => rw [hn] at hx; cases hx
  | ok v =>
    rw [hn] at hx
    simp only [Except.map, lookupCode, Except.ok.injEq] at hx
    split at hx
    · next hv => cases hx; exact ⟨v, hv, rfl⟩
    · cases hx

theorem nItems_map {ds : Mem} (h : Fresh ds) {i : Nat} : i < nItemsOf ds ↔ i < ds.itemMap.length := by
  rw [show nItemsOf ds = ds.itemMap.length from countDistinct_eq ds "item" "iid" ds.itemMap h.ids.item h.items]

theorem recommend_same (cfg : KnnCfg) (hsym : ∀ es, Symmetric (cfg.metric es)) (hfree : OrderFree cfg.metric)
    (hav : cfg.kind = .user → cfg.useAverages = false)
    {ds ds' : Mem} (h : Fresh ds) (h' : Fresh ds') (hs : SameRecords ds ds') (hn : OncePerPair ds) {x : Lit}
    {novelty : Bool} {threshold : Option ℚ} (hdec : ∀ a, Decided cfg (ratingsOf ds) a) {b b' : List (ℚ × Option Val)}
    (hb : recommend ds (knnRank cfg (ratingsOf ds) (fitKnn cfg (ratingsOf ds) Knn.init)) x none novelty threshold = .ok b)
    (hb' : recommend ds' (knnRank cfg (ratingsOf ds') (fitKnn cfg (ratingsOf ds') Knn.init)) x none novelty threshold =
      .ok b') (s : ℚ) (item : Val) : (s, some item) ∈ b' ↔ (s, some item) ∈ b := by
  obtain ⟨u, l, hu, hl, hm⟩ := recommend_iff h.ids hb
  obtain ⟨u', l', hu', hl', hm'⟩ := recommend_iff h'.ids hb'
  rw [userToUid_same h h' hs, hu] at hu'
  simp only [Except.map, Option.map_some, Except.ok.injEq, Option.some.injEq] at hu'
  subst hu'
  have hp := once_pairs h hn .user
  have hp' := once_pairs h' (once_same hs hn) .user
  have ag := knnRank_agrees hav hp hl
  have ag' := knnRank_agrees hav hp' hl'
  rw [hm, hm']
  simp only [Option.getD_none] at ag ag'
  obtain ⟨uv, huv, rfl⟩ := uid_raw h hu
  rw [recode_idxOf _ huv] at ag'
  have huv' := (same_users h h' hs uv).1.2 huv
  have hget : ∀ {d : Mem}, Fresh d → ∀ i, d.itemMap[i]? = some item ↔ item ∈ d.itemMap ∧ i = d.itemMap.idxOf item := by
    intro d hd i
    constructor
    · intro e
      obtain ⟨hi, rfl⟩ := List.getElem?_eq_some_iff.1 e
      refine ⟨List.getElem_mem hi, ?_⟩
      rw [List.Nodup.idxOf_getElem hd.ids.item.nodup]
    · rintro ⟨hi, rfl⟩
      rw [List.getElem?_eq_getElem (List.idxOf_lt_length_of_mem hi), List.getElem_idxOf]
  simp only [agrees_mem ag, agrees_mem ag', hget h, hget h']
  by_cases hi : item ∈ ds.itemMap
  · have hi' := (same_users h h' hs item).2.2 hi
    have hpred := knnPredict_same cfg hsym hfree h h' hs hn (known_of_uid h hu)
      (show Known .item (ratingsOf ds) (ds.itemMap.idxOf item) from by
        obtain ⟨r, hr, rfl⟩ := h.items item hi
        rw [ratingsOf_raw h]
        exact ⟨_, List.mem_map.2 ⟨_, List.mem_map.2 ⟨r, hr, rfl⟩, rfl⟩, rfl⟩) (hdec _)
    rw [recode_idxOf _ huv, recode_idxOf _ hi] at hpred
    have hw : Wanted (ratingsOf ds') (ds'.userMap.idxOf uv) (List.range (nItemsOf ds')) novelty (ds'.itemMap.idxOf item) ↔
        Wanted (ratingsOf ds) (ds.userMap.idxOf uv) (List.range (nItemsOf ds)) novelty (ds.itemMap.idxOf item) := by
      unfold Wanted
      rw [List.mem_range, List.mem_range, nItems_map h, nItems_map h', owned_raw h huv hi, owned_raw h' huv' hi']
      have e1 := List.idxOf_lt_length_of_mem hi
      have e2 := List.idxOf_lt_length_of_mem hi'
      simp only [e1, e2, true_and, hs.perm.mem_iff]
    constructor
    · rintro ⟨_, ⟨w, e⟩, ⟨_, rfl⟩, ht⟩
      exact ⟨_, ⟨hw.1 w, hpred.symm.trans e⟩, ⟨hi, rfl⟩, ht⟩
    · rintro ⟨_, ⟨w, e⟩, ⟨_, rfl⟩, ht⟩
      exact ⟨_, ⟨hw.2 w, hpred.trans e⟩, ⟨hi', rfl⟩, ht⟩
  · have hi' := mt (same_users h h' hs item).2.1 hi
    constructor
    · rintro ⟨_, _, ⟨c, _⟩, _⟩; exact absurd c hi'
    · rintro ⟨_, _, ⟨c, _⟩, _⟩; exact absurd c hi

/-- **C110, partial.** Asking for all recommendations gives the same items with the same scores, under the same
conditions and without averages for user neighbourhoods. -/
theorem C110_recommend_partial (cfg : KnnCfg) (hsym : ∀ es, Symmetric (cfg.metric es)) (hfree : OrderFree cfg.metric)
    (hav : cfg.kind = .user → cfg.useAverages = false)
    (ds ds' : Mem) (h : Fresh ds) (h' : Fresh ds') (hs : SameRecords ds ds') (hn : OncePerPair ds) (x : Lit)
    (novelty : Bool) (threshold : Option ℚ) (hdec : ∀ a, Decided cfg (ratingsOf ds) a) (b b' : List (ℚ × Option Val))
    (hb : recommend ds (knnRank cfg (ratingsOf ds) (fitKnn cfg (ratingsOf ds) Knn.init)) x none novelty threshold = .ok b)
    (hb' : recommend ds' (knnRank cfg (ratingsOf ds') (fitKnn cfg (ratingsOf ds') Knn.init)) x none novelty threshold =
      .ok b') (s : ℚ) (item : Val) : (s, some item) ∈ b' ↔ (s, some item) ∈ b :=
  recommend_same cfg hsym hfree hav h h' hs hn hdec hb hb' s item

/-! ## The conditions are needed -/

/-- Jaccard similarity, `k` neighbours, no shrinkage. -/
def exOrder (k : Nat) : KnnCfg := ⟨.user, k, 1, none, jaccardSim false, .weighted, false⟩

/-- A dataset in memory. -/
def exRows (rows : List (Val × Val × ℚ)) : Mem := (mkMem .obj rows).assignIds.1

theorem exRows_fresh (rows : List (Val × Val × ℚ)) : Fresh (exRows rows) := by
  refine C15_fresh_after_assign _ (by simp [mkMem]) (by simp [mkMem]) (by simp [mkMem]) ?_
  intro r hr
  obtain ⟨p, _, rfl⟩ := List.mem_map.1 hr
  exact ⟨p.1.2.2, rfl⟩

theorem exRows_raw (rows : List (Val × Val × ℚ)) :
    (exRows rows).rows.map rawTriple = rows.map fun t => (t.1, t.2.1, Val.num t.2.2) := by
  unfold exRows
  rw [assignIds_eq _ (by simp [mkMem]) (by simp [mkMem])]
  simp only [List.map_map]
  have : (rawTriple ∘ stamp (distinctVals ((mkMem .obj rows).rows.map (·.get "user")))
      (distinctVals ((mkMem .obj rows).rows.map (·.get "item")))) = rawTriple := by
    funext r
    simp only [rawTriple, Function.comp_apply, stamp_get]
    simp
  rw [this]
  unfold mkMem
  simp only [List.map_map]
  conv_rhs => rw [← List.zipIdx_map_fst 0 rows, List.map_map]
  apply List.map_congr_left
  intro p _
  rfl

theorem exRows_same {rows rows' : List (Val × Val × ℚ)} (h : rows'.Perm rows) : SameRecords (exRows rows) (exRows rows') := by
  refine ⟨?_, ?_, ?_⟩
  · rw [exRows_raw, exRows_raw]; exact h.map _
  · unfold exRows
    rw [assignIds_eq _ (by simp [mkMem]) (by simp [mkMem]), assignIds_eq _ (by simp [mkMem]) (by simp [mkMem])]
    rfl
  · unfold exRows
    rw [assignIds_eq _ (by simp [mkMem]) (by simp [mkMem]), assignIds_eq _ (by simp [mkMem]) (by simp [mkMem])]
    rfl

theorem exRows_once {rows : List (Val × Val × ℚ)} (h : (rows.map fun t => (t.1, t.2.1)).Nodup) :
    OncePerPair (exRows rows) := by
  unfold OncePerPair
  have e : ((exRows rows).rows.map fun r => (r.get "user", r.get "item")) =
      ((exRows rows).rows.map rawTriple).map fun t => (t.1, t.2.1) := by
    rw [List.map_map]
    rfl
  rw [e, exRows_raw, List.map_map]
  exact h

theorem jaccard_sym (es : List (Nat × Nat × ℚ)) : Symmetric (jaccardSim false es) := (C60_jaccard (K := ℚ) false es).1

/-- Everybody else fits among the neighbours. -/
theorem decided_of_k {cfg : KnnCfg} {ds : Mem} (h : Fresh ds) (hk : cfg.kind = .user) (hl : ds.userMap.length ≤ cfg.k + 1)
    (a : Nat) : Decided cfg (ratingsOf ds) a := by
  refine .inl fun b hb => ?_
  rw [hk] at hb
  have := known_lt h hb
  simp only at this
  omega

/-- The negation of C110 when similarities tie: bob and cid are equally similar to ann, and the one whose first record
comes later is the neighbour. -/
theorem C110_fails_ties : ∃ (cfg : KnnCfg) (ds ds' : Mem) (x y : Lit), (∀ es, Symmetric (cfg.metric es)) ∧
    OrderFree cfg.metric ∧ Fresh ds ∧ Fresh ds' ∧ SameRecords ds ds' ∧ OncePerPair ds ∧
    predict ds true (knnPredict cfg (ratingsOf ds) (fitKnn cfg (ratingsOf ds) Knn.init)) x y false = .ok (some 1) ∧
    predict ds' true (knnPredict cfg (ratingsOf ds') (fitKnn cfg (ratingsOf ds') Knn.init)) x y false = .ok (some 5) := by
  refine ⟨exOrder 1,
    exRows [(.str "ann", .str "x", 3), (.str "bob", .str "x", 3), (.str "bob", .str "y", 5), (.str "cid", .str "x", 3),
      (.str "cid", .str "y", 1)],
    exRows [(.str "ann", .str "x", 3), (.str "cid", .str "x", 3), (.str "cid", .str "y", 1), (.str "bob", .str "x", 3),
      (.str "bob", .str "y", 5)], .str "ann", .str "y", jaccard_sym, C110_jaccard false, exRows_fresh _, exRows_fresh _,
    exRows_same (by decide), exRows_once (by decide), of_toOption (by decide +kernel), of_toOption (by decide +kernel)⟩

/-- The negation of C110 when a pair of user and item is repeated, without any tie: the prediction uses its first
record. -/
theorem C110_fails_repeated : ∃ (cfg : KnnCfg) (ds ds' : Mem) (x y : Lit), (∀ es, Symmetric (cfg.metric es)) ∧
    OrderFree cfg.metric ∧ Fresh ds ∧ Fresh ds' ∧ SameRecords ds ds' ∧ (∀ a, Decided cfg (ratingsOf ds) a) ∧
    predict ds true (knnPredict cfg (ratingsOf ds) (fitKnn cfg (ratingsOf ds) Knn.init)) x y false = .ok (some 5) ∧
    predict ds' true (knnPredict cfg (ratingsOf ds') (fitKnn cfg (ratingsOf ds') Knn.init)) x y false = .ok (some 1) := by
  refine ⟨exOrder 3,
    exRows [(.str "ann", .str "x", 3), (.str "bob", .str "x", 3), (.str "bob", .str "y", 5), (.str "bob", .str "y", 1)],
    exRows [(.str "ann", .str "x", 3), (.str "bob", .str "x", 3), (.str "bob", .str "y", 1), (.str "bob", .str "y", 5)],
    .str "ann", .str "y", jaccard_sym, C110_jaccard false, exRows_fresh _, exRows_fresh _,
    exRows_same (by decide), decided_of_k (exRows_fresh _) rfl (by decide +kernel),
    of_toOption (by decide +kernel), of_toOption (by decide +kernel)⟩

/-- A reordering under which all ids change, enough neighbours: the hypotheses of the theorems above hold, and the
prediction is the mean of both neighbours in either order. -/
example :
    let ds := exRows [(.str "ann", .str "x", 3), (.str "bob", .str "x", 3), (.str "bob", .str "y", 5), (.str "cid", .str "x", 3),
      (.str "cid", .str "y", 1)]
    let ds' := exRows [(.str "cid", .str "y", 1), (.str "bob", .str "y", 5), (.str "cid", .str "x", 3), (.str "bob", .str "x", 3),
      (.str "ann", .str "x", 3)]
    Fresh ds ∧ Fresh ds' ∧ SameRecords ds ds' ∧ OncePerPair ds ∧ (∀ a, Decided (exOrder 2) (ratingsOf ds) a) ∧
    predict ds true (knnPredict (exOrder 2) (ratingsOf ds) (fitKnn (exOrder 2) (ratingsOf ds) Knn.init)) (.str "ann")
      (.str "y") false = .ok (some 3) ∧
    predict ds' true (knnPredict (exOrder 2) (ratingsOf ds') (fitKnn (exOrder 2) (ratingsOf ds') Knn.init)) (.str "ann")
      (.str "y") false = .ok (some 3) ∧
    (recommend ds (knnRank (exOrder 2) (ratingsOf ds) (fitKnn (exOrder 2) (ratingsOf ds) Knn.init)) (.str "ann") none true
      none).toOption = some [(3, some (.str "y"))] :=
  ⟨exRows_fresh _, exRows_fresh _, exRows_same (by decide), exRows_once (by decide),
    decided_of_k (exRows_fresh _) rfl (by decide +kernel), of_toOption (by decide +kernel), of_toOption (by decide +kernel),
    by decide +kernel⟩

/-- A relabelling of matrix entries, for the metrics. -/
example : Relabel (fun i => 1 - i) (fun c => (c + 1) % 2) [(0, 0, (3 : ℚ)), (0, 1, 5), (1, 1, 2)] [(0, 0, 2), (1, 0, 5), (1, 1, 3)] := by
  refine ⟨by decide, ?_, ?_, ⟨?_, ?_⟩, ⟨?_, ?_⟩⟩ <;>
    simp only [HasRow, HasCol, HasCell, List.mem_cons, Prod.mk.injEq, List.not_mem_nil, or_false] <;>
    rintro i j
  · rintro ⟨_, _, h1⟩ ⟨_, _, h2⟩ _; omega
  · rintro ⟨_, _, h1⟩ ⟨_, _, h2⟩ _; omega
  · rintro hij ⟨c, v, h⟩
    have : i = 0 ∨ i = 1 := by omega
    rcases this with rfl | rfl
    · exact ⟨0, 3, by simp⟩
    · exact ⟨1, 2, by simp⟩
  · rintro hij ⟨c, v, h⟩
    have : i = 0 ∨ i = 1 := by omega
    rcases this with rfl | rfl
    · exact ⟨0, 3, by simp⟩
    · exact ⟨1, 2, by simp⟩
  · rintro hij ⟨c, v, h⟩
    have : i = 0 ∨ i = 1 := by omega
    rcases this with rfl | rfl
    · exact ⟨0, 2, by simp⟩
    · exact ⟨1, 3, by simp⟩
  · rintro hij ⟨c, v, h⟩
    have : i = 0 ∨ i = 1 := by omega
    rcases this with rfl | rfl
    · exact ⟨0, 2, by simp⟩
    · exact ⟨1, 3, by simp⟩

end DRec
