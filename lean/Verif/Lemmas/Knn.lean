import Verif.Spec.Knn
import Verif.Lemmas.Recommender
import Mathlib.Tactic.Linarith
import Mathlib.Tactic.Positivity

/-!
# Lemmas on nearest neighbour recommenders
-/

namespace DRec

open Spec

theorem of_toOption {α : Type} {x : Except Err α} {a : α} (h : x.toOption = some a) : x = .ok a := by
  cases x with
  | error e => cases h
  | ok b => rw [← Option.some.inj h]

theorem mem_ratedBy {K : KKind} {rs : List Rating} {a i : Nat} : i ∈ ratedBy K rs a ↔ Rated K rs a i := by
  simp only [ratedBy, List.mem_dedup, List.mem_map, List.mem_filter, decide_eq_true_eq, Rated]
  constructor
  · rintro ⟨r, ⟨h1, h2⟩, h3⟩; exact ⟨r, h1, h2, h3⟩
  · rintro ⟨r, h1, h2, h3⟩; exact ⟨r, ⟨h1, h2⟩, h3⟩

theorem coRated_spec (K : KKind) (rs : List Rating) (a b : Nat) : CoRatings K rs a b (coRated K rs a b) := by
  refine ⟨(ratedBy K rs a).filter fun i => i ∈ ratedBy K rs b, (List.nodup_dedup _).filter _, rfl, ?_⟩
  intro i
  rw [List.mem_filter, decide_eq_true_eq, mem_ratedBy, mem_ratedBy]

theorem coRatings_unique {K : KKind} {rs : List Rating} {a b c c' : Nat} (h : CoRatings K rs a b c)
    (h' : CoRatings K rs a b c') : c = c' := by
  obtain ⟨l, h1, rfl, h3⟩ := h
  obtain ⟨l', h1', rfl, h3'⟩ := h'
  exact ((List.perm_ext_iff_of_nodup h1 h1').2 fun i => by rw [h3, h3']).length_eq

theorem coRatings_symm {K : KKind} {rs : List Rating} {a b c : Nat} (h : CoRatings K rs a b c) :
    CoRatings K rs b a c := by
  obtain ⟨l, h1, h2, h3⟩ := h
  exact ⟨l, h1, h2, fun i => by rw [h3]; exact And.comm⟩

theorem shrunk_iff (sh : Option ℚ) (c : Nat) (raw s : ℚ) : Shrunk sh c raw s ↔ s = shrink sh c raw := by
  cases sh <;> rfl

/-! ## Similarities -/

/-- What a pass over the entries stores for a cell: the last entry of the cell that counts, else what was there. -/
theorem foldl_addSim (cfg : KnnCfg) (rs : List Rating) : ∀ (l : List (Nat × Nat × ℚ)) (old : Nat × Nat → Option ℚ)
    (a b : Nat) (s : ℚ), l.foldl (addSim cfg rs) old (a, b) = some s →
    (old (a, b) = some s) ∨ ∃ raw, (a, b, raw) ∈ l ∧ b < a ∧ cfg.m ≤ coRated cfg.kind rs a b ∧
      s = shrink cfg.shrinkage (coRated cfg.kind rs a b) raw
  | [], old, a, b, s, h => .inl h
  | e :: l, old, a, b, s, h0 => by
    rcases foldl_addSim cfg rs l (addSim cfg rs old e) a b s h0 with h | ⟨raw, h1, h2⟩
    · clear h0
      unfold addSim at h
      split at h
      · exact .inl h
      · rename_i hlt
        split at h
        · exact .inl h
        · rename_i hm
          simp only at h
          split at h
          · rename_i hp
            simp only [Prod.mk.injEq] at hp
            obtain ⟨rfl, rfl⟩ := hp
            refine .inr ⟨e.2.2, by simp, by omega, ?_, (Option.some.inj h).symm⟩
            by_contra hc
            exact hm ⟨by omega, by omega⟩
          · exact .inl h
    · exact .inr ⟨raw, List.mem_cons_of_mem _ h1, h2⟩

theorem foldl_addSim_keeps (cfg : KnnCfg) (rs : List Rating) : ∀ (l : List (Nat × Nat × ℚ)) (old : Nat × Nat → Option ℚ)
    (a b : Nat), (∀ raw, (a, b, raw) ∉ l) → l.foldl (addSim cfg rs) old (a, b) = old (a, b)
  | [], old, a, b, _ => rfl
  | e :: l, old, a, b, h => by
    rw [List.foldl_cons, foldl_addSim_keeps cfg rs l _ a b fun raw hr => h raw (List.mem_cons_of_mem _ hr)]
    unfold addSim
    split
    · rfl
    · split
      · rfl
      · simp only
        rw [if_neg]
        rintro hp
        simp only [Prod.mk.injEq] at hp
        obtain ⟨rfl, rfl⟩ := hp
        exact h e.2.2 (by simp)

/-- A cell that counts is overwritten whatever was there. -/
theorem foldl_addSim_stores (cfg : KnnCfg) (rs : List Rating) : ∀ (l : List (Nat × Nat × ℚ)) (old : Nat × Nat → Option ℚ)
    (a b : Nat) (raw : ℚ), (a, b, raw) ∈ l → (∀ s s', (a, b, s) ∈ l → (a, b, s') ∈ l → s = s') → b < a →
    cfg.m ≤ coRated cfg.kind rs a b →
    l.foldl (addSim cfg rs) old (a, b) = some (shrink cfg.shrinkage (coRated cfg.kind rs a b) raw)
  | e :: l, old, a, b, raw, hm, hu, hlt, hc => by
    rw [List.foldl_cons]
    by_cases hin : (a, b, raw) ∈ l
    · exact foldl_addSim_stores cfg rs l _ a b raw hin
        (fun s s' h h' => hu s s' (List.mem_cons_of_mem _ h) (List.mem_cons_of_mem _ h')) hlt hc
    · have he : e = (a, b, raw) := by
        rcases List.mem_cons.1 hm with h | h
        · exact h.symm
        · exact absurd h hin
      rw [foldl_addSim_keeps]
      · subst he
        unfold addSim
        rw [if_neg (by simp only; omega), if_neg (by simp only; omega)]
        simp
      · intro raw' hr'
        have := hu raw' raw (List.mem_cons_of_mem _ hr') hm
        subst this
        exact hin hr'

/-- A pass leaves cells without enough co-ratings alone. -/
theorem foldl_addSim_few (cfg : KnnCfg) (rs : List Rating) : ∀ (l : List (Nat × Nat × ℚ)) (old : Nat × Nat → Option ℚ)
    (a b : Nat), a ≤ b ∨ coRated cfg.kind rs a b < cfg.m → l.foldl (addSim cfg rs) old (a, b) = old (a, b)
  | [], old, a, b, _ => rfl
  | e :: l, old, a, b, h => by
    rw [List.foldl_cons, foldl_addSim_few cfg rs l _ a b h]
    unfold addSim
    split
    · rfl
    · rename_i h1
      split
      · rfl
      · rename_i h2
        simp only
        rw [if_neg]
        rintro hp
        simp only [Prod.mk.injEq] at hp
        obtain ⟨rfl, rfl⟩ := hp
        rcases h with h | h
        · omega
        · exact h2 ⟨by omega, h⟩

theorem sims_iff {cfg : KnnCfg} {rs : List Rating} (hone : OneValue (simMatrix cfg rs)) {a b : Nat} (hab : b < a) (s : ℚ) :
    computeSims cfg rs (fun _ => none) (a, b) = some s ↔ ∃ raw c, (a, b, raw) ∈ simMatrix cfg rs ∧
      CoRatings cfg.kind rs a b c ∧ cfg.m ≤ c ∧ Shrunk cfg.shrinkage c raw s := by
  constructor
  · intro h
    rcases foldl_addSim cfg rs _ _ a b s h with h | ⟨raw, h1, _, h3, h4⟩
    · cases h
    · exact ⟨raw, _, h1, coRated_spec _ _ _ _, h3, (shrunk_iff _ _ _ _).2 h4⟩
  · rintro ⟨raw, c, h1, h2, h3, h4⟩
    have hc := coRatings_unique h2 (coRated_spec cfg.kind rs a b)
    subst hc
    rw [(shrunk_iff _ _ _ _).1 h4]
    exact foldl_addSim_stores cfg rs _ _ a b raw h1 (fun s s' => hone a b s s') hab h3

theorem getSim_pos {sims : Nat × Nat → Option ℚ} {a b : Nat} {s : ℚ} (hs : 0 < s) :
    getSim sims a b = s ↔ sims (max a b, min a b) = some s := by
  unfold getSim
  cases h : sims (max a b, min a b) with
  | none => simp only [Option.getD_none, reduceCtorEq, iff_false]; exact hs.ne
  | some x => simp

theorem getSim_symm (sims : Nat × Nat → Option ℚ) (a b : Nat) : getSim sims a b = getSim sims b a := by
  unfold getSim; rw [Nat.max_comm, Nat.min_comm]

theorem addSim_or (cfg : KnnCfg) (rs : List Rating) (old : Nat × Nat → Option ℚ) (e : Nat × Nat × ℚ) (p : Nat × Nat) :
    addSim cfg rs old e p = (addSim cfg rs (fun _ => none) e p).or (old p) := by
  unfold addSim
  split
  · rfl
  · split
    · rfl
    · simp only
      split <;> rfl

/-- A second pass keeps the old value exactly where it stores nothing. -/
theorem foldl_addSim_or (cfg : KnnCfg) (rs : List Rating) : ∀ (l : List (Nat × Nat × ℚ)) (old : Nat × Nat → Option ℚ)
    (p : Nat × Nat), l.foldl (addSim cfg rs) old p = (l.foldl (addSim cfg rs) (fun _ => none) p).or (old p)
  | [], old, p => rfl
  | e :: l, old, p => by
    rw [List.foldl_cons, List.foldl_cons, foldl_addSim_or cfg rs l (addSim cfg rs old e) p,
      foldl_addSim_or cfg rs l (addSim cfg rs (fun _ => none) e) p, addSim_or cfg rs old e p, Option.or_assoc]

/-! ## Neighbours -/

theorem nodup_ownIds (K : KKind) (rs : List Rating) : (ownIds K rs).Nodup := List.nodup_dedup _

theorem mem_ownIds {K : KKind} {rs : List Rating} {a : Nat} : a ∈ ownIds K rs ↔ Known K rs a := by
  simp [ownIds, Known]

theorem dense_lt {K : KKind} {rs : List Rating} (h : Dense K rs) (a : Nat) :
    Known K rs a ↔ a < (ownIds K rs).length := by
  obtain ⟨n, hn⟩ := h
  have : (ownIds K rs).Perm (List.range n) :=
    (List.perm_ext_iff_of_nodup (nodup_ownIds K rs) List.nodup_range).2 fun a => by
      rw [mem_ownIds, hn, List.mem_range]
  rw [this.length_eq, List.length_range, hn]

theorem foldl_nbrs (g : Nat → List (ℚ × Nat)) : ∀ (l : List Nat) (old : Nat → Option (List (ℚ × Nat))) (a : Nat),
    l.foldl (fun f b x => if x = b then some (g b) else f x) old a = if a ∈ l then some (g a) else old a
  | [], old, a => by simp
  | b :: l, old, a => by
    rw [List.foldl_cons, foldl_nbrs g l]
    by_cases h1 : a ∈ l
    · simp [h1]
    · by_cases h2 : a = b
      · subst h2; simp [h1]
      · simp [h1, h2]

theorem computeNbrs_eq (cfg : KnnCfg) (rs : List Rating) (sims : Nat × Nat → Option ℚ)
    (old : Nat → Option (List (ℚ × Nat))) (a : Nat) :
    computeNbrs cfg rs sims old a = if a ∈ ownIds cfg.kind rs then
      some (neighboursOf cfg (ownIds cfg.kind rs).length sims a) else old a :=
  foldl_nbrs (neighboursOf cfg (ownIds cfg.kind rs).length sims) _ _ _

theorem mem_pool {n a : Nat} {sims : Nat × Nat → Option ℚ} {p : ℚ × Nat} :
    p ∈ ((((List.range n).filter fun b => b ≠ a).map fun b => (getSim sims a b, b)).filter fun p => decide (0 < p.1)) ↔
      p.2 < n ∧ p.2 ≠ a ∧ getSim sims a p.2 = p.1 ∧ 0 < p.1 := by
  simp only [List.mem_filter, List.mem_map, List.mem_range, decide_eq_true_eq]
  constructor
  · rintro ⟨⟨b, ⟨h1, h2⟩, rfl⟩, h3⟩
    exact ⟨h1, h2, rfl, h3⟩
  · rintro ⟨h1, h2, h3, h4⟩
    exact ⟨⟨p.2, ⟨h1, h2⟩, Prod.ext h3 rfl⟩, h4⟩

theorem nodup_pool (n a : Nat) (sims : Nat × Nat → Option ℚ) :
    (((((List.range n).filter fun b => b ≠ a).map fun b => (getSim sims a b, b)).filter
      fun p => decide (0 < p.1)).map (·.2)).Nodup := by
  refine List.Nodup.sublist (List.Sublist.map _ List.filter_sublist) ?_
  rw [List.map_map]
  have : ((fun x : ℚ × Nat => x.2) ∘ fun b => (getSim sims a b, b)) = id := rfl
  rw [this, List.map_id]
  exact List.nodup_range.filter _

theorem nodup_map_of_subperm {α β : Type} (f : α → β) {l l' : List α} (h : l.Subperm l') (hn : (l'.map f).Nodup) :
    (l.map f).Nodup := by
  obtain ⟨l'', hp, hs⟩ := h
  exact (hp.map f).nodup_iff.1 (hn.sublist (hs.map f))

theorem mem_neighboursOf {cfg : KnnCfg} {n a : Nat} {sims : Nat × Nat → Option ℚ} {p : ℚ × Nat}
    (h : p ∈ neighboursOf cfg n sims a) : p.2 < n ∧ p.2 ≠ a ∧ getSim sims a p.2 = p.1 ∧ 0 < p.1 :=
  mem_pool.1 ((nlargest_subperm _ _).subset h)

/-! ## Aggregation -/

theorem sum_bounds : ∀ (l : List (ℚ × ℚ)), l ≠ [] → (∀ p ∈ l, 0 < p.2) →
    ∃ p ∈ l, ∃ q ∈ l, p.1 * (l.map (·.2)).sum ≤ (l.map fun p => p.2 * p.1).sum ∧
      (l.map fun p => p.2 * p.1).sum ≤ q.1 * (l.map (·.2)).sum
  | [], h, _ => absurd rfl h
  | [a], _, _ => ⟨a, by simp, a, by simp, by simp [mul_comm], by simp [mul_comm]⟩
  | a :: b :: l, _, hp => by
    obtain ⟨p, hpm, q, hqm, h1, h2⟩ := sum_bounds (b :: l) (by simp) fun x hx => hp x (List.mem_cons_of_mem _ hx)
    have ha := hp a (by simp)
    have hS : 0 ≤ ((b :: l).map (·.2)).sum := by
      apply List.sum_nonneg
      intro x hx
      obtain ⟨y, hy, rfl⟩ := List.mem_map.1 hx
      exact (hp y (List.mem_cons_of_mem _ hy)).le
    have e1 : ((a :: b :: l).map (·.2)).sum = a.2 + ((b :: l).map (·.2)).sum := by simp
    have e2 : ((a :: b :: l).map fun p => p.2 * p.1).sum = a.2 * a.1 + ((b :: l).map fun p => p.2 * p.1).sum := by simp
    rw [e1, e2]
    generalize ((b :: l).map (·.2)).sum = S at *
    generalize ((b :: l).map fun p => p.2 * p.1).sum = T at *
    have lower : ∃ p' ∈ a :: b :: l, p'.1 * (a.2 + S) ≤ a.2 * a.1 + T := by
      rcases le_total a.1 p.1 with hle | hle
      · refine ⟨a, by simp, ?_⟩
        nlinarith
      · refine ⟨p, List.mem_cons_of_mem _ hpm, ?_⟩
        nlinarith
    have upper : ∃ q' ∈ a :: b :: l, a.2 * a.1 + T ≤ q'.1 * (a.2 + S) := by
      rcases le_total a.1 q.1 with hle | hle
      · refine ⟨q, List.mem_cons_of_mem _ hqm, ?_⟩
        nlinarith
      · refine ⟨a, by simp, ?_⟩
        nlinarith
    obtain ⟨p', hp', h1'⟩ := lower
    obtain ⟨q', hq', h2'⟩ := upper
    exact ⟨p', hp', q', hq', h1', h2'⟩

theorem sum_pos_of {l : List (ℚ × ℚ)} (hne : l ≠ []) (hp : ∀ p ∈ l, 0 < p.2) : 0 < (l.map (·.2)).sum := by
  obtain ⟨a, l', rfl⟩ := List.exists_cons_of_ne_nil hne
  have : 0 ≤ (l'.map (·.2)).sum := by
    apply List.sum_nonneg
    intro x hx
    obtain ⟨y, hy, rfl⟩ := List.mem_map.1 hx
    exact (hp y (List.mem_cons_of_mem _ hy)).le
  have := hp a (by simp)
  simp only [List.map_cons, List.sum_cons]
  linarith

theorem weighted_bounds {l : List (ℚ × ℚ)} (hp : ∀ p ∈ l, 0 < p.2) {v : ℚ} (h : aggWeighted l = some v) :
    ∃ p ∈ l, ∃ q ∈ l, p.1 ≤ v ∧ v ≤ q.1 := by
  unfold aggWeighted at h
  split at h
  · rename_i hpos
    have hne : l ≠ [] := by rintro rfl; simp at hpos
    obtain ⟨p, hpm, q, hqm, h1, h2⟩ := sum_bounds l hne hp
    refine ⟨p, hpm, q, hqm, ?_, ?_⟩
    · rw [← Option.some.inj h, le_div_iff₀ hpos]; exact h1
    · rw [← Option.some.inj h, div_le_iff₀ hpos]; exact h2
  · cases h

theorem mean_bounds {l : List ℚ} (hne : l ≠ []) : ∃ p ∈ l, ∃ q ∈ l, p ≤ l.sum / (l.length : ℚ) ∧
    l.sum / (l.length : ℚ) ≤ q := by
  have hw : aggWeighted (l.map fun x => (x, (1 : ℚ))) = some (l.sum / (l.length : ℚ)) := by
    unfold aggWeighted
    simp only [List.map_map]
    have e1 : ((fun x : ℚ × ℚ => x.2) ∘ fun x => (x, (1 : ℚ))) = fun _ => 1 := rfl
    have e2 : ((fun p : ℚ × ℚ => p.2 * p.1) ∘ fun x => (x, (1 : ℚ))) = id := by funext x; simp
    rw [e1, e2]
    simp only [List.map_const', List.sum_replicate, List.map_id, nsmul_eq_mul, mul_one]
    rw [if_pos]
    exact_mod_cast List.length_pos_of_ne_nil hne
  obtain ⟨p, hp, q, hq, h1, h2⟩ := weighted_bounds (by
    intro p hp
    obtain ⟨x, _, rfl⟩ := List.mem_map.1 hp
    exact one_pos) hw
  obtain ⟨x, hx, rfl⟩ := List.mem_map.1 hp
  obtain ⟨y, hy, rfl⟩ := List.mem_map.1 hq
  exact ⟨x, hx, y, hy, h1, h2⟩

theorem agg_bounds {g : Agg} {l : List (ℚ × ℚ)} (hp : ∀ p ∈ l, 0 < p.2) {v : ℚ} (h : g.run l = some v) :
    ∃ p ∈ l, ∃ q ∈ l, p.1 ≤ v ∧ v ≤ q.1 := by
  cases g with
  | weighted => exact weighted_bounds hp h
  | mean =>
    simp only [Agg.run, aggMean] at h
    split at h
    · rename_i hpos
      have hne : l.map (·.1) ≠ [] := by
        intro e
        rw [List.map_eq_nil_iff] at e
        rw [e] at hpos
        simp at hpos
      obtain ⟨p, hpm, q, hqm, h1, h2⟩ := mean_bounds hne
      obtain ⟨x, hx, rfl⟩ := List.mem_map.1 hpm
      obtain ⟨y, hy, rfl⟩ := List.mem_map.1 hqm
      rw [List.length_map] at h1 h2
      rw [← Option.some.inj h]
      exact ⟨x, hx, y, hy, h1, h2⟩
    · cases h

theorem agg_none {g : Agg} {l : List (ℚ × ℚ)} (hp : ∀ p ∈ l, 0 < p.2) : g.run l = none ↔ l = [] := by
  cases g with
  | weighted =>
    simp only [Agg.run, aggWeighted]
    constructor
    · intro h
      by_contra hne
      rw [if_pos (sum_pos_of hne hp)] at h
      cases h
    · rintro rfl; simp
  | mean =>
    simp only [Agg.run, aggMean]
    constructor
    · intro h
      by_contra hne
      rw [if_pos (List.length_pos_of_ne_nil hne)] at h
      cases h
    · rintro rfl; simp

theorem interactionOf_some {K : KKind} {rs : List Rating} {a b : Nat} {x : ℚ} (h : interactionOf K rs a b = some x) :
    ∃ r ∈ rs, K.own r = a ∧ K.other r = b ∧ r.x = x := by
  unfold interactionOf at h
  rw [Option.map_eq_some_iff] at h
  obtain ⟨r, hr, rfl⟩ := h
  have := List.find?_some hr
  simp only [Bool.and_eq_true, decide_eq_true_eq] at this
  exact ⟨r, List.mem_of_find?_eq_some hr, this.1, this.2, rfl⟩

theorem interactionOf_none {K : KKind} {rs : List Rating} {a b : Nat} :
    interactionOf K rs a b = none ↔ ¬ Rated K rs a b := by
  unfold interactionOf Rated
  rw [Option.map_eq_none_iff, List.find?_eq_none]
  simp only [Bool.and_eq_true, decide_eq_true_eq, not_exists, not_and]

theorem usedPairs_pos {K : KKind} {rs : List Rating} {nb : List (ℚ × Nat)} (hp : ∀ p ∈ nb, 0 < p.1) {o : Nat} :
    ∀ q ∈ usedPairs K rs nb o, 0 < q.2 := by
  intro q hq
  obtain ⟨p, hpm, h⟩ := List.mem_filterMap.1 hq
  rw [Option.map_eq_some_iff] at h
  obtain ⟨x, _, rfl⟩ := h
  exact hp p hpm

end DRec
