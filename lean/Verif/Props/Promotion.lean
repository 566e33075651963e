import Verif.Props.Ndcg
import Verif.Spec.Promotion
import Mathlib.Tactic.Linarith
import Mathlib.Tactic.Positivity
import Mathlib.Tactic.FieldSimp

/-!
# C105: better rankings never score lower
-/

namespace DRec

open Spec Metrics

variable {α : Type} [DecidableEq α]

/-! ## Counting relevant items -/

omit [DecidableEq α] in
theorem promotion_length {ok : α → α → Prop} {l l' : List α} (h : Promotion ok l l') :
    l'.length = l.length := by
  obtain ⟨pre, a, mid, b, post, rfl, rfl, -⟩ := h
  simp

omit [DecidableEq α] in
theorem promotion_perm {ok : α → α → Prop} {l l' : List α} (h : Promotion ok l l') : l.Perm l' := by
  obtain ⟨pre, a, mid, b, post, rfl, rfl, -⟩ := h
  refine List.Perm.append_left _ ?_
  refine (List.perm_middle.cons a).trans ?_
  refine (List.Perm.swap b a _).trans ?_
  exact (List.perm_middle.symm).cons b

omit [DecidableEq α] in
theorem promotions_perm {ok : α → α → Prop} {l l' : List α} (h : Promotions ok l l') : l.Perm l' := by
  induction h with
  | refl => exact List.Perm.refl _
  | tail _ h ih => exact ih.trans (promotion_perm h)

omit [DecidableEq α] in
/-- Every prefix keeps its items, but for the item that is moved down. -/
theorem promotion_take {ok : α → α → Prop} {l l' : List α} (h : Promotion ok l l') (j : ℕ) :
    ∃ a b, ok b a ∧ ∀ x ∈ l.take j, x = a ∨ x ∈ l'.take j := by
  obtain ⟨pre, a, mid, b, post, rfl, rfl, hb⟩ := h
  refine ⟨a, b, hb, ?_⟩
  intro x hx
  by_cases hj : j ≤ pre.length
  · right
    rwa [List.take_append_of_le_length hj] at hx ⊢
  · obtain ⟨n, rfl⟩ : ∃ n, j = pre.length + (n + 1) := ⟨j - pre.length - 1, by omega⟩
    rw [List.take_length_add_append, List.take_succ_cons] at hx
    rw [List.take_length_add_append, List.take_succ_cons]
    simp only [List.mem_append, List.mem_cons] at hx ⊢
    rcases hx with hx | rfl | hx
    · exact .inr (.inl hx)
    · exact .inl rfl
    · by_cases hn : n ≤ mid.length
      · rw [List.take_append_of_le_length hn] at hx ⊢
        exact .inr (.inr (.inr hx))
      · obtain ⟨m, rfl⟩ : ∃ m, n = mid.length + (m + 1) := ⟨n - mid.length - 1, by omega⟩
        rw [List.take_length_add_append, List.take_succ_cons] at hx
        rw [List.take_length_add_append, List.take_succ_cons]
        simp only [List.mem_append, List.mem_cons] at hx ⊢
        tauto

/-- Each prefix of the better ranking has at least as many different relevant items. -/
theorem promotions_hits {rel l l' : List α} (h : Promotions (fun _ a => a ∉ rel) l l') (j : ℕ) :
    hits (l.take j) rel ≤ hits (l'.take j) rel := by
  induction h with
  | refl => exact le_refl _
  | tail _ h ih =>
    refine ih.trans ?_
    obtain ⟨a, b, ha, hx⟩ := promotion_take h j
    apply List.Subperm.length_le
    apply List.subperm_of_subset ((List.nodup_dedup _).filter _)
    intro x hxm
    simp only [List.mem_filter, List.mem_dedup, decide_eq_true_eq] at hxm ⊢
    rcases hx x hxm.1 with rfl | h'
    · exact absurd hxm.2 ha
    · exact ⟨h', hxm.2⟩

theorem promotions_hits_firstK {rel l l' : List α} (h : Promotions (fun _ a => a ∉ rel) l l')
    (k : Option Nat) : hits (firstK k l) rel ≤ hits (firstK k l') rel := by
  cases k with
  | some k => exact promotions_hits h k
  | none =>
    have := promotions_hits h l.length
    rw [List.take_length] at this
    rwa [(promotions_perm h).length_eq, List.take_length] at this

omit [DecidableEq α] in
theorem firstK_length_eq {l l' : List α} (h : l.length = l'.length) (k : Option Nat) :
    (firstK k l).length = (firstK k l').length := by
  cases k <;> simp [firstK, h]

/-! ## Precision, recall, F-score, hit ratio -/

/-- **C105**, precision. -/
theorem C105_precision {rel l l' : List α} (h : Promotions (fun _ a => a ∉ rel) l l') (k : Option Nat)
    (p : ℚ) (hp : precision l k (some rel) = .ok p) :
    ∃ p', precision l' k (some rel) = .ok p' ∧ p ≤ p' := by
  have hh := promotions_hits_firstK h k
  have hl := firstK_length_eq (promotions_perm h).length_eq k
  unfold precision at hp ⊢
  simp only [trunc_eq, common_eq] at hp ⊢
  rw [← hl]
  unfold pyDiv at hp ⊢
  split at hp
  · cases hp
  · rename_i h0
    rw [if_neg h0]
    cases hp
    refine ⟨_, rfl, ?_⟩
    have : (0 : ℚ) ≤ (firstK k l).length := by positivity
    exact div_le_div_of_nonneg_right (by exact_mod_cast hh) this

/-- **C105**, recall. -/
theorem C105_recall {rel l l' : List α} (h : Promotions (fun _ a => a ∉ rel) l l') (k : Option Nat)
    (p : ℚ) (hp : recall l k (some rel) = .ok p) :
    ∃ p', recall l' k (some rel) = .ok p' ∧ p ≤ p' := by
  have hh := promotions_hits_firstK h k
  unfold recall at hp ⊢
  simp only [trunc_eq, common_eq] at hp ⊢
  unfold pyDiv at hp ⊢
  split at hp
  · cases hp
  · rename_i h0
    rw [if_neg h0]
    cases hp
    refine ⟨_, rfl, ?_⟩
    have : (0 : ℚ) ≤ rel.length := by positivity
    exact div_le_div_of_nonneg_right (by exact_mod_cast hh) this

/-- The F-score in terms of the number of relevant items found. -/
theorem fscore_closed (beta : ℚ) (l rel : List α) (k : Option Nat) (v : ℚ) :
    fscore beta l k (some rel) = .ok v ↔
      0 < hits (firstK k l) rel ∧ v = (1 + beta ^ 2) * hits (firstK k l) rel /
        (beta ^ 2 * rel.length + (firstK k l).length) := by
  have h1 := hits_le_left (firstK k l) rel
  have h2 := hits_le_right (firstK k l) rel
  unfold fscore precision recall
  simp only [trunc_eq, common_eq]
  generalize hits (firstK k l) rel = c at *
  generalize (firstK k l).length = n at *
  generalize rel.length = m at *
  by_cases hn : n = 0
  · subst hn
    simp [pyDiv, bind, Except.bind]
    omega
  by_cases hm : m = 0
  · subst hm
    simp [pyDiv, bind, Except.bind, hn]
    omega
  have hn' : (0 : ℚ) < n := by positivity
  have hm' : (0 : ℚ) < m := by positivity
  rw [pyDiv_ok _ _ hn'.ne', pyDiv_ok _ _ hm'.ne']
  simp only [bind, Except.bind]
  by_cases hc : c = 0
  · subst hc
    simp [pyDiv]
  have hc' : (0 : ℚ) < c := by positivity
  rw [pyDiv_ok _ _ (by positivity)]
  constructor
  · intro h
    cases h
    refine ⟨by omega, ?_⟩
    field_simp
  · rintro ⟨-, rfl⟩
    congr 1
    field_simp

/-- **C105**, F-score of any weight. -/
theorem C105_fscore (beta : ℚ) {rel l l' : List α} (h : Promotions (fun _ a => a ∉ rel) l l')
    (k : Option Nat) (p : ℚ) (hp : fscore beta l k (some rel) = .ok p) :
    ∃ p', fscore beta l' k (some rel) = .ok p' ∧ p ≤ p' := by
  have hh := promotions_hits_firstK h k
  have hl := firstK_length_eq (promotions_perm h).length_eq k
  rw [fscore_closed] at hp
  obtain ⟨h0, rfl⟩ := hp
  refine ⟨_, (fscore_closed _ _ _ _ _).2 ⟨by omega, rfl⟩, ?_⟩
  rw [← hl]
  have hc : (hits (firstK k l) rel : ℚ) ≤ hits (firstK k l') rel := by exact_mod_cast hh
  apply div_le_div_of_nonneg_right _ (by positivity)
  exact mul_le_mul_of_nonneg_left hc (by positivity)

omit [DecidableEq α] in
theorem promotions_map {β : Type} {ok : α → α → Prop} {ok' : β → β → Prop} (f : α → β)
    (hf : ∀ b a, ok b a → ok' (f b) (f a)) {l l' : List α} (h : Promotions ok l l') :
    Promotions ok' (l.map f) (l'.map f) := by
  induction h with
  | refl => exact .refl
  | tail _ h ih =>
    refine ih.tail ?_
    obtain ⟨pre, a, mid, b, post, rfl, rfl, hb⟩ := h
    exact ⟨pre.map f, f a, mid.map f, f b, post.map f, by simp, by simp, hf _ _ hb⟩

omit [DecidableEq α] in
/-- **C105**, hit ratio, with identifiers compared by their text. -/
theorem C105_hit_ratio {β : Type} [DecidableEq β] (str : α → β) {rel l l' : List α}
    (h : Promotions (fun _ a => ∀ y ∈ rel, str a ≠ str y) l l') (k : Option Nat) (p : ℚ)
    (hp : hitRatio str l k (some rel) = .ok p) :
    ∃ p', hitRatio str l' k (some rel) = .ok p' ∧ p ≤ p' := by
  have hm : Promotions (fun _ a => a ∉ rel.map str) (l.map str) (l'.map str) :=
    promotions_map str (fun b a hba hmem => by
      obtain ⟨y, hy, e⟩ := List.mem_map.1 hmem
      exact hba y hy e.symm) h
  have hh := promotions_hits_firstK hm k
  have hf : ∀ l : List α, (firstK k l).map str = firstK k (l.map str) := by
    intro l; cases k <;> simp [firstK, List.map_take]
  unfold hitRatio at hp ⊢
  simp only [trunc_eq, common_eq, hf] at hp ⊢
  unfold pyDiv at hp ⊢
  split at hp
  · cases hp
  · rename_i h0
    rw [if_neg h0]
    cases hp
    refine ⟨_, rfl, ?_⟩
    exact div_le_div_of_nonneg_right (by exact_mod_cast hh) (by positivity)

/-! ## Reciprocal rank -/

theorem reciprocalRank_mono {m m' : List α} (x : α) (h : ∀ j, x ∈ m.take j → x ∈ m'.take j) :
    (if x ∈ m then 1 / ((m.idxOf x + 1 : ℕ) : ℚ) else 0) ≤
      if x ∈ m' then 1 / ((m'.idxOf x + 1 : ℕ) : ℚ) else 0 := by
  by_cases hm : x ∈ m
  · have h1 := h _ ((List.mem_take_iff_idxOf_lt hm).2 (Nat.lt_succ_self _))
    have hm' : x ∈ m' := List.mem_of_mem_take h1
    have h2 := (List.mem_take_iff_idxOf_lt hm').1 h1
    rw [if_pos hm, if_pos hm']
    apply one_div_le_one_div_of_le (by positivity)
    exact_mod_cast h2
  · rw [if_neg hm]
    split
    · positivity
    · exact le_refl _

/-- **C105**, reciprocal rank: exchanges that do not move the sought item down. -/
theorem C105_reciprocal_rank {l l' : List α} (x : α) (h : Promotions (fun _ a => a ≠ x) l l')
    (k : Option Nat) : reciprocalRank l k (some x) ≤ reciprocalRank l' k (some x) := by
  have ht : ∀ j, x ∈ l.take j → x ∈ l'.take j := by
    intro j
    induction h with
    | refl => exact id
    | tail _ h ih =>
      intro hx
      obtain ⟨a, b, ha, hb⟩ := promotion_take h j
      rcases hb x (ih hx) with e | h'
      · exact absurd e.symm ha
      · exact h'
  unfold reciprocalRank
  simp only [trunc_eq]
  apply reciprocalRank_mono
  intro j
  cases k with
  | none => exact ht j
  | some k => simp only [firstK, List.take_take]; exact ht _

/-! ## Average precision -/

/-- `1 + 2 + … + h`. -/
def tri (h : ℕ) : ℚ := h * (h + 1) / 2

theorem tri_mono {a b : ℕ} (h : a ≤ b) : tri a ≤ tri b := by
  unfold tri
  have : (a : ℚ) ≤ b := by exact_mod_cast h
  have h0 : (0 : ℚ) ≤ a := by positivity
  nlinarith

theorem hits_snoc (l rel : List α) (r : α) :
    hits (l ++ [r]) rel = if r ∈ rel ∧ r ∉ l then hits l rel + 1 else hits l rel := by
  unfold hits
  rw [← List.toFinset_card_of_nodup ((List.nodup_dedup _).filter _),
    ← List.toFinset_card_of_nodup ((List.nodup_dedup _).filter _)]
  split
  · rename_i h
    rw [← Finset.card_insert_of_notMem (a := r) (by simp [h.2])]
    congr 1
    ext x
    simp only [List.mem_toFinset, List.mem_filter, List.mem_dedup, List.mem_append, List.mem_singleton,
      decide_eq_true_eq, Finset.mem_insert]
    constructor
    · rintro ⟨h1 | h1, h2⟩
      · exact .inr ⟨h1, h2⟩
      · exact .inl h1
    · rintro (rfl | h1)
      · exact ⟨.inr rfl, h.1⟩
      · exact ⟨.inl h1.1, h1.2⟩
  · rename_i h
    congr 1
    ext x
    simp only [List.mem_toFinset, List.mem_filter, List.mem_dedup, List.mem_append, List.mem_singleton,
      decide_eq_true_eq]
    constructor
    · rintro ⟨h1 | rfl, h2⟩
      · exact ⟨h1, h2⟩
      · exact ⟨by by_contra hc; exact h ⟨h2, hc⟩, h2⟩
    · exact fun h1 => ⟨.inl h1.1, h1.2⟩

/-- What one more element adds to the sum of average precision. -/
theorem apLoop_take (recs rel : List α) (n : ℕ) (hn : n < recs.length) (s : ℚ)
    (hs : apLoop recs rel ((recs.take n).zipIdx 1) 0 = .ok s) :
    apLoop recs rel ((recs.take (n + 1)).zipIdx 1) 0 =
      .ok (s + (tri (hits (recs.take (n + 1)) rel) - tri (hits (recs.take n) rel)) / (n + 1 : ℕ)) := by
  have ht : recs.take (n + 1) = recs.take n ++ [recs[n]] := by simp
  have hl : (recs.take n).length = n := by simp; omega
  have hh := hits_snoc (recs.take n) rel recs[n]
  rw [← ht] at hh
  rw [ht, List.zipIdx_append, apLoop_append, hs, hl]
  simp only [List.zipIdx_singleton]
  rw [← ht, apLoop]
  simp only [Nat.add_sub_cancel, Nat.add_comm 1 n]
  split
  · rename_i h
    rw [if_pos h] at hh
    have hp : precision recs (some (n + 1)) (some rel) =
        .ok ((hits (recs.take (n + 1)) rel : ℚ) / (n + 1 : ℕ)) := by
      unfold precision
      simp only [trunc_eq, common_eq, firstK]
      have : (recs.take (n + 1)).length = n + 1 := by simp; omega
      rw [this, pyDiv_ok _ _ (by positivity)]
    rw [hp, hh]
    simp only [apLoop]
    congr 2
    unfold tri
    push_cast
    ring
  · rename_i h
    rw [if_neg h] at hh
    rw [hh, apLoop]
    congr 1
    ring

/-- The sums of two lists, the second of which has at least as many relevant items in each prefix. -/
theorem apLoop_dominates (recs recs' rel : List α) (hl : recs.length = recs'.length)
    (hd : ∀ j, hits (recs.take j) rel ≤ hits (recs'.take j) rel) (n : ℕ) (hn : n ≤ recs.length) :
    ∃ s s', apLoop recs rel ((recs.take n).zipIdx 1) 0 = .ok s ∧
      apLoop recs' rel ((recs'.take n).zipIdx 1) 0 = .ok s' ∧
      (tri (hits (recs'.take n) rel) - tri (hits (recs.take n) rel)) / n ≤ s' - s := by
  induction n with
  | zero => exact ⟨0, 0, rfl, rfl, by simp⟩
  | succ n ih =>
    obtain ⟨s, s', h1, h2, h3⟩ := ih (by omega)
    refine ⟨_, _, apLoop_take recs rel n (by omega) s h1, apLoop_take recs' rel n (by omega) s' h2, ?_⟩
    have hD := tri_mono (hd n)
    have h4 : (tri (hits (recs'.take n) rel) - tri (hits (recs.take n) rel)) / ((n + 1 : ℕ) : ℚ) ≤
        s' - s := by
      refine le_trans ?_ h3
      rcases Nat.eq_zero_or_pos n with rfl | h0
      · simp
      · apply div_le_div_of_nonneg_left (by linarith) (by positivity)
        push_cast; linarith
    generalize tri (hits (recs'.take n) rel) = a' at *
    generalize tri (hits (recs.take n) rel) = a at *
    generalize tri (hits (recs'.take (n + 1)) rel) = b' at *
    generalize tri (hits (recs.take (n + 1)) rel) = b at *
    have e : s' + (b' - a') / ((n + 1 : ℕ) : ℚ) - (s + (b - a) / ((n + 1 : ℕ) : ℚ)) =
        s' - s + (b' - b) / ((n + 1 : ℕ) : ℚ) - (a' - a) / ((n + 1 : ℕ) : ℚ) := by ring
    rw [e]
    linarith

/-- **C105**, average precision. -/
theorem C105_average_precision {rel l l' : List α} (h : Promotions (fun _ a => a ∉ rel) l l')
    (k : Option Nat) (p : ℚ) (hp : averagePrecision l k (some rel) = .ok p) :
    ∃ p', averagePrecision l' k (some rel) = .ok p' ∧ p ≤ p' := by
  have hl := firstK_length_eq (promotions_perm h).length_eq k
  have hd : ∀ j, hits ((firstK k l).take j) rel ≤ hits ((firstK k l').take j) rel := by
    intro j
    cases k with
    | none => exact promotions_hits h j
    | some k => simp only [firstK, List.take_take]; exact promotions_hits h _
  obtain ⟨s, s', h1, h2, h3⟩ := apLoop_dominates _ _ rel hl hd _ (le_refl _)
  rw [List.take_length] at h1
  rw [hl, List.take_length] at h2
  have h4 : s ≤ s' := by
    have : 0 ≤ (tri (hits ((firstK k l').take (firstK k l).length) rel) -
        tri (hits ((firstK k l).take (firstK k l).length) rel)) / ((firstK k l).length : ℚ) :=
      div_nonneg (sub_nonneg.2 (tri_mono (hd _))) (by positivity)
    linarith
  unfold averagePrecision at hp ⊢
  simp only [trunc_eq, h1, h2] at hp ⊢
  have key : ∀ d : ℕ, pyDiv s d = .ok p → ∃ p', pyDiv s' d = .ok p' ∧ p ≤ p' := by
    intro d hp
    unfold pyDiv at hp ⊢
    split at hp
    · cases hp
    · rename_i h0
      rw [if_neg h0]
      cases hp
      exact ⟨_, rfl, div_le_div_of_nonneg_right h4 (by positivity)⟩
  cases k with
  | none => exact key _ hp
  | some k => exact key _ hp

/-! ## Discounted cumulative gain -/

/-- Exchanging a smaller with a larger gain further down. -/
theorem wsum_swap (d : ℕ → ℝ) (hd : ∀ i, d (i + 1) ≤ d i) (x y : ℝ) (hxy : x ≤ y) (mid post : List ℝ) :
    ∀ (pre : List ℝ) (i : ℕ), wsum d (pre ++ x :: (mid ++ y :: post)) i ≤
      wsum d (pre ++ y :: (mid ++ x :: post)) i := by
  have hanti : ∀ i j, i ≤ j → d j ≤ d i := fun i j h => antitone_nat_of_succ_le hd h
  have happ : ∀ (l r : List ℝ) (i : ℕ), wsum d (l ++ r) i = wsum d l i + wsum d r (i + l.length) := by
    intro l r
    induction l with
    | nil => intro i; simp [wsum]
    | cons a l ih =>
      intro i
      simp only [List.cons_append, wsum, ih, List.length_cons]
      rw [show i + 1 + l.length = i + (l.length + 1) by omega]
      ring
  intro pre i
  simp only [happ, wsum]
  have := hanti (i + pre.length) (i + pre.length + 1 + mid.length) (by omega)
  nlinarith [mul_nonneg (sub_nonneg.2 hxy) (sub_nonneg.2 this)]

/-- **C105**, DCG: exchanges that put an item of at least the same relevancy higher up. -/
theorem C105_dcg (strong : Bool) (rels : List (α × ℝ)) (hkeys : (rels.map (·.1)).Nodup) {l l' : List α}
    (hin : ∀ r ∈ l, r ∈ rels.map (·.1))
    (h : Promotions (fun b a => ∀ x y, (a, x) ∈ rels → (b, y) ∈ rels → x ≤ y) l l') (k : Option Nat) :
    ∃ v v', dcg strong l k rels = .ok v ∧ dcg strong l' k rels = .ok v' ∧ v ≤ v' := by
  have hin' : ∀ r ∈ l', r ∈ rels.map (·.1) := fun r hr => hin r ((promotions_perm h).mem_iff.2 hr)
  refine ⟨_, _, dcg_eq strong rels k l hin, dcg_eq strong rels k l' hin', ?_⟩
  clear hin'
  induction h with
  | refl => exact le_refl _
  | tail h1 h ih =>
    refine ih.trans ?_
    have hin2 := fun r hr => hin r ((promotions_perm h1).mem_iff.2 hr)
    obtain ⟨pre, a, mid, b, post, rfl, rfl, hb⟩ := h
    simp only [List.map_append, List.map_cons]
    apply wsum_swap _ (disc_anti k)
    apply gain_mono
    obtain ⟨⟨a', x⟩, hx, rfl⟩ := List.mem_map.1 (hin2 a (by simp))
    obtain ⟨⟨b', y⟩, hy, rfl⟩ := List.mem_map.1 (hin2 b (by simp))
    have ex := lookupRel_some hkeys hx
    have ey := lookupRel_some hkeys hy
    simp only at ex ey
    simp only [relOf, ex, ey, Option.getD_some]
    exact hb x y hx hy

/-- **C105**, NDCG, for relevancies that are not negative. -/
theorem C105_ndcg (strong : Bool) (rels : List (α × ℝ)) (hkeys : (rels.map (·.1)).Nodup)
    (h0 : ∀ p ∈ rels, 0 ≤ p.2) {l l' : List α} (hin : ∀ r ∈ l, r ∈ rels.map (·.1))
    (h : Promotions (fun b a => ∀ x y, (a, x) ∈ rels → (b, y) ∈ rels → x ≤ y) l l') (k : Option Nat)
    (v : ℝ) (hv : ndcg strong l k (some rels) = .ok v) :
    ∃ v', ndcg strong l' k (some rels) = .ok v' ∧ v ≤ v' := by
  obtain ⟨c, c', e1, e2, hc⟩ := C105_dcg strong rels hkeys hin h k
  obtain ⟨hp, -⟩ := ideal_sorted strong hkeys
  have hb := dcg_eq strong rels k (idealOrder rels) (fun r hr => hp.subset hr)
  have hb0 : 0 ≤ wsum (disc k) ((idealOrder rels).map fun r => gain strong (relOf rels r)) 0 := by
    apply wsum_nonneg _ (disc_nonneg k)
    intro y hy
    obtain ⟨r, hr, rfl⟩ := List.mem_map.1 hy
    obtain ⟨q, hq, rfl⟩ := List.mem_map.1 (hp.subset hr)
    rw [relOf, lookupRel_some hkeys hq]
    exact gain_nonneg strong (h0 q hq)
  unfold ndcg at hv ⊢
  simp only [e1, e2, hb] at hv ⊢
  split at hv
  · cases hv
  · rename_i hne
    rw [if_neg hne]
    cases hv
    exact ⟨_, rfl, div_le_div_of_nonneg_right hc hb0⟩

/-- What the model computes is the textbook sum: the gains of the first `k` items, the one in position
`i` (from 0) divided by `log2 (i + 2)`. -/
theorem C105_dcg_sum (strong : Bool) (rels : List (α × ℝ)) (hkeys : (rels.map (·.1)).Nodup)
    (l : List (α × ℝ)) (hl : ∀ p ∈ l, p ∈ rels) (k : Option Nat) :
    dcg strong (l.map (·.1)) k rels =
      .ok (((firstK k l).zipIdx.map fun p =>
        (if strong then (2 : ℝ) ^ p.1.2 - 1 else p.1.2) / Real.logb 2 (p.2 + 2)).sum) := by
  have key : ∀ (l : List (α × ℝ)) (i : ℕ) (acc : ℝ), (∀ p ∈ l, p ∈ rels) →
      dcgLoop strong rels (l.map (·.1)) i acc = .ok (acc + ((l.zipIdx i).map fun p =>
        (if strong then (2 : ℝ) ^ p.1.2 - 1 else p.1.2) / Real.logb 2 (p.2 + 2)).sum) := by
    intro l
    induction l with
    | nil => intro i acc _; simp [dcgLoop]
    | cons q l ih =>
      intro i acc h
      rw [List.map_cons, dcgLoop, lookupRel_some hkeys (h q (by simp))]
      simp only
      rw [ih _ _ (fun p hp => h p (by simp [hp]))]
      rw [List.zipIdx_cons, List.map_cons, List.sum_cons, gain, add_comm (2 : ℝ)]
      congr 1
      ring
  have ht : trunc k (l.map (·.1)) = (firstK k l).map (·.1) := by
    cases k <;> simp [trunc, firstK, List.map_take]
  unfold dcg
  rw [ht, key _ _ _ (fun p hp => hl p (by
    cases k with
    | none => exact hp
    | some k => exact List.mem_of_mem_take hp)), zero_add]

/-! ## Examples -/

/-- Putting the relevant item 7 ahead of the irrelevant item 5. -/
example : Promotions (fun _ (a : Nat) => a ∉ [7, 9]) [5, 6, 7, 9] [7, 6, 5, 9] :=
  .single ⟨[], 5, [6], 7, [9], rfl, rfl, by decide⟩

/-- It raises the average precision from 5/12 to 3/4. -/
example : averagePrecision [5, 6, 7, 9] none (some [7, 9]) = .ok (5 / 12) ∧
    averagePrecision [7, 6, 5, 9] none (some [7, 9]) = .ok (3 / 4) := by decide +kernel

/-- Precision, recall, F-score and reciprocal rank before and after, of the first two. -/
example : precision [5, 6, 7, 9] (some 2) (some [7, 9]) = .ok 0 ∧
    precision [7, 6, 5, 9] (some 2) (some [7, 9]) = .ok (1 / 2) ∧
    recall [7, 6, 5, 9] (some 2) (some [7, 9]) = .ok (1 / 2) ∧
    fscore 1 [7, 6, 5, 9] (some 2) (some [7, 9]) = .ok (1 / 2) ∧
    reciprocalRank [5, 6, 7, 9] none (some 7) = 1 / 3 ∧
    reciprocalRank [7, 6, 5, 9] none (some 7) = 1 := by decide +kernel

/-- An exchange that raises DCG and NDCG: relevancies 1 and 3. -/
example : Promotions (fun b a => ∀ x y, (a, x) ∈ [(1, (1 : ℝ)), (2, 3)] → (b, y) ∈ [(1, (1 : ℝ)), (2, 3)] →
    x ≤ y) [1, 2] [2, 1] :=
  .single ⟨[], 1, [], 2, [], rfl, rfl, by
    intro x y hx hy
    simp at hx hy
    rw [hx, hy]; norm_num⟩

/-- Without the condition on the signs NDCG goes the other way: with only negative relevancies the sum it
divides by is negative, so the better order scores lower. -/
theorem C105_negative_relevancies :
    ∃ (rels : List (Nat × ℝ)) (l l' : List Nat) (v v' : ℝ), (rels.map (·.1)).Nodup ∧
      Promotions (fun b a => ∀ x y, (a, x) ∈ rels → (b, y) ∈ rels → x ≤ y) l l' ∧
      ndcg false l (some 1) (some rels) = .ok v ∧ ndcg false l' (some 1) (some rels) = .ok v' ∧ v' < v := by
  have hid : idealOrder [(1, (-2 : ℝ)), (2, -1)] = [2, 1] := by
    unfold idealOrder
    simp [List.insertionSort, List.orderedInsert]
  refine ⟨[(1, -2), (2, -1)], [1, 2], [2, 1], 2, 1, by decide, .single ⟨[], 1, [], 2, [], rfl, rfl, ?_⟩,
    ?_, ?_, by norm_num⟩
  · intro x y hx hy
    simp at hx hy
    rw [hx, hy]; norm_num
  · simp [ndcg, dcg, trunc, dcgLoop, lookupRel, hid, gain]
  · simp [ndcg, dcg, trunc, dcgLoop, lookupRel, hid, gain]

end DRec
