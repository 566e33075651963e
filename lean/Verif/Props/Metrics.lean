import Verif.Model.Metrics
import Verif.Spec.Metrics
import Mathlib.Tactic.Linarith
import Mathlib.Tactic.FieldSimp
import Mathlib.Tactic.Ring
import Mathlib.Tactic.Positivity

/-!
# C39, C41, C42, C43: precision, recall, hit ratio, reciprocal rank, average precision, F-score, errors
-/

namespace DRec

open Spec Metrics

variable {α : Type} [DecidableEq α]

omit [DecidableEq α] in
theorem trunc_eq (k : Option Nat) (l : List α) : trunc k l = firstK k l := by
  cases k <;> rfl

theorem common_eq (a b : List α) : common a b = hits a b := by
  unfold common hits
  rw [← List.toFinset_card_of_nodup ((List.nodup_dedup a).filter _)]
  congr 1
  ext x
  simp

theorem hits_le_left (a b : List α) : hits a b ≤ a.length :=
  (List.length_filter_le _ _).trans (List.dedup_sublist a).length_le

theorem hits_le_dedup (a b : List α) : hits a b ≤ b.dedup.length := by
  unfold hits
  have : (List.filter (fun x => decide (x ∈ b)) a.dedup).Subperm b.dedup :=
    List.subperm_of_subset ((List.nodup_dedup a).filter _) (fun x hx => by
      simp only [List.mem_filter, decide_eq_true_eq] at hx
      exact List.mem_dedup.2 hx.2)
  exact this.length_le

theorem hits_le_right (a b : List α) : hits a b ≤ b.length :=
  (hits_le_dedup a b).trans (List.dedup_sublist b).length_le

theorem hits_mono {a a' : List α} (h : a ⊆ a') (b : List α) : hits a b ≤ hits a' b := by
  apply List.Subperm.length_le
  apply List.subperm_of_subset ((List.nodup_dedup a).filter _)
  intro x hx
  simp only [List.mem_filter, decide_eq_true_eq, List.mem_dedup] at hx ⊢
  exact ⟨h hx.1, hx.2⟩

theorem hits_eq_zero (a b : List α) : hits a b = 0 ↔ ∀ x ∈ a, x ∉ b := by
  simp [hits, List.length_eq_zero_iff, List.filter_eq_nil_iff]

theorem hits_congr {a a' : List α} (h : ∀ x, x ∈ a ↔ x ∈ a') (b : List α) : hits a b = hits a' b :=
  Nat.le_antisymm (hits_mono (fun x hx => (h x).1 hx) b) (hits_mono (fun x hx => (h x).2 hx) b)

omit [DecidableEq α] in
theorem firstK_subset {k k' : Option Nat} (h : ∀ n', k' = some n' → ∃ n, k = some n ∧ n ≤ n')
    (l : List α) : firstK k l ⊆ firstK k' l := by
  cases k' with
  | none => cases k with
    | none => exact fun _ h => h
    | some n => exact fun x hx => List.mem_of_mem_take hx
  | some n' =>
    obtain ⟨n, rfl, hn⟩ := h n' rfl
    exact (List.take_sublist_take_left hn).subset

theorem pyDiv_ok (a b : ℚ) (h : b ≠ 0) : pyDiv a b = .ok (a / b) := by simp [pyDiv, h]

theorem pyDiv_error (a : ℚ) : pyDiv a 0 = .error .zeroDiv := by simp [pyDiv]

/-! ## C39 -/

/-- **C39**, precision: for every list, relevant list and `k` it raises exactly when there is nothing
among the first `k`; otherwise it is the number of different relevant items among them divided by their
number; it lies in [0,1] and is 0 exactly when none of them is relevant. -/
theorem C39_precision (recs rel : List α) (k : Option Nat) :
    (firstK k recs = [] → precision recs k (some rel) = .error .zeroDiv) ∧
    (firstK k recs ≠ [] → ∃ p, precision recs k (some rel) = .ok p ∧
      p * (firstK k recs).length = hits (firstK k recs) rel ∧ 0 ≤ p ∧ p ≤ 1 ∧
      (p = 0 ↔ ∀ x ∈ firstK k recs, x ∉ rel)) := by
  unfold precision
  simp only [trunc_eq, common_eq]
  constructor
  · intro h; rw [h]; simp [pyDiv]
  · intro h
    have hl : 0 < (firstK k recs).length := List.length_pos_iff.2 h
    have hl' : (0 : ℚ) < (firstK k recs).length := by exact_mod_cast hl
    refine ⟨_, pyDiv_ok _ _ hl'.ne', by field_simp, by positivity, ?_, ?_⟩
    · rw [div_le_one hl']; exact_mod_cast hits_le_left _ _
    · rw [div_eq_zero_iff, or_iff_left hl'.ne', Nat.cast_eq_zero, hits_eq_zero]

/-- **C39**, precision does not depend on the order of the first `k` items. -/
theorem C39_precision_order (recs recs' rel : List α) (k : Option Nat)
    (h : (firstK k recs).Perm (firstK k recs')) :
    precision recs k (some rel) = precision recs' k (some rel) := by
  unfold precision
  simp only [trunc_eq, common_eq]
  rw [hits_congr (fun x => h.mem_iff), h.length_eq]

/-- **C39**, recall: raises exactly for an empty relevant list; lies in [0,1]; 0 exactly when no
relevant item is among the first `k`; and it is the number of different ones found divided by the length
of the relevant list. -/
theorem C39_recall (recs rel : List α) (k : Option Nat) :
    (rel = [] → recall recs k (some rel) = .error .zeroDiv) ∧
    (rel ≠ [] → ∃ p, recall recs k (some rel) = .ok p ∧
      p * rel.length = hits (firstK k recs) rel ∧ 0 ≤ p ∧ p ≤ 1 ∧
      (p = 0 ↔ ∀ x ∈ firstK k recs, x ∉ rel)) := by
  unfold recall
  simp only [trunc_eq, common_eq]
  constructor
  · intro h; rw [h]; simp [pyDiv]
  · intro h
    have hl : 0 < rel.length := List.length_pos_iff.2 h
    have hl' : (0 : ℚ) < rel.length := by exact_mod_cast hl
    refine ⟨_, pyDiv_ok _ _ hl'.ne', by field_simp, by positivity, ?_, ?_⟩
    · rw [div_le_one hl']; exact_mod_cast hits_le_right _ _
    · rw [div_eq_zero_iff, or_iff_left hl'.ne', Nat.cast_eq_zero, hits_eq_zero]

/-- **C39**, recall never decreases when `k` grows (`none` is the largest `k`) and does not depend on
the order of the first `k` items. -/
theorem C39_recall_monotone (recs rel : List α) (k k' : Option Nat)
    (hk : ∀ n', k' = some n' → ∃ n, k = some n ∧ n ≤ n') (p p' : ℚ)
    (h : recall recs k (some rel) = .ok p) (h' : recall recs k' (some rel) = .ok p') : p ≤ p' := by
  by_cases he : rel = []
  · rw [(C39_recall recs rel k).1 he] at h; cases h
  obtain ⟨q, e, e1, _⟩ := (C39_recall recs rel k).2 he
  obtain ⟨q', e', e1', _⟩ := (C39_recall recs rel k').2 he
  rw [e] at h; rw [e'] at h'
  cases h; cases h'
  have hl' : (0 : ℚ) < rel.length := by exact_mod_cast List.length_pos_iff.2 he
  have : (hits (firstK k recs) rel : ℚ) ≤ hits (firstK k' recs) rel := by
    exact_mod_cast hits_mono (firstK_subset hk recs) rel
  rw [← e1, ← e1'] at this
  exact le_of_mul_le_mul_right this hl'

theorem C39_recall_order (recs recs' rel : List α) (k : Option Nat)
    (h : (firstK k recs).Perm (firstK k recs')) :
    recall recs k (some rel) = recall recs' k (some rel) := by
  unfold recall
  simp only [trunc_eq, common_eq]
  rw [hits_congr (fun x => h.mem_iff)]

theorem toFinset_card_dedup (l : List α) : l.toFinset.card = l.dedup.length := List.card_toFinset l

omit [DecidableEq α] in
/-- **C39**, hit ratio, with identifiers compared by their text. -/
theorem C39_hit_ratio {β : Type} [DecidableEq β] (str : α → β) (recs rel : List α) (k : Option Nat) :
    (rel = [] → hitRatio str recs k (some rel) = .error .zeroDiv) ∧
    (rel ≠ [] → ∃ p, hitRatio str recs k (some rel) = .ok p ∧
      p * (rel.map str).dedup.length = hits ((firstK k recs).map str) (rel.map str) ∧ 0 ≤ p ∧ p ≤ 1 ∧
      (p = 0 ↔ ∀ x ∈ firstK k recs, ∀ y ∈ rel, str x ≠ str y)) := by
  unfold hitRatio
  simp only [trunc_eq, common_eq, toFinset_card_dedup]
  constructor
  · intro h; rw [h]; simp [pyDiv]
  · intro h
    have hl : 0 < (rel.map str).dedup.length := by
      rw [List.length_pos_iff, Ne, List.dedup_eq_nil]; simpa using h
    have hl' : (0 : ℚ) < (rel.map str).dedup.length := by exact_mod_cast hl
    refine ⟨_, pyDiv_ok _ _ hl'.ne', by field_simp, by positivity, ?_, ?_⟩
    · rw [div_le_one hl']; exact_mod_cast hits_le_dedup _ _
    · rw [div_eq_zero_iff, or_iff_left hl'.ne', Nat.cast_eq_zero, hits_eq_zero]
      simp only [List.mem_map, not_exists, not_and, forall_exists_index, and_imp,
        forall_apply_eq_imp_iff₂]
      exact ⟨fun h x hx y hy e => h x hx y hy e.symm, fun h x hx y hy e => h x hx y hy e.symm⟩

omit [DecidableEq α] in
/-- **C39**, hit ratio never decreases when `k` grows. -/
theorem C39_hit_ratio_monotone {β : Type} [DecidableEq β] (str : α → β) (recs rel : List α)
    (k k' : Option Nat) (hk : ∀ n', k' = some n' → ∃ n, k = some n ∧ n ≤ n') (p p' : ℚ)
    (h : hitRatio str recs k (some rel) = .ok p) (h' : hitRatio str recs k' (some rel) = .ok p') :
    p ≤ p' := by
  by_cases he : rel = []
  · rw [(C39_hit_ratio str recs rel k).1 he] at h; cases h
  obtain ⟨q, e, e1, _⟩ := (C39_hit_ratio str recs rel k).2 he
  obtain ⟨q', e', e1', _⟩ := (C39_hit_ratio str recs rel k').2 he
  rw [e] at h; rw [e'] at h'
  cases h; cases h'
  have hl : 0 < (rel.map str).dedup.length := by
    rw [List.length_pos_iff, Ne, List.dedup_eq_nil]; simpa using he
  have hl' : (0 : ℚ) < (rel.map str).dedup.length := by exact_mod_cast hl
  have : (hits ((firstK k recs).map str) (rel.map str) : ℚ) ≤
      hits ((firstK k' recs).map str) (rel.map str) := by
    exact_mod_cast hits_mono (List.map_subset _ (firstK_subset hk recs)) _
  rw [← e1, ← e1'] at this
  exact le_of_mul_le_mul_right this hl'

omit [DecidableEq α] in
theorem C39_hit_ratio_order {β : Type} [DecidableEq β] (str : α → β) (recs recs' rel : List α)
    (k : Option Nat) (h : (firstK k recs).Perm (firstK k recs')) :
    hitRatio str recs k (some rel) = hitRatio str recs' k (some rel) := by
  unfold hitRatio
  simp only [trunc_eq, common_eq]
  rw [hits_congr (fun x => (h.map str).mem_iff)]

example : precision [1, 2, 2, 3] (some 3) (some [2, 9]) = .ok (1 / 3) ∧
    recall [1, 2, 2, 3] (some 3) (some [2, 9]) = .ok (1 / 2) ∧
    hitRatio (fun n : ℕ => n % 5) [1, 2, 2, 3] (some 3) (some [2, 9]) = .ok (1 / 2) := by
  refine ⟨?_, ?_, ?_⟩ <;> decide +kernel

/-! ## C41 -/

/-- **C41**, reciprocal rank: if the item is among the first `k` and `p` is its first position (counting
from 1) the value is `1/p`; otherwise it is 0. -/
theorem C41_reciprocal_rank (recs : List α) (k : Option Nat) (x : α) :
    (∀ pre post, firstK k recs = pre ++ x :: post → x ∉ pre →
      reciprocalRank recs k (some x) = 1 / ((pre.length : ℚ) + 1)) ∧
    (x ∉ firstK k recs → reciprocalRank recs k (some x) = 0) := by
  unfold reciprocalRank
  simp only [trunc_eq]
  constructor
  · intro pre post e hx
    rw [e, if_pos (by simp), List.idxOf_append_of_notMem hx]
    simp
  · intro h; rw [if_neg h]

/-- The sum of the loop: one precision per first occurrence of a relevant item. -/
theorem apLoop_spec (recs rel : List α) : ∀ (l pre : List α) (acc : ℚ), recs = pre ++ l →
    ∃ s, apLoop recs rel (l.zipIdx (pre.length + 1)) acc = .ok (acc + s) ∧ 0 ≤ s ∧
      s ≤ (hits (pre ++ l) rel : ℚ) - hits pre rel := by
  intro l
  induction l with
  | nil => intro pre acc e; exact ⟨0, by simp [apLoop], le_refl _, by simp⟩
  | cons r l ih =>
    intro pre acc e
    have e' : recs = (pre ++ [r]) ++ l := by rw [e]; simp
    have hpre : recs.take (pre.length + 1 - 1) = pre := by rw [e]; simp
    have htake : firstK (some (pre.length + 1)) recs = pre ++ [r] := by
      rw [e']; exact List.take_left' (by simp)
    rw [List.zipIdx_cons]
    unfold apLoop
    rw [hpre]
    split
    · rename_i hc
      obtain ⟨p, hp, hp1, hp2, hp3, _⟩ := (C39_precision recs rel (some (pre.length + 1))).2
        (by rw [htake]; simp)
      rw [hp]
      obtain ⟨s, hs1, hs2, hs3⟩ := ih (pre ++ [r]) (acc + p) e'
      rw [List.length_append, List.length_singleton] at hs1
      refine ⟨p + s, by simp only; rw [hs1]; congr 1; ring, by positivity, ?_⟩
      have hh : hits (pre ++ [r]) rel = hits pre rel + 1 := by
        unfold hits
        have hperm : (pre ++ [r]).dedup.Perm (r :: pre.dedup) := by
          have h1 : (r :: pre).dedup = r :: pre.dedup := List.dedup_cons_of_notMem hc.2
          rw [← h1]
          exact (List.perm_append_comm (l₁ := pre) (l₂ := [r])).dedup
        rw [(hperm.filter _).length_eq, List.filter_cons_of_pos (by simpa using hc.1)]
        simp
      rw [hh] at hs3
      push_cast at hs3
      have happ : pre ++ [r] ++ l = pre ++ r :: l := by simp
      rw [happ] at hs3
      linarith
    · obtain ⟨s, hs1, hs2, hs3⟩ := ih (pre ++ [r]) acc e'
      rw [List.length_append, List.length_singleton] at hs1
      refine ⟨s, hs1, hs2, ?_⟩
      have happ : pre ++ [r] ++ l = pre ++ r :: l := by simp
      rw [happ] at hs3
      have : (hits pre rel : ℚ) ≤ hits (pre ++ [r]) rel := by
        exact_mod_cast hits_mono (by simp) rel
      linarith

/-- **C41**, average precision: it raises exactly for no relevant items or `k = 0`; otherwise, when the
relevant items are distinct, it lies in [0,1]. -/
theorem C41_average_precision (recs rel : List α) (k : Option Nat) :
    (rel = [] ∨ k = some 0 → averagePrecision recs k (some rel) = .error .zeroDiv) ∧
    (rel ≠ [] → k ≠ some 0 → ∃ v, averagePrecision recs k (some rel) = .ok v ∧ 0 ≤ v ∧
      (rel.Nodup → v ≤ 1)) := by
  unfold averagePrecision
  simp only [trunc_eq]
  obtain ⟨s, hs1, hs2, hs3⟩ := apLoop_spec (firstK k recs) rel (firstK k recs) [] 0 rfl
  simp only [List.length_nil, List.nil_append, zero_add] at hs1 hs3
  have h0 : hits ([] : List α) rel = 0 := by simp [hits]
  rw [h0] at hs3
  rw [hs1]
  constructor
  · rintro (rfl | rfl)
    · cases k <;> simp [pyDiv]
    · simp [pyDiv]
  · intro hr hk
    have hl : 0 < rel.length := List.length_pos_iff.2 hr
    have hr1 := hits_le_right (firstK k recs) rel
    cases k with
    | none =>
      have hl' : (0 : ℚ) < rel.length := by exact_mod_cast hl
      refine ⟨_, pyDiv_ok _ _ hl'.ne', by positivity, fun _ => ?_⟩
      rw [div_le_one hl']
      have : (hits (firstK none recs) rel : ℚ) ≤ rel.length := by exact_mod_cast hr1
      simp only [Nat.cast_zero, sub_zero] at hs3
      linarith
    | some k =>
      have hk' : 0 < k := by
        rcases Nat.eq_zero_or_pos k with rfl | h
        · exact absurd rfl hk
        · exact h
      have hm : (0 : ℚ) < (min rel.length k : ℕ) := by exact_mod_cast lt_min hl hk'
      refine ⟨_, pyDiv_ok _ _ hm.ne', by positivity, fun _ => ?_⟩
      rw [div_le_one hm]
      have h2 : hits (firstK (some k) recs) rel ≤ k :=
        (hits_le_left _ _).trans (by simp [firstK])
      have : (hits (firstK (some k) recs) rel : ℚ) ≤ (min rel.length k : ℕ) := by
        exact_mod_cast le_min hr1 h2
      simp only [Nat.cast_zero, sub_zero] at hs3
      linarith

theorem apLoop_append (recs rel : List α) (l l' : List (α × Nat)) (acc : ℚ) :
    apLoop recs rel (l ++ l') acc =
      match apLoop recs rel l acc with
      | .error e => .error e
      | .ok s => apLoop recs rel l' s := by
  induction l generalizing acc with
  | nil => rfl
  | cons a l ih =>
    obtain ⟨r, i⟩ := a
    rw [List.cons_append, apLoop, apLoop]
    split
    · split
      · rfl
      · exact ih _
    · exact ih _

/-- Elements that are irrelevant or repeated leave the sum as it is. -/
theorem apLoop_skip (recs rel : List α) (l : List (α × Nat)) (acc : ℚ)
    (h : ∀ p ∈ l, ¬ (p.1 ∈ rel ∧ p.1 ∉ recs.take (p.2 - 1))) : apLoop recs rel l acc = .ok acc := by
  induction l with
  | nil => rfl
  | cons a l ih =>
    obtain ⟨r, i⟩ := a
    unfold apLoop
    rw [if_neg (h (r, i) (by simp))]
    exact ih (fun p hp => h p (by simp [hp]))

theorem hits_of_nodup_subset {l rel : List α} (hn : l.Nodup) (hs : l ⊆ rel) : hits l rel = l.length := by
  unfold hits
  rw [List.Nodup.dedup hn, List.filter_eq_self.2 (by intro x hx; simpa using hs hx)]

/-- Distinct relevant items at the front each add 1. -/
theorem apLoop_front (recs rel : List α) : ∀ (l pre tl : List α) (acc : ℚ), recs = pre ++ l ++ tl →
    (pre ++ l).Nodup → pre ++ l ⊆ rel →
    apLoop recs rel (l.zipIdx (pre.length + 1)) acc = .ok (acc + l.length) := by
  intro l
  induction l with
  | nil => intro pre tl acc _ _ _; simp [apLoop]
  | cons r l ih =>
    intro pre tl acc e hn hs
    have hpre : recs.take (pre.length + 1 - 1) = pre := by
      rw [e, List.append_assoc]; exact List.take_left' (by simp)
    have htake : firstK (some (pre.length + 1)) recs = pre ++ [r] := by
      have : recs = (pre ++ [r]) ++ (l ++ tl) := by rw [e]; simp
      rw [this]; exact List.take_left' (by simp)
    have hr : r ∉ pre := by
      have := (List.nodup_append.1 hn).2.2
      intro h; exact this r h r (by simp) rfl
    rw [List.zipIdx_cons]
    unfold apLoop
    rw [hpre, if_pos ⟨hs (by simp), hr⟩]
    obtain ⟨p, hp, hp1, _⟩ := (C39_precision recs rel (some (pre.length + 1))).2 (by rw [htake]; simp)
    have hsub : (pre ++ [r]).Sublist (pre ++ r :: l) :=
      List.Sublist.append (List.Sublist.refl _) (by simp)
    rw [htake, hits_of_nodup_subset (hn.sublist hsub) (fun x hx => hs (hsub.subset hx))] at hp1
    have hp1' : p = 1 := by
      have : ((pre ++ [r]).length : ℚ) ≠ 0 := by simp; positivity
      field_simp at hp1
      exact hp1
    rw [hp]
    simp only
    have := ih (pre ++ [r]) tl (acc + p) (by rw [e]; simp) (by simpa using hn) (by simpa using hs)
    rw [List.length_append, List.length_singleton] at this
    rw [this, hp1']
    congr 1
    push_cast [List.length_cons]
    ring

/-- **C41**, average precision is 1 when the list starts with all relevant items (in any order). -/
theorem C41_average_precision_perfect (front rest rel : List α) (k : Option Nat)
    (hp : front.Perm rel) (hn : rel.Nodup) (hne : rel ≠ []) (hk : k ≠ some 0) :
    averagePrecision (front ++ rest) k (some rel) = .ok 1 := by
  have hfn : front.Nodup := hp.nodup_iff.2 hn
  have hl : 0 < rel.length := List.length_pos_iff.2 hne
  -- the part of the front that is kept, and what follows it
  obtain ⟨h, tl, he, hsub, hlen, htl⟩ : ∃ h tl, firstK k (front ++ rest) = h ++ tl ∧
      h.Sublist front ∧ (h.length = match k with | none => rel.length | some k => min rel.length k) ∧
      (tl ≠ [] → h = front) := by
    cases k with
    | none => exact ⟨front, rest, rfl, List.Sublist.refl _, hp.length_eq, fun _ => rfl⟩
    | some k =>
      refine ⟨front.take k, rest.take (k - front.length), List.take_append,
        List.take_sublist _ _, by rw [List.length_take, hp.length_eq, Nat.min_comm], ?_⟩
      intro htl
      apply List.take_of_length_le
      by_contra hc
      apply htl
      rw [show k - front.length = 0 by omega]
      rfl
  have hzip : (h ++ tl).zipIdx 1 = h.zipIdx 1 ++ tl.zipIdx (h.length + 1) := by
    rw [List.zipIdx_append, Nat.add_comm]
  have hsum : apLoop (h ++ tl) rel ((h ++ tl).zipIdx 1) 0 = .ok (h.length : ℚ) := by
    rw [hzip, apLoop_append]
    have := apLoop_front (h ++ tl) rel h [] tl 0 rfl (hfn.sublist hsub)
      (fun x hx => hp.subset (hsub.subset hx))
    simp only [List.length_nil, zero_add] at this
    rw [this]
    simp only
    apply apLoop_skip
    rintro ⟨r, i⟩ hri ⟨h1, h2⟩
    have hne' : tl ≠ [] := by rintro rfl; simp at hri
    have hi := List.le_snd_of_mem_zipIdx hri
    apply h2
    have : r ∈ h := by rw [htl hne']; exact hp.symm.subset h1
    have hpre : h = (h ++ tl).take h.length := by simp
    rw [hpre] at this
    exact (List.take_sublist_take_left (by simp only at hi ⊢; omega)).subset this
  unfold averagePrecision
  simp only [trunc_eq, he, hsum]
  cases k with
  | none =>
    simp only at hlen ⊢
    rw [hlen, pyDiv_ok _ _ (by positivity), div_self (by positivity)]
  | some k =>
    simp only at hlen ⊢
    have hk' : 0 < k := by
      rcases Nat.eq_zero_or_pos k with rfl | h
      · exact absurd rfl hk
      · exact h
    have hm : 0 < min rel.length k := lt_min hl hk'
    rw [hlen, pyDiv_ok _ _ (by positivity), div_self (by positivity)]

theorem apLoop_longer (recs t rel : List α) (l : List (α × Nat)) (acc : ℚ)
    (h : ∀ p ∈ l, p.2 ≤ recs.length) : apLoop (recs ++ t) rel l acc = apLoop recs rel l acc := by
  induction l generalizing acc with
  | nil => rfl
  | cons a l ih =>
    obtain ⟨r, i⟩ := a
    have hi : i ≤ recs.length := h (r, i) (by simp)
    unfold apLoop
    rw [List.take_append_of_le_length (by omega)]
    have hp : precision (recs ++ t) (some i) (some rel) = precision recs (some i) (some rel) := by
      unfold precision trunc
      simp only [List.take_append_of_le_length hi]
    rw [hp]
    split
    · split
      · rfl
      · exact ih _ (fun p hp => h p (by simp [hp]))
    · exact ih _ (fun p hp => h p (by simp [hp]))

/-- **C41**, repeated or irrelevant recommendations add nothing: appending items each of which is
already in the list or irrelevant leaves average precision as it is. -/
theorem C41_repeated_add_nothing (recs t rel : List α) (h : ∀ x ∈ t, x ∈ recs ∨ x ∉ rel) :
    averagePrecision (recs ++ t) none (some rel) = averagePrecision recs none (some rel) := by
  unfold averagePrecision
  simp only [trunc]
  have : apLoop (recs ++ t) rel ((recs ++ t).zipIdx 1) 0 = apLoop recs rel (recs.zipIdx 1) 0 := by
    rw [List.zipIdx_append, apLoop_append, apLoop_longer]
    · split
      · rename_i e he; rw [he]
      · rename_i s he
        rw [he]
        apply apLoop_skip
        rintro ⟨r, i⟩ hri ⟨h1, h2⟩
        have hi := List.le_snd_of_mem_zipIdx hri
        have hr : r ∈ t := List.fst_mem_of_mem_zipIdx hri
        rcases h r hr with h' | h'
        · apply h2
          have hpre : recs = (recs ++ t).take recs.length := by simp
          rw [hpre] at h'
          exact (List.take_sublist_take_left (by simp only at hi ⊢; omega)).subset h'
        · exact h' h1
    · rintro ⟨r, i⟩ hri
      have := List.snd_lt_of_mem_zipIdx hri
      simp only at this ⊢
      omega
  rw [this]

example : averagePrecision [3, 7, 3, 5] (some 4) (some [5, 3]) = .ok (3 / 4) ∧
    averagePrecision [5, 3, 8, 3] none (some [3, 5]) = .ok 1 ∧
    reciprocalRank [4, 7, 5, 7] (some 3) (some 7) = 1 / 2 := by
  refine ⟨?_, ?_, ?_⟩ <;> decide +kernel

/-! ## C42 -/

/-- The F-score of a precision and a recall. -/
theorem fscore_eq (beta : ℚ) (recs rel : List α) (k : Option Nat) (p r : ℚ)
    (hp : precision recs k (some rel) = .ok p) (hr : recall recs k (some rel) = .ok r) :
    fscore beta recs k (some rel) = pyDiv ((1 + beta ^ 2) * p * r) (beta ^ 2 * p + r) := by
  unfold fscore
  simp only [hp, hr]
  rfl

/-- Precision and recall are both zero or both positive. -/
theorem precision_pos_iff (recs rel : List α) (k : Option Nat) (p r : ℚ)
    (hp : precision recs k (some rel) = .ok p) (hr : recall recs k (some rel) = .ok r) :
    (p = 0 ↔ r = 0) ∧ 0 ≤ p ∧ 0 ≤ r ∧ (p = 0 ↔ ∀ x ∈ firstK k recs, x ∉ rel) := by
  have h1 : firstK k recs ≠ [] := by
    intro e; rw [(C39_precision recs rel k).1 e] at hp; cases hp
  have h2 : rel ≠ [] := by
    intro e; rw [(C39_recall recs rel k).1 e] at hr; cases hr
  obtain ⟨p', e, _, hp0, _, hpi⟩ := (C39_precision recs rel k).2 h1
  obtain ⟨r', e', _, hr0, _, hri⟩ := (C39_recall recs rel k).2 h2
  rw [e] at hp; rw [e'] at hr; cases hp; cases hr
  exact ⟨hpi.trans hri.symm, hp0, hr0, hpi⟩

/-- **C42**: the F-score raises exactly when a list is empty or nothing relevant is among the first `k`
(both precision and recall are zero); otherwise it lies between precision and recall. -/
theorem C42_between (beta : ℚ) (recs rel : List α) (k : Option Nat) :
    ((firstK k recs = [] ∨ rel = [] ∨ ∀ x ∈ firstK k recs, x ∉ rel) →
      fscore beta recs k (some rel) = .error .zeroDiv) ∧
    (¬ (firstK k recs = [] ∨ rel = [] ∨ ∀ x ∈ firstK k recs, x ∉ rel) →
      ∃ p r f, precision recs k (some rel) = .ok p ∧ recall recs k (some rel) = .ok r ∧
        fscore beta recs k (some rel) = .ok f ∧ min p r ≤ f ∧ f ≤ max p r) := by
  constructor
  · intro h
    by_cases h1 : firstK k recs = []
    · unfold fscore; simp only [(C39_precision recs rel k).1 h1]; rfl
    obtain ⟨p, hp, _, _, _, hpi⟩ := (C39_precision recs rel k).2 h1
    by_cases h2 : rel = []
    · unfold fscore; simp only [hp, (C39_recall recs rel k).1 h2]; rfl
    obtain ⟨r, hr, _, _, _, hri⟩ := (C39_recall recs rel k).2 h2
    rw [fscore_eq beta recs rel k p r hp hr]
    have h3 : ∀ x ∈ firstK k recs, x ∉ rel := by tauto
    rw [hpi.2 h3, hri.2 h3]
    simp [pyDiv]
  · intro h
    push Not at h
    obtain ⟨h1, h2, h3⟩ := h
    obtain ⟨p, hp, _, hp0, _, hpi⟩ := (C39_precision recs rel k).2 h1
    obtain ⟨r, hr, _, hr0, _, hri⟩ := (C39_recall recs rel k).2 h2
    have hn : ¬ ∀ x ∈ firstK k recs, x ∉ rel := by push Not; exact h3
    have hp' : 0 < p := lt_of_le_of_ne hp0 fun e => hn (hpi.1 e.symm)
    have hr' : 0 < r := lt_of_le_of_ne hr0 fun e => hn (hri.1 e.symm)
    have hd : 0 < beta ^ 2 * p + r := by positivity
    have hb : 0 ≤ beta ^ 2 := by positivity
    refine ⟨p, r, _, hp, hr, by rw [fscore_eq beta recs rel k p r hp hr, pyDiv_ok _ _ hd.ne'], ?_, ?_⟩
    · rw [le_div_iff₀ hd]
      rcases le_total p r with h | h
      · rw [min_eq_left h]; nlinarith [mul_nonneg hb hp0, mul_nonneg (mul_nonneg hb hp0) (sub_nonneg.2 h)]
      · rw [min_eq_right h]; nlinarith [mul_nonneg hr0 (sub_nonneg.2 h)]
    · rw [div_le_iff₀ hd]
      rcases le_total p r with h | h
      · rw [max_eq_right h]; nlinarith [mul_nonneg hr0 (sub_nonneg.2 h)]
      · rw [max_eq_left h]; nlinarith [mul_nonneg hb hp0, mul_nonneg (mul_nonneg hb hp0) (sub_nonneg.2 h)]

/-- **C42**: `beta` moves the value towards recall: with a larger `beta` (in absolute value) the F-score
is at least as close to recall, whichever of the two is larger. -/
theorem C42_beta_monotone (b b' : ℚ) (hb : b ^ 2 ≤ b' ^ 2) (recs rel : List α) (k : Option Nat)
    (p r f f' : ℚ) (hp : precision recs k (some rel) = .ok p) (hr : recall recs k (some rel) = .ok r)
    (hf : fscore b recs k (some rel) = .ok f) (hf' : fscore b' recs k (some rel) = .ok f') :
    |r - f'| ≤ |r - f| ∧ (p ≤ r → f ≤ f') ∧ (r ≤ p → f' ≤ f) := by
  obtain ⟨hiff, hp0, hr0, hz⟩ := precision_pos_iff recs rel k p r hp hr
  rw [fscore_eq b recs rel k p r hp hr] at hf
  rw [fscore_eq b' recs rel k p r hp hr] at hf'
  have hpos : 0 < p ∧ 0 < r := by
    by_cases h : p = 0
    · rw [h, hiff.1 h] at hf; simp [pyDiv] at hf
    · exact ⟨lt_of_le_of_ne hp0 (Ne.symm h), lt_of_le_of_ne hr0 fun e => h (hiff.2 e.symm)⟩
  obtain ⟨hp1, hr1⟩ := hpos
  have hd : 0 < b ^ 2 * p + r := by positivity
  have hd' : 0 < b' ^ 2 * p + r := by positivity
  rw [pyDiv_ok _ _ hd.ne'] at hf
  rw [pyDiv_ok _ _ hd'.ne'] at hf'
  simp only [Except.ok.injEq] at hf hf'
  -- distance to recall
  have e1 : r - f = r * (r - p) / (b ^ 2 * p + r) := by rw [← hf]; field_simp; ring
  have e2 : r - f' = r * (r - p) / (b' ^ 2 * p + r) := by rw [← hf']; field_simp; ring
  have hle : b ^ 2 * p + r ≤ b' ^ 2 * p + r := by nlinarith
  refine ⟨?_, ?_, ?_⟩
  · rw [e1, e2, abs_div, abs_div, abs_of_pos hd, abs_of_pos hd']
    exact div_le_div_of_nonneg_left (abs_nonneg _) hd hle
  · intro h
    have : r - f' ≤ r - f := by
      rw [e1, e2]
      exact div_le_div_of_nonneg_left (mul_nonneg hr0 (sub_nonneg.2 h)) hd hle
    linarith
  · intro h
    have : r - f ≤ r - f' := by
      rw [e1, e2, div_le_div_iff₀ hd hd']
      nlinarith [mul_nonneg (mul_nonneg hr0 (sub_nonneg.2 h)) (sub_nonneg.2 hle)]
    linarith

/-- **C42**: for `beta = 1` the roles of precision and recall can be exchanged: two calls with exchanged
precision and recall have the same F-score. -/
theorem C42_symmetric (recs rel recs' rel' : List α) (k k' : Option Nat) (p r : ℚ)
    (hp : precision recs k (some rel) = .ok p) (hr : recall recs k (some rel) = .ok r)
    (hp' : precision recs' k' (some rel') = .ok r) (hr' : recall recs' k' (some rel') = .ok p) :
    fscore 1 recs k (some rel) = fscore 1 recs' k' (some rel') := by
  rw [fscore_eq 1 recs rel k p r hp hr, fscore_eq 1 recs' rel' k' r p hp' hr']
  congr 1 <;> ring

example : fscore 2 [1, 2, 3, 4] (some 4) (some [2, 3, 9]) = .ok (10 / 16) := by decide +kernel

example : precision [1, 2] none (some [2, 3, 4]) = .ok (1 / 2) ∧
    recall [1, 2] none (some [2, 3, 4]) = .ok (1 / 3) ∧
    precision [2, 3, 4] none (some [1, 2]) = .ok (1 / 3) ∧
    recall [2, 3, 4] none (some [1, 2]) = .ok (1 / 2) := by
  refine ⟨?_, ?_, ?_, ?_⟩ <;> decide +kernel

/-! ## C43 -/

theorem zipWith_symm (f : ℚ → ℚ → ℚ) (hf : ∀ a b, f a b = f b a) :
    ∀ a b : List ℚ, List.zipWith f a b = List.zipWith f b a
  | [], b => by cases b <;> rfl
  | _ :: _, [] => rfl
  | x :: a, y :: b => by simp [hf x y, zipWith_symm f hf a b]

/-- Sums of errors. -/
theorem error_sums : ∀ yt yp : List ℚ, yt.length = yp.length →
    0 ≤ (List.zipWith (fun a b => (a - b) ^ 2) yt yp).sum ∧
    0 ≤ (List.zipWith (fun a b => |a - b|) yt yp).sum ∧
    ((List.zipWith (fun a b => (a - b) ^ 2) yt yp).sum = 0 ↔ yt = yp) ∧
    ((List.zipWith (fun a b => |a - b|) yt yp).sum = 0 ↔ yt = yp) ∧
    (List.zipWith (fun a b => |a - b|) yt yp).sum ^ 2 ≤
      yt.length * (List.zipWith (fun a b => (a - b) ^ 2) yt yp).sum
  | [], [], _ => by simp
  | x :: a, y :: b, h => by
    obtain ⟨h1, h2, h3, h4, h5⟩ := error_sums a b (by simpa using h)
    simp only [List.zipWith_cons_cons, List.sum_cons, List.length_cons, List.cons.injEq]
    have q1 : 0 ≤ (x - y) ^ 2 := sq_nonneg _
    have q2 : 0 ≤ |x - y| := abs_nonneg _
    refine ⟨by linarith, by linarith, ?_, ?_, ?_⟩
    · constructor
      · intro e
        have e1 : (x - y) ^ 2 = 0 := by linarith
        exact ⟨by have := pow_eq_zero_iff (two_ne_zero) |>.1 e1; linarith, h3.1 (by linarith)⟩
      · rintro ⟨rfl, rfl⟩; rw [h3.2 rfl]; simp
    · constructor
      · intro e
        have e1 : |x - y| = 0 := by linarith
        exact ⟨by have := abs_eq_zero.1 e1; linarith, h4.1 (by linarith)⟩
      · rintro ⟨rfl, rfl⟩; rw [h4.2 rfl]; simp
    · generalize (List.zipWith (fun a b => |a - b|) a b).sum = S at *
      generalize (List.zipWith (fun a b => (a - b) ^ 2) a b).sum = Q at *
      rw [← sq_abs (x - y)]
      generalize |x - y| = d at *
      push_cast
      have hn : (0 : ℚ) ≤ a.length := by positivity
      generalize (a.length : ℚ) = n at *
      -- 2 S d ≤ Q + n d²
      have key : 2 * S * d ≤ Q + n * d ^ 2 := by
        rcases eq_or_lt_of_le hn with h0 | h0
        · have : S = 0 := by nlinarith
          rw [this]; nlinarith
        · have : 0 ≤ n * (Q + n * d ^ 2 - 2 * S * d) := by nlinarith [sq_nonneg (S - n * d)]
          have := nonneg_of_mul_nonneg_right this h0
          linarith
      nlinarith

/-- **C43**: for every pair of equally long non-empty lists the error metrics are defined, non-negative,
zero exactly for perfect predictions and symmetric; RMSE squared is MSE and MAE is at most RMSE.  Any
other input raises. -/
theorem C43_error_metrics (yt yp : List ℚ) :
    (¬ (yt.length = yp.length ∧ yt ≠ []) →
      mse yt yp = .error .badValue ∧ mae yt yp = .error .badValue ∧ rmse yt yp = .error .badValue) ∧
    (yt.length = yp.length → yt ≠ [] → ∃ (m a : ℚ) (s : ℝ),
      mse yt yp = .ok m ∧ mae yt yp = .ok a ∧ rmse yt yp = .ok s ∧
      mse yp yt = .ok m ∧ mae yp yt = .ok a ∧ rmse yp yt = .ok s ∧
      0 ≤ m ∧ 0 ≤ a ∧ 0 ≤ s ∧ (m = 0 ↔ yt = yp) ∧ (a = 0 ↔ yt = yp) ∧ (s = 0 ↔ yt = yp) ∧
      s ^ 2 = m ∧ (a : ℝ) ≤ s) := by
  constructor
  · intro h
    simp only [rmse, mse, mae, if_neg h]
    exact ⟨trivial, trivial, rfl⟩
  · intro hl hne
    obtain ⟨h1, h2, h3, h4, h5⟩ := error_sums yt yp hl
    have hne' : yp ≠ [] := by
      intro e; rw [e] at hl; exact hne (List.length_eq_zero_iff.1 hl)
    have hs1 := zipWith_symm (fun a b : ℚ => (a - b) ^ 2) (fun a b => by ring) yt yp
    have hs2 := zipWith_symm (fun a b : ℚ => |a - b|) (fun a b => abs_sub_comm a b) yt yp
    have hn : (0 : ℚ) < yt.length := by exact_mod_cast List.length_pos_iff.2 hne
    simp only [rmse, mse, mae, hne, hne', hl, ← hs1, ← hs2, ne_eq, not_false_iff, and_self, if_true,
      Except.map]
    rw [← hl]
    generalize (List.zipWith (fun a b => (a - b) ^ 2) yt yp).sum = Q at *
    generalize (List.zipWith (fun a b => |a - b|) yt yp).sum = S at *
    have hm : 0 ≤ Q / yt.length := by positivity
    have hmR : (0 : ℝ) ≤ ((Q / yt.length : ℚ) : ℝ) := by exact_mod_cast hm
    have hm0 : Q / yt.length = 0 ↔ yt = yp := by rw [div_eq_zero_iff, or_iff_left hn.ne', h3]
    refine ⟨Q / yt.length, S / yt.length, _, rfl, rfl, rfl, rfl, rfl, rfl, hm, by positivity,
      Real.sqrt_nonneg _, hm0, by rw [div_eq_zero_iff, or_iff_left hn.ne', h4], ?_,
      Real.sq_sqrt hmR, ?_⟩
    · rw [Real.sqrt_eq_zero hmR, ← hm0]; norm_cast
    · apply Real.le_sqrt_of_sq_le
      have : (S / yt.length) ^ 2 ≤ Q / yt.length := by
        rw [div_pow, div_le_div_iff₀ (by positivity) hn]
        nlinarith
      exact_mod_cast this

example : mse [3, 1] [1, 1] = .ok 2 ∧ mae [3, 1] [1, 1] = .ok 1 := by
  refine ⟨?_, ?_⟩ <;> decide +kernel

end DRec
