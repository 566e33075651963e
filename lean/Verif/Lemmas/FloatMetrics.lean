import Verif.Lemmas.FloatOff
import Verif.Spec.FloatMetrics
import Verif.Props.Ndcg
import Mathlib.Tactic.IntervalCases

/-! # Metrics in double precision: average precision, NDCG and error metrics -/

namespace DRec.Metrics

open DRec.Spec

variable {α : Type} [DecidableEq α]

theorem pyDivF_eq (a b : ℚ) : pyDivF a b = (pyDiv a b).map toFloat := by
  unfold pyDivF pyDiv
  split <;> rfl

theorem precisionF_eq (recs : List α) (k : Option Nat) (rel : List α) :
    precisionF recs k (some rel) = (precision recs k (some rel)).map toFloat := pyDivF_eq _ _

theorem recallF_eq (recs : List α) (k : Option Nat) (rel : List α) :
    recallF recs k (some rel) = (recall recs k (some rel)).map toFloat := pyDivF_eq _ _

omit [DecidableEq α] in
theorem hitRatioF_eq {β : Type} [DecidableEq β] (str : α → β) (recs : List α) (k : Option Nat) (rel : List α) :
    hitRatioF str recs k (some rel) = (hitRatio str recs k (some rel)).map toFloat := pyDivF_eq _ _

/-- A share of at most 2^53 parts that is not everything is below 1 by at least one part. -/
theorem share_lt {c n : Nat} (h : c < n) : ((c : ℚ) / n) ≤ 1 - 1 / n := by
  have hn : (0 : ℚ) < n := by exact_mod_cast (Nat.zero_le c).trans_lt h
  rw [div_le_iff₀ hn, sub_mul, one_div, inv_mul_cancel₀ hn.ne', one_mul]
  have : (c : ℚ) + 1 ≤ n := by exact_mod_cast h
  linarith

theorem isDouble_one_sub {j : Nat} (hj : j ≤ 53) : IsDouble (1 - 1 / 2 ^ j : ℚ) := by
  refine ⟨2 ^ j - 1, -j, ?_, ?_⟩
  · have h1 : (1 : Int) ≤ 2 ^ j := one_le_pow₀ (by norm_num)
    have h2 : (2 : Int) ^ j ≤ 2 ^ 53 := pow_le_pow_right₀ (by norm_num) hj
    rw [abs_lt]
    constructor <;> linarith
  · push_cast
    rw [zpow_neg, zpow_natCast]
    field_simp

theorem toFloat_below {x : ℚ} {j : Nat} (hj : j ≤ 53) (h : x ≤ 1 - 1 / 2 ^ j) : toFloat x ≤ 1 - 1 / 2 ^ j := by
  have := toFloat_mono h
  rwa [toFloat_of_isDouble (isDouble_one_sub hj)] at this

theorem inv_pow_le {n j : Nat} (h0 : 0 < n) (h : n ≤ 2 ^ j) : (1 : ℚ) / 2 ^ j ≤ 1 / n := by
  have h0' : (0 : ℚ) < n := by exact_mod_cast h0
  have h' : (n : ℚ) ≤ 2 ^ j := by exact_mod_cast h
  exact one_div_le_one_div_of_le h0' h'

/-- The precisions that average precision adds up: in (0,1], not within one part of 1 unless 1, and not more than there are hits. -/
theorem apLoop_both (recs rel : List α) : ∀ (l pre : List α), recs = pre ++ l → ∃ ps : List ℚ,
    (∀ acc, apLoop recs rel (l.zipIdx (pre.length + 1)) acc = .ok (acc + ps.sum)) ∧
    (∀ acc, apLoopF recs rel (l.zipIdx (pre.length + 1)) acc = .ok ((ps.map toFloat).foldl (fun s x => toFloat (s + x)) acc)) ∧
    (∀ p ∈ ps, 0 < p ∧ p ≤ 1 ∧ (p = 1 ∨ p ≤ 1 - 1 / recs.length)) ∧ ps.length + hits pre rel = hits (pre ++ l) rel := by
  intro l
  induction l with
  | nil => intro pre e; exact ⟨[], by simp [apLoop], by simp [apLoopF], by simp, by simp⟩
  | cons r l ih =>
    intro pre e
    have e' : recs = (pre ++ [r]) ++ l := by rw [e]; simp
    have hpre : recs.take (pre.length + 1 - 1) = pre := by rw [e]; simp
    have htake : firstK (some (pre.length + 1)) recs = pre ++ [r] := by rw [e']; exact List.take_left' (by simp)
    obtain ⟨ps, h1, h2, h3, h4⟩ := ih (pre ++ [r]) e'
    rw [List.length_append, List.length_singleton] at h1 h2
    have happ : pre ++ [r] ++ l = pre ++ r :: l := by simp
    rw [happ] at h4
    by_cases hc : r ∈ rel ∧ r ∉ pre
    · obtain ⟨p, hp, hp1, hp2, hp3, hp4⟩ := (C39_precision recs rel (some (pre.length + 1))).2 (by rw [htake]; simp)
      have hpF : precisionF recs (some (pre.length + 1)) (some rel) = .ok (toFloat p) := by rw [precisionF_eq, hp]; rfl
      have hh : hits (pre ++ [r]) rel = hits pre rel + 1 := by
        unfold hits
        have hperm : (pre ++ [r]).dedup.Perm (r :: pre.dedup) := by
          have h1 : (r :: pre).dedup = r :: pre.dedup := List.dedup_cons_of_notMem hc.2
          rw [← h1]
          exact (List.perm_append_comm (l₁ := pre) (l₂ := [r])).dedup
        rw [(hperm.filter _).length_eq, List.filter_cons_of_pos (by simpa using hc.1)]
        simp
      refine ⟨p :: ps, fun acc => ?_, fun acc => ?_, ?_, by rw [List.length_cons]; omega⟩
      · rw [List.zipIdx_cons]
        unfold apLoop
        rw [hpre, if_pos hc, hp]
        simp only
        rw [h1, List.sum_cons]
        congr 1
        ring
      · rw [List.zipIdx_cons]
        unfold apLoopF
        rw [hpre, if_pos hc, hpF]
        simp only
        rw [h2, List.map_cons, List.foldl_cons]
      · intro q hq
        rcases List.mem_cons.1 hq with rfl | hq
        · have hq0 : q ≠ 0 := fun h => hp4.1 h r (by rw [htake]; simp) hc.1
          refine ⟨lt_of_le_of_ne hp2 (Ne.symm hq0), hp3, ?_⟩
          rw [htake, List.length_append, List.length_singleton] at hp1
          have hn : (0 : ℚ) < (pre.length + 1 : ℕ) := by positivity
          have hq : q = (hits (pre ++ [r]) rel : ℚ) / (pre.length + 1 : ℕ) := by rw [eq_div_iff hn.ne']; exact hp1
          rcases Nat.lt_or_ge (hits (pre ++ [r]) rel) (pre.length + 1) with hlt | hge
          · right
            rw [hq]
            refine (share_lt hlt).trans ?_
            have : pre.length + 1 ≤ recs.length := by rw [e]; simp
            have : ((pre.length + 1 : ℕ) : ℚ) ≤ recs.length := by exact_mod_cast this
            linarith [one_div_le_one_div_of_le hn this]
          · left
            refine le_antisymm hp3 ?_
            rw [hq, le_div_iff₀ hn, one_mul]
            exact_mod_cast hge
        · exact h3 q hq
    · refine ⟨ps, fun acc => ?_, fun acc => ?_, h3, ?_⟩
      · rw [List.zipIdx_cons]
        unfold apLoop
        rw [hpre, if_neg hc]
        exact h1 acc
      · rw [List.zipIdx_cons]
        unfold apLoopF
        rw [hpre, if_neg hc]
        exact h2 acc
      · rw [← h4]
        congr 1
        unfold hits
        by_cases hr : r ∈ pre
        · have : (pre ++ [r]).dedup.Perm pre.dedup := by
            have h1 : (r :: pre).dedup = pre.dedup := List.dedup_cons_of_mem hr
            rw [← h1]
            exact (List.perm_append_comm (l₁ := pre) (l₂ := [r])).dedup
          rw [(this.filter _).length_eq]
        · have hrel : r ∉ rel := fun h => hc ⟨h, hr⟩
          have : (pre ++ [r]).dedup.Perm (r :: pre.dedup) := by
            have h1 : (r :: pre).dedup = r :: pre.dedup := List.dedup_cons_of_notMem hr
            rw [← h1]
            exact (List.perm_append_comm (l₁ := pre) (l₂ := [r])).dedup
          rw [(this.filter _).length_eq, List.filter_cons_of_neg (by simpa using hrel)]

/-- Precisions of which one is clearly below 1 do not add up to their number. -/
theorem fold_below (l : List ℚ) (h : ∀ x ∈ l, x ≤ 1) : ∀ (n : Nat) (s : ℚ), n + l.length ≤ 2 ^ 26 →
    (s ≤ n → l.foldl (fun s x => toFloat (s + x)) s ≤ ((n + l.length : ℕ) : ℚ)) ∧
    (0 < n → s ≤ n - 1 / 2 ^ 26 → l.foldl (fun s x => toFloat (s + x)) s ≤ ((n + l.length : ℕ) : ℚ) - 1 / 2 ^ 26) ∧
    (s ≤ n → (∃ x ∈ l, x ≤ 1 - 1 / 2 ^ 26) → l.foldl (fun s x => toFloat (s + x)) s ≤ ((n + l.length : ℕ) : ℚ) - 1 / 2 ^ 26) := by
  have hd : ∀ n : Nat, 0 < n → n ≤ 2 ^ 26 → IsDouble ((n : ℚ) - 1 / 2 ^ 26) := by
    intro n h0 hn
    refine ⟨n * 2 ^ 26 - 1, -26, ?_, ?_⟩
    · have : (n : Int) ≤ 2 ^ 26 := by exact_mod_cast hn
      have : (1 : Int) ≤ n := by exact_mod_cast h0
      rw [abs_lt]
      constructor <;> linarith
    · push_cast
      rw [zpow_neg]
      norm_num
      ring
  induction l with
  | nil =>
    intro n s _
    exact ⟨fun h => by simpa using h, fun _ h => by simpa using h, fun _ ⟨x, hx, _⟩ => absurd hx (by simp)⟩
  | cons x l ih =>
    intro n s hl
    rw [List.length_cons] at hl
    have hx := h x List.mem_cons_self
    obtain ⟨i1, i2, i3⟩ := ih (fun y hy => h y (List.mem_cons_of_mem _ hy)) (n + 1) (toFloat (s + x)) (by omega)
    have e : n + 1 + l.length = n + (l.length + 1) := by omega
    rw [e] at i1 i2 i3
    have up : s ≤ n → toFloat (s + x) ≤ ((n + 1 : ℕ) : ℚ) := by
      intro hs
      have h2 := toFloat_mono (show s + x ≤ ((n + 1 : ℕ) : ℚ) by push_cast; linarith)
      rwa [toFloat_of_isDouble (isDouble_nat (by omega))] at h2
    have low : s + x ≤ ((n + 1 : ℕ) : ℚ) - 1 / 2 ^ 26 → toFloat (s + x) ≤ ((n + 1 : ℕ) : ℚ) - 1 / 2 ^ 26 := by
      intro hs
      have h2 := toFloat_mono hs
      rwa [toFloat_of_isDouble (hd (n + 1) (by omega) (by omega))] at h2
    simp only [List.foldl_cons, List.length_cons]
    refine ⟨fun hs => i1 (up hs), fun _ hs => i2 (by omega) (low (by push_cast; linarith)), fun hs ⟨y, hy, hy1⟩ => ?_⟩
    rcases List.mem_cons.1 hy with rfl | hy
    · exact i2 (by omega) (low (by push_cast; linarith))
    · exact i3 (up hs) ⟨y, hy, hy1⟩

/-- Ones add up exactly. -/
theorem fold_ones (l : List ℚ) (h : ∀ x ∈ l, x = 1) : ∀ n : Nat, n + l.length ≤ 2 ^ 53 →
    l.foldl (fun s x => toFloat (s + x)) (n : ℚ) = ((n + l.length : ℕ) : ℚ) := by
  induction l with
  | nil => intro n _; rfl
  | cons x l ih =>
    intro n hn
    rw [List.length_cons] at hn
    rw [List.foldl_cons, h x List.mem_cons_self, show (n : ℚ) + 1 = ((n + 1 : ℕ) : ℚ) by push_cast; rfl,
      toFloat_of_isDouble (isDouble_nat (by omega)), ih (fun y hy => h y (List.mem_cons_of_mem _ hy)) (n + 1) (by omega), List.length_cons]
    congr 1
    omega

/-! ## NDCG -/

theorem off_of_error {x y : ℝ} {k : Nat} (hx : 0 ≤ x) (h : |y - x| ≤ k * x / 2 ^ 53) (hk : k ≤ 4) : Off (k + 1) x y := by
  have p : (0 : ℝ) < 1 - 1 / 2 ^ 53 := by norm_num
  obtain ⟨h1, h2⟩ := abs_le.1 h
  have e1 : unitF ℝ ^ (k + 1) * (1 - 1 / 2 ^ 53) ^ (k + 1) = 1 := by
    rw [← mul_pow, unitF, one_div, inv_mul_cancel₀ p.ne', one_pow]
  have w : (0 : ℝ) < unitF ℝ ^ (k + 1) := pow_pos unitF_pos _
  have low : (1 - 1 / 2 ^ 53 : ℝ) ^ (k + 1) ≤ 1 - k / 2 ^ 53 := by
    interval_cases k <;> norm_num
  have up : (1 + k / 2 ^ 53 : ℝ) * (1 - 1 / 2 ^ 53 : ℝ) ^ (k + 1) ≤ 1 := by
    interval_cases k <;> norm_num
  refine ⟨hx, ?_, ?_⟩
  · calc x = unitF ℝ ^ (k + 1) * ((1 - 1 / 2 ^ 53) ^ (k + 1) * x) := by rw [← mul_assoc, e1, one_mul]
      _ ≤ unitF ℝ ^ (k + 1) * y := by
        refine mul_le_mul_of_nonneg_left ?_ w.le
        refine (mul_le_mul_of_nonneg_right low hx).trans ?_
        have : (1 - (k : ℝ) / 2 ^ 53) * x = x - k * x / 2 ^ 53 := by ring
        linarith
  · calc y ≤ (1 + k / 2 ^ 53) * x := by
          have : (1 + (k : ℝ) / 2 ^ 53) * x = x + k * x / 2 ^ 53 := by ring
          linarith
      _ = unitF ℝ ^ (k + 1) * (((1 + k / 2 ^ 53 : ℝ) * (1 - 1 / 2 ^ 53 : ℝ) ^ (k + 1)) * x) := by
          calc _ = (unitF ℝ ^ (k + 1) * (1 - 1 / 2 ^ 53) ^ (k + 1)) * ((1 + k / 2 ^ 53) * x) := by rw [e1, one_mul]
            _ = _ := by ring
      _ ≤ unitF ℝ ^ (k + 1) * (1 * x) := by
          exact mul_le_mul_of_nonneg_left (mul_le_mul_of_nonneg_right up hx) w.le
      _ = unitF ℝ ^ (k + 1) * x := by rw [one_mul]

theorem log2_off {F : Libm} (hF : AccurateLibm F) (i : Nat) : Off 3 (Real.logb 2 (2 + i)) (F.log2 (2 + i) : ℝ) := by
  have h := hF.log2 (2 + i) (by omega)
  push_cast at h
  refine off_of_error (k := 2) (logb_pos i).le (h.trans (le_of_eq ?_)) (by norm_num)
  push_cast
  ring

theorem gain_off {F : Libm} (hF : AccurateLibm F) (strong : Bool) {x : ℚ} (h0 : 0 ≤ x) (h1 : strong = true → x = 0 ∨ 1 ≤ x) :
    Off 6 (gain strong (x : ℝ)) (gainF F strong x : ℝ) := by
  have hx : (0 : ℝ) ≤ x := by exact_mod_cast h0
  unfold gain gainF
  cases strong with
  | false => simpa using (Off.refl hx).mono (by omega : 0 ≤ 6)
  | true =>
    simp only [if_true]
    rcases h1 rfl with rfl | h1
    · rw [hF.exp2_zero, sub_self, toFloat_zero]
      simpa using (Off.refl (le_refl (0 : ℝ))).mono (by omega : 0 ≤ 6)
    · have hx1 : (1 : ℝ) ≤ x := by exact_mod_cast h1
      have hp : (2 : ℝ) ≤ (2 : ℝ) ^ (x : ℝ) := by
        have := Real.rpow_le_rpow_of_exponent_le (x := 2) (by norm_num) hx1
        rwa [Real.rpow_one] at this
      have e := hF.exp2 x h0
      have o : Off 5 ((2 : ℝ) ^ (x : ℝ) - 1) ((F.exp2 x - 1 : ℚ) : ℝ) := by
        refine off_of_error (k := 4) (by linarith) ?_ (le_refl 4)
        push_cast
        have : (F.exp2 x : ℝ) - 1 - ((2 : ℝ) ^ (x : ℝ) - 1) = F.exp2 x - (2 : ℝ) ^ (x : ℝ) := by ring
        rw [this]
        refine e.trans ?_
        have : (4 : ℝ) * ((2 : ℝ) ^ (x : ℝ) - 1) / 2 ^ 53 = (2 * ((2 : ℝ) ^ (x : ℝ) - 1)) / 2 ^ 52 := by ring
        rw [this]
        exact div_le_div_of_nonneg_right (by linarith) (by positivity)
      have := o.round
      rwa [Dm.toFloat_cast] at this

theorem lookupRel_real (rels : List (α × ℚ)) (r : α) : lookupRel (exactRels rels) r = (lookupRel rels r).map (Rat.cast : ℚ → ℝ) := by
  unfold lookupRel exactRels
  rw [List.find?_map, Option.map_map, Option.map_map]
  rfl

theorem lookupRel_mem {β : Type} {rels : List (α × β)} {r : α} {x : β} (h : lookupRel rels r = some x) : ∃ p ∈ rels, p.2 = x := by
  unfold lookupRel at h
  obtain ⟨p, hp, hx⟩ := Option.map_eq_some_iff.1 h
  exact ⟨p, List.mem_of_find?_eq_some hp, hx⟩

theorem dcgLoop_off {F : Libm} (hF : AccurateLibm F) (strong : Bool) (rels : List (α × ℚ)) (h0 : ∀ p ∈ rels, 0 ≤ p.2)
    (h1 : strong = true → ∀ p ∈ rels, p.2 = 0 ∨ 1 ≤ p.2) : ∀ (l : List α) (i n : Nat) (acc : ℝ) (accF : ℚ), 10 ≤ n →
    Off n acc (accF : ℝ) →
    (∀ e, dcgLoopF F strong rels l i accF = .error e → dcgLoop strong (exactRels rels) l i acc = .error e) ∧
    (∀ s, dcgLoopF F strong rels l i accF = .ok s → ∃ t, dcgLoop strong (exactRels rels) l i acc = .ok t ∧ Off (n + l.length) t (s : ℝ)) := by
  intro l
  induction l with
  | nil =>
    intro i n acc accF _ ha
    exact ⟨fun e h => (by simp [dcgLoopF] at h), fun s h => ⟨acc, rfl, by simp only [dcgLoopF, Except.ok.injEq] at h; subst h; simpa using ha⟩⟩
  | cons r l ih =>
    intro i n acc accF hn ha
    unfold dcgLoopF dcgLoop
    rw [lookupRel_real]
    cases hr : lookupRel rels r with
    | none => exact ⟨fun e h => by simpa using h, fun s h => (by simp at h)⟩
    | some x =>
      obtain ⟨p, hp, rfl⟩ := lookupRel_mem hr
      have g := gain_off hF strong (h0 p hp) (fun hs => h1 hs p hp)
      have q := (g.div (log2_off hF i) (logb_pos i)).round
      rw [← Rat.cast_div, Dm.toFloat_cast] at q
      have a := (ha.add (q.mono (by omega : 6 + 3 + 1 ≤ n))).round
      rw [← Rat.cast_add, Dm.toFloat_cast] at a
      have := ih (i + 1) (n + 1) _ _ (by omega) a
      simp only [Option.map_some, List.length_cons]
      rw [show n + (l.length + 1) = n + 1 + l.length by omega]
      exact this

omit [DecidableEq α] in
theorem idealOrder_real (rels : List (α × ℚ)) : idealOrder (exactRels rels) = idealOrderF rels := by
  unfold idealOrder idealOrderF exactRels
  rw [← List.map_insertionSort (r := fun a b : α × ℚ => -a.2 ≤ -b.2) (s := fun a b : α × ℝ => -a.2 ≤ -b.2)
    (f := fun p : α × ℚ => (p.1, (p.2 : ℝ)))]
  · rw [List.map_map]
    rfl
  · intro a _ b _
    simp

/-! ## Error metrics -/

theorem addedUp_pos {l : List ℚ} {s : ℚ} (h : AddedUp l s) : 1 ≤ l.length := by
  induction h with
  | one => simp
  | add _ _ hp h1 h2 => rw [hp.length_eq, List.length_append]; omega

theorem addedUp_off {l : List ℚ} {s : ℚ} (h : AddedUp l s) : (∀ x ∈ l, 0 ≤ x) → Off l.length l.sum s := by
  induction h with
  | one x => intro h; simpa using (Off.refl (h x (by simp))).mono (by omega : 0 ≤ 1)
  | @add a b l s t ha hb hp h1 h2 =>
    intro h
    have pa := addedUp_pos ha
    have pb := addedUp_pos hb
    have h1 := h1 fun x hx => h x (hp.symm.subset (List.mem_append_left _ hx))
    have h2 := h2 fun x hx => h x (hp.symm.subset (List.mem_append_right _ hx))
    rw [hp.sum_eq, List.sum_append, hp.length_eq, List.length_append]
    exact ((h1.mono (by omega : a.length ≤ a.length + b.length - 1)).add
      (h2.mono (by omega : b.length ≤ a.length + b.length - 1))).round.mono (by omega)

theorem addedUp_exists : ∀ l : List ℚ, l ≠ [] → ∃ s, AddedUp l s := by
  intro l
  induction l with
  | nil => intro h; exact absurd rfl h
  | cons x l ih =>
    intro _
    rcases l with _ | ⟨y, l⟩
    · exact ⟨x, .one x⟩
    · obtain ⟨s, hs⟩ := ih (by simp)
      exact ⟨_, .add (.one x) hs (List.Perm.refl _)⟩

theorem zipWith_off {k : Nat} (f g : ℚ → ℚ → ℚ) (h : ∀ a b, Off k (f a b) (g a b)) : ∀ yt yp : List ℚ,
    Off k (List.zipWith f yt yp).sum (List.zipWith g yt yp).sum := by
  intro yt
  induction yt with
  | nil => intro yp; simpa using (Off.refl (le_refl (0 : ℚ))).mono (Nat.zero_le k)
  | cons a yt ih =>
    intro yp
    cases yp with
    | nil => simpa using (Off.refl (le_refl (0 : ℚ))).mono (Nat.zero_le k)
    | cons b yp =>
      simp only [List.zipWith_cons_cons, List.sum_cons]
      exact (h a b).add (ih yp)

theorem zipWith_mem (g : ℚ → ℚ → ℚ) (h : ∀ a b, 0 ≤ g a b) : ∀ yt yp : List ℚ, ∀ x ∈ List.zipWith g yt yp, 0 ≤ x := by
  intro yt
  induction yt with
  | nil => simp
  | cons a yt ih =>
    intro yp
    cases yp with
    | nil => simp
    | cons b yp =>
      intro x hx
      rcases List.mem_cons.1 hx with rfl | hx
      · exact h a b
      · exact ih yp x hx

/-- A mean of rounded terms, each off by `k` roundings. -/
theorem mean_off {k : Nat} (f g : ℚ → ℚ → ℚ) (h : ∀ a b, Off k (f a b) (g a b)) (yt yp : List ℚ) (hl : yt.length = yp.length) {s : ℚ}
    (hs : AddedUp (List.zipWith g yt yp) s) :
    Off (k + yt.length + 1) ((List.zipWith f yt yp).sum / yt.length) (toFloat (s / yt.length)) := by
  have h1 := addedUp_off hs (zipWith_mem g (fun a b => (h a b).nonneg) yt yp)
  have h0 := addedUp_pos hs
  rw [List.length_zipWith, ← hl, Nat.min_self] at h1 h0
  have hn : (0 : ℚ) < yt.length := by exact_mod_cast h0
  exact (((zipWith_off f g h yt yp).trans h1).div (Off.refl hn.le) hn).round

theorem abs_off (a b : ℚ) : Off 1 |a - b| |toFloat (a - b)| := by
  rw [abs_toFloat]
  exact off_round (abs_nonneg _)

theorem square_off (a b : ℚ) : Off 3 ((a - b) ^ 2) (toFloat (toFloat (a - b) ^ 2)) := by
  have h := (abs_off a b).mul (abs_off a b)
  rw [← sq, ← sq, sq_abs, sq_abs] at h
  exact h.round

end DRec.Metrics
