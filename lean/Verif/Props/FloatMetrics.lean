import Verif.Lemmas.FloatMetrics
import Mathlib.Analysis.Real.Sqrt
import Mathlib.NumberTheory.Real.Irrational

/-!
# C141: metric values in double precision

The values of `Model/FloatMetrics` against the exact ones of `Model/Metrics`.
-/

namespace DRec.Metrics

open DRec.Spec

variable {α : Type} [DecidableEq α]

/-! ## Quotients of two numbers of items -/

theorem share_float {c n : Nat} (h : c ≤ n) (hn : 0 < n) : 0 ≤ toFloat ((c : ℚ) / n) ∧ toFloat ((c : ℚ) / n) ≤ 1 ∧
    (toFloat ((c : ℚ) / n) = 0 ↔ (c : ℚ) / n = 0) ∧ (n ≤ 2 ^ 53 → (toFloat ((c : ℚ) / n) = 1 ↔ (c : ℚ) / n = 1)) := by
  have hn' : (0 : ℚ) < n := by exact_mod_cast hn
  have h0 : 0 ≤ (c : ℚ) / n := by positivity
  have h1 : (c : ℚ) / n ≤ 1 := (div_le_one hn').2 (by exact_mod_cast h)
  refine ⟨toFloat_nonneg h0, toFloat_le_one h1, (off_round h0).eq_zero.symm, fun hb => ⟨fun e => ?_, fun e => by rw [e, toFloat_one]⟩⟩
  rcases h.lt_or_eq with hlt | rfl
  · exfalso
    have := toFloat_below (le_refl 53) ((share_lt hlt).trans (by linarith [inv_pow_le (j := 53) hn hb]))
    rw [e] at this
    norm_num at this
  · exact div_self hn'.ne'

theorem share_lt_iff {c n c' n' : Nat} (h : c ≤ n) (h' : c' ≤ n') (hn : 0 < n) (hn' : 0 < n') (hb : n ≤ 2 ^ 25) (hb' : n' ≤ 2 ^ 25) :
    toFloat ((c : ℚ) / n) < toFloat ((c' : ℚ) / n') ↔ (c : ℚ) / n < (c' : ℚ) / n' := by
  have p : (0 : ℚ) < n := by exact_mod_cast hn
  have p' : (0 : ℚ) < n' := by exact_mod_cast hn'
  have q := quotients_apart (K := ℚ) one_pos (a := c) (b := c') (B := 1) (N := 2 ^ 25) hn hn' hb hb'
    (by rw [abs_of_nonneg (by positivity)]; simpa using (div_le_one p).2 (by exact_mod_cast h))
    (by rw [abs_of_nonneg (by positivity)]; simpa using (div_le_one p').2 (by exact_mod_cast h')) (by norm_num)
  simp only [Int.cast_natCast, mul_one] at q
  exact toFloat_lt_iff q

/-- What C141 says about a metric that is a quotient: the exact value `x`, the double `y`, the divisor `n`. -/
def RoundedShare (x y : Except Err ℚ) (n : Nat) : Prop :=
  (∀ e, x = .error e ↔ y = .error e) ∧ ∀ p, x = .ok p → ∃ q, y = .ok q ∧ NearestDouble p q ∧ 0 ≤ q ∧ q ≤ 1 ∧ (q = 0 ↔ p = 0) ∧
    (n ≤ 2 ^ 53 → (q = 1 ↔ p = 1))

theorem roundedShare {c n : Nat} (h : c ≤ n) : RoundedShare (pyDiv c n) (pyDivF c n) n := by
  rcases Nat.eq_zero_or_pos n with rfl | hn
  · simp [RoundedShare, pyDiv, pyDivF]
  · have hn' : ((n : ℕ) : ℚ) ≠ 0 := by exact_mod_cast hn.ne'
    unfold RoundedShare pyDiv pyDivF
    rw [if_neg hn', if_neg hn']
    refine ⟨fun e => by simp, fun p hp => ⟨_, rfl, ?_⟩⟩
    cases hp
    obtain ⟨h1, h2, h3, h4⟩ := share_float h hn
    exact ⟨toFloat_nearest _, h1, h2, h3, h4⟩

/-- **C141.** Precision, recall and hit ratio are the exact values rounded once.  They raise exactly when the exact ones do, lie between
0 and 1, and are 0, and for lists of up to 2^53 items 1, exactly when the exact values are. -/
theorem C141_shares {β : Type} [DecidableEq β] (str : α → β) (recs rel : List α) (k : Option Nat) :
    RoundedShare (precision recs k (some rel)) (precisionF recs k (some rel)) recs.length ∧
    RoundedShare (recall recs k (some rel)) (recallF recs k (some rel)) rel.length ∧
    RoundedShare (hitRatio str recs k (some rel)) (hitRatioF str recs k (some rel)) rel.length := by
  refine ⟨?_, ?_, ?_⟩
  · have h : common (trunc k recs) rel ≤ (trunc k recs).length := by rw [common_eq]; exact hits_le_left _ _
    have hl : (trunc k recs).length ≤ recs.length := by cases k <;> simp [trunc]
    obtain ⟨h1, h2⟩ := roundedShare h
    refine ⟨h1, fun p hp => ?_⟩
    obtain ⟨q, a, b, c, d, e, f⟩ := h2 p hp
    exact ⟨q, a, b, c, d, e, fun hb => f (hl.trans hb)⟩
  · exact roundedShare (by rw [common_eq]; exact hits_le_right _ _)
  · have h : common ((trunc k recs).map str) (rel.map str) ≤ (rel.map str).toFinset.card := by
      rw [common_eq, toFinset_card_dedup]; exact hits_le_dedup _ _
    have hl : (rel.map str).toFinset.card ≤ rel.length := (List.toFinset_card_le _).trans (by simp)
    obtain ⟨h1, h2⟩ := roundedShare h
    refine ⟨h1, fun p hp => ?_⟩
    obtain ⟨q, a, b, c, d, e, f⟩ := h2 p hp
    exact ⟨q, a, b, c, d, e, fun hb => f (hl.trans hb)⟩

/-- **C141.** Of two lists of up to 2^25 items one has the higher precision (recall) exactly when it has in double precision. -/
theorem C141_order (recs rel recs' rel' : List α) (k k' : Option Nat) (hr : recs.length ≤ 2 ^ 25) (hr' : recs'.length ≤ 2 ^ 25)
    (hl : rel.length ≤ 2 ^ 25) (hl' : rel'.length ≤ 2 ^ 25) :
    (∀ p p' q q', precision recs k (some rel) = .ok p → precision recs' k' (some rel') = .ok p' →
      precisionF recs k (some rel) = .ok q → precisionF recs' k' (some rel') = .ok q' → (q < q' ↔ p < p')) ∧
    (∀ p p' q q', recall recs k (some rel) = .ok p → recall recs' k' (some rel') = .ok p' →
      recallF recs k (some rel) = .ok q → recallF recs' k' (some rel') = .ok q' → (q < q' ↔ p < p')) := by
  have key : ∀ (c n c' n' : Nat) (p p' q q' : ℚ), c ≤ n → c' ≤ n' → n ≤ 2 ^ 25 → n' ≤ 2 ^ 25 → pyDiv c n = .ok p → pyDiv c' n' = .ok p' →
      pyDivF c n = .ok q → pyDivF c' n' = .ok q' → (q < q' ↔ p < p') := by
    intro c n c' n' p p' q q' h h' hb hb' h1 h2 h3 h4
    rcases Nat.eq_zero_or_pos n with rfl | hn
    · simp [pyDiv] at h1
    rcases Nat.eq_zero_or_pos n' with rfl | hn'
    · simp [pyDiv] at h2
    have e : ((n : ℕ) : ℚ) ≠ 0 := by exact_mod_cast hn.ne'
    have e' : ((n' : ℕ) : ℚ) ≠ 0 := by exact_mod_cast hn'.ne'
    simp only [pyDiv, pyDivF, if_neg e, if_neg e', Except.ok.injEq] at h1 h2 h3 h4
    subst h1 h2 h3 h4
    exact share_lt_iff h h' hn hn' hb hb'
  have t : ∀ (k : Option Nat) (l : List α), (trunc k l).length ≤ l.length := fun k l => by cases k <;> simp [trunc]
  constructor
  · intro p p' q q' h1 h2 h3 h4
    exact key _ _ _ _ p p' q q' (by rw [common_eq]; exact hits_le_left _ _) (by rw [common_eq]; exact hits_le_left _ _)
      ((t k recs).trans hr) ((t k' recs').trans hr') h1 h2 h3 h4
  · intro p p' q q' h1 h2 h3 h4
    exact key _ _ _ _ p p' q q' (by rw [common_eq]; exact hits_le_right _ _) (by rw [common_eq]; exact hits_le_right _ _) hl hl' h1 h2 h3 h4

/-- **C141.** Reciprocal ranks are rounded once, and an item further up has a higher one, in lists of up to 2^25 items. -/
theorem C141_ranks (recs recs' : List α) (k k' : Option Nat) (x x' : α) (hr : recs.length ≤ 2 ^ 25) (hr' : recs'.length ≤ 2 ^ 25) :
    NearestDouble (reciprocalRank recs k (some x)) (reciprocalRankF recs k (some x)) ∧
    (reciprocalRankF recs k (some x) < reciprocalRankF recs' k' (some x') ↔
      reciprocalRank recs k (some x) < reciprocalRank recs' k' (some x')) := by
  have e : ∀ (l : List α) (k : Option Nat) (x : α), reciprocalRankF l k (some x) = toFloat (reciprocalRank l k (some x)) := by
    intro l k x
    unfold reciprocalRankF reciprocalRank
    simp only
    split
    · rfl
    · rw [toFloat_zero]
  have s : ∀ (l : List α) (k : Option Nat) (x : α), l.length ≤ 2 ^ 25 →
      ∃ c n : Nat, c ≤ n ∧ 0 < n ∧ n ≤ 2 ^ 25 ∧ reciprocalRank l k (some x) = (c : ℚ) / n := by
    intro l k x hl
    unfold reciprocalRank
    simp only
    have t : (trunc k l).length ≤ l.length := by cases k <;> simp [trunc]
    split
    · rename_i h
      exact ⟨1, (trunc k l).idxOf x + 1, by omega, by omega, (List.idxOf_lt_length_of_mem h).trans_le (t.trans hl), by push_cast; rfl⟩
    · exact ⟨0, 1, by omega, by omega, by norm_num, by simp⟩
  rw [e, e]
  refine ⟨toFloat_nearest _, ?_⟩
  obtain ⟨c, n, h1, h2, h3, h4⟩ := s recs k x hr
  obtain ⟨c', n', h1', h2', h3', h4'⟩ := s recs' k' x' hr'
  rw [h4, h4']
  exact share_lt_iff h1 h1' h2 h2' h3 h3'

/-! ## F-score -/

theorem fscoreF_eq {beta : ℚ} {recs rel : List α} {k : Option Nat} {p r : ℚ} (hp : precision recs k (some rel) = .ok p)
    (hr : recall recs k (some rel) = .ok r) :
    fscoreF beta recs k (some rel) = pyDivF (toFloat (toFloat (toFloat (1 + toFloat (beta ^ 2)) * toFloat p) * toFloat r))
      (toFloat (toFloat (toFloat (beta ^ 2) * toFloat p) + toFloat r)) := by
  have h1 : precisionF recs k (some rel) = .ok (toFloat p) := by rw [precisionF_eq, hp]; rfl
  have h2 : recallF recs k (some rel) = .ok (toFloat r) := by rw [recallF_eq, hr]; rfl
  unfold fscoreF
  simp only [h1, h2]
  rfl

/-- **C141.** The F-score raises exactly when the exact one does, and differs from it by at most eleven units of 2^-52 of its value. -/
theorem C141_fscore (beta : ℚ) (recs rel : List α) (k : Option Nat) :
    (∀ e, fscore beta recs k (some rel) = .error e ↔ fscoreF beta recs k (some rel) = .error e) ∧
    ∀ f, fscore beta recs k (some rel) = .ok f → ∃ v, fscoreF beta recs k (some rel) = .ok v ∧ 0 < v ∧ |v - f| ≤ 11 * f / 2 ^ 52 := by
  cases hp : precision recs k (some rel) with
  | error e =>
    have h1 : precisionF recs k (some rel) = .error e := by rw [precisionF_eq, hp]; rfl
    have e1 : fscore beta recs k (some rel) = .error e := by unfold fscore; simp only [hp]; rfl
    have e2 : fscoreF beta recs k (some rel) = .error e := by unfold fscoreF; simp only [h1]; rfl
    rw [e1, e2]
    exact ⟨fun e' => by simp, fun f hf => by cases hf⟩
  | ok p =>
    cases hr : recall recs k (some rel) with
    | error e =>
      have h1 : precisionF recs k (some rel) = .ok (toFloat p) := by rw [precisionF_eq, hp]; rfl
      have h2 : recallF recs k (some rel) = .error e := by rw [recallF_eq, hr]; rfl
      have e1 : fscore beta recs k (some rel) = .error e := by unfold fscore; simp only [hp, hr]; rfl
      have e2 : fscoreF beta recs k (some rel) = .error e := by unfold fscoreF; simp only [h1, h2]; rfl
      rw [e1, e2]
      exact ⟨fun e' => by simp, fun f hf => by cases hf⟩
    | ok r =>
      rw [fscore_eq beta recs rel k p r hp hr, fscoreF_eq hp hr]
      obtain ⟨hz, hp0, hr0, _⟩ := precision_pos_iff recs rel k p r hp hr
      have op := off_round hp0
      have or' := off_round hr0
      have ob := off_round (sq_nonneg beta)
      have o1 := (((Off.refl (zero_le_one (α := ℚ))).mono (Nat.zero_le 1)).add ob).round
      have oN := ((o1.mul op).round.mul or').round
      have oD := ((ob.mul op).round.add (or'.mono (by omega : 1 ≤ 1 + 1 + 1))).round
      unfold pyDiv pyDivF
      by_cases hd : beta ^ 2 * p + r = 0
      · rw [if_pos hd, if_pos (oD.eq_zero.1 hd)]
        exact ⟨fun e => by simp, fun f hf => by cases hf⟩
      · rw [if_neg hd, if_neg (fun h => hd (oD.eq_zero.2 h))]
        have hdp : 0 < beta ^ 2 * p + r := lt_of_le_of_ne oD.1 (Ne.symm hd)
        have oQ := (oN.div oD hdp).round
        refine ⟨fun e => by simp, fun f hf => ⟨_, rfl, ?_, ?_⟩⟩
        · cases hf
          have hr' : r ≠ 0 := fun h => hd (by rw [h, hz.2 h]; simp)
          have hr1 : 0 < r := lt_of_le_of_ne hr0 (Ne.symm hr')
          have hp1 : 0 < p := lt_of_le_of_ne hp0 (fun h => hr' (hz.1 h.symm))
          exact oQ.pos.1 (by positivity)
        · cases hf
          exact oQ.error (by norm_num)

/-- **C141.** With the default `beta` the F-score is at most 1, for lists of up to 2^53 items 1 when precision and recall are, and it is
the same when precision and recall are exchanged. -/
theorem C141_fscore_default (recs rel : List α) (k : Option Nat) (v : ℚ) (hv : fscoreF 1 recs k (some rel) = .ok v) :
    v ≤ 1 ∧ (precision recs k (some rel) = .ok 1 → recall recs k (some rel) = .ok 1 → v = 1) ∧
    ∀ (recs' rel' : List α) (k' : Option Nat), precision recs k (some rel) = recall recs' k' (some rel') →
      recall recs k (some rel) = precision recs' k' (some rel') → fscoreF 1 recs' k' (some rel') = .ok v := by
  have two : toFloat (1 + toFloat ((1 : ℚ) ^ 2)) = 2 := by decide +kernel
  have one : toFloat ((1 : ℚ) ^ 2) = 1 := by decide +kernel
  have dbl : ∀ x : ℚ, toFloat (2 * toFloat x) = 2 * toFloat x := by
    intro x
    obtain ⟨m, e, hm, he⟩ := toFloat_isDouble x
    refine toFloat_of_isDouble ⟨m, e + 1, hm, ?_⟩
    rw [he, zpow_add₀ (by norm_num)]
    ring
  have dd : ∀ x : ℚ, toFloat (toFloat x) = toFloat x := fun x => toFloat_of_isDouble (toFloat_isDouble x)
  have eq : ∀ (recs rel : List α) (k : Option Nat) (p r : ℚ), precision recs k (some rel) = .ok p → recall recs k (some rel) = .ok r →
      fscoreF 1 recs k (some rel) = pyDivF (toFloat (2 * toFloat p * toFloat r)) (toFloat (toFloat p + toFloat r)) := by
    intro recs rel k p r hp hr
    rw [fscoreF_eq hp hr, two, one, dbl, one_mul, dd]
  cases hp : precision recs k (some rel) with
  | error e =>
    have := ((C141_fscore 1 recs rel k).1 e).1 (by unfold fscore; simp only [hp]; rfl)
    rw [hv] at this
    cases this
  | ok p =>
    cases hr : recall recs k (some rel) with
    | error e =>
      have := ((C141_fscore 1 recs rel k).1 e).1 (by unfold fscore; simp only [hp, hr]; rfl)
      rw [hv] at this
      cases this
    | ok r =>
      obtain ⟨q, eq1, _, q0, q1, _⟩ := (C141_shares (fun x : α => x) recs rel k).1.2 p hp
      obtain ⟨s, es1, _, s0, s1, _⟩ := (C141_shares (fun x : α => x) recs rel k).2.1.2 r hr
      have e1 : q = toFloat p := by rw [precisionF_eq, hp] at eq1; cases eq1; rfl
      have e2 : s = toFloat r := by rw [recallF_eq, hr] at es1; cases es1; rfl
      subst e1 e2
      have hv' := hv
      rw [eq recs rel k p r hp hr] at hv
      unfold pyDivF at hv
      split at hv
      · cases hv
      rename_i hD
      cases hv
      have hD' : 0 < toFloat (toFloat p + toFloat r) := lt_of_le_of_ne (toFloat_nonneg (by linarith)) (Ne.symm hD)
      refine ⟨toFloat_le_one ((div_le_one hD').2 (toFloat_mono ?_)), ?_, ?_⟩
      · nlinarith
      · rintro h1 h2
        cases h1
        cases h2
        rw [toFloat_one]
        decide +kernel
      · intro recs' rel' k' h1 h2
        rw [eq recs' rel' k' r p h2.symm h1.symm]
        unfold pyDivF
        rw [show toFloat r + toFloat p = toFloat p + toFloat r by ring, if_neg hD,
          show 2 * toFloat r * toFloat p = 2 * toFloat p * toFloat r by ring]

/-- The claim that the F-score lies between precision and recall. -/
def FscoreBetween : Prop := ∀ (recs rel : List Nat) (p r f : ℚ), precisionF recs none (some rel) = .ok p →
  recallF recs none (some rel) = .ok r → fscoreF 1 recs none (some rel) = .ok f → min p r ≤ f ∧ f ≤ max p r

/-- **C141** (witness): one hit among five recommendations and five relevant items; precision and recall are 0.2, the F-score is
0.20000000000000004. -/
theorem C141_between_refuted : ¬ FscoreBetween := by
  intro h
  have h1 : precisionF [0, 1, 2, 3, 4] none (some [0, 5, 6, 7, 8]) = .ok (toFloat (1 / 5)) := by decide +kernel
  have h2 : recallF [0, 1, 2, 3, 4] none (some [0, 5, 6, 7, 8]) = .ok (toFloat (1 / 5)) := by decide +kernel
  have h3 : fscoreF 1 [0, 1, 2, 3, 4] none (some [0, 5, 6, 7, 8]) = .ok (toFloat (20000000000000004 / 100000000000000000)) := by
    decide +kernel
  have := (h _ _ _ _ _ h1 h2 h3).2
  rw [max_self] at this
  exact absurd this (by decide +kernel)

/-! ## Average precision -/

/-- **C141.** For lists of up to 2^26 items, average precision raises exactly when the exact one does, lies
between 0 and 1, is 0 or 1 exactly when the exact one is, and has a relative error of at most one unit of 2^-52 per hit and two more. -/
theorem C141_average_precision (recs rel : List α) (k : Option Nat) (hl : recs.length ≤ 2 ^ 26) (hl' : rel.length ≤ 2 ^ 26) :
    (∀ e, averagePrecision recs k (some rel) = .error e ↔ averagePrecisionF recs k (some rel) = .error e) ∧
    ∀ a, averagePrecision recs k (some rel) = .ok a → ∃ v, averagePrecisionF recs k (some rel) = .ok v ∧ 0 ≤ v ∧ v ≤ 1 ∧
      (v = 0 ↔ a = 0) ∧ (v = 1 ↔ a = 1) ∧ |v - a| ≤ (hits (firstK k recs) rel + 2) * a / 2 ^ 52 := by
  obtain ⟨ps, h1, h2, h3, h4⟩ := apLoop_both (firstK k recs) rel (firstK k recs) [] rfl
  have hz : hits ([] : List α) rel = 0 := by simp [hits]
  rw [hz, Nat.add_zero, List.nil_append] at h4
  simp only [List.length_nil, Nat.zero_add] at h1 h2
  -- the divisor
  obtain ⟨m, e1, e2, hm2⟩ : ∃ m : Nat, averagePrecision recs k (some rel) = pyDiv ps.sum m ∧
      averagePrecisionF recs k (some rel) = pyDivF ((ps.map toFloat).foldl (fun s x => toFloat (s + x)) 0) m ∧
      (ps.length ≤ m ∧ m ≤ 2 ^ 26) := by
    unfold averagePrecision averagePrecisionF
    simp only [trunc_eq]
    rw [h1, h2, zero_add]
    cases k with
    | none =>
      refine ⟨rel.length, rfl, rfl, ?_, hl'⟩
      rw [h4]; exact hits_le_right _ _
    | some k =>
      refine ⟨min rel.length k, rfl, rfl, ?_, (min_le_left _ _).trans hl'⟩
      rw [h4]
      exact le_min (hits_le_right _ _) ((hits_le_left _ _).trans (by simp [firstK]))
  rw [e1, e2]
  have hps : ∀ p ∈ ps, 0 ≤ p := fun p hp => (h3 p hp).1.le
  rcases Nat.eq_zero_or_pos m with rfl | hm0
  · simp [pyDiv, pyDivF]
  have hmq : (0 : ℚ) < m := by exact_mod_cast hm0
  unfold pyDiv pyDivF
  rw [if_neg hmq.ne', if_neg hmq.ne']
  refine ⟨fun e => by simp, fun a ha => ⟨_, rfl, ?_⟩⟩
  cases ha
  set S := (ps.map toFloat).foldl (fun s x => toFloat (s + x)) 0 with hS
  -- errors
  have off : Off (hits (firstK k recs) rel + 2) (ps.sum / m) (toFloat (S / m)) := by
    have := off_fold 1 (ps.map fun p => (p, toFloat p)) (by
      intro q hq
      obtain ⟨p, hp, rfl⟩ := List.mem_map.1 hq
      exact off_round (hps p hp)) 1 0 0 (le_refl 1) ((Off.refl (le_refl 0)).mono (Nat.zero_le 1))
    rw [zero_add, List.map_map, List.map_map, List.length_map] at this
    have i1 : ps.map ((fun x : ℚ × ℚ => x.1) ∘ fun p => (p, toFloat p)) = ps := by
      rw [show ((fun x : ℚ × ℚ => x.1) ∘ fun p => (p, toFloat p)) = id from rfl, List.map_id]
    rw [i1, h4] at this
    have := (this.div (Off.refl hmq.le) hmq).round
    exact this.mono (by omega)
  have hle : ∀ x ∈ ps.map toFloat, x ≤ 1 := by
    intro x hx
    obtain ⟨p, hp, rfl⟩ := List.mem_map.1 hx
    exact toFloat_le_one (h3 p hp).2.1
  obtain ⟨f1, _, f3⟩ := fold_below (ps.map toFloat) hle 0 0 (by rw [List.length_map]; omega)
  rw [List.length_map, Nat.zero_add] at f1 f3
  have f1 := f1 (by simp)
  have f3 := f3 (by simp)
  have hpm : (ps.length : ℚ) ≤ m := by exact_mod_cast hm2.1
  refine ⟨off.nonneg, toFloat_le_one ((div_le_one hmq).2 (f1.trans hpm)), off.eq_zero.symm, ⟨fun hv => ?_, fun ha => ?_⟩, ?_⟩
  · -- below 1 otherwise
    have hS' : (m : ℚ) - 1 / 2 ^ 26 < S := by
      by_contra hc
      push Not at hc
      have hmm : (m : ℚ) ≤ 2 ^ 26 := by exact_mod_cast hm2.2
      have hb : S / m ≤ 1 - 1 / 2 ^ 53 := by
        rw [div_le_iff₀ hmq]
        refine hc.trans ?_
        have : (m : ℚ) * (1 / 2 ^ 53) ≤ 2 ^ 26 * (1 / 2 ^ 53) := mul_le_mul_of_nonneg_right hmm (by norm_num)
        have e : (2 : ℚ) ^ 26 * (1 / 2 ^ 53) ≤ 1 / 2 ^ 26 := by norm_num
        linarith
      have := toFloat_below (le_refl 53) hb
      rw [hv] at this
      norm_num at this
    have hlen : ps.length = m := by
      by_contra hc
      have : ps.length + 1 ≤ m := by omega
      have : (ps.length : ℚ) + 1 ≤ m := by exact_mod_cast this
      have e : (1 : ℚ) / 2 ^ 26 ≤ 1 := by norm_num
      linarith
    have hall : ∀ p ∈ ps, p = 1 := by
      intro p hp
      rcases (h3 p hp).2.2 with h | h
      · exact h
      · exfalso
        have hr0 : 0 < (firstK k recs).length := by
          by_contra hc
          have : firstK k recs = [] := List.length_eq_zero_iff.1 (by omega)
          rw [this] at h4
          simp only [hits, List.dedup_nil, List.filter_nil, List.length_nil] at h4
          rw [List.length_eq_zero_iff] at h4
          rw [h4] at hp
          simp at hp
        have hrl : (firstK k recs).length ≤ 2 ^ 26 := by
          refine le_trans ?_ hl
          cases k <;> simp [firstK]
        have := f3 ⟨toFloat p, List.mem_map_of_mem hp, toFloat_below (by norm_num) (h.trans (by linarith [inv_pow_le hr0 hrl]))⟩
        linarith
    have : ps.sum = m := by
      rw [← hlen, List.sum_eq_card_nsmul ps 1 hall]
      simp
    rw [this, div_self hmq.ne']
  · rw [div_eq_one_iff_eq hmq.ne'] at ha
    have hsum : ∀ l : List ℚ, (∀ p ∈ l, p ≤ 1) → l.sum ≤ l.length ∧ ((l.length : ℚ) ≤ l.sum → ∀ p ∈ l, p = 1) := by
      intro l
      induction l with
      | nil => intro _; simp
      | cons x l ih =>
        intro h
        obtain ⟨i1, i2⟩ := ih fun p hp => h p (List.mem_cons_of_mem _ hp)
        have hx := h x List.mem_cons_self
        rw [List.sum_cons, List.length_cons]
        push_cast
        refine ⟨by linarith, fun hs p hp => ?_⟩
        rcases List.mem_cons.1 hp with rfl | hp
        · linarith
        · exact i2 (by linarith) p hp
    obtain ⟨s1, s2⟩ := hsum ps fun p hp => (h3 p hp).2.1
    have hlen : ps.length = m := le_antisymm hm2.1 (by rw [ha] at s1; exact_mod_cast s1)
    have hall := s2 (by rw [ha, hlen])
    have := fold_ones (ps.map toFloat) (by
      intro x hx
      obtain ⟨p, hp, rfl⟩ := List.mem_map.1 hx
      rw [hall p hp, toFloat_one]) 0 (by rw [List.length_map]; omega)
    rw [List.length_map, Nat.zero_add, hlen, Nat.cast_zero] at this
    rw [hS, this, div_self hmq.ne', toFloat_one]
  · have hh : hits (firstK k recs) rel ≤ 2 ^ 26 := by rw [← h4]; exact hm2.1.trans hm2.2
    have := off.error (by omega)
    push_cast at this
    exact this

/-! ## NDCG -/

/-- Lists with the same relevancies have the same gains. -/
theorem dcgLoopF_same (F : Libm) (strong : Bool) (rels : List (α × ℚ)) : ∀ (a b : List α) (i : Nat) (acc : ℚ),
    a.map (lookupRel rels) = b.map (lookupRel rels) → dcgLoopF F strong rels a i acc = dcgLoopF F strong rels b i acc := by
  intro a
  induction a with
  | nil =>
    intro b i acc h
    rw [List.map_nil, eq_comm, List.map_eq_nil_iff] at h
    rw [h]
  | cons r a ih =>
    intro b i acc h
    cases b with
    | nil => simp at h
    | cons r' b =>
      simp only [List.map_cons, List.cons.injEq] at h
      unfold dcgLoopF
      rw [h.1]
      cases lookupRel rels r' with
      | none => rfl
      | some x => exact ih b (i + 1) _ h.2

/-- **C141.** Whatever the C library computes, a list with the relevancies of the ideal one gets exactly 1. -/
theorem C141_ndcg_ideal (F : Libm) (strong : Bool) (recs : List α) (k : Option Nat) (rels : List (α × ℚ)) (v : ℚ)
    (h : (firstK k recs).map (lookupRel rels) = (firstK k (idealOrderF rels)).map (lookupRel rels))
    (hv : ndcgF F strong recs k (some rels) = .ok v) : v = 1 := by
  unfold ndcgF dcgF at hv
  simp only [trunc_eq] at hv
  rw [dcgLoopF_same F strong rels _ _ 0 0 h] at hv
  split at hv
  · cases hv
  · rename_i cur hc
    simp only at hv
    unfold pyDivF at hv
    split at hv
    · cases hv
    · rename_i h0
      cases hv
      rw [div_self h0, toFloat_one]

/-- **C141.** With relevancies that are not negative (in the strong variant, 0 or at least 1) and an accurate C library, NDCG raises
exactly when the exact one does, and otherwise its relative error is at most one unit of 2^-52 per item looked at and 21 more. -/
theorem C141_ndcg (F : Libm) (hF : AccurateLibm F) (strong : Bool) (recs : List α) (k : Option Nat) (rels : List (α × ℚ))
    (h0 : ∀ p ∈ rels, 0 ≤ p.2) (h1 : strong = true → ∀ p ∈ rels, p.2 = 0 ∨ 1 ≤ p.2) (hl : recs.length + rels.length ≤ 2 ^ 50) :
    (∀ e, ndcg strong recs k (some (exactRels rels)) = .error e ↔ ndcgF F strong recs k (some rels) = .error e) ∧
    ∀ v, ndcg strong recs k (some (exactRels rels)) = .ok v → ∃ w, ndcgF F strong recs k (some rels) = .ok w ∧ 0 ≤ w ∧
      (w = 0 ↔ v = 0) ∧ |(w : ℝ) - v| ≤ (recs.length + rels.length + 21 : ℕ) * v / 2 ^ 52 := by
  have z : Off 10 (0 : ℝ) ((0 : ℚ) : ℝ) := by simpa using (Off.refl (le_refl (0 : ℝ))).mono (Nat.zero_le 10)
  have t : ∀ (k : Option Nat) (l : List α), (trunc k l).length ≤ l.length := fun k l => by cases k <;> simp [trunc]
  obtain ⟨a1, a2⟩ := dcgLoop_off hF strong rels h0 h1 (trunc k recs) 0 10 0 0 (le_refl 10) z
  obtain ⟨b1, b2⟩ := dcgLoop_off hF strong rels h0 h1 (trunc k (idealOrderF rels)) 0 10 0 0 (le_refl 10) z
  have hil : (idealOrderF rels).length = rels.length := by simp [idealOrderF, List.length_insertionSort]
  unfold ndcg ndcgF dcg dcgF
  simp only [idealOrder_real]
  cases ha : dcgLoopF F strong rels (trunc k recs) 0 0 with
  | error e =>
    rw [a1 e ha]
    exact ⟨fun e' => by simp, fun v hv => by cases hv⟩
  | ok s =>
    obtain ⟨x, ex, ox⟩ := a2 s ha
    rw [ex]
    cases hb : dcgLoopF F strong rels (trunc k (idealOrderF rels)) 0 0 with
    | error e =>
      simp only [b1 e hb]
      exact ⟨fun e' => by simp, fun v hv => by cases hv⟩
    | ok u =>
      obtain ⟨y, ey, oy⟩ := b2 u hb
      simp only [ey]
      unfold pyDivF
      by_cases hu : u = 0
      · have hy : y = 0 := oy.eq_zero.2 (by rw [hu]; simp)
        rw [if_pos hu, if_pos hy]
        exact ⟨fun e' => by simp, fun v hv => by cases hv⟩
      · have hy : y ≠ 0 := fun h => hu (by have := oy.eq_zero.1 h; exact_mod_cast this)
        rw [if_neg hu, if_neg hy]
        refine ⟨fun e' => by simp, fun v hv => ⟨_, rfl, ?_⟩⟩
        cases hv
        have hyp : 0 < y := lt_of_le_of_ne oy.1 (Ne.symm hy)
        have o := (ox.div oy hyp).round
        rw [← Rat.cast_div, Dm.toFloat_cast] at o
        have o := o.mono (k := recs.length + rels.length + 21) (by
          have := t k recs
          have := t k (idealOrderF rels)
          omega)
        refine ⟨by exact_mod_cast o.nonneg, ?_, o.error (by omega)⟩
        have := o.eq_zero
        rw [Rat.cast_eq_zero] at this
        exact this.symm

/-- A C library that is exact on powers of two. -/
structure ExactPowers (F : Libm) : Prop where
  log2 : ∀ n : ℕ, F.log2 (2 ^ n) = n
  exp2 : ∀ n : ℕ, F.exp2 n = 2 ^ n

theorem exists_libm : ∃ F, AccurateLibm F ∧ ExactPowers F := by
  classical
  have near : ∀ x : ℝ, 0 < x → ∃ q : ℚ, |(q : ℝ) - x| ≤ x / 2 ^ 52 := by
    intro x hx
    obtain ⟨q, h1, h2⟩ := exists_rat_btwn (show x < x + x / 2 ^ 52 by linarith [div_pos hx (show (0 : ℝ) < 2 ^ 52 by positivity)])
    exact ⟨q, by rw [abs_le]; constructor <;> linarith⟩
  have lg : ∀ n : ℕ, ∃ q : ℚ, (∀ j : ℕ, n = 2 ^ j → q = j) ∧ (2 ≤ n → |(q : ℝ) - Real.logb 2 n| ≤ Real.logb 2 n / 2 ^ 52) := by
    intro n
    by_cases h : ∃ j : ℕ, n = 2 ^ j
    · obtain ⟨j, rfl⟩ := h
      refine ⟨j, fun i hi => by rw [Nat.pow_right_injective (le_refl 2) hi], fun _ => ?_⟩
      have : Real.logb 2 ((2 ^ j : ℕ) : ℝ) = j := by push_cast; rw [Real.logb_pow, Real.logb_self_eq_one (by norm_num), mul_one]
      rw [this]
      simp
      positivity
    · by_cases hn : 2 ≤ n
      · have p : 0 < Real.logb 2 n := Real.logb_pos (by norm_num) (by exact_mod_cast hn)
        obtain ⟨q, hq⟩ := near _ p
        exact ⟨q, fun j hj => absurd ⟨j, hj⟩ h, fun _ => hq⟩
      · exact ⟨0, fun j hj => absurd ⟨j, hj⟩ h, fun h' => absurd h' hn⟩
  have ex : ∀ x : ℚ, ∃ q : ℚ, (∀ j : ℕ, x = j → q = 2 ^ j) ∧ |(q : ℝ) - (2 : ℝ) ^ (x : ℝ)| ≤ (2 : ℝ) ^ (x : ℝ) / 2 ^ 52 := by
    intro x
    by_cases h : ∃ j : ℕ, x = j
    · obtain ⟨j, rfl⟩ := h
      refine ⟨2 ^ j, fun i hi => by rw [Nat.cast_injective hi], ?_⟩
      have : (2 : ℝ) ^ (((j : ℕ) : ℚ) : ℝ) = 2 ^ j := by rw [Rat.cast_natCast, Real.rpow_natCast]
      rw [this]
      push_cast
      rw [sub_self, abs_zero]
      positivity
    · obtain ⟨q, hq⟩ := near ((2 : ℝ) ^ (x : ℝ)) (Real.rpow_pos_of_pos (by norm_num) _)
      exact ⟨q, fun j hj => absurd ⟨j, hj⟩ h, hq⟩
  choose l hl using lg
  choose e he using ex
  exact ⟨⟨l, e⟩, ⟨fun n hn => (hl n).2 hn, fun x _ => (he x).2, by simpa using (he 0).1 0 (by simp)⟩,
    ⟨fun n => (hl _).1 n rfl, fun n => (he _).1 n rfl⟩⟩

/-- The claim that NDCG is at most 1 (C40) for distinct recommendations with relevancies. -/
def NdcgBounded : Prop := ∀ (F : Libm) (recs : List Nat) (rels : List (Nat × ℚ)) (v : ℚ), AccurateLibm F → ExactPowers F → recs.Nodup →
  (∀ r ∈ recs, r ∈ rels.map (·.1)) → (∀ p ∈ rels, 1 ≤ p.2) → ndcgF F true recs none (some rels) = .ok v → v ≤ 1

theorem toFloat_between {a b x y : ℚ} (ha : toFloat a = y) (hb : toFloat b = y) (h1 : a ≤ x) (h2 : x ≤ b) : toFloat x = y :=
  le_antisymm (hb ▸ toFloat_mono h2) (ha ▸ toFloat_mono h1)

/-- For every such library, items with relevancies 53, 2 and 1: the list with 53, 1, 2 scores higher than the ideal list. -/
theorem ndcg_above (F : Libm) (hF : AccurateLibm F) (hE : ExactPowers F) :
    ndcgF F true [0, 2, 1] none (some [(0, 53), (1, 2), (2, 1)]) = .ok (1 + 1 / 2 ^ 52) := by
  have l2 : F.log2 (2 + 0) = 1 := by simpa using hE.log2 1
  have l4 : F.log2 (2 + 2) = 2 := by simpa using hE.log2 2
  have g53 : gainF F true 53 = 9007199254740991 := by
    have := hE.exp2 53
    unfold gainF
    push_cast at this
    rw [if_pos rfl, this]
    decide +kernel
  have g2 : gainF F true 2 = 3 := by
    have := hE.exp2 2
    unfold gainF
    push_cast at this
    rw [if_pos rfl, this]
    decide +kernel
  have g1 : gainF F true 1 = 1 := by
    have := hE.exp2 1
    unfold gainF
    push_cast at this
    rw [if_pos rfl, this]
    decide +kernel
  -- the logarithm of 3
  have two : Real.logb 2 2 = 1 := Real.logb_self_eq_one (by norm_num)
  have b1 : (31 / 20 : ℝ) ≤ Real.logb 2 3 := by
    have := Real.logb_le_logb_of_le (b := 2) (by norm_num) (by norm_num) (show (2 : ℝ) ^ 31 ≤ 3 ^ 20 by norm_num)
    rw [Real.logb_pow, Real.logb_pow, two] at this
    norm_num at this
    linarith
  have b2 : Real.logb 2 3 ≤ 8 / 5 := by
    have := Real.logb_le_logb_of_le (b := 2) (by norm_num) (by norm_num) (show (3 : ℝ) ^ 5 ≤ 2 ^ 8 by norm_num)
    rw [Real.logb_pow, Real.logb_pow, two] at this
    norm_num at this
    linarith
  have l3 := hF.log2 3 (by norm_num)
  push_cast at l3
  obtain ⟨c1, c2⟩ := abs_le.1 l3
  have tiny : Real.logb 2 3 / 2 ^ 52 ≤ 1 / 100 := by
    rw [div_le_iff₀ (by norm_num)]
    exact b2.trans (by norm_num)
  obtain ⟨L, hL⟩ : ∃ L, F.log2 (2 + 1) = L := ⟨_, rfl⟩
  rw [show (3 : ℕ) = 2 + 1 from rfl, hL] at c1 c2
  have L1 : 3 / 2 ≤ L ∧ 154 / 100 ≤ L ∧ L ≤ 161 / 100 := by
    have h1 : ((154 / 100 : ℚ) : ℝ) ≤ (L : ℝ) := by push_cast; linarith
    have h2 : (L : ℝ) ≤ ((161 / 100 : ℚ) : ℝ) := by push_cast; linarith
    have h1 : 154 / 100 ≤ L := by exact_mod_cast h1
    have h2 : L ≤ 161 / 100 := by exact_mod_cast h2
    exact ⟨by linarith, h1, h2⟩
  obtain ⟨_, L1, L2⟩ := L1
  have Lp : 0 < L := by linarith
  have q3 : 3 / 2 ≤ toFloat (3 / L) ∧ toFloat (3 / L) ≤ 31 / 16 + 1 / 32 := by
    have e1 : toFloat (3 / 2 : ℚ) = 3 / 2 := by decide +kernel
    have e2 : toFloat (31 / 16 + 1 / 32 : ℚ) = 31 / 16 + 1 / 32 := by decide +kernel
    rw [← e2, ← e1]
    refine ⟨toFloat_mono ?_, toFloat_mono ?_⟩
    · rw [le_div_iff₀ Lp]; linarith
    · rw [div_le_iff₀ Lp]; linarith
  have q1 : 5 / 8 - 1 / 16 ≤ toFloat (1 / L) ∧ toFloat (1 / L) ≤ 3 / 4 := by
    have e1 : toFloat (5 / 8 - 1 / 16 : ℚ) = 5 / 8 - 1 / 16 := by decide +kernel
    have e2 : toFloat (3 / 4 : ℚ) = 3 / 4 := by decide +kernel
    rw [← e2, ← e1]
    refine ⟨toFloat_mono ?_, toFloat_mono ?_⟩
    · rw [le_div_iff₀ Lp]; linarith
    · rw [div_le_iff₀ Lp]; linarith
  have r1 : toFloat (0 + toFloat (9007199254740991 / 1)) = (9007199254740991 : ℚ) := by decide +kernel
  have r2 : toFloat (9007199254740991 + toFloat (3 / L)) = 9007199254740992 :=
    toFloat_between (a := 9007199254740991 + 3 / 2) (b := 9007199254740991 + (31 / 16 + 1 / 32)) (by decide +kernel) (by decide +kernel)
      (by linarith [q3.1]) (by linarith [q3.2])
  have r3 : toFloat (9007199254740992 + toFloat (1 / 2)) = (9007199254740992 : ℚ) := by decide +kernel
  have r4 : toFloat (9007199254740991 + toFloat (1 / L)) = 9007199254740992 :=
    toFloat_between (a := 9007199254740991 + (5 / 8 - 1 / 16)) (b := 9007199254740991 + 3 / 4) (by decide +kernel) (by decide +kernel)
      (by linarith [q1.1]) (by linarith [q1.2])
  have r5 : toFloat (9007199254740992 + toFloat (3 / 2)) = (9007199254740994 : ℚ) := by decide +kernel
  have d1 : dcgF F true [0, 2, 1] none [(0, 53), (1, 2), (2, 1)] = .ok 9007199254740994 := by
    show Except.ok (toFloat (toFloat (toFloat (0 + toFloat (gainF F true 53 / F.log2 (2 + 0))) + toFloat (gainF F true 1 / F.log2 (2 + 1))) +
      toFloat (gainF F true 2 / F.log2 (2 + 2)))) = _
    rw [g53, g1, g2, l2, hL, l4, r1, r4, r5]
  have o : idealOrderF [(0, 53), (1, 2), (2, (1 : ℚ))] = [0, 1, 2] := by decide +kernel
  have d2 : dcgF F true [0, 1, 2] none [(0, 53), (1, 2), (2, 1)] = .ok 9007199254740992 := by
    show Except.ok (toFloat (toFloat (toFloat (0 + toFloat (gainF F true 53 / F.log2 (2 + 0))) + toFloat (gainF F true 2 / F.log2 (2 + 1))) +
      toFloat (gainF F true 1 / F.log2 (2 + 2)))) = _
    rw [g53, g1, g2, l2, hL, l4, r1, r2, r3]
  unfold ndcgF
  simp only [d1, o, d2]
  decide +kernel

/-- **C141** (witness): relevancies up to 53, as on a scale of percents. -/
theorem C141_ndcg_refuted : ¬ NdcgBounded := by
  intro h
  obtain ⟨F, hF, hE⟩ := exists_libm
  have := h F [0, 2, 1] [(0, 53), (1, 2), (2, 1)] _ hF hE (by decide) (by decide) (by decide +kernel) (ndcg_above F hF hE)
  norm_num at this

/-! ## Error metrics -/

/-- **C141.** The error metrics are defined for exactly the inputs for which the exact ones are; they are not negative and 0 exactly for
perfect predictions; relative errors are at most one unit of 2^-52 per prediction and five more; exchanging true and predicted values
changes nothing. -/
theorem C141_errors (yt yp : List ℚ) :
    ((∃ v, MseF yt yp v) ↔ yt.length = yp.length ∧ yt ≠ []) ∧ ((∃ v, MaeF yt yp v) ↔ yt.length = yp.length ∧ yt ≠ []) ∧
    ((∃ v, RmseF yt yp v) ↔ yt.length = yp.length ∧ yt ≠ []) ∧
    (∀ v, MseF yt yp v ↔ MseF yp yt v) ∧ (∀ v, MaeF yt yp v ↔ MaeF yp yt v) ∧ (∀ v, RmseF yt yp v ↔ RmseF yp yt v) ∧
    (yt.length ≤ 2 ^ 50 →
      (∀ v, MseF yt yp v → 0 ≤ v ∧ (v = 0 ↔ yt = yp) ∧ ∃ m, mse yt yp = .ok m ∧ |v - m| ≤ (yt.length + 4) * m / 2 ^ 52) ∧
      (∀ v, MaeF yt yp v → 0 ≤ v ∧ (v = 0 ↔ yt = yp) ∧ ∃ a, mae yt yp = .ok a ∧ |v - a| ≤ (yt.length + 2) * a / 2 ^ 52) ∧
      (∀ v, RmseF yt yp v → 0 ≤ v ∧ (v = 0 ↔ yt = yp) ∧ ∃ s, rmse yt yp = .ok s ∧ |v - s| ≤ (yt.length + 5) * s / 2 ^ 52)) := by
  have some : ∀ (g : ℚ → ℚ → ℚ) (a b : List ℚ), a.length = b.length → ((∃ s, AddedUp (List.zipWith g a b) s) ↔ a ≠ []) := by
    intro g a b hl
    constructor
    · rintro ⟨s, hs⟩ rfl
      have := addedUp_pos hs
      simp at this
    · intro h
      refine addedUp_exists _ fun e => h ?_
      have := congrArg List.length e
      rw [List.length_zipWith, ← hl, Nat.min_self] at this
      exact List.length_eq_zero_iff.1 this
  have sym : ∀ (g : ℚ → ℚ → ℚ), (∀ a b, g a b = g b a) → ∀ a b : List ℚ, List.zipWith g a b = List.zipWith g b a :=
    fun g h a b => zipWith_symm g h a b
  have s1 : ∀ a b : ℚ, toFloat (toFloat (a - b) ^ 2) = toFloat (toFloat (b - a) ^ 2) := by
    intro a b
    rw [← neg_sub b a, toFloat_neg, neg_sq]
  have s2 : ∀ a b : ℚ, |toFloat (a - b)| = |toFloat (b - a)| := by
    intro a b
    rw [← neg_sub b a, toFloat_neg, abs_neg]
  have m1 : ∀ a b v, MseF a b v → MseF b a v := by
    rintro a b v ⟨hl, s, hs, hv⟩
    exact ⟨hl.symm, s, by rw [sym _ s1]; exact hs, by rw [← hl]; exact hv⟩
  have m2 : ∀ a b v, MaeF a b v → MaeF b a v := by
    rintro a b v ⟨hl, s, hs, hv⟩
    exact ⟨hl.symm, s, by rw [sym _ s2]; exact hs, by rw [← hl]; exact hv⟩
  have m3 : ∀ a b v, RmseF a b v → RmseF b a v := fun a b v ⟨m, hm, hv⟩ => ⟨m, m1 a b m hm, hv⟩
  have ex1 : (∃ v, MseF yt yp v) ↔ yt.length = yp.length ∧ yt ≠ [] :=
    ⟨fun ⟨v, hl, s, hs, _⟩ => ⟨hl, (some _ yt yp hl).1 ⟨s, hs⟩⟩, fun ⟨hl, h⟩ => by
      obtain ⟨s, hs⟩ := (some _ yt yp hl).2 h
      exact ⟨_, hl, s, hs, rfl⟩⟩
  have ex2 : (∃ v, MaeF yt yp v) ↔ yt.length = yp.length ∧ yt ≠ [] :=
    ⟨fun ⟨v, hl, s, hs, _⟩ => ⟨hl, (some _ yt yp hl).1 ⟨s, hs⟩⟩, fun ⟨hl, h⟩ => by
      obtain ⟨s, hs⟩ := (some _ yt yp hl).2 h
      exact ⟨_, hl, s, hs, rfl⟩⟩
  refine ⟨ex1, ex2, ⟨fun ⟨v, m, hm, _⟩ => ex1.1 ⟨m, hm⟩, fun h => ?_⟩, fun v => ⟨m1 _ _ v, m1 _ _ v⟩, fun v => ⟨m2 _ _ v, m2 _ _ v⟩,
    fun v => ⟨m3 _ _ v, m3 _ _ v⟩, fun hb => ?_⟩
  · obtain ⟨m, hm⟩ := ex1.2 h
    exact ⟨_, m, hm, rfl⟩
  have core : ∀ v, MseF yt yp v → ∃ m, mse yt yp = .ok m ∧ Off (yt.length + 4) m v := by
    rintro v ⟨hl, s, hs, rfl⟩
    have hne := (some _ yt yp hl).1 ⟨s, hs⟩
    exact ⟨_, by unfold mse; rw [if_pos ⟨hl, hne⟩], (mean_off _ _ square_off yt yp hl hs).mono (by omega)⟩
  refine ⟨fun v hv => ?_, fun v hv => ?_, fun v hv => ?_⟩
  · obtain ⟨m, hm, o⟩ := core v hv
    obtain ⟨m', _, _, e, _, _, _, _, _, _, _, _, z, _⟩ := (C43_error_metrics yt yp).2 (ex1.1 ⟨v, hv⟩).1 (ex1.1 ⟨v, hv⟩).2
    rw [hm] at e
    cases e
    have := o.error (by omega)
    push_cast at this
    exact ⟨o.nonneg, o.eq_zero.symm.trans z, m, hm, this⟩
  · obtain ⟨hl, s, hs, rfl⟩ := hv
    have hne := (some _ yt yp hl).1 ⟨s, hs⟩
    have o := (mean_off _ _ abs_off yt yp hl hs).mono (by omega : 1 + yt.length + 1 ≤ yt.length + 2)
    have e : mae yt yp = .ok ((List.zipWith (fun a b => |a - b|) yt yp).sum / yt.length) := by unfold mae; rw [if_pos ⟨hl, hne⟩]
    obtain ⟨_, a', _, _, e', _, _, _, _, _, _, _, _, z, _⟩ := (C43_error_metrics yt yp).2 hl hne
    rw [e] at e'
    cases e'
    have := o.error (by omega)
    push_cast at this
    exact ⟨o.nonneg, o.eq_zero.symm.trans z, _, e, this⟩
  · obtain ⟨m, hm, rfl⟩ := hv
    obtain ⟨m', hm', o⟩ := core m hm
    obtain ⟨hl, hne⟩ := ex1.1 ⟨m, hm⟩
    obtain ⟨_, _, s', _, _, e, _, _, _, _, _, _, _, _, z, _⟩ := (C43_error_metrics yt yp).2 hl hne
    have o := ((o.cast.mono (by omega : yt.length + 4 ≤ 2 * (yt.length + 4))).sqrt).round
    have e2 : rmse yt yp = .ok (Real.sqrt m') := by unfold rmse; rw [hm']; rfl
    rw [e2] at e
    cases e
    have := o.error (by omega)
    push_cast at this
    exact ⟨o.nonneg, o.eq_zero.symm.trans z, _, e2, by rw [show (yt.length : ℝ) + 5 = yt.length + 4 + 1 by ring]; exact this⟩

/-- The claim that MAE is at most RMSE (C43). -/
def MaeBelowRmse : Prop := ∀ (yt yp : List ℚ) (a : ℚ) (s : ℝ), MaeF yt yp a → RmseF yt yp s → (a : ℝ) ≤ s

/-- The claim that RMSE squared is MSE (C43). -/
def RmseSquared : Prop := ∀ (yt yp : List ℚ) (m : ℚ) (s : ℝ), MseF yt yp m → RmseF yt yp s → s ^ 2 = m

/-- The double 0.1. -/
def tenth : ℚ := 3602879701896397 / 36028797018963968

/-- **C141** (witness): three predictions that are off by 0.1; MAE is 0.10000000000000002, RMSE 0.1. -/
theorem C141_mae_refuted : ¬ MaeBelowRmse := by
  intro h
  have ha : MaeF [0, 0, 0] [tenth, tenth, tenth] (7205759403792795 / 72057594037927936) :=
    ⟨rfl, _, .add (.add (.one _) (.one _) (List.Perm.refl _)) (.one _) (List.Perm.refl _), by decide +kernel⟩
  obtain ⟨m, hm, hm2⟩ : ∃ m, MseF [0, 0, 0] [tenth, tenth, tenth] m ∧ m < ((tenth + 7205759403792795 / 72057594037927936) / 2) ^ 2 :=
    ⟨_, ⟨rfl, _, .add (.add (.one _) (.one _) (List.Perm.refl _)) (.one _) (List.Perm.refl _), rfl⟩, by decide +kernel⟩
  have hs := h _ _ _ _ ha ⟨m, hm, rfl⟩
  have hx : √(m : ℝ) < (((tenth + 7205759403792795 / 72057594037927936) / 2 : ℚ) : ℝ) := by
    rw [Real.sqrt_lt' (by norm_num [tenth])]
    exact_mod_cast hm2
  have hd : IsDouble (tenth : ℝ) := ⟨3602879701896397, -55, by norm_num, by norm_num [tenth]⟩
  have hn := (toFloat_nearest √(m : ℝ)).2 _ hd
  have ht : (tenth : ℝ) < ((7205759403792795 / 72057594037927936 : ℚ) : ℝ) := by norm_num [tenth]
  push_cast at hx hs ht
  have h1 := le_abs_self (toFloat √(m : ℝ) - √(m : ℝ))
  rcases abs_cases ((tenth : ℝ) - √(m : ℝ)) with ⟨e, _⟩ | ⟨e, _⟩ <;> rw [e] at hn <;> linarith

/-- **C141** (witness): the RMSE of errors 0 and 2 is a double; no double squared is 2. -/
theorem C141_rmse_refuted : ¬ RmseSquared := by
  intro h
  have hm : MseF [0, 0] [0, 2] 2 := ⟨rfl, _, .add (.one _) (.one _) (List.Perm.refl _), by decide +kernel⟩
  have hs := h _ _ _ _ hm ⟨2, hm, rfl⟩
  obtain ⟨z, e, _, he⟩ := toFloat_isDouble √((2 : ℚ) : ℝ)
  rw [he] at hs
  have h2 : (((z : ℚ) * 2 ^ e : ℚ) : ℝ) ^ 2 = 2 := by push_cast at hs ⊢; exact hs
  have h3 : √2 = |(((z : ℚ) * 2 ^ e : ℚ) : ℝ)| := by rw [← h2, Real.sqrt_sq_eq_abs]
  refine irrational_sqrt_two ⟨|(z : ℚ) * 2 ^ e|, ?_⟩
  rw [h3]
  push_cast
  rfl

/-! ## Examples -/

/-- Average precision of two hits among three. -/
example : averagePrecisionF [1, 2, 3] none (some [1, 3]) = .ok (toFloat (toFloat (1 + toFloat (2 / 3)) / 2)) ∧
    averagePrecision [1, 2, 3] none (some [1, 3]) = .ok (5 / 6) := by
  refine ⟨?_, ?_⟩ <;> decide +kernel

example : precision [1, 2, 3] none (some [1, 3]) = .ok (2 / 3) ∧ precisionF [1, 2, 3] none (some [1, 3]) = .ok (toFloat (2 / 3)) ∧
    recall [1, 2] none (some [1, 3]) = .ok (1 / 2) ∧ fscoreF 1 [1, 2, 3] (some 3) (some [1, 3]) = .ok (toFloat (4 / 5)) := by
  refine ⟨?_, ?_, ?_, ?_⟩ <;> decide +kernel

/-- A library as in the hypotheses, relevancies that meet them, and a list that is as good as the ideal one. -/
example : ∃ F, AccurateLibm F ∧ (∀ p ∈ [(0, (53 : ℚ)), (1, 2), (2, 1)], p.2 = 0 ∨ 1 ≤ p.2) ∧
    (∃ v, ndcgF F true [0, 2, 1] none (some [(0, 53), (1, 2), (2, 1)]) = .ok v) ∧
    (firstK (some 2) [0, 2]).map (lookupRel [(0, (5 : ℚ)), (1, 3), (2, 3)]) =
      (firstK (some 2) (idealOrderF [(0, (5 : ℚ)), (1, 3), (2, 3)])).map (lookupRel [(0, (5 : ℚ)), (1, 3), (2, 3)]) := by
  obtain ⟨F, hF, hE⟩ := exists_libm
  exact ⟨F, hF, by decide +kernel, ⟨_, ndcg_above F hF hE⟩, by decide +kernel⟩

end DRec.Metrics
