import Verif.Spec.Predictive
import Verif.Spec.DbSplits
import Verif.Lemmas.Evaluation
import Verif.Lemmas.DbRead
import Verif.Lemmas.DbEvalTask
import Verif.Props.Metrics
import Verif.Props.EvalUsers
import Verif.Props.DbSplits
import Verif.Props.Both
import Verif.Props.Knn
import Verif.Props.KnnMem
import Verif.Props.RowOrder
import Mathlib.Tactic.NormNum

/-! # C111: what predictive evaluation reports -/

namespace DRec

open Spec Metrics

/-! ## Rounding -/

section

variable {K : Type} [Field K] [LinearOrder K] [IsStrictOrderedRing K] [FloorRing K]

omit [IsStrictOrderedRing K] in
theorem roundHalfEven_near (y : K) : ⌊y⌋ ≤ roundHalfEven y ∧ roundHalfEven y ≤ ⌊y⌋ + 1 := by
  unfold roundHalfEven
  split
  · omega
  · split
    · omega
    · split <;> omega

theorem roundHalfEven_mono {x y : K} (h : x ≤ y) : roundHalfEven x ≤ roundHalfEven y := by
  rcases (Int.floor_mono h).lt_or_eq with hlt | heq
  · have := (roundHalfEven_near x).2
    have := (roundHalfEven_near y).1
    omega
  · unfold roundHalfEven
    rw [heq]
    have hf : x - ⌊y⌋ ≤ y - ⌊y⌋ := by linarith
    split_ifs <;> first | omega | (exfalso; linarith)

theorem round4_mono {x y : K} (h : x ≤ y) : round4 x ≤ round4 y := by
  unfold round4
  have : x * 10000 ≤ y * 10000 := by linarith
  have : (roundHalfEven (x * 10000) : K) ≤ roundHalfEven (y * 10000) := by exact_mod_cast roundHalfEven_mono this
  exact (div_le_div_iff_of_pos_right (by norm_num)).2 this

theorem round4_zero : round4 (0 : K) = 0 := by
  unfold round4 roundHalfEven
  simp

end

/-! ## The pairs the metrics get -/

section

variable {K : Type} [Field K] [LinearOrder K] [FloorRing K]

theorem available_counted (predict : Val → Val → Except Err (Option ℚ)) (countNone : Bool) (r : Row) :
    available predict countNone (r.get "user", r.get "item", sortKey "interaction" r) =
      (counted predict countNone r).map fun y => (sortKey "interaction" r, y) := by
  unfold available counted
  simp only
  cases predict (r.get "user") (r.get "item") with
  | error e => rfl
  | ok o =>
    cases o with
    | some y => rfl
    | none => cases countNone <;> rfl

theorem predictiveMem_eq (predict : Val → Val → Except Err (Option ℚ)) (countNone : Bool) (n : Option Nat)
    (metric : List ℚ → List ℚ → Except Err K) {ds : Mem} {lo hi : ℚ} (h : TestSet ds lo hi)
    (hp : ∀ r ∈ ds.rows, ∃ p, predict (r.get "user") (r.get "item") = .ok p) (hn : 0 < n.getD ds.rows.length) :
    predictiveMem predict countNone n metric ds =
      (metric ((countedPairs predict countNone (n.getD ds.rows.length) ds).map (·.1))
        ((countedPairs predict countNone (n.getD ds.rows.length) ds).map (·.2))).map round4 := by
  unfold predictiveMem Mem.len
  rw [if_neg (by omega)]
  have hv : ds.values (some ["user", "item", "interaction"]) = .ok (ds.rows.map (Row.toRec ["user", "item", "interaction"])) := by
    simp [Mem.values, handleColumns, h.cols, Except.map]
  rw [hv]
  simp only [List.map_map]
  set recs := ds.rows.map (predictiveRec ∘ Row.toRec ["user", "item", "interaction"]) with hrecs
  have hl : recs.length = ds.rows.length := by simp [hrecs]
  have hok : ∀ rec ∈ recs, ∃ p, predict rec.1 rec.2.1 = .ok p := by
    intro rec hr
    obtain ⟨r, hr', rfl⟩ := List.mem_map.1 hr
    exact hp r hr'
  obtain ⟨pairs, hpe, hev⟩ := C50_pairs predict countNone n metric recs hok (by rw [hl]; exact hn)
  rw [hev]
  have : pairs = countedPairs predict countNone (n.getD ds.rows.length) ds := by
    rw [hpe, hl, countedPairs, hrecs, List.filterMap_map]
    congr 1
    apply List.filterMap_congr
    intro r _
    exact available_counted predict countNone r
  rw [this]

/-- Without assumptions on the predictions: whatever is reported comes from the counted pairs. -/
theorem predictLoop_mem (predict : Val → Val → Except Err (Option ℚ)) (countNone : Bool) :
    ∀ (left : Nat) (recs : List (Val × Val × ℚ)) (ps : List (ℚ × ℚ)),
      predictLoop predict countNone left recs = .ok ps →
      ps = (recs.filterMap (available predict countNone)).take left
  | left, [], ps, h => by
    simp only [predictLoop, Except.ok.injEq] at h
    simp [← h]
  | left, (u, i, x) :: rest, ps, h => by
    simp only [predictLoop] at h
    split at h
    · next h0 => cases h; simp [h0]
    · next h0 =>
      obtain ⟨left, rfl⟩ : ∃ k, left = k + 1 := ⟨left - 1, by omega⟩
      simp only [Nat.add_sub_cancel] at h
      cases hp : predict u i with
      | error e => rw [hp] at h; cases h
      | ok o =>
        rw [hp] at h
        cases o with
        | none =>
          cases countNone with
          | true =>
            simp only [if_true] at h
            cases hr : predictLoop predict true left rest with
            | error e => rw [hr] at h; cases h
            | ok qs =>
              rw [hr] at h
              cases h
              simp [available, hp, predictLoop_mem predict true left rest qs hr]
          | false =>
            simp only [Bool.false_eq_true, if_false] at h
            rw [predictLoop_mem predict false (left + 1) rest ps h]
            simp [available, hp]
        | some y =>
          simp only at h
          cases hr : predictLoop predict countNone left rest with
          | error e => rw [hr] at h; cases h
          | ok qs =>
            rw [hr] at h
            cases h
            simp [available, hp, predictLoop_mem predict countNone left rest qs hr]

theorem predictiveMem_ok {predict : Val → Val → Except Err (Option ℚ)} {countNone : Bool} {n : Option Nat}
    {metric : List ℚ → List ℚ → Except Err K} {ds : Mem} {lo hi : ℚ} (h : TestSet ds lo hi) {e : K}
    (he : predictiveMem predict countNone n metric ds = .ok e) :
    (metric ((countedPairs predict countNone (n.getD ds.rows.length) ds).map (·.1))
        ((countedPairs predict countNone (n.getD ds.rows.length) ds).map (·.2))).map round4 = .ok e := by
  unfold predictiveMem Mem.len at he
  split at he
  · cases he
  have hv : ds.values (some ["user", "item", "interaction"]) = .ok (ds.rows.map (Row.toRec ["user", "item", "interaction"])) := by
    simp [Mem.values, handleColumns, h.cols, Except.map]
  rw [hv] at he
  simp only [List.map_map, predictiveEval] at he
  split at he
  · cases he
  simp only [List.length_map] at he
  cases hl : predictLoop predict countNone (min (n.getD ds.rows.length) ds.rows.length)
      (ds.rows.map (predictiveRec ∘ Row.toRec ["user", "item", "interaction"])) with
  | error e => rw [hl] at he; cases he
  | ok ps =>
    rw [hl] at he
    have hps := predictLoop_mem _ _ _ _ _ hl
    have : ps = countedPairs predict countNone (n.getD ds.rows.length) ds := by
      rw [hps, countedPairs, List.filterMap_map]
      have e1 : (ds.rows.filterMap (available predict countNone ∘ (predictiveRec ∘ Row.toRec ["user", "item", "interaction"]))) =
          ds.rows.filterMap fun r => (counted predict countNone r).map fun y => (sortKey "interaction" r, y) := by
        apply List.filterMap_congr
        intro r _
        exact available_counted predict countNone r
      rw [e1, List.take_eq_take_iff]
      have := List.length_filterMap_le (fun r => (counted predict countNone r).map fun y => (sortKey "interaction" r, y)) ds.rows
      omega
    rw [this] at he
    exact he

end

/-! ## Bounds -/

theorem sums_le {lo hi : ℚ} (h : lo ≤ hi) : ∀ ps : List (ℚ × ℚ), (∀ p ∈ ps, |p.1 - p.2| ≤ hi - lo) →
    (List.zipWith (fun a b => (a - b) ^ 2) (ps.map (·.1)) (ps.map (·.2))).sum ≤ ps.length * (hi - lo) ^ 2 ∧
    (List.zipWith (fun a b => |a - b|) (ps.map (·.1)) (ps.map (·.2))).sum ≤ ps.length * (hi - lo)
  | [], _ => by simp
  | p :: ps, hp => by
    obtain ⟨h1, h2⟩ := sums_le h ps fun q hq => hp q (List.mem_cons_of_mem _ hq)
    have hb := hp p List.mem_cons_self
    have hs : (p.1 - p.2) ^ 2 ≤ (hi - lo) ^ 2 := by
      rw [← sq_abs (p.1 - p.2)]
      exact pow_le_pow_left₀ (abs_nonneg _) hb 2
    simp only [List.map_cons, List.zipWith_cons_cons, List.sum_cons, List.length_cons, Nat.cast_add, Nat.cast_one]
    constructor <;> nlinarith

theorem one_le_sum (ps : List (ℚ × ℚ)) : ∀ p ∈ ps,
    |p.1 - p.2| ≤ (List.zipWith (fun a b => |a - b|) (ps.map (·.1)) (ps.map (·.2))).sum := by
  induction ps with
  | nil => intro p hp; cases hp
  | cons q ps ih =>
    intro p hp
    simp only [List.map_cons, List.zipWith_cons_cons, List.sum_cons]
    have h0 := (error_sums (ps.map (·.1)) (ps.map (·.2)) (by simp)).2.1
    have h1 := abs_nonneg (q.1 - q.2)
    rcases List.mem_cons.1 hp with rfl | hp
    · linarith
    · linarith [ih p hp]

/-- The mean squared and the mean absolute error of non-empty pairs. -/
theorem errors_ok {ps : List (ℚ × ℚ)} (h : ps ≠ []) :
    mse (ps.map (·.1)) (ps.map (·.2)) =
      .ok ((List.zipWith (fun a b => (a - b) ^ 2) (ps.map (·.1)) (ps.map (·.2))).sum / ps.length) ∧
    mae (ps.map (·.1)) (ps.map (·.2)) =
      .ok ((List.zipWith (fun a b => |a - b|) (ps.map (·.1)) (ps.map (·.2))).sum / ps.length) := by
  unfold mse mae
  simp [h]

theorem counted_pair {predict : Val → Val → Except Err (Option ℚ)} {countNone : Bool} {n : Nat} {ds : Mem} {p : ℚ × ℚ}
    (hp : p ∈ countedPairs predict countNone n ds) :
    ∃ r ∈ ds.rows, counted predict countNone r = some p.2 ∧ p.1 = sortKey "interaction" r := by
  have := List.mem_of_mem_take hp
  obtain ⟨r, hr, he⟩ := List.mem_filterMap.1 this
  obtain ⟨y, hy, rfl⟩ := Option.map_eq_some_iff.1 he
  exact ⟨r, hr, hy, rfl⟩

/-- **C111**, sizes.  When the interactions of the test set and all predictions lie between two bounds, as does the 0
that stands for a missing prediction, the reported errors are not negative and not larger than the distance of the
bounds (its square for MSE), up to the rounding of that distance. -/
theorem C111_bounds (predict : Val → Val → Except Err (Option ℚ)) (countNone : Bool) (n : Option Nat) (ds : Mem) (lo hi : ℚ)
    (h : TestSet ds lo hi) (hp : ∀ u i v, predict u i = .ok (some v) → lo ≤ v ∧ v ≤ hi)
    (h0 : countNone = true → lo ≤ 0 ∧ 0 ≤ hi) :
    (∀ e, predictiveMem predict countNone n mae ds = .ok e → 0 ≤ e ∧ e ≤ round4 (hi - lo)) ∧
    (∀ e, predictiveMem predict countNone n mse ds = .ok e → 0 ≤ e ∧ e ≤ round4 ((hi - lo) ^ 2)) ∧
    (∀ e, predictiveMem predict countNone n rmse ds = .ok e → 0 ≤ e ∧ e ≤ round4 ((hi - lo : ℚ) : ℝ)) := by
  set ps := countedPairs predict countNone (n.getD ds.rows.length) ds with hps
  have hb : ∀ p ∈ ps, |p.1 - p.2| ≤ hi - lo := by
    intro p hp'
    obtain ⟨r, hr, hc, e⟩ := counted_pair hp'
    obtain ⟨q, hq, q1, q2⟩ := h.range r hr
    have e1 : p.1 = q := by rw [e]; simp [sortKey, hq]
    have e2 : lo ≤ p.2 ∧ p.2 ≤ hi := by
      unfold counted at hc
      split at hc
      · next y hy => cases hc; exact hp _ _ _ hy
      · split at hc
        · next ht => rw [← Option.some.inj hc]; exact h0 ht
        · cases hc
      · cases hc
    rw [e1, abs_le]
    constructor <;> linarith [e2.1, e2.2]
  by_cases hne : ps = []
  · have empty : mae (ps.map (·.1)) (ps.map (·.2)) = .error .badValue ∧ mse (ps.map (·.1)) (ps.map (·.2)) = .error .badValue := by
      rw [hne]; exact ⟨rfl, rfl⟩
    refine ⟨fun e he => ?_, fun e he => ?_, fun e he => ?_⟩
    · have := predictiveMem_ok h he
      rw [← hps, empty.1] at this
      cases this
    · have := predictiveMem_ok h he
      rw [← hps, empty.2] at this
      cases this
    · have := predictiveMem_ok h he
      rw [← hps] at this
      simp only [rmse] at this
      rw [empty.2] at this
      cases this
  · obtain ⟨e1, e2⟩ := errors_ok hne
    obtain ⟨p, hp0⟩ := List.exists_mem_of_ne_nil _ hne
    have hle : lo ≤ hi := by linarith [(abs_nonneg _).trans (hb p hp0)]
    obtain ⟨s1, s2⟩ := sums_le hle ps hb
    obtain ⟨z1, z2, _⟩ := error_sums (ps.map (·.1)) (ps.map (·.2)) (by simp)
    have hl : (0 : ℚ) < ps.length := by exact_mod_cast List.length_pos_iff.2 hne
    generalize hQ : (List.zipWith (fun a b => (a - b) ^ 2) (ps.map (·.1)) (ps.map (·.2))).sum = Q at *
    generalize hS : (List.zipWith (fun a b => |a - b|) (ps.map (·.1)) (ps.map (·.2))).sum = S at *
    have bQ : 0 ≤ Q / ps.length ∧ Q / ps.length ≤ (hi - lo) ^ 2 :=
      ⟨by positivity, by rw [div_le_iff₀ hl]; linarith⟩
    have bS : 0 ≤ S / ps.length ∧ S / ps.length ≤ hi - lo :=
      ⟨by positivity, by rw [div_le_iff₀ hl]; linarith⟩
    refine ⟨fun e he => ?_, fun e he => ?_, fun e he => ?_⟩
    · have := predictiveMem_ok h he
      rw [← hps, e2] at this
      cases this
      exact ⟨round4_zero.ge.trans (round4_mono bS.1), round4_mono bS.2⟩
    · have := predictiveMem_ok h he
      rw [← hps, e1] at this
      cases this
      exact ⟨round4_zero.ge.trans (round4_mono bQ.1), round4_mono bQ.2⟩
    · have := predictiveMem_ok h he
      rw [← hps] at this
      simp only [rmse] at this
      rw [e1] at this
      cases this
      refine ⟨round4_zero.ge.trans (round4_mono (Real.sqrt_nonneg _)), round4_mono ?_⟩
      refine Real.sqrt_le_iff.2 ⟨by exact_mod_cast sub_nonneg.2 hle, ?_⟩
      exact_mod_cast bQ.2

/-- **C111**, when there is a result: with `skip_errors` predictions do not raise, and the evaluation returns exactly when
something is to be evaluated and some record has a counted prediction. -/
theorem C111_returns (predict : Val → Val → Except Err (Option ℚ)) (countNone : Bool) (n : Option Nat) (ds : Mem) (lo hi : ℚ)
    (h : TestSet ds lo hi) (hp : ∀ r ∈ ds.rows, ∃ p, predict (r.get "user") (r.get "item") = .ok p) :
    ((∃ e, predictiveMem predict countNone n mse ds = .ok e) ↔
      0 < n.getD ds.rows.length ∧ ∃ r ∈ ds.rows, (counted predict countNone r).isSome) ∧
    ((∃ e, predictiveMem predict countNone n mae ds = .ok e) ↔ ∃ e, predictiveMem predict countNone n mse ds = .ok e) ∧
    ((∃ e, predictiveMem predict countNone n rmse ds = .ok e) ↔ ∃ e, predictiveMem predict countNone n mse ds = .ok e) := by
  rcases Nat.eq_zero_or_pos (n.getD ds.rows.length) with hn | hn
  · have no : ∀ {K : Type} [Field K] [LinearOrder K] [FloorRing K] (metric : List ℚ → List ℚ → Except Err K) (e : K),
        predictiveMem predict countNone n metric ds ≠ .ok e := by
      intro K _ _ _ metric e he
      unfold predictiveMem Mem.len at he
      rw [if_pos hn] at he
      cases he
    refine ⟨⟨fun ⟨e, he⟩ => absurd he (no _ e), fun ⟨c, _⟩ => by omega⟩, ⟨fun ⟨e, he⟩ => absurd he (no _ e), fun ⟨e, he⟩ => absurd he (no _ e)⟩,
      ⟨fun ⟨e, he⟩ => absurd he (no _ e), fun ⟨e, he⟩ => absurd he (no _ e)⟩⟩
  · rw [predictiveMem_eq predict countNone n mse h hp hn, predictiveMem_eq predict countNone n mae h hp hn,
      predictiveMem_eq predict countNone n rmse h hp hn]
    have hsome : (∃ r ∈ ds.rows, (counted predict countNone r).isSome) ↔ countedPairs predict countNone (n.getD ds.rows.length) ds ≠ [] := by
      unfold countedPairs
      rw [ne_eq, List.take_eq_nil_iff, not_or, List.filterMap_eq_nil_iff]
      constructor
      · rintro ⟨r, hr, hc⟩
        refine ⟨by omega, fun hall => ?_⟩
        have := hall r hr
        rw [Option.map_eq_none_iff] at this
        rw [this] at hc
        cases hc
      · rintro ⟨_, hc⟩
        push Not at hc
        obtain ⟨r, hr, hc⟩ := hc
        refine ⟨r, hr, ?_⟩
        rw [ne_eq, Option.map_eq_none_iff] at hc
        exact Option.isSome_iff_ne_none.2 hc
    rw [hsome]
    generalize countedPairs predict countNone (n.getD ds.rows.length) ds = ps
    by_cases hne : ps = []
    · subst hne
      simp [mse, mae, rmse, Except.map]
    · obtain ⟨e1, e2⟩ := errors_ok hne
      simp only [rmse]
      rw [e1, e2]
      simp [Except.map, hne, hn]

/-- **C111**, exact models: a model that predicts the interaction of every test record gets error 0. -/
theorem C111_exact (predict : Val → Val → Except Err (Option ℚ)) (countNone : Bool) (n : Option Nat) (ds : Mem) (lo hi : ℚ)
    (h : TestSet ds lo hi) (hne : ds.rows ≠ []) (hn : n ≠ some 0)
    (hp : ∀ r ∈ ds.rows, ∀ q, r.get "interaction" = .num q → predict (r.get "user") (r.get "item") = .ok (some q)) :
    predictiveMem predict countNone n mse ds = .ok 0 ∧ predictiveMem predict countNone n mae ds = .ok 0 ∧
    predictiveMem predict countNone n rmse ds = .ok 0 := by
  have hl : 0 < ds.rows.length := List.length_pos_iff.2 hne
  have hn' : 0 < n.getD ds.rows.length := by
    cases n with
    | none => exact hl
    | some k => simp only [ne_eq, Option.some.injEq] at hn; simp only [Option.getD_some]; omega
  have hex : ∀ r ∈ ds.rows, predict (r.get "user") (r.get "item") = .ok (some (sortKey "interaction" r)) := by
    intro r hr
    obtain ⟨q, hq, _⟩ := h.range r hr
    rw [hp r hr q hq]
    simp [sortKey, hq]
  have hok : ∀ r ∈ ds.rows, ∃ p, predict (r.get "user") (r.get "item") = .ok p := fun r hr => ⟨_, hex r hr⟩
  have heq : ∀ ps, ps = countedPairs predict countNone (n.getD ds.rows.length) ds → ps.map (·.1) = ps.map (·.2) ∧ ps.map (·.1) ≠ [] := by
    rintro ps rfl
    constructor
    · apply List.map_congr_left
      intro p hp'
      obtain ⟨r, hr, hc, e⟩ := counted_pair hp'
      unfold counted at hc
      rw [hex r hr] at hc
      exact e.trans (Option.some.inj hc)
    · rw [ne_eq, List.map_eq_nil_iff]
      unfold countedPairs
      rw [List.take_eq_nil_iff, not_or, List.filterMap_eq_nil_iff]
      refine ⟨by omega, fun hall => ?_⟩
      obtain ⟨r, hr⟩ := List.exists_mem_of_ne_nil _ hne
      have := hall r hr
      simp [counted, hex r hr] at this
  rw [predictiveMem_eq predict countNone n mse h hok hn', predictiveMem_eq predict countNone n mae h hok hn',
    predictiveMem_eq predict countNone n rmse h hok hn']
  obtain ⟨e, hne'⟩ := heq _ rfl
  rw [← e]
  obtain ⟨_, m, a, s, h1, h2, h3, _, _, _, _, _, _, z1, z2, z3, _⟩ := (C43_error_metrics _ _).imp id fun f => f (rfl : (_ : List ℚ).length = _) hne'
  rw [h1, h2, h3, z1.2 rfl, z2.2 rfl, z3.2 rfl]
  simp [Except.map, round4_zero]

/-- **C111**, converse: when the reported mean absolute error is 0, every counted prediction is within half a unit of the
fourth decimal place times the number of predictions. -/
theorem C111_zero (predict : Val → Val → Except Err (Option ℚ)) (countNone : Bool) (n : Option Nat) (ds : Mem) (lo hi : ℚ)
    (h : TestSet ds lo hi) (he : predictiveMem predict countNone n mae ds = .ok 0) :
    ∀ p ∈ countedPairs predict countNone (n.getD ds.rows.length) ds,
      |p.1 - p.2| ≤ (countedPairs predict countNone (n.getD ds.rows.length) ds).length / 20000 := by
  intro p hp
  have hne : countedPairs predict countNone (n.getD ds.rows.length) ds ≠ [] := List.ne_nil_of_mem hp
  have hm := predictiveMem_ok h he
  rw [(errors_ok hne).2] at hm
  generalize countedPairs predict countNone (n.getD ds.rows.length) ds = ps at *
  simp only [Except.map, Except.ok.injEq] at hm
  have hb := (round4_spec ((List.zipWith (fun a b => |a - b|) (ps.map (·.1)) (ps.map (·.2))).sum / ps.length : ℚ)).2
  have hl : (0 : ℚ) < ps.length := by exact_mod_cast List.length_pos_iff.2 hne
  have h1 := one_le_sum ps p hp
  have h2 : (List.zipWith (fun a b => |a - b|) (ps.map (·.1)) (ps.map (·.2))).sum / ps.length ≤ 1 / 20000 := by
    have := (abs_le.1 hb).1
    rw [hm] at this
    linarith
  rw [div_le_iff₀ hl] at h2
  linarith

/-! ## Nearest neighbour recommenders -/

theorem predict_some {α : Type} {ds : Mem} {f : PredictFn α} {x y : Lit} {skip : Bool} {v : α}
    (h : predict ds true f x y skip = .ok (some v)) : ∃ u i, f u i = .ok (some v) := by
  have ht : ∀ w, tryPredict ds f x y = .ok w → ∃ u i, f u i = .ok (some w) := by
    intro w hw
    unfold tryPredict at hw
    split at hw
    · cases hw
    · split at hw
      · cases hw
      · split at hw
        · cases hw
        · cases hw
        · next hf => cases hw; exact ⟨_, _, hf⟩
  unfold predict at h
  simp only [Bool.true_eq_false, if_false] at h
  cases htp : tryPredict ds f x y with
  | error e =>
    rw [htp] at h
    cases skip with
    | true => cases h
    | false =>
      simp only [Bool.false_eq_true, if_false] at h
      split at h
      · cases h
      · split at h <;> cases h
  | ok w =>
    rw [htp] at h
    have : w = v := by
      cases skip with
      | true => cases h; rfl
      | false =>
        simp only [Bool.false_eq_true, if_false] at h
        split at h
        · cases h
        · split at h
          · cases h
          · cases h; rfl
    exact this ▸ ht w htp

/-- **C111** for nearest neighbour recommenders: the errors they make on test values from the range of the training
interactions are at most the width of that range. -/
theorem C111_knn (cfg : KnnCfg) (train : Mem) (lo hi : ℚ) (ht : TestSet train lo hi) (lit : Val → Lit) (skip : Bool)
    (n : Option Nat) (ds : Mem) (h : TestSet ds lo hi) :
    (∀ e, predictiveMem (knnModel cfg train lit skip) false n mae ds = .ok e → 0 ≤ e ∧ e ≤ round4 (hi - lo)) ∧
    (∀ e, predictiveMem (knnModel cfg train lit skip) false n mse ds = .ok e → 0 ≤ e ∧ e ≤ round4 ((hi - lo) ^ 2)) ∧
    (∀ e, predictiveMem (knnModel cfg train lit skip) false n rmse ds = .ok e → 0 ≤ e ∧ e ≤ round4 ((hi - lo : ℚ) : ℝ)) := by
  refine C111_bounds _ false n ds lo hi h ?_ (fun c => by cases c)
  intro u i v hv
  obtain ⟨a, b, hab⟩ := predict_some hv
  cases a with
  | none => cases hab
  | some a =>
    cases b with
    | none => cases hab
    | some b =>
      obtain ⟨r₁, m1, r₂, m2, l1, l2, _⟩ := C63_range cfg _ a b v hab
      have rng : ∀ r ∈ ratingsOf train, lo ≤ r.x ∧ r.x ≤ hi := by
        intro r hr
        obtain ⟨row, hrow, rfl⟩ := List.mem_map.1 hr
        obtain ⟨q, hq, q1, q2⟩ := ht.range row hrow
        simp only [hq]
        exact ⟨q1, q2⟩
      exact ⟨(rng r₁ m1).1.trans l1, l2.trans (rng r₂ m2).2⟩

/-! ## Database datasets -/

/-- **C111** for database datasets: the evaluation of a database test set, whatever was done to it before, gives the result
of the evaluation of the same records in memory, errors included. -/
theorem C111_database {K : Type} [Field K] [LinearOrder K] [FloorRing K] (names : List String) (w : World) (hw : Reached names w)
    (i : Nat) (x : Inst) (m : Mem) (hm : SameData w i x m) (predict : Val → Val → Except Err (Option ℚ)) (countNone : Bool)
    (n : Option Nat) (metric : List ℚ → List ℚ → Except Err K) :
    predictiveDb predict countNone n metric w i = predictiveMem predict countNone n metric m := by
  obtain ⟨hn, hg⟩ := Conc.reached_good hw
  have hf := hm.full.1
  have c1 : "user" ∈ m.cols := hf (by simp)
  have c2 : "item" ∈ m.cols := hf (by simp)
  have c3 : "interaction" ∈ m.cols := hf (by simp)
  have hlen : w.len i = some m.rows.length := by
    obtain ⟨t, rs, ht, hs⟩ := hg.get hm.object
    have := hm.shows
    rw [plainOf_eq hm.object ht hs] at this
    simp only [Option.some.injEq, memPlain, Plain.mk.injEq] at this
    have hl := congrArg List.length this.2.1
    simp only [List.length_map] at hl
    simp [World.len, hm.object, hs.len, hl]
  unfold predictiveDb predictiveMem Mem.len
  rw [hlen]
  simp only
  split
  · rfl
  have hv : m.values (some ["user", "item", "interaction"]) = .ok (m.rows.map (Row.toRec ["user", "item", "interaction"])) := by
    simp [Mem.values, handleColumns, c1, c2, c3, Except.map]
  rw [hv]
  have hsub : ["user", "item", "interaction"] ⊆ m.cols := by simp [c1, c2, c3]
  obtain ⟨j, hj⟩ := works_good hn hg (op := .read i (.values (some ["user", "item", "interaction"]))) hm.shows trivial
    ⟨hm.full, hsub⟩
  simp only [runOp] at hj
  cases hr : (w.read i (.values (some ["user", "item", "interaction"]))).2 with
  | error e => rw [hr] at hj; cases hj
  | ok res =>
    have hsp := read_good hn hg hm.object hm.shows hr
    cases res with
    | recs l =>
      simp only [ReadSpec, memPlain, Option.getD_some, List.map_map] at hsp
      subst hsp
      simp only [List.map_map]
      congr 1
      apply List.map_congr_left
      intro r _
      simp only [Function.comp_apply, predictiveRec, sortKey, Conc.recRow, Row.get]
      rw [Conc.lookup_pick c1 (by simp), Conc.lookup_pick c2 (by simp), Conc.lookup_pick c3 (by simp)]
      rfl
    | _ => exact absurd hsp id

/-! ## Examples -/

/-- Cells as Python values. -/
def exCellLit : Val → Lit
  | .num q => .flt q
  | .str s => .str s
  | .null => .none

/-- Ann has not rated y; bob and cid gave it 5 and 1. -/
def exPredTrain : Mem :=
  exRows [(.str "ann", .str "x", 3), (.str "bob", .str "x", 3), (.str "bob", .str "y", 5), (.str "cid", .str "x", 3),
    (.str "cid", .str "y", 1)]

/-- Test records: one that is predicted as 3, one with an unknown user, one with an unknown item. -/
def exPredTest : Mem :=
  mkMem .obj [(.str "ann", .str "y", 5), (.str "dan", .str "y", 4), (.str "ann", .str "z", 2)]

theorem mkMem_test {dt : DType} {rows : List (Val × Val × ℚ)} {lo hi : ℚ} (h : ∀ t ∈ rows, lo ≤ t.2.2 ∧ t.2.2 ≤ hi) :
    TestSet (mkMem dt rows) lo hi := by
  refine ⟨by simp [mkMem], fun r hr => ?_⟩
  obtain ⟨p, hp, rfl⟩ := List.mem_map.1 hr
  exact ⟨p.1.2.2, rfl, h _ (List.fst_mem_of_mem_zipIdx hp)⟩

theorem exRows_test {rows : List (Val × Val × ℚ)} {lo hi : ℚ} (h : ∀ t ∈ rows, lo ≤ t.2.2 ∧ t.2.2 ≤ hi) :
    TestSet (exRows rows) lo hi := by
  have hf := exRows_fresh rows
  refine ⟨⟨hf.ids.user.hasRaw, hf.ids.item.hasRaw, hf.hasInter⟩, fun r hr => ?_⟩
  have hm : rawTriple r ∈ (exRows rows).rows.map rawTriple := List.mem_map.2 ⟨r, hr, rfl⟩
  rw [exRows_raw] at hm
  obtain ⟨t, ht, e⟩ := List.mem_map.1 hm
  exact ⟨t.2.2, (congrArg (fun x => x.2.2) e).symm, h t ht⟩

/-- The hypotheses of `C111_knn` hold and errors are reported; only the first record has a prediction. -/
example : TestSet exPredTrain 1 5 ∧ TestSet exPredTest 1 5 ∧
    predictiveMem (knnModel (exOrder 2) exPredTrain exCellLit true) false none mae exPredTest = .ok 2 ∧
    predictiveMem (knnModel (exOrder 2) exPredTrain exCellLit true) false none mse exPredTest = .ok 4 ∧
    countedPairs (knnModel (exOrder 2) exPredTrain exCellLit true) false 3 exPredTest = [(5, 3)] ∧
    countedPairs (knnModel (exOrder 2) exPredTrain exCellLit true) true 3 exPredTest = [(5, 3), (4, 0), (2, 0)] := by
  refine ⟨exRows_test (by decide +kernel), mkMem_test (by decide +kernel), of_toOption (by decide +kernel),
    of_toOption (by decide +kernel), by decide +kernel, by decide +kernel⟩

/-- The bounds of `C111_bounds` are attained. -/
example : TestSet (mkMem .obj [(.str "ann", .str "y", 5)]) 1 5 ∧
    predictiveMem (fun _ _ => .ok (some 1)) false none mse (mkMem .obj [(.str "ann", .str "y", 5)]) = .ok (round4 ((5 - 1) ^ 2)) :=
  ⟨mkMem_test (by decide +kernel), of_toOption (by decide +kernel)⟩

/-- Without any prediction there is no result: the metrics raise (`C111_returns`). -/
example : predictiveMem (fun _ _ => .ok none) false none mse exPredTest = .error .badValue ∧
    predictiveMem (fun _ _ => .ok none) true (some 1) mse exPredTest = .ok 25 :=
  ⟨rfl, of_toOption (by decide +kernel)⟩

/-- The error 0 of `C111_zero` does not mean that the predictions are exact. -/
example : predictiveMem (fun _ _ => .ok (some (5 + 1 / 20000))) false none mae (mkMem .obj [(.str "ann", .str "y", 5)]) = .ok 0 :=
  of_toOption (by decide +kernel)

/-- The three records read from a csv file: the hypotheses of `C111_database`, and the errors of a constant prediction. -/
example : Reached exDbNames exWorld ∧ (∃ x, SameData exWorld 0 x exBothMem) ∧
    predictiveDb (fun _ _ => .ok (some 4)) false none mae exWorld 0 = .ok (6667 / 10000) :=
  ⟨⟨exDbCols, _, _, [], by decide, by decide, by decide, by decide, trivial, rfl⟩,
    ⟨_, by decide +kernel, rfl, by unfold FullCols; decide, by decide, rfl⟩, of_toOption (by decide +kernel)⟩

end DRec
