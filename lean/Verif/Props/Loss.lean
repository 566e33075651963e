import Verif.Model.Loss
import Verif.Props.Dmf
import Mathlib.Tactic.Linarith
import Mathlib.Tactic.NormNum
import Mathlib.Tactic.Positivity
import Mathlib.Tactic.FieldSimp

/-! # C114: the training losses -/

namespace DRec

open Spec

/-! ## One target -/

theorem kEps_pos : 0 < kEps := by unfold kEps; positivity

theorem kEps_lt : kEps < 1 / 2 := by unfold kEps; norm_num

theorem clip_ge (p : ℝ) : kEps ≤ clipProb p := le_max_left _ _

theorem clip_le (p : ℝ) : clipProb p ≤ 1 - kEps := max_le (by linarith [kEps_lt]) (min_le_right _ _)

theorem clip_id {p : ℝ} (h1 : kEps ≤ p) (h2 : p ≤ 1 - kEps) : clipProb p = p := by
  unfold clipProb
  rw [min_eq_left h2, max_eq_right h1]

theorem clip_mono {p q : ℝ} (h : p ≤ q) : clipProb p ≤ clipProb q := max_le_max le_rfl (min_le_min h le_rfl)

theorem clip_le_of {p : ℝ} (h : kEps < clipProb p) : clipProb p ≤ p := by
  unfold clipProb at *
  rcases max_cases kEps (min p (1 - kEps)) with ⟨e, _⟩ | ⟨e, _⟩
  · rw [e] at h; exact absurd h (lt_irrefl _)
  · rw [e]; exact min_le_left _ _

theorem le_clip_of {p : ℝ} (h : clipProb p < 1 - kEps) : p ≤ clipProb p := by
  unfold clipProb at *
  rcases min_cases p (1 - kEps) with ⟨e, _⟩ | ⟨e, _⟩
  · rw [e]; exact le_max_right _ _
  · rw [e] at h; exact absurd (le_max_right kEps (1 - kEps)) (not_le.2 h)

/-- The loss as a function of the two numbers in the logarithms. -/
noncomputable def ce (y P Q : ℝ) : ℝ := -(y * Real.log P + (1 - y) * Real.log Q)

theorem ce_swap (y P Q : ℝ) : ce y P Q = ce (1 - y) Q P := by unfold ce; ring

theorem ce_lt {y P P' Q Q' : ℝ} (hP : 0 < P) (hlt : P < P') (hQ' : 0 < Q') (hs : P + Q = P' + Q') (hy1 : y ≤ 1)
    (hle : P' ≤ y * (P' + Q')) : ce y P' Q' < ce y P Q := by
  have hP' : 0 < P' := hP.trans hlt
  have hy0 : 0 < y := by
    by_contra hn
    have : y * (P' + Q') ≤ 0 := mul_nonpos_of_nonpos_of_nonneg (not_lt.1 hn) (by linarith)
    linarith
  have hQ : 0 < Q := by linarith
  have h1 : Real.log P - Real.log P' < P / P' - 1 := by
    rw [← Real.log_div hP.ne' hP'.ne']
    refine Real.log_lt_sub_one_of_pos (by positivity) (fun e => ?_)
    rw [div_eq_one_iff_eq hP'.ne'] at e
    linarith
  have h2 : Real.log Q - Real.log Q' ≤ Q / Q' - 1 := by
    rw [← Real.log_div hQ.ne' hQ'.ne']
    exact Real.log_le_sub_one_of_pos (by positivity)
  have h3 : P / P' - 1 = -(P' - P) / P' := by field_simp; ring
  have h4 : Q / Q' - 1 = (P' - P) / Q' := by field_simp; linarith
  rw [h3] at h1
  rw [h4] at h2
  have h5 : (1 - y) / Q' ≤ y / P' := by
    rw [div_le_div_iff₀ hQ' hP']
    nlinarith
  have h6 := mul_lt_mul_of_pos_left h1 hy0
  have h7 := mul_le_mul_of_nonneg_left h2 (by linarith : 0 ≤ 1 - y)
  have h8 := mul_le_mul_of_nonneg_left h5 (by linarith : 0 ≤ P' - P)
  have e1 : y * (-(P' - P) / P') = -((P' - P) * (y / P')) := by ring
  have e2 : (1 - y) * ((P' - P) / Q') = (P' - P) * ((1 - y) / Q') := by ring
  rw [e1] at h6
  rw [e2] at h7
  unfold ce
  nlinarith

theorem bce_eq (y p : ℝ) : bce y p = ce y (clipProb p + kEps) (1 - clipProb p + kEps) := rfl

theorem bce_lt_up {y p p' : ℝ} (hy1 : y ≤ 1) (h : clipProb p < clipProb p') (hle : clipProb p' + kEps ≤ y * (1 + 2 * kEps)) :
    bce y p' < bce y p := by
  have e := kEps_pos
  rw [bce_eq, bce_eq]
  refine ce_lt (by linarith [clip_ge p]) (by linarith) (by linarith [clip_le p']) (by ring) hy1 ?_
  rw [show clipProb p' + kEps + (1 - clipProb p' + kEps) = 1 + 2 * kEps by ring]
  exact hle

theorem bce_lt_down {y p p' : ℝ} (hy0 : 0 ≤ y) (h : clipProb p' < clipProb p)
    (hle : 1 - clipProb p' + kEps ≤ (1 - y) * (1 + 2 * kEps)) : bce y p' < bce y p := by
  have e := kEps_pos
  rw [bce_eq, bce_eq, ce_swap, ce_swap y]
  refine ce_lt (by linarith [clip_le p]) (by linarith) (by linarith [clip_ge p']) (by ring) (by linarith) ?_
  rw [show 1 - clipProb p' + kEps + (clipProb p' + kEps) = 1 + 2 * kEps by ring]
  exact hle

/-- **C114**, one sample, never negative: for a target between 0 and 1. -/
theorem C114_nonneg (y p : ℝ) (h0 : 0 ≤ y) (h1 : y ≤ 1) : 0 ≤ bce y p := by
  have e := kEps_pos
  have a : Real.log (clipProb p + kEps) ≤ 0 := Real.log_nonpos (by linarith [clip_ge p]) (by linarith [clip_le p])
  have b : Real.log (1 - clipProb p + kEps) ≤ 0 := Real.log_nonpos (by linarith [clip_le p]) (by linarith [clip_ge p])
  unfold bce
  nlinarith

/-- **C114**, one sample: for a target between 0 and 1 there is a prediction within 1e-7 of it with the smallest loss. -/
theorem C114_least (y : ℝ) (h0 : 0 ≤ y) (h1 : y ≤ 1) : ∃ q, |q - y| ≤ 1 / 10 ^ 7 ∧ ∀ p, bce y q ≤ bce y p := by
  have e := kEps_pos
  refine ⟨y * (1 + 2 * kEps) - kEps, ?_, fun p => ?_⟩
  · show _ ≤ kEps
    rw [abs_le]
    constructor <;> nlinarith
  · generalize hq : y * (1 + 2 * kEps) - kEps = q
    rcases lt_trichotomy (clipProb p) (clipProb q) with h | h | h
    · refine (bce_lt_up h1 h ?_).le
      have := clip_le_of ((clip_ge p).trans_lt h)
      linarith
    · rw [bce_eq, bce_eq, h]
    · refine (bce_lt_down h0 h ?_).le
      have := le_clip_of (h.trans_le (clip_le p))
      nlinarith

/-- **C114**, one sample, closer is better: on either side of a target between 0 and 1, up to 1e-7, the loss decreases
strictly towards the target. -/
theorem C114_closer (y p p' : ℝ) (h0 : 0 ≤ y) (h1 : y ≤ 1) (hp : 1 / 10 ^ 7 ≤ p ∧ p ≤ 1 - 1 / 10 ^ 7)
    (h : p < p' ∧ p' ≤ y - 1 / 10 ^ 7 ∨ y + 1 / 10 ^ 7 ≤ p' ∧ p' < p) : bce y p' < bce y p := by
  have e := kEps_pos
  change kEps ≤ p ∧ p ≤ 1 - kEps at hp
  change p < p' ∧ p' ≤ y - kEps ∨ y + kEps ≤ p' ∧ p' < p at h
  rcases h with ⟨a, b⟩ | ⟨a, b⟩
  · have hc := clip_id (p := p') (by linarith) (by linarith)
    refine bce_lt_up h1 (by rw [hc, clip_id hp.1 hp.2]; exact a) ?_
    rw [hc]; nlinarith
  · have hc := clip_id (p := p') (by linarith) (by linarith)
    refine bce_lt_down h0 (by rw [hc, clip_id hp.1 hp.2]; exact b) ?_
    rw [hc]; nlinarith

/-- **C114** (squared error): it is never negative, zero exactly at the target, and smaller for closer predictions. -/
theorem C114_mse (y p p' : ℝ) : 0 ≤ mse y p ∧ (mse y p = 0 ↔ p = y) ∧ (|p - y| < |p' - y| ↔ mse y p < mse y p') := by
  refine ⟨sq_nonneg _, ?_, ?_⟩
  · unfold mse
    rw [sq_eq_zero_iff, sub_eq_zero]
    exact eq_comm
  · unfold mse
    rw [← sq_lt_sq, ← neg_sq (p - y), ← neg_sq (p' - y), neg_sub, neg_sub]

/-! ## Batches -/

theorem average_mono {α : Type} (l : List α) (f g : α → ℝ) (h : ∀ x ∈ l, f x ≤ g x) : average (l.map f) ≤ average (l.map g) := by
  unfold average
  rw [List.length_map, List.length_map]
  refine div_le_div_of_nonneg_right (List.sum_le_sum h) (by positivity)

theorem average_nonneg (l : List ℝ) (h : ∀ x ∈ l, 0 ≤ x) : 0 ≤ average l := div_nonneg (List.sum_nonneg h) (by positivity)

theorem userVecs_ok (ds : Mem) (h : Fresh ds) (hc : CacheOk ds) (us : List Nat) (hu : ∀ u ∈ us, u < ds.userMap.length) :
    (userVecs ds us).2 = .ok (us.map fun u => vecSpec ds (.user u)) ∧ Fresh (userVecs ds us).1 ∧ CacheOk (userVecs ds us).1 ∧
      (userVecs ds us).1.rows = ds.rows ∧ (userVecs ds us).1.userMap = ds.userMap ∧ (userVecs ds us).1.itemMap = ds.itemMap := by
  induction us generalizing ds with
  | nil => exact ⟨rfl, h, hc, rfl, rfl, rfl⟩
  | cons u us ih =>
    obtain ⟨g1, g2, g3, g4, g5, g6, g7⟩ := serve_ok ds h hc (.user u) (hu u (by simp)) (Or.inr ⟨u, rfl⟩)
    obtain ⟨i1, i2, i3, i4, i5, i6⟩ := ih _ (fresh_congr h g3 g4 g5 g6 g7) g2 (fun x hx => by
      rw [g6]; exact hu x (by simp [hx]))
    have hspec : ∀ q, vecSpec (serve ds (.user u)).1 q = vecSpec ds q := vecSpec_congr g4 g6 g7
    simp only [hspec] at i1
    rw [g4] at i4; rw [g6] at i5; rw [g7] at i6
    simp only [serve] at g1 i1 i2 i3 i4 i5 i6
    unfold userVecs
    cases hv : ds.userVec u with
    | mk d r =>
      rw [hv] at g1 i1 i2 i3 i4 i5 i6
      cases g1
      simp only at i1 i2 i3 i4 i5 i6 ⊢
      cases hw : userVecs d us with
      | mk d' r' =>
        rw [hw] at i1 i2 i3 i4 i5 i6
        cases i1
        exact ⟨rfl, i2, i3, i4, i5, i6⟩

theorem itemVecs_ok (ds : Mem) (h : Fresh ds) (hc : CacheOk ds) (h2 : 2 ≤ ds.userMap.length) (us : List Nat)
    (hu : ∀ u ∈ us, u < ds.itemMap.length) : (itemVecs ds us).2 = .ok (us.map fun u => vecSpec ds (.item u)) := by
  induction us generalizing ds with
  | nil => rfl
  | cons u us ih =>
    obtain ⟨g1, g2, g3, g4, g5, g6, g7⟩ := serve_ok ds h hc (.item u) (hu u (by simp)) (Or.inl h2)
    have i1 := ih _ (fresh_congr h g3 g4 g5 g6 g7) g2 (by rw [g6]; exact h2) (fun x hx => by
      rw [g7]; exact hu x (by simp [hx]))
    have hspec : ∀ q, vecSpec (serve ds (.item u)).1 q = vecSpec ds q := vecSpec_congr g4 g6 g7
    simp only [hspec] at i1
    simp only [serve] at g1 i1
    unfold itemVecs
    cases hv : ds.itemVec u with
    | mk d r =>
      rw [hv] at g1 i1
      cases g1
      simp only at i1 ⊢
      cases hw : itemVecs d us with
      | mk d' r' =>
        rw [hw] at i1
        cases i1
        rfl

/-- **C114** for DMF (partial: at least two users and `use_nce`; the full claim is for every DMF and fails, see
`C114_fails_raw`).  For samples with known ids and values that standardize, the batch loss is the mean over the samples of
the loss between the score of the sample's own user and item and the sample's own target; it is never negative when
values are within `lo` and `hi`, and no networks have a smaller loss than predictions within 1e-7 of the targets. -/
theorem C114_dmf_partial (m : Dmf) (hn : m.useNce = true) (lo hi : ℚ) (hlt : lo < hi) (ds : Mem) (h : Fresh ds)
    (hc : ds.cache = none) (h2 : 2 ≤ ds.userMap.length) (qs : List VecReq) (hq : ∀ q ∈ qs, q.Known ds)
    (samples : List (Nat × Nat × ℚ))
    (hs : ∀ s ∈ samples, s.1 < ds.userMap.length ∧ s.2.1 < ds.itemMap.length ∧ lo ≤ s.2.2 ∧ s.2.2 ≤ hi) :
    ∃ b, (m.sampleBatch lo hi (serveAll ds qs).1 samples).2 = .ok b ∧
      m.batchLoss b = average (samples.map fun s => bce (((s.2.2 - lo) / (hi - lo) : ℚ) : ℝ)
        (m.score ((List.range ds.itemMap.length).map (pairTotal ds.rows s.1))
          ((List.range ds.userMap.length).map fun k => pairTotal ds.rows k s.2.1))) ∧
      0 ≤ m.batchLoss b ∧
      ∃ best : ℚ → ℝ, (∀ s ∈ samples, |best s.2.2 - (((s.2.2 - lo) / (hi - lo) : ℚ) : ℝ)| ≤ 1 / 10 ^ 7) ∧
        average (samples.map fun s => bce (((s.2.2 - lo) / (hi - lo) : ℚ) : ℝ) (best s.2.2)) ≤ m.batchLoss b := by
  have hp : 0 < hi - lo := sub_pos.2 hlt
  obtain ⟨f1, c1, r1, u1, i1⟩ := serveAll_state ds h (Or.inl hc) qs hq (Or.inl h2)
  generalize (serveAll ds qs).1 = d at f1 c1 r1 u1 i1
  obtain ⟨a1, a2, a3, a4, a5, a6⟩ := userVecs_ok d f1 c1 (samples.map (·.1)) (by
    intro u hu
    obtain ⟨s, hs', rfl⟩ := List.mem_map.1 hu
    rw [u1]; exact (hs s hs').1)
  have b1 := itemVecs_ok (userVecs d (samples.map (·.1))).1 a2 a3 (by rw [a5, u1]; exact h2) (samples.map (·.2.1)) (by
    intro u hu
    obtain ⟨s, hs', rfl⟩ := List.mem_map.1 hu
    rw [a6, i1]; exact (hs s hs').2.1)
  have hA : ∀ q, vecSpec d q = vecSpec ds q := vecSpec_congr r1 u1 i1
  have hB : ∀ q, vecSpec (userVecs d (samples.map (·.1))).1 q = vecSpec ds q :=
    vecSpec_congr (a4.trans r1) (a5.trans u1) (a6.trans i1)
  simp only [hA] at a1
  simp only [hB] at b1
  have ht := mapM_except_ok (fun s : Nat × Nat × ℚ => m.target lo hi s.2.2) (fun s => (s.2.2 - lo) / (hi - lo)) samples
    (fun s _ => by simp [Dmf.target, hn, standardize, hp.ne'])
  have hb : (m.sampleBatch lo hi d samples).2 = .ok ⟨(samples.map (·.1)).map fun u => vecSpec ds (.user u),
      (samples.map (·.2.1)).map fun u => vecSpec ds (.item u), samples.map fun s => (s.2.2 - lo) / (hi - lo)⟩ := by
    unfold Dmf.sampleBatch
    rw [ht]
    cases hv : userVecs d (samples.map (·.1)) with
    | mk d' r =>
      rw [hv] at a1 b1
      cases a1
      simp only at b1 ⊢
      cases hw : itemVecs d' (samples.map (·.2.1)) with
      | mk d'' r' =>
        rw [hw] at b1
        cases b1
        rfl
  refine ⟨_, hb, ?_⟩
  have hloss : m.batchLoss ⟨(samples.map (·.1)).map fun u => vecSpec ds (.user u),
      (samples.map (·.2.1)).map fun u => vecSpec ds (.item u), samples.map fun s => (s.2.2 - lo) / (hi - lo)⟩ =
      average (samples.map fun s => bce (((s.2.2 - lo) / (hi - lo) : ℚ) : ℝ)
        (m.score (vecSpec ds (.user s.1)) (vecSpec ds (.item s.2.1)))) := by
    unfold Dmf.batchLoss Dmf.predictBatch
    simp only [List.map_map, List.zip_map', Function.comp_def]
  have hy : ∀ s ∈ samples, (0 : ℝ) ≤ (((s.2.2 - lo) / (hi - lo) : ℚ) : ℝ) ∧ (((s.2.2 - lo) / (hi - lo) : ℚ) : ℝ) ≤ 1 := by
    intro s hs'
    obtain ⟨_, _, g1, g2⟩ := hs s hs'
    constructor
    · exact_mod_cast div_nonneg (by linarith) hp.le
    · exact_mod_cast (div_le_one hp).2 (by linarith)
  rw [hloss]
  refine ⟨rfl, average_nonneg _ ?_, ?_⟩
  · intro x hx
    obtain ⟨s, hs', rfl⟩ := List.mem_map.1 hx
    exact C114_nonneg _ _ (hy s hs').1 (hy s hs').2
  · have hex : ∀ x : ℚ, ∃ q : ℝ, ∀ s ∈ samples, s.2.2 = x →
        |q - (((x - lo) / (hi - lo) : ℚ) : ℝ)| ≤ 1 / 10 ^ 7 ∧ ∀ p, bce (((x - lo) / (hi - lo) : ℚ) : ℝ) q ≤
          bce (((x - lo) / (hi - lo) : ℚ) : ℝ) p := by
      intro x
      by_cases hx : ∃ s ∈ samples, s.2.2 = x
      · obtain ⟨s, hs', rfl⟩ := hx
        obtain ⟨q, q1, q2⟩ := C114_least _ (hy s hs').1 (hy s hs').2
        exact ⟨q, fun _ _ _ => ⟨q1, q2⟩⟩
      · exact ⟨0, fun s hs' e => absurd ⟨s, hs', e⟩ hx⟩
    choose best hbest using hex
    refine ⟨best, fun s hs' => (hbest _ s hs' rfl).1, ?_⟩
    exact average_mono _ _ _ fun s hs' => (hbest _ s hs' rfl).2 _

/-- **C114** for DMF (partial, as above, and the 0 of negatives is within the range): every batch the sampler can return
meets the conditions of `C114_dmf_partial`. -/
theorem C114_sampled_partial (ds : Mem) (h : Fresh ds) (hne : ds.rows ≠ []) (lo hi : ℚ)
    (hr : interactionRange ds = .ok (some lo, some hi)) (hlo : lo ≤ 0) (hhi : 0 ≤ hi)
    (t : Option PyNum) (ht : ∀ x ∈ t, PrintedNum x) (pos : RecGen) (neg : NullGen)
    (hs : ds.pointSampler t = .ok (pos, neg)) (n : Nat) (choices : List ℚ) (ps ns : List Nat)
    (l : List Triple) (hl : pointSample pos.next neg.next n choices ps ns = some l) :
    ∃ samples : List (Nat × Nat × ℚ), l.map (fun x => (x.uid, x.iid, x.value)) =
        samples.map (fun s => (Val.num s.1, Val.num s.2.1, Val.num s.2.2)) ∧
      ∀ s ∈ samples, s.1 < ds.userMap.length ∧ s.2.1 < ds.itemMap.length ∧ lo ≤ s.2.2 ∧ s.2.2 ≤ hi := by
  have hall := (C67_point_sampler_partial ds h hne t ht pos neg hs n choices ps ns l hl).2
  clear hl
  obtain ⟨lo', hi', l0, h1, e2, h3, h4, h5⟩ := range_ok h.hasInter hne h.numeric
  rw [hr] at h1
  simp only [Except.ok.injEq, Prod.mk.injEq, Option.some.injEq] at h1
  obtain ⟨rfl, rfl⟩ := h1
  have hlow : lo ≤ l0 := by
    rw [e2]
    split
    · rename_i e; rw [e]; norm_num
    · exact le_rfl
  have key : ∀ x ∈ l, ∃ s : Nat × Nat × ℚ, (x.uid, x.iid, x.value) = (Val.num s.1, Val.num s.2.1, Val.num s.2.2) ∧
      s.1 < ds.userMap.length ∧ s.2.1 < ds.itemMap.length ∧ lo ≤ s.2.2 ∧ s.2.2 ≤ hi := by
    intro x hx
    rcases hall x hx with ⟨_, r, ⟨hr', _⟩, e1, e2', e3⟩ | ⟨_, e0, u, i, e1, e2', e3, e4, _⟩
    · have c1 := h.ids.user.code r hr'
      have c2 := h.ids.item.code r hr'
      obtain ⟨q, hq⟩ := h.numeric r hr'
      refine ⟨(ds.userMap.idxOf (r.get "user"), ds.itemMap.idxOf (r.get "item"), q), ?_, List.idxOf_lt_length_iff.2 c1.1, List.idxOf_lt_length_iff.2 c2.1, ?_, (h5 r hr' q hq).2⟩
      · rw [e1, e2', e3, c1.2, c2.2, hq]
      · exact hlow.trans (h5 r hr' q hq).1
    · exact ⟨(u, i, 0), by rw [e0, e1, e2'], e3, e4, hlo, hhi⟩
  clear hall
  induction l with
  | nil => exact ⟨[], rfl, by simp⟩
  | cons x l ih =>
    obtain ⟨ss, k1, k2⟩ := ih fun y hy => key y (List.mem_cons_of_mem _ hy)
    obtain ⟨s, k3, k4⟩ := key x List.mem_cons_self
    refine ⟨s :: ss, by rw [List.map_cons, List.map_cons, k1, k3], ?_⟩
    intro y hy
    rcases List.mem_cons.1 hy with rfl | hy
    · exact k4
    · exact k2 y hy

theorem zip_best {α : Type} (d : List ℝ) (p : List α) (best : ℝ → ℝ) (h : d.length = p.length) :
    d.zip (d.map best) = (d.zip p).map fun x => (x.1, best x.1) := by
  induction d generalizing p with
  | nil => rfl
  | cons a d ih =>
    cases p with
    | nil => simp at h
    | cons b p => simp only [List.map_cons, List.zip_cons_cons, ih p (by simpa using h)]

theorem vecLoss_best (d p : List ℝ) (best : ℝ → ℝ) (h : d.length = p.length) (hb : ∀ y ∈ d, ∀ q, bce y (best y) ≤ bce y q) :
    vecLoss bce d (d.map best) ≤ vecLoss bce d p := by
  unfold vecLoss
  rw [zip_best d p best h, List.map_map]
  exact average_mono _ _ _ fun x hx => hb _ (List.of_mem_zip hx).1 _

/-- **C114** for Caser: with labels 0 and 1 the batch loss is never negative, and no predictions have a smaller loss than
predictions within 1e-7 of the labels. -/
theorem C114_caser (labels : List (List ℝ)) (hl : ∀ d ∈ labels, ∀ y ∈ d, y = 0 ∨ y = 1) :
    (∀ preds, 0 ≤ caserLoss preds labels) ∧
    ∃ best : ℝ → ℝ, (∀ y, y = 0 ∨ y = 1 → |best y - y| ≤ 1 / 10 ^ 7) ∧
      ∀ preds : List (List ℝ), labels.length = preds.length → (∀ x ∈ labels.zip preds, x.1.length = x.2.length) →
        caserLoss (labels.map fun d => d.map best) labels ≤ caserLoss preds labels := by
  have h01 : ∀ y : ℝ, y = 0 ∨ y = 1 → 0 ≤ y ∧ y ≤ 1 := by
    rintro y (rfl | rfl) <;> norm_num
  constructor
  · intro preds
    refine average_nonneg _ fun x hx => ?_
    obtain ⟨z, hz, rfl⟩ := List.mem_map.1 hx
    refine average_nonneg _ fun x hx => ?_
    obtain ⟨w, hw, rfl⟩ := List.mem_map.1 hx
    obtain ⟨a, b⟩ := h01 _ (hl _ (List.of_mem_zip hz).1 _ (List.of_mem_zip hw).1)
    exact C114_nonneg _ _ a b
  · have hex : ∀ y : ℝ, ∃ q : ℝ, (y = 0 ∨ y = 1) → |q - y| ≤ 1 / 10 ^ 7 ∧ ∀ p, bce y q ≤ bce y p := by
      intro y
      by_cases hy : y = 0 ∨ y = 1
      · obtain ⟨q, hq⟩ := C114_least y (h01 y hy).1 (h01 y hy).2
        exact ⟨q, fun _ => hq⟩
      · exact ⟨0, fun h => absurd h hy⟩
    choose best hbest using hex
    refine ⟨best, fun y hy => (hbest y hy).1, fun preds hp hx => ?_⟩
    have hz : labels.zip (labels.map fun d => d.map best) = (labels.zip preds).map fun x => (x.1, x.1.map best) := by
      clear hl hx
      induction labels generalizing preds with
      | nil => rfl
      | cons a d ih =>
        cases preds with
        | nil => simp at hp
        | cons b p => simp only [List.map_cons, List.zip_cons_cons, ih p (by simpa using hp)]
    unfold caserLoss
    rw [hz, List.map_map]
    exact average_mono _ _ _ fun x hx' => vecLoss_best _ _ _ (hx x hx')
      fun y hy q => (hbest y (hl _ (List.of_mem_zip hx').1 y hy)).2 q

/-- **C114**, regularization: it is never negative and smallest, 0, without weights. -/
theorem C114_reg (rate : ℝ) (hr : 0 ≤ rate) (n : Nat) (ks : List (List ℝ)) :
    0 ≤ regLoss rate ks ∧ 0 ≤ cdaeReg rate n ks ∧
    ((∀ k ∈ ks, ∀ w ∈ k, w = 0) → regLoss rate ks = 0 ∧ cdaeReg rate n ks = 0) := by
  have hsq : ∀ k : List ℝ, 0 ≤ (k.map fun w => w ^ 2).sum := by
    intro k
    refine List.sum_nonneg fun x hx => ?_
    obtain ⟨w, _, rfl⟩ := List.mem_map.1 hx
    positivity
  refine ⟨?_, ?_, fun h0 => ?_⟩
  · refine List.sum_nonneg fun x hx => ?_
    obtain ⟨k, _, rfl⟩ := List.mem_map.1 hx
    exact mul_nonneg hr (hsq k)
  · unfold cdaeReg
    refine div_nonneg (mul_nonneg (List.sum_nonneg fun x hx => ?_) hr) (by positivity)
    obtain ⟨k, _, rfl⟩ := List.mem_map.1 hx
    exact div_nonneg (hsq k) (by norm_num)
  · have hz : ∀ k ∈ ks, (k.map fun w => w ^ 2).sum = 0 := by
      intro k hk
      refine List.sum_eq_zero fun x hx => ?_
      obtain ⟨w, hw, rfl⟩ := List.mem_map.1 hx
      rw [h0 k hk w hw]; norm_num
    constructor
    · refine List.sum_eq_zero fun x hx => ?_
      obtain ⟨k, hk, rfl⟩ := List.mem_map.1 hx
      rw [hz k hk, mul_zero]
    · unfold cdaeReg
      rw [List.sum_eq_zero fun x hx => ?_]
      · simp
      · obtain ⟨k, hk, rfl⟩ := List.mem_map.1 hx
        rw [hz k hk, zero_div]

/-! ## Where it fails -/

/-- For a target of at least 1 the loss only decreases with the prediction, whatever the target is. -/
theorem C114_raw_targets (y p p' : ℝ) (hy : 1 ≤ y) (h1 : 1 / 10 ^ 7 ≤ p) (h : p < p') (h2 : p' ≤ 1 - 1 / 10 ^ 7) :
    bce y p' < bce y p := by
  have e := kEps_pos
  change kEps ≤ p at h1
  change p' ≤ 1 - kEps at h2
  unfold bce
  rw [clip_id h1 (h.le.trans h2), clip_id (h1.trans h.le) h2]
  have a : Real.log (p + kEps) < Real.log (p' + kEps) := Real.log_lt_log (by linarith) (by linarith)
  have b : Real.log (1 - p' + kEps) ≤ Real.log (1 - p + kEps) := Real.log_le_log (by linarith) (by linarith)
  nlinarith

/-- **C114 fails** without `use_nce`: interactions from 1 to 5, the score 2/5 rescales to exactly the interaction 2, and has a
larger loss than the score 9/10; the loss of a batch can be negative. -/
theorem C114_fails_raw : ∃ m : Dmf, m.useNce = false ∧
    (m.target 0 5 2).toOption = some 2 ∧ ((0 : ℝ) + (5 - 0) * (2 / 5) = 2) ∧ bce 2 (9 / 10) < bce 2 (2 / 5) ∧
    Fresh exIds ∧ interactionRange exIds = .ok (some 0, some 5) ∧
    ∃ b, (m.sampleBatch 0 5 exIds [(0, 2, 5)]).2 = .ok b ∧ m.batchLoss b < 0 := by
  refine ⟨exDmf false [1] [1], rfl, rfl, by norm_num, C114_raw_targets _ _ _ (by norm_num) (by norm_num) (by norm_num) (by norm_num),
    exIds_fresh, by decide +kernel, ⟨[[3, 0, 5]], [[5, 0]], [5]⟩, ?_, ?_⟩
  · decide +kernel
  · unfold Dmf.batchLoss Dmf.predictBatch
    simp only [List.zip_cons_cons, List.zip_nil_right, List.map_cons, List.map_nil, exDmf_score, average, List.sum_cons,
      List.sum_nil, List.length_singleton]
    have hc : clipProb 1 = 1 - kEps := by
      unfold clipProb
      rw [min_eq_right (by linarith [kEps_pos]), max_eq_right (by linarith [kEps_lt])]
    unfold bce
    rw [hc, show (1 : ℝ) - kEps + kEps = 1 by ring, Real.log_one]
    have : Real.log (1 - (1 - kEps) + kEps) < 0 := Real.log_neg (by linarith [kEps_pos]) (by linarith [kEps_lt])
    push_cast
    linarith

/-- **C114 fails** for CDAE: two users with different vectors, reconstructed perfectly, have a larger squared error than two
reconstructions that say nothing. -/
theorem C114_fails_cdae : ∃ wanted other : List (List ℝ), other ≠ wanted ∧ cdaeLoss mse other wanted < cdaeLoss mse wanted wanted := by
  refine ⟨[[1], [0]], [[1 / 2], [1 / 2]], by norm_num, ?_⟩
  norm_num [cdaeLoss, vecLoss, average, mse]

/-! ## Examples -/

/-- A target of 3/5: the score 1/2 is better than 2/5, and 4/5 better than 9/10. -/
example : bce (3 / 5) (1 / 2) < bce (3 / 5) (2 / 5) ∧ bce (3 / 5) (4 / 5) < bce (3 / 5) (9 / 10) :=
  ⟨C114_closer _ _ _ (by norm_num) (by norm_num) ⟨by norm_num, by norm_num⟩ (.inl ⟨by norm_num, by norm_num⟩),
    C114_closer _ _ _ (by norm_num) (by norm_num) ⟨by norm_num, by norm_num⟩ (.inr ⟨by norm_num, by norm_num⟩)⟩

/-- A batch with a record and a negative pair, on the example data, after other requests. -/
example : ∃ b, ((exDmf true [1] [1]).sampleBatch 0 5 (serveAll exIds [VecReq.user 1, .item 2]).1 [(0, 2, 5), (1, 0, 0)]).2 = .ok b ∧
    0 ≤ (exDmf true [1] [1]).batchLoss b := by
  have h1 : exIds.userMap.length = 2 := by decide +kernel
  have h2 : exIds.itemMap.length = 3 := by decide +kernel
  obtain ⟨b, b1, _, b2, _⟩ := C114_dmf_partial (exDmf true [1] [1]) rfl 0 5 (by norm_num) exIds exIds_fresh rfl (by omega)
    [VecReq.user 1, .item 2] (by
      intro q hq
      simp only [List.mem_cons, List.not_mem_nil, or_false] at hq
      rcases hq with rfl | rfl <;> simp only [VecReq.Known, h1, h2] <;> omega) [(0, 2, 5), (1, 0, 0)] (by
      rw [h1, h2]
      intro s hs
      simp only [List.mem_cons, List.not_mem_nil, or_false] at hs
      rcases hs with rfl | rfl <;> norm_num)
  exact ⟨b, b1, b2⟩

/-- The conditions of `C114_sampled_partial`. -/
example : Fresh exIds ∧ exIds.rows ≠ [] ∧ interactionRange exIds = .ok (some 0, some 5) :=
  ⟨exIds_fresh, by decide +kernel, by decide +kernel⟩

/-- Two samples of Caser with one target and one negative each. -/
example : 0 ≤ caserLoss [[1 / 2, 1 / 3], [1, 0]] [[1, 0], [1, 0]] :=
  (C114_caser [[1, 0], [1, 0]] (by simp)).1 _

/-- Regularization of one kernel with the weights 1 and 2. -/
example : regLoss 3 [[1, 2]] = 15 ∧ cdaeReg 3 5 [[1, 2]] = 3 / 2 := by
  norm_num [regLoss, cdaeReg]

end DRec
