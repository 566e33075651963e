import Verif.Lemmas.DmfTower
import Verif.Props.DmfFloat
import Verif.Props.DmfNet

/-!
# C138: DMF's networks in single precision

The layers, their number and sizes, the vectors and the order of all sums are arbitrary, up to 65536 rounded operations on the way to
one number of a representation.
-/

namespace DRec.Dm

open Spec

/-- C138: each number of a representation differs from the exact one by at most the error of the operations on its way, relative to what
it would be if nothing cancelled. -/
theorem C138_representation (l2 : Bool) (n : Nat) (ls : List Layer) (v : List ℚ) (x y : List ℝ) (hv : v.length = n)
    (hs : stepsOf l2 n ls ≤ 2 ^ 16) (hin : InputF l2 v x) (ht : TowerF ls x y) :
    y.length = repSize n ls ∧ ∀ k, k < repSize n ls →
      |y.getD k 0 - repOf n ls (inputOf l2 n v) k| ≤ stepError (stepsOf l2 n ls) * reachOf n ls (inputOf l2 n v) k := by
  obtain ⟨x', rfl, hx⟩ := input_error l2 n v x hv (by
    rintro rfl
    unfold stepsOf at hs
    simp only [if_true] at hs
    omega) hin
  obtain ⟨y', rfl, hy⟩ := tower_error ls n (inputOf l2 n v) x' (fun j => |inputOf l2 n v j|) _ y (fun j _ => le_rfl) hx ht
  refine ⟨by simp, fun k hk => ?_⟩
  have e : ((List.range (repSize n ls)).map y').getD k 0 = y' k := by simp [hk]
  rw [e]
  have h := (hy k hk).1
  rw [reachOf_congr ls n (fun j => |inputOf l2 n v j|) (inputOf l2 n v) (fun j _ => abs_abs _) k hk] at h
  have hp := pow_linear (stepsOf l2 n ls) hs
  refine h.trans (mul_le_mul_of_nonneg_right ?_ (reachOf_nonneg ls n _ k))
  unfold stepsOf at hp ⊢
  unfold stepError
  linarith

theorem sqrt_scaled (n : Nat) (d r : Nat → ℝ) (c : ℝ) (hc : 0 ≤ c) (h : ∀ k, k < n → |d k| ≤ c * r k) :
    √(∑ k ∈ Finset.range n, d k ^ 2) ≤ c * √(∑ k ∈ Finset.range n, r k ^ 2) := by
  conv_rhs => rw [← Real.sqrt_sq hc, ← Real.sqrt_mul (by positivity)]
  refine Real.sqrt_le_sqrt ?_
  rw [Finset.mul_sum]
  refine Finset.sum_le_sum fun k hk => ?_
  rw [← sq_abs (d k), ← mul_pow]
  exact pow_le_pow_left₀ (abs_nonneg _) (h k (Finset.mem_range.1 hk)) 2

theorem exactScore_range (n : Nat) (x y : Nat → ℝ) :
    exactScore ((List.range n).map x) ((List.range n).map y) = max (1 / 10 ^ 6) (cosineOf n x y) := by
  unfold exactScore cosineOf
  rw [vecLen_range, vecLen_range]
  have e : List.zipWith (· * ·) ((List.range n).map x) ((List.range n).map y) = (List.range n).map fun k => x k * y k := by
    rw [List.zipWith_map, List.zipWith_self]
  rw [e, sum_list_range]

theorem eq_range (y : List ℝ) (n : Nat) (h : y.length = n) : y = (List.range n).map fun k => y.getD k 0 := by
  rw [← h]
  exact eq_range_getD y

/-- The representations' part of the error. -/
theorem representations_close (m : Net) (hs : Sizes m) (u i : List ℚ) (hu : u.length = m.items) (hi : i.length = m.users)
    (su : stepsOf m.l2Norm m.items m.userNN ≤ 2 ^ 16) (si : stepsOf m.l2Norm m.users m.itemNN ≤ 2 ^ 16) (xu xi ru ri : List ℝ)
    (h1 : InputF m.l2Norm u xu) (h2 : InputF m.l2Norm i xi) (h3 : TowerF m.userNN xu ru) (h4 : TowerF m.itemNN xi ri) :
    ru.length = repSize m.items m.userNN ∧ ri.length = repSize m.items m.userNN ∧
    |exactScore ru ri - max (1 / 10 ^ 6) (dmfCosine m u i)| ≤ netError m u i - scoreError (repSize m.items m.userNN) := by
  obtain ⟨lu, cu⟩ := C138_representation m.l2Norm m.items m.userNN u xu ru hu su h1 h3
  obtain ⟨li, ci⟩ := C138_representation m.l2Norm m.users m.itemNN i xi ri hi si h2 h4
  have hz := hs.2.2
  refine ⟨lu, li.trans hz.symm, ?_⟩
  have e : exactScore ru ri = max (1 / 10 ^ 6) (cosineOf (repSize m.items m.userNN) (fun k => ru.getD k 0) fun k => ri.getD k 0) := by
    rw [← exactScore_range, ← eq_range ru _ lu, ← eq_range ri _ (li.trans hz.symm)]
  rw [e, max_comm, max_comm (1 / 10 ^ 6 : ℝ)]
  refine (abs_max_sub_max_le_abs _ _ _).trans ?_
  unfold dmfCosine
  refine (cosineOf_close _ _ _ _ _).trans ?_
  have pe : ∀ k, 0 ≤ stepError k := fun k => by unfold stepError; positivity
  have q1 := sqrt_scaled (repSize m.items m.userNN) (fun k => ru.getD k 0 - repOf m.items m.userNN (inputOf m.l2Norm m.items u) k) _ _
    (pe _) cu
  have q2 := sqrt_scaled (repSize m.users m.itemNN) (fun k => ri.getD k 0 - repOf m.users m.itemNN (inputOf m.l2Norm m.users i) k) _ _
    (pe _) ci
  unfold netError lossOf
  rw [hz]
  rw [hz] at q1
  have p1 := normOf_pos (repSize m.users m.itemNN) (repOf m.items m.userNN (inputOf m.l2Norm m.items u))
  have p2 := normOf_pos (repSize m.users m.itemNN) (repOf m.users m.itemNN (inputOf m.l2Norm m.users i))
  have r1 := div_le_div_of_nonneg_right q1 p1.le
  have r2 := div_le_div_of_nonneg_right q2 p2.le
  rw [mul_div_assoc] at r1 r2
  linarith

/-- C138: from the vectors of a user and an item to their score, the error is at most `netError`. -/
theorem C138_score (m : Net) (hs : Sizes m) (u i : List ℚ) (v : ℝ) (hu : u.length = m.items) (hi : i.length = m.users)
    (hk : repSize m.items m.userNN ≤ 2 ^ 16) (su : stepsOf m.l2Norm m.items m.userNN ≤ 2 ^ 16)
    (si : stepsOf m.l2Norm m.users m.itemNN ≤ 2 ^ 16) (h : m.ScoreF u i v) :
    ∃ e, m.forward [u] [i] = some [e] ∧ |v - e| ≤ netError m u i := by
  obtain ⟨xu, xi, ru, ri, h1, h2, h3, h4, h5⟩ := h
  obtain ⟨lu, li, hc⟩ := representations_close m hs u i hu hi su si xu xi ru ri h1 h2 h3 h4
  refine ⟨_, forward_map m [u] [i] (by simp) rfl hs (by simpa using hu) (by simpa using hi), ?_⟩
  have hv := C136_close ru ri v (lu.trans li.symm) (lu ▸ hk) h5
  rw [lu] at hv
  have t := abs_add_le (v - exactScore ru ri) (exactScore ru ri - max (1 / 10 ^ 6) (dmfCosine m u i))
  rw [sub_add_sub_cancel] at t
  linarith

/-- C138: there is always a score. -/
theorem C138_some (m : Net) (u i : List ℚ) : ∃ v, m.ScoreF u i v := by
  have inp : ∀ (b : Bool) (w : List ℚ), ∃ x, InputF b w x := by
    intro b w
    unfold InputF
    cases b with
    | false =>
      simp only [Bool.false_eq_true, if_false]
      exact ⟨_, rfl⟩
    | true =>
      simp only [if_true]
      obtain ⟨v, x, y, d, hx, _⟩ := scored_exists (w.map fun (q : ℚ) => single (q : ℝ)) []
      exact ⟨x, normalised_best hx⟩
  obtain ⟨xu, h1⟩ := inp m.l2Norm u
  obtain ⟨xi, h2⟩ := inp m.l2Norm i
  obtain ⟨ru, h3⟩ := towerF_exists m.userNN xu
  obtain ⟨ri, h4⟩ := towerF_exists m.itemNN xi
  obtain ⟨v, h5⟩ := scored_exists ru ri
  exact ⟨v, xu, xi, ru, ri, h1, h2, h3, h4, scored_best h5⟩

/-- C138: two items are ranked as by the exact scores when these differ by more than both errors. -/
theorem C138_order (m : Net) (hs : Sizes m) (u i j : List ℚ) (v w : ℝ) (hu : u.length = m.items) (hi : i.length = m.users)
    (hj : j.length = m.users) (hk : repSize m.items m.userNN ≤ 2 ^ 16) (su : stepsOf m.l2Norm m.items m.userNN ≤ 2 ^ 16)
    (si : stepsOf m.l2Norm m.users m.itemNN ≤ 2 ^ 16) (hv : m.ScoreF u i v) (hw : m.ScoreF u j w) (a b : ℝ)
    (ha : m.forward [u] [i] = some [a]) (hb : m.forward [u] [j] = some [b]) (h : a + netError m u i + netError m u j < b) : v < w := by
  obtain ⟨a', ha', h1⟩ := C138_score m hs u i v hu hi hk su si hv
  obtain ⟨b', hb', h2⟩ := C138_score m hs u j w hu hj hk su si hw
  have ea : a' = a := by simpa using ha'.symm.trans ha
  have eb : b' = b := by simpa using hb'.symm.trans hb
  rw [ea] at h1
  rw [eb] at h2
  linarith [(abs_le.1 h1).2, (abs_le.1 h2).1]

/-- C138: the prediction, for interactions of absolute value at most `M`. -/
theorem C138_prediction (m : Net) (hs : Sizes m) (lo hi M : ℝ) (u i : List ℚ) (p : ℝ) (hlo : |lo| ≤ M) (hhi : |hi| ≤ M)
    (hu : u.length = m.items) (hi' : i.length = m.users) (hk : repSize m.items m.userNN ≤ 2 ^ 16)
    (su : stepsOf m.l2Norm m.items m.userNN ≤ 2 ^ 16) (si : stepsOf m.l2Norm m.users m.itemNN ≤ 2 ^ 16) (h : m.PredictF lo hi u i p) :
    ∃ e, m.forward [u] [i] = some [e] ∧ |p - (lo + (hi - lo) * e)| ≤ M * (2 * netError m u i + 10 / 2 ^ 24) := by
  obtain ⟨v, ⟨xu, xi, ru, ri, h1, h2, h3, h4, h5⟩, rfl⟩ := h
  obtain ⟨lu, li, hc⟩ := representations_close m hs u i hu hi' su si xu xi ru ri h1 h2 h3 h4
  refine ⟨_, forward_map m [u] [i] (by simp) rfl hs (by simpa using hu) (by simpa using hi'), ?_⟩
  have hp := C136_prediction lo hi M ru ri _ hlo hhi (lu.trans li.symm) (lu ▸ hk) ⟨v, h5, rfl⟩
  rw [lu] at hp
  change |rescaleSingle lo hi v - (lo + (hi - lo) * max (1 / 10 ^ 6) (dmfCosine m u i))| ≤ _
  have hM : 0 ≤ M := (abs_nonneg _).trans hlo
  have hR : |hi - lo| ≤ 2 * M := (abs_sub _ _).trans (by linarith)
  generalize max (1 / 10 ^ 6) (dmfCosine m u i) = e at *
  have t1 : |(hi - lo) * (exactScore ru ri - e)| ≤ 2 * M * (netError m u i - scoreError (repSize m.items m.userNN)) := by
    rw [abs_mul]
    exact mul_le_mul hR hc (abs_nonneg _) (by positivity)
  have t2 := abs_add_le (rescaleSingle lo hi v - (lo + (hi - lo) * exactScore ru ri)) ((hi - lo) * (exactScore ru ri - e))
  have e2 : rescaleSingle lo hi v - (lo + (hi - lo) * exactScore ru ri) + (hi - lo) * (exactScore ru ri - e) =
      rescaleSingle lo hi v - (lo + (hi - lo) * e) := by ring
  rw [e2] at t2
  linarith

/-- Without negative weights and biases the representation of a vector without negative numbers is what it reaches. -/
theorem rep_reach (ls : List Layer) (n : Nat) (x : Nat → ℝ) (hl : ∀ l ∈ ls, (∀ j k, 0 ≤ l.W j k) ∧ ∀ k, 0 ≤ l.b k)
    (hx : ∀ j, j < n → 0 ≤ x j) (k : Nat) (hk : k < repSize n ls) : reachOf n ls x k = repOf n ls x k := by
  induction ls generalizing n x with
  | nil => exact abs_of_nonneg (hx k hk)
  | cons l ls ih =>
    obtain ⟨hW, hb⟩ := hl l (by simp)
    have e : ∀ j, 0 ≤ ∑ t ∈ Finset.range n, x t * l.W t j + l.b j := fun j =>
      add_nonneg (Finset.sum_nonneg fun t ht => mul_nonneg (hx t (Finset.mem_range.1 ht)) (hW t j)) (hb j)
    have e2 : ∀ j, ∑ t ∈ Finset.range n, |x t| * |l.W t j| + |l.b j| = max 0 (∑ t ∈ Finset.range n, x t * l.W t j + l.b j) := by
      intro j
      rw [max_eq_right (e j), abs_of_nonneg (hb j)]
      congr 1
      exact Finset.sum_congr rfl fun t ht => by rw [abs_of_nonneg (hx t (Finset.mem_range.1 ht)), abs_of_nonneg (hW t j)]
    show reachOf l.units ls _ k = repOf l.units ls _ k
    rw [funext e2]
    exact ih l.units _ (fun l' h' => hl l' (by simp [h'])) (fun j _ => le_max_left _ _) hk

/-- C138: without negative weights, biases and interactions nothing cancels, and the error depends on the sizes only. -/
theorem C138_positive (m : Net) (hs : Sizes m) (u i : List ℚ) (v : ℝ) (hu : u.length = m.items) (hi : i.length = m.users)
    (hk : repSize m.items m.userNN ≤ 2 ^ 16) (su : stepsOf m.l2Norm m.items m.userNN ≤ 2 ^ 16)
    (si : stepsOf m.l2Norm m.users m.itemNN ≤ 2 ^ 16) (hl : ∀ l ∈ m.userNN ++ m.itemNN, (∀ j k, 0 ≤ l.W j k) ∧ ∀ k, 0 ≤ l.b k)
    (pu : ∀ a ∈ u, 0 ≤ a) (pi : ∀ a ∈ i, 0 ≤ a) (h : m.ScoreF u i v) :
    ∃ e, m.forward [u] [i] = some [e] ∧ |v - e| ≤ scoreError (repSize m.items m.userNN) +
      2 * stepError (stepsOf m.l2Norm m.items m.userNN) + 2 * stepError (stepsOf m.l2Norm m.users m.itemNN) := by
  obtain ⟨e, he, hv⟩ := C138_score m hs u i v hu hi hk su si h
  refine ⟨e, he, hv.trans ?_⟩
  have pin : ∀ (n : Nat) (w : List ℚ), (∀ a ∈ w, 0 ≤ a) → ∀ j, 0 ≤ inputOf m.l2Norm n w j := by
    intro n w hw j
    have h0 : (0 : ℝ) ≤ ((w.getD j 0 : ℚ) : ℝ) := by
      rw [Rat.cast_nonneg, List.getD_eq_getElem?_getD]
      cases hj : w[j]? with
      | none => exact le_rfl
      | some a => exact hw a (List.mem_of_getElem? hj)
    unfold inputOf
    split
    · exact div_nonneg h0 (normOf_pos _ _).le
    · exact h0
  have loss : ∀ (n : Nat) (ls : List Layer) (w : List ℚ), (∀ l ∈ ls, (∀ j k, 0 ≤ l.W j k) ∧ ∀ k, 0 ≤ l.b k) → (∀ a ∈ w, 0 ≤ a) →
      lossOf n ls (inputOf m.l2Norm n w) ≤ 1 := by
    intro n ls w hl hw
    unfold lossOf
    rw [div_le_one (normOf_pos _ _)]
    refine le_trans (le_of_eq ?_) (le_max_left _ _)
    congr 1
    exact Finset.sum_congr rfl fun k hk => by
      rw [rep_reach ls n _ hl (fun j _ => pin n w hw j) k (Finset.mem_range.1 hk)]
  have pe : ∀ k, 0 ≤ stepError k := fun k => by unfold stepError; positivity
  have t1 := mul_le_mul_of_nonneg_left (loss m.items m.userNN u (fun l h' => hl l (by simp [h'])) pu)
    (mul_nonneg zero_le_two (pe (stepsOf m.l2Norm m.items m.userNN)))
  have t2 := mul_le_mul_of_nonneg_left (loss m.users m.itemNN i (fun l h' => hl l (by simp [h'])) pi)
    (mul_nonneg zero_le_two (pe (stepsOf m.l2Norm m.users m.itemNN)))
  unfold netError
  linarith

/-- The claim that rounding changes no score of a network with at most four inputs and units by more than 0.99. -/
def SmallNetsAccurate : Prop := ∀ (m : Net) (u i : List ℚ) (v e : ℝ), Sizes m → m.items ≤ 4 → m.users ≤ 4 →
  (∀ l ∈ m.userNN ++ m.itemNN, l.units ≤ 4) → u.length = m.items → i.length = m.users → m.ScoreF u i v →
  m.forward [u] [i] = some [e] → |v - e| ≤ 99 / 100

/-- A network whose sums cancel: the user's number is (2^24 + 1) - 2^24. -/
noncomputable def cancelNet : Net :=
  ⟨1, 3, false, [⟨1, fun j _ => if j = 0 then 16777216 else if j = 1 then 1 else -16777216, fun _ => 0⟩], [⟨1, fun _ _ => 1, fun _ => 0⟩]⟩

theorem single_of {x y : ℝ} (a b : ℚ) (h : single a = b) (hx : x = (a : ℝ)) (hy : y = (b : ℝ)) : single x = y := by
  rw [hx, hy, single_cast, h]

theorem cancel_rep : TowerF cancelNet.userNN [1, 1, 1] [0] := by
  refine ⟨[0], ⟨fun _ => 0, fun k _ => ?_, ?_⟩, rfl⟩
  · have s1 : single (1 * 16777216 : ℝ) = 16777216 := single_of 16777216 16777216 (by decide +kernel) (by norm_num) (by norm_num)
    have s2 : single (1 * 1 : ℝ) = 1 := single_of 1 1 (by decide +kernel) (by norm_num) (by norm_num)
    have s3 : single (1 * -16777216 : ℝ) = -16777216 :=
      single_of (-16777216) (-16777216) (by decide +kernel) (by norm_num) (by norm_num)
    have s4 : single (16777216 + 1 : ℝ) = 16777216 := single_of 16777217 16777216 (by decide +kernel) (by norm_num) (by norm_num)
    have s5 : single (16777216 + -16777216 : ℝ) = 0 := single_of 0 0 (by decide +kernel) (by norm_num) (by norm_num)
    have a := Dotted.add (by simp) (by simp) (.mul 1 16777216) (.mul 1 1)
    rw [s1, s2, s4] at a
    have b := Dotted.add (by simp) (by simp) a (.mul 1 (-16777216))
    rw [s3, s5] at b
    simpa using b
  · have s0 : single (0 : ℝ) = 0 := roundTo_zero
    simp [s0]

theorem cancel_exact : cancelNet.forward [[1, 1, 1]] [[1]] = some [1] := by
  rw [forward_map cancelNet [[1, 1, 1]] [[1]] (by simp) rfl (by simp [Sizes, cancelNet, repSize]) (by simp [cancelNet])
    (by simp [cancelNet])]
  simp [dmfCosine, cosineOf, normOf, cancelNet, repSize, repOf, inputOf, Finset.sum_range_succ]
  norm_num

/-- C138 (witness): two inputs of a unit cancel, the rest is lost: the score is 1e-6 instead of 1. -/
theorem C138_cancel_refuted : ¬ SmallNetsAccurate := by
  intro h
  have s1 : single (1 : ℝ) = 1 := single_of 1 1 (by decide +kernel) (by norm_num) (by norm_num)
  have s0 : single (0 : ℝ) = 0 := roundTo_zero
  obtain ⟨v, hv⟩ := scored_exists [0] [1]
  have hd := C136_dead [0] [1] v RsqrtBest (Or.inl (by simp)) hv
  have hi : TowerF cancelNet.itemNN [1] [1] := by
    refine ⟨[1], ⟨fun _ => 1, fun k _ => ?_, ?_⟩, rfl⟩
    · have := Dotted.mul 1 1
      rw [mul_one, s1] at this
      simpa using this
    · simp [s1]
  have hF : cancelNet.ScoreF [1, 1, 1] [1] v :=
    ⟨[1, 1, 1], [1], [0], [1], by simp [InputF, cancelNet, s1], by simp [InputF, cancelNet, s1], cancel_rep, hi, scored_best hv⟩
  have := h cancelNet [1, 1, 1] [1] v 1 (by simp [Sizes, cancelNet, repSize]) (by simp [cancelNet]) (by simp [cancelNet])
    (by simp [cancelNet]) (by simp [cancelNet]) (by simp [cancelNet]) hF cancel_exact
  have h1 := (abs_le.1 this).1
  have e := (abs_le.1 (single_err (1 / 10 ^ 6 : ℝ))).2
  rw [abs_of_pos (by norm_num)] at e
  rw [hd] at h1
  norm_num at e h1
  linarith

/-- A network with two layers for four items and three users meets the hypotheses of the bounds; its bound is below 2e-5. -/
noncomputable def smallNet : Net :=
  ⟨3, 4, true, [⟨2, fun j k => if j = k then 1 else 1 / 2, fun _ => 1 / 4⟩, ⟨2, fun _ _ => 1, fun _ => 0⟩],
    [⟨2, fun j _ => j + 1, fun _ => 0⟩]⟩

example : Sizes smallNet ∧ repSize smallNet.items smallNet.userNN ≤ 2 ^ 16 ∧
    stepsOf smallNet.l2Norm smallNet.items smallNet.userNN = 23 ∧ stepsOf smallNet.l2Norm smallNet.users smallNet.itemNN = 18 ∧
    scoreError 2 + 2 * stepError 23 + 2 * stepError 18 ≤ 1 / 10 ^ 5 := by
  refine ⟨by simp [Sizes, smallNet, repSize], by simp [smallNet, repSize], rfl, rfl, ?_⟩
  unfold scoreError stepError
  norm_num

example : ∃ v e, smallNet.ScoreF [5, 0, 3, 0] [5, 4, 0] v ∧ smallNet.forward [[5, 0, 3, 0]] [[5, 4, 0]] = some [e] ∧
    |v - e| ≤ 1 / 10 ^ 5 := by
  obtain ⟨v, hv⟩ := C138_some smallNet [5, 0, 3, 0] [5, 4, 0]
  obtain ⟨e, he, hc⟩ := C138_positive smallNet (by simp [Sizes, smallNet, repSize]) [5, 0, 3, 0] [5, 4, 0] v rfl rfl
    (by simp [smallNet, repSize]) (by simp [smallNet, stepsOf, layerSteps]) (by simp [smallNet, stepsOf, layerSteps]) (by
      intro l hl
      simp only [smallNet, List.cons_append, List.nil_append, List.mem_cons, List.not_mem_nil, or_false] at hl
      rcases hl with rfl | rfl | rfl
      · exact ⟨fun j k => by dsimp only; split <;> norm_num, fun k => by norm_num⟩
      · exact ⟨fun j k => by norm_num, fun k => by norm_num⟩
      · exact ⟨fun j k => by positivity, fun k => by norm_num⟩) (by simp) (by simp) hv
  refine ⟨v, e, hv, he, hc.trans ?_⟩
  show scoreError 2 + 2 * stepError 23 + 2 * stepError 18 ≤ _
  unfold scoreError stepError
  norm_num

end DRec.Dm
