import Verif.Lemmas.DmfNet
import Mathlib.Analysis.InnerProductSpace.Basic

/-!
# C135: the values that DMF computes

Weights, biases, numbers and sizes of layers, and interaction vectors are arbitrary.
-/

namespace DRec.Dm

open Spec

/-- C135: for every batch of interaction vectors the predictions are the cosines of the representations of each user and item, but
at least 1e-6. -/
theorem C135_network (m : Net) (us is : List (List ℚ)) (hs : Sizes m) (hne : us ≠ []) (hlen : us.length = is.length)
    (hu : ∀ u ∈ us, u.length = m.items) (hi : ∀ i ∈ is, i.length = m.users) :
    m.forward us is = some (List.zipWith (fun u i => max (1 / 10 ^ 6) (dmfCosine m u i)) us is) :=
  forward_map m us is hne hlen hs hu hi

/-- C135: a prediction does not depend on the other pairs of its batch. -/
theorem C135_alone (m : Net) (us is : List (List ℚ)) (hs : Sizes m) (hlen : us.length = is.length)
    (hu : ∀ u ∈ us, u.length = m.items) (hi : ∀ i ∈ is, i.length = m.users) (t : Nat) (u i : List ℚ) (h1 : us[t]? = some u)
    (h2 : is[t]? = some i) :
    ∃ (vs : List ℝ) (v : ℝ), m.forward us is = some vs ∧ m.forward [u] [i] = some [v] ∧ vs[t]? = some v := by
  have hne : us ≠ [] := by rintro rfl; simp at h1
  refine ⟨_, _, forward_map m us is hne hlen hs hu hi, forward_map m [u] [i] (by simp) rfl hs ?_ ?_, ?_⟩
  · intro v hv
    rw [List.mem_singleton.1 hv]
    exact hu u (List.mem_of_getElem? h1)
  · intro v hv
    rw [List.mem_singleton.1 hv]
    exact hi i (List.mem_of_getElem? h2)
  · rw [List.getElem?_zipWith, h1, h2]

theorem length_input (m : Net) (vs : List (List ℚ)) (n : Nat)
    (h : ∀ r ∈ m.input (vs.map fun r => r.map fun (q : ℚ) => (q : ℝ)), r.length = n) : ∀ v ∈ vs, v.length = n := by
  intro v hv
  have hm : v.map (fun (q : ℚ) => (q : ℝ)) ∈ vs.map fun r => r.map fun (q : ℚ) => (q : ℝ) := List.mem_map_of_mem hv
  unfold Net.input at h
  split at h
  · have := h _ (List.mem_map_of_mem hm)
    simpa [l2Normalize] using this
  · simpa using h _ hm

theorem stack_cases (l : List (List ℚ)) : stack l = none ∨ stack l = some (l.map fun r => r.map fun (q : ℚ) => (q : ℝ)) := by
  unfold stack DRec.Cas.tensor
  split
  · exact Or.inl rfl
  · split
    · exact Or.inr rfl
    · exact Or.inl rfl

/-- C135: a batch raises exactly when it is empty or a vector does not have one number for every item, or for every user. -/
theorem C135_raises (m : Net) (us is : List (List ℚ)) (hs : Sizes m) (hlen : us.length = is.length) :
    m.forward us is = none ↔ us = [] ∨ (∃ u ∈ us, u.length ≠ m.items) ∨ ∃ i ∈ is, i.length ≠ m.users := by
  constructor
  · intro h
    by_contra g
    push Not at g
    rw [forward_map m us is g.1 hlen hs g.2.1 g.2.2] at h
    exact absurd h (by simp)
  · intro h
    unfold Net.forward
    rcases stack_cases us with hU | hU
    · rw [hU, Option.bind_none]
    rcases stack_cases is with hI | hI
    · rw [hU, Option.bind_some, hI, Option.bind_none]
    rw [hU, hI, Option.bind_some, Option.bind_some]
    rcases h with rfl | ⟨u, hu, h⟩ | ⟨i, hi, h⟩
    · exact absurd hU (by simp [stack])
    · rw [tower_none _ _ _ hs.1, Option.bind_none]
      exact fun g => h (length_input m us _ g u hu)
    · cases tower m.items m.userNN (m.input (us.map fun r => r.map fun (q : ℚ) => (q : ℝ))) with
      | none => rw [Option.bind_none]
      | some ur =>
        rw [Option.bind_some, tower_none _ _ _ hs.2.1, Option.bind_none]
        exact fun g => h (length_input m is _ g i hi)

/-- C135: what `__init__` accepts, and that it is enough for the layers to fit: whatever the weights, a model that could be created
scores every user and item.  Its networks have layers of the sizes asked for, each with its own weights. -/
theorem C135_created (user item : Option (List Nat)) :
    ((∃ f, factors user item = .ok f) ↔ user ≠ some [] ∧ item ≠ some [] ∧
      (user.getD [64, 32]).getLast? = (item.getD [64, 32]).getLast?) ∧
    ∀ f, factors user item = .ok f → ∀ (users items : Nat) (l2 : Bool) (Wu Wi : Nat → Nat → Nat → ℝ) (bu bi : Nat → Nat → ℝ),
      Sizes (preFit users items l2 f Wu Wi bu bi) ∧
      ((preFit users items l2 f Wu Wi bu bi).userNN.map (·.units) = user.getD [64, 32]) ∧
      ((preFit users items l2 f Wu Wi bu bi).itemNN.map (·.units) = item.getD [64, 32]) ∧
      (preFit users items l2 f Wu Wi bu bi).users = users ∧ (preFit users items l2 f Wu Wi bu bi).items = items ∧
      (preFit users items l2 f Wu Wi bu bi).l2Norm = l2 ∧
      (∀ k L, (preFit users items l2 f Wu Wi bu bi).userNN[k]? = some L → L.W = Wu k ∧ L.b = bu k) ∧
      ∀ k L, (preFit users items l2 f Wu Wi bu bi).itemNN[k]? = some L → L.W = Wi k ∧ L.b = bi k := by
  have key : ∀ f, factors user item = .ok f → f = (user.getD [64, 32], item.getD [64, 32]) ∧ user.getD [64, 32] ≠ [] ∧
      item.getD [64, 32] ≠ [] ∧ (user.getD [64, 32]).getLast? = (item.getD [64, 32]).getLast? := by
    intro f h
    unfold factors at h
    dsimp only at h
    split at h
    · exact absurd h (by simp)
    · split at h
      · exact absurd h (by simp)
      · split at h
        · rename_i h1 h2 h3
          refine ⟨(Except.ok.inj h).symm, ?_, ?_, h3⟩
          · simpa using h1
          · simpa using h2
        · exact absurd h (by simp)
  constructor
  · constructor
    · rintro ⟨f, h⟩
      obtain ⟨_, h1, h2, h3⟩ := key f h
      refine ⟨?_, ?_, h3⟩
      · rintro rfl; exact h1 rfl
      · rintro rfl; exact h2 rfl
    · rintro ⟨h1, h2, h3⟩
      refine ⟨(user.getD [64, 32], item.getD [64, 32]), ?_⟩
      have g : ∀ o : Option (List Nat), o ≠ some [] → (o.getD [64, 32]).length ≠ 0 := by
        intro o ho
        cases o with
        | none => simp
        | some l =>
          simp only [Option.getD_some, ne_eq, List.length_eq_zero_iff]
          rintro rfl
          exact ho rfl
      unfold factors
      dsimp only
      rw [if_neg (g user h1), if_neg (g item h2), if_pos h3]
  · intro f h users items l2 Wu Wi bu bi
    obtain ⟨rfl, h1, h2, h3⟩ := key f h
    have eu : ((preFit users items l2 (user.getD [64, 32], item.getD [64, 32]) Wu Wi bu bi).userNN.map (·.units)) =
        user.getD [64, 32] := by
      simp only [preFit, List.map_map]
      exact List.zipIdx_map_fst ..
    have ei : ((preFit users items l2 (user.getD [64, 32], item.getD [64, 32]) Wu Wi bu bi).itemNN.map (·.units)) =
        item.getD [64, 32] := by
      simp only [preFit, List.map_map]
      exact List.zipIdx_map_fst ..
    have nu : (preFit users items l2 (user.getD [64, 32], item.getD [64, 32]) Wu Wi bu bi).userNN ≠ [] := by
      intro g
      rw [g] at eu
      exact h1 eu.symm
    have ni : (preFit users items l2 (user.getD [64, 32], item.getD [64, 32]) Wu Wi bu bi).itemNN ≠ [] := by
      intro g
      rw [g] at ei
      exact h2 ei.symm
    have own : ∀ (f : List Nat) (W : Nat → Nat → Nat → ℝ) (b : Nat → Nat → ℝ) k L,
        (f.zipIdx.map fun s => (⟨s.1, W s.2, b s.2⟩ : Layer))[k]? = some L → L.W = W k ∧ L.b = b k := by
      intro f W b k L hL
      rw [List.getElem?_map, List.getElem?_zipIdx, Option.map_map, Option.map_eq_some_iff] at hL
      obtain ⟨a, _, rfl⟩ := hL
      simp
    refine ⟨⟨nu, ni, ?_⟩, eu, ei, rfl, rfl, rfl, own _ Wu bu, own _ Wi bi⟩
    have a := repSize_nonneg_last (preFit users items l2 (user.getD [64, 32], item.getD [64, 32]) Wu Wi bu bi).items _ nu
    have b := repSize_nonneg_last (preFit users items l2 (user.getD [64, 32], item.getD [64, 32]) Wu Wi bu bi).users _ ni
    rw [eu, h3, ← ei] at a
    exact Option.some.inj (a.trans b.symm)

theorem repOf_nonneg (ls : List Layer) (hne : ls ≠ []) (n : Nat) (x : Nat → ℝ) (k : Nat) : 0 ≤ repOf n ls x k := by
  induction ls generalizing n x with
  | nil => exact absurd rfl hne
  | cons l ls ih =>
    cases ls with
    | nil => exact le_max_left _ _
    | cons l' ls => exact ih (by simp) l.units _

theorem dmfCosine_nonneg (m : Net) (hs : Sizes m) (u i : List ℚ) : 0 ≤ dmfCosine m u i :=
  div_nonneg (Finset.sum_nonneg fun k _ => mul_nonneg (repOf_nonneg _ hs.1 _ _ k) (repOf_nonneg _ hs.2.1 _ _ k))
    (mul_pos (normOf_pos _ _) (normOf_pos _ _)).le

theorem cosineOf_le (n : Nat) (x y : Nat → ℝ) : cosineOf n x y ≤ 1 := by
  unfold cosineOf
  rw [div_le_one (mul_pos (normOf_pos _ _) (normOf_pos _ _))]
  refine (Real.sum_mul_le_sqrt_mul_sqrt (Finset.range n) x y).trans ?_
  exact mul_le_mul (le_max_left _ _) (le_max_left _ _) (Real.sqrt_nonneg _) (normOf_pos _ _).le

/-- C135: the cosine is never negative, because the last layers cut off negative numbers; a prediction is at most 1, and the bound
1e-6 only replaces cosines that are smaller than it. -/
theorem C135_range (m : Net) (hs : Sizes m) (u i : List ℚ) (hu : u.length = m.items) (hi : i.length = m.users) :
    0 ≤ dmfCosine m u i ∧ dmfCosine m u i ≤ 1 ∧
    ∃ v, m.forward [u] [i] = some [v] ∧ 1 / 10 ^ 6 ≤ v ∧ v ≤ 1 ∧ |v - dmfCosine m u i| ≤ 1 / 10 ^ 6 := by
  have h0 := dmfCosine_nonneg m hs u i
  have h1 : dmfCosine m u i ≤ 1 := cosineOf_le _ _ _
  refine ⟨h0, h1, _, forward_map m [u] [i] (by simp) rfl hs (by simpa using hu) (by simpa using hi), le_max_left _ _,
    max_le (by norm_num) h1, ?_⟩
  beta_reduce
  rw [abs_le]
  rcases max_choice (1 / 10 ^ 6) (dmfCosine m u i) with g | g
  · rw [g]
    constructor
    · have := g ▸ le_max_right (1 / 10 ^ 6) (dmfCosine m u i)
      linarith
    · linarith
  · rw [g, sub_self]
    constructor <;> norm_num

theorem dead_score (m : Net) (hs : Sizes m) (u i : List ℚ) (hu : u.length = m.items) (hi : i.length = m.users)
    (h : ∀ k, k < repSize m.items m.userNN → repOf m.items m.userNN (inputOf m.l2Norm m.items u) k = 0) :
    m.forward [u] [i] = some [1 / 10 ^ 6] := by
  rw [forward_map m [u] [i] (by simp) rfl hs (by simpa using hu) (by simpa using hi)]
  have e : dmfCosine m u i = 0 := by
    unfold dmfCosine cosineOf
    rw [Finset.sum_eq_zero, zero_div]
    intro k hk
    rw [h k (Finset.mem_range.1 hk), zero_mul]
  show some [max (1 / 10 ^ 6) (dmfCosine m u i)] = _
  rw [e, max_eq_left (by norm_num)]

/-- C135: a user whose last layer is all 0 gets the score 1e-6 for every item. -/
theorem C135_dead (m : Net) (hs : Sizes m) (u : List ℚ) (hu : u.length = m.items)
    (h : ∀ k, k < repSize m.items m.userNN → repOf m.items m.userNN (inputOf m.l2Norm m.items u) k = 0) (i : List ℚ)
    (hi : i.length = m.users) : m.forward [u] [i] = some [1 / 10 ^ 6] :=
  dead_score m hs u i hu hi h

theorem repOf_zero (ls : List Layer) (n : Nat) (x : Nat → ℝ) (hb : NoBias ls) (hx : ∀ k, k < n → x k = 0) (k : Nat)
    (hk : k < repSize n ls) : repOf n ls x k = 0 := by
  induction ls generalizing n x with
  | nil => exact hx k hk
  | cons l ls ih =>
    refine ih l.units _ (fun l' h' => hb l' (List.mem_cons_of_mem _ h')) (fun k _ => ?_) hk
    rw [Finset.sum_eq_zero, hb l (List.mem_cons_self ..) k, add_zero, max_self]
    intro j hj
    rw [hx j (Finset.mem_range.1 hj), zero_mul]

/-- C135: without biases, as before the first training step, a user without interactions gets the score 1e-6 for every item. -/
theorem C135_silent (m : Net) (hs : Sizes m) (hb : NoBias m.userNN) (u : List ℚ) (hu : u.length = m.items) (hz : ∀ x ∈ u, x = 0)
    (i : List ℚ) (hi : i.length = m.users) : m.forward [u] [i] = some [1 / 10 ^ 6] := by
  refine dead_score m hs u i hu hi (repOf_zero _ _ _ hb fun k hk => ?_)
  have e : (u.getD k 0 : ℚ) = 0 := by
    have hk' : k < u.length := hu ▸ hk
    rw [List.getD_eq_getElem?_getD, List.getElem?_eq_getElem hk']
    exact hz _ (List.getElem_mem _)
  unfold inputOf
  rw [e]
  simp

theorem normOf_big (n : Nat) (x : Nat → ℝ) (k : Nat) (hk : k < n) (h : 1 / 10 ^ 6 ≤ |x k|) :
    normOf n x = Real.sqrt (∑ k ∈ Finset.range n, x k ^ 2) := by
  refine max_eq_left (h.trans ?_)
  rw [← Real.sqrt_sq_eq_abs]
  exact Real.sqrt_le_sqrt (Finset.single_le_sum (f := fun k => x k ^ 2) (fun _ _ => sq_nonneg _) (Finset.mem_range.2 hk))

/-- C135: with `l2_norm_vectors` users whose interactions differ by a factor get the same scores. -/
theorem C135_scale (m : Net) (hs : Sizes m) (hl : m.l2Norm = true) : ScaleFree m := by
  intro c u i hc hu hi ⟨x, hx, h1⟩ ⟨y, hy, h2⟩
  have hu' : (u.map (c * ·)).length = m.items := by rw [List.length_map, hu]
  rw [forward_map m [u.map (c * ·)] [i] (by simp) rfl hs (by simpa using hu) (by simpa using hi),
    forward_map m [u] [i] (by simp) rfl hs (by simpa using hu) (by simpa using hi)]
  have get : ∀ k, ((u.map (c * ·)).getD k 0 : ℚ) = c * u.getD k 0 := by
    intro k
    rw [List.getD_eq_getElem?_getD, List.getElem?_map, List.getD_eq_getElem?_getD]
    cases u[k]? with
    | none => simp
    | some v => rfl
  have big : ∀ (d : ℚ), (∃ x ∈ u, 1 / 10 ^ 6 ≤ |d * x|) → normOf m.items (fun k => ((d * u.getD k 0 : ℚ) : ℝ)) =
      Real.sqrt (∑ k ∈ Finset.range m.items, ((d * u.getD k 0 : ℚ) : ℝ) ^ 2) := by
    rintro d ⟨x, hx, h⟩
    obtain ⟨k, hk, rfl⟩ := List.mem_iff_getElem.1 hx
    refine normOf_big _ _ k (hu ▸ hk) ?_
    rw [List.getD_eq_getElem?_getD, List.getElem?_eq_getElem hk, Option.getD_some]
    have h' : ((1 / 10 ^ 6 : ℚ) : ℝ) ≤ ((|d * u[k]| : ℚ) : ℝ) := Rat.cast_le.2 h
    rw [Rat.cast_abs] at h'
    refine le_trans (le_of_eq ?_) h'
    push_cast
    rfl
  have hin : inputOf m.l2Norm m.items (u.map (c * ·)) = inputOf m.l2Norm m.items u := by
    funext j
    unfold inputOf
    rw [hl]
    simp only [if_true, get]
    have hc' : (0 : ℝ) < c := by exact_mod_cast hc
    have b1 := big c ⟨y, hy, h2⟩
    have b2 := big 1 ⟨x, hx, by rwa [one_mul]⟩
    simp only [one_mul] at b2
    rw [b1, b2]
    have e : (∑ k ∈ Finset.range m.items, ((c * u.getD k 0 : ℚ) : ℝ) ^ 2) =
        (c : ℝ) ^ 2 * ∑ k ∈ Finset.range m.items, ((u.getD k 0 : ℚ) : ℝ) ^ 2 := by
      rw [Finset.mul_sum]
      exact Finset.sum_congr rfl fun k _ => by push_cast; ring
    rw [e, Real.sqrt_mul (sq_nonneg _), Real.sqrt_sq hc'.le]
    push_cast
    rw [mul_div_mul_left _ _ hc'.ne']
  show some [_] = some [_]
  simp only [dmfCosine, hin]

/-- A network with one item and one user, two units each, and a bias in the user network. -/
noncomputable def exNet (l2 : Bool) : Net :=
  ⟨1, 1, l2, [⟨2, fun _ k => if k = 0 then 1 else 0, fun k => if k = 0 then 0 else 1⟩],
    [⟨2, fun _ k => if k = 0 then 1 else 0, fun _ => 0⟩]⟩

theorem exNet_sizes (l2 : Bool) : Sizes (exNet l2) := ⟨by simp [exNet], by simp [exNet], rfl⟩

theorem exNet_cosine (q : ℚ) (hq : 1 ≤ q) : dmfCosine (exNet false) [q] [1] = q / Real.sqrt (q ^ 2 + 1) := by
  have hq' : (1 : ℝ) ≤ q := by exact_mod_cast hq
  have hn1 : (1 / 10 ^ 6 : ℝ) ≤ Real.sqrt (q ^ 2 + 1) := by
    have : (1 : ℝ) ≤ Real.sqrt (q ^ 2 + 1) := Real.one_le_sqrt.2 (by nlinarith)
    linarith [show (1 / 10 ^ 6 : ℝ) ≤ 1 by norm_num]
  have e1 : max (0 : ℝ) q = q := max_eq_right (by linarith)
  simp only [dmfCosine, exNet, repSize, repOf, cosineOf, normOf, inputOf, Finset.sum_range_succ, Finset.sum_range_zero]
  norm_num [e1]
  rw [max_eq_left]
  norm_num at hn1
  exact hn1

/-- C135: without `l2_norm_vectors` this fails for some network. -/
theorem C135_scale_unnormalised : Sizes (exNet false) ∧ ¬ ScaleFree (exNet false) := by
  refine ⟨exNet_sizes false, fun h => ?_⟩
  have g := h (9 / 5) [4 / 3] [1] (by norm_num) rfl rfl ⟨4 / 3, by simp, by norm_num⟩ ⟨4 / 3, by simp, by norm_num⟩
  rw [forward_map _ [List.map (fun x => 9 / 5 * x) [4 / 3]] [[1]] (by simp) rfl (exNet_sizes false) (by simp [exNet]) (by simp [exNet]),
    forward_map _ [[4 / 3]] [[1]] (by simp) rfl (exNet_sizes false) (by simp [exNet]) (by simp [exNet])] at g
  have g' : max (1 / 10 ^ 6) (dmfCosine (exNet false) [9 / 5 * (4 / 3)] [1]) =
      max (1 / 10 ^ 6) (dmfCosine (exNet false) [4 / 3] [1]) := by simpa using g
  rw [exNet_cosine _ (by norm_num), exNet_cosine _ (by norm_num)] at g'
  have e1 : Real.sqrt (((9 / 5 * (4 / 3) : ℚ) : ℝ) ^ 2 + 1) = 13 / 5 := by
    rw [show ((9 / 5 * (4 / 3) : ℚ) : ℝ) ^ 2 + 1 = (13 / 5) ^ 2 by norm_num]
    exact Real.sqrt_sq (by norm_num)
  have e2 : Real.sqrt (((4 / 3 : ℚ) : ℝ) ^ 2 + 1) = 5 / 3 := by
    rw [show ((4 / 3 : ℚ) : ℝ) ^ 2 + 1 = (5 / 3) ^ 2 by norm_num]
    exact Real.sqrt_sq (by norm_num)
  rw [e1, e2, max_eq_right (by norm_num), max_eq_right (by norm_num)] at g'
  norm_num at g'

/-- C135: the model of DMF with open networks (C79, C80, C83) has this one as an instance. -/
theorem C135_instance (m : Net) (hs : Sizes m) (useNce : Bool) :
    ∃ d : Dmf, d.useNce = useNce ∧ d.l2Norm = m.l2Norm ∧
      (∀ u i : List ℚ, u.length = m.items → i.length = m.users → m.forward [u] [i] = some [d.score u i]) ∧
      ∀ (lo hi : ℚ) (ds : Mem) (uid iid : Nat),
        (∀ u i, (Dmf.vectors ds uid iid).2 = .ok (u, i) → u.length = m.items ∧ i.length = m.users) →
        m.predict lo hi ds uid iid = d.predict lo hi ds uid iid := by
  have key : ∀ u i : List ℚ, u.length = m.items → i.length = m.users →
      m.forward [u] [i] = some [(⟨useNce, m.l2Norm, rowOf m.userNN, rowOf m.itemNN⟩ : Dmf).score u i] := by
    intro u i hu hi
    rw [forward_map m [u] [i] (by simp) rfl hs (by simpa using hu) (by simpa using hi)]
    show some [_] = some [_]
    have eu : (⟨useNce, m.l2Norm, rowOf m.userNN, rowOf m.itemNN⟩ : Dmf).input u = (List.range m.items).map (inputOf m.l2Norm m.items u) :=
      input_row m m.items u hu
    have ei : (⟨useNce, m.l2Norm, rowOf m.userNN, rowOf m.itemNN⟩ : Dmf).input i = (List.range m.users).map (inputOf m.l2Norm m.users i) :=
      input_row m m.users i hi
    unfold Dmf.score
    rw [eu, ei]
    dsimp only
    rw [rowOf_range, rowOf_range, normalize_range, normalize_range, ← hs.2.2]
    unfold vecDot
    rw [List.zip_map', List.map_map, DRec.Cas.sum_range_map]
    unfold dmfCosine cosineOf
    rw [Finset.sum_div]
    congr 2
    refine congrArg _ (Finset.sum_congr rfl fun k _ => ?_)
    rw [Function.comp_apply, div_mul_div_comm]
  refine ⟨⟨useNce, m.l2Norm, rowOf m.userNN, rowOf m.itemNN⟩, rfl, rfl, key, ?_⟩
  intro lo hi ds uid iid h
  unfold Net.predict Dmf.predict
  generalize hv : Dmf.vectors ds uid iid = r at h
  obtain ⟨d, e | p⟩ := r
  · rfl
  · obtain ⟨h1, h2⟩ := h p.1 p.2 rfl
    dsimp only
    rw [key p.1 p.2 h1 h2]

/-! ## Cases -/

/-- A network, vectors, and the prediction (C135_network, C135_alone, C135_range, C135_instance). -/
example : Sizes (exNet false) ∧ (exNet false).forward [[4 / 3], [12 / 5]] [[1], [1]] = some [4 / 5, 12 / 13] ∧
    (exNet false).forward [] [] = none ∧ (exNet false).forward [[1, 2]] [[1]] = none := by
  refine ⟨exNet_sizes false, ?_, ?_, ?_⟩
  · rw [forward_map _ [[4 / 3], [12 / 5]] [[1], [1]] (by simp) rfl (exNet_sizes false) (by simp [exNet]) (by simp [exNet])]
    have e1 : Real.sqrt (((12 / 5 : ℚ) : ℝ) ^ 2 + 1) = 13 / 5 := by
      rw [show ((12 / 5 : ℚ) : ℝ) ^ 2 + 1 = (13 / 5) ^ 2 by norm_num]
      exact Real.sqrt_sq (by norm_num)
    have e2 : Real.sqrt (((4 / 3 : ℚ) : ℝ) ^ 2 + 1) = 5 / 3 := by
      rw [show ((4 / 3 : ℚ) : ℝ) ^ 2 + 1 = (5 / 3) ^ 2 by norm_num]
      exact Real.sqrt_sq (by norm_num)
    simp only [List.zipWith_cons_cons, List.zipWith_nil_right]
    rw [exNet_cosine _ (by norm_num), exNet_cosine _ (by norm_num), e1, e2, max_eq_right (by norm_num), max_eq_right (by norm_num)]
    norm_num
  · exact (C135_raises _ _ _ (exNet_sizes false) rfl).2 (Or.inl rfl)
  · exact (C135_raises _ [[1, 2]] [[1]] (exNet_sizes false) rfl).2 (Or.inr (Or.inl ⟨[1, 2], List.mem_cons_self .., fun h : 2 = 1 => absurd h (by decide)⟩))

/-- Arguments of `__init__` (C135_created). -/
example : factors none none = .ok ([64, 32], [64, 32]) ∧ factors (some [8]) (some [16, 8]) = .ok ([8], [16, 8]) ∧
    factors (some [8]) none = .error .assertion ∧ factors (some []) none = .error .assertion := by decide +kernel

/-- A network without a bias (C135_silent), and vectors that differ by a factor (C135_scale). -/
example : ∃ m : Net, Sizes m ∧ NoBias m.userNN ∧ m.l2Norm = true ∧ m.forward [[0]] [[1]] = some [1 / 10 ^ 6] ∧
    m.forward [[3]] [[1]] = m.forward [[1]] [[1]] := by
  let m : Net := ⟨1, 1, true, [⟨1, fun _ _ => 1, fun _ => 0⟩], [⟨1, fun _ _ => 1, fun _ => 0⟩]⟩
  have hs : Sizes m := ⟨by simp [m], by simp [m], rfl⟩
  have hb : NoBias m.userNN := by
    intro l hl k
    rw [List.mem_singleton.1 hl]
  refine ⟨m, hs, hb, rfl, C135_silent m hs hb [0] rfl (by simp) [1] rfl, ?_⟩
  have h := C135_scale m hs rfl 3 [1] [1] (by norm_num) rfl rfl ⟨1, by simp, by norm_num⟩ ⟨1, by simp, by norm_num⟩
  simpa using h

end DRec.Dm
