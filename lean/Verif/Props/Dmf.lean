import Verif.Model.Nets
import Verif.Props.Generators
import Verif.Props.Recommender
import Verif.Lemmas.Similarity

/-!
# C79, C80, C83: DMF

Networks, weights and the state of the dataset are arbitrary.
-/

namespace DRec

open Spec

/-! ## C79 -/

theorem l2Normalize_sq (v : List ℝ) : ((l2Normalize v).map fun x => x ^ 2).sum ≤ 1 := by
  have hs : 0 ≤ (v.map fun y => y ^ 2).sum := by
    apply List.sum_nonneg
    intro x hx
    obtain ⟨p, _, rfl⟩ := List.mem_map.1 hx
    positivity
  unfold l2Normalize
  generalize hS : (v.map fun y => y ^ 2).sum = S at *
  have hM : 0 < max S (1 / 10 ^ 12) := lt_of_lt_of_le (by positivity) (le_max_right _ _)
  have : ((v.map fun x => x / Real.sqrt (max S (1 / 10 ^ 12))).map fun x => x ^ 2) =
      v.map fun x => x ^ 2 * (1 / max S (1 / 10 ^ 12)) := by
    rw [List.map_map]
    apply List.map_congr_left
    intro x _
    simp only [Function.comp_apply, div_pow, Real.sq_sqrt hM.le]
    ring
  rw [this, List.sum_map_mul_right, hS, mul_one_div]
  exact (div_le_one hM).2 (le_max_left _ _)

theorem zip_sq_le (a b : List ℝ) : ((a.zip b).map fun p => p.1 ^ 2).sum ≤ (a.map fun x => x ^ 2).sum := by
  induction a generalizing b with
  | nil => simp
  | cons x a ih =>
    cases b with
    | nil =>
      simp only [List.zip_nil_right, List.map_nil, List.sum_nil]
      apply List.sum_nonneg
      intro y hy
      obtain ⟨p, _, rfl⟩ := List.mem_map.1 hy
      positivity
    | cons y b =>
      simp only [List.zip_cons_cons, List.map_cons, List.sum_cons]
      linarith [ih b]

theorem zip_sq_le' (a b : List ℝ) : ((a.zip b).map fun p => p.2 ^ 2).sum ≤ (b.map fun x => x ^ 2).sum := by
  have h := zip_sq_le b a
  rw [← List.zip_swap, List.map_map] at h
  exact h

theorem vecDot_le (a b : List ℝ) : vecDot (l2Normalize a) (l2Normalize b) ≤ 1 := by
  have h := cauchy ((l2Normalize a).zip (l2Normalize b))
  have h1 := (zip_sq_le (l2Normalize a) (l2Normalize b)).trans (l2Normalize_sq a)
  have h2 := (zip_sq_le' (l2Normalize a) (l2Normalize b)).trans (l2Normalize_sq b)
  obtain ⟨p1, p2⟩ := sq_sums (l := (l2Normalize a).zip (l2Normalize b))
  unfold vecDot
  nlinarith

theorem score_range (m : Dmf) (u i : List ℚ) : 1 / 10 ^ 6 ≤ m.score u i ∧ m.score u i ≤ 1 := by
  refine ⟨le_max_left _ _, max_le ?_ (vecDot_le _ _)⟩
  norm_num

/-- **C79.** Whatever the networks have learned and whatever state the dataset is in, every prediction of DMF lies
between the smallest interaction of the training data, or 0 when that is 1, and the largest one.  It is above the
lower end whenever the two ends differ. -/
theorem C79_prediction_range (m : Dmf) (train : Mem) (hc : "interaction" ∈ train.cols)
    (hnum : ∀ r ∈ train.rows, ∃ q, r.get "interaction" = .num q) (lo hi : ℚ)
    (h : interactionRange train = .ok (some lo, some hi)) (ds : Mem) (uid iid : Nat) (x : ℝ)
    (hx : (m.predict lo hi ds uid iid).2 = .ok x) :
    ∃ least : ℚ, (∃ r ∈ train.rows, r.get "interaction" = .num least) ∧
      (∃ r ∈ train.rows, r.get "interaction" = .num hi) ∧
      (∀ r ∈ train.rows, ∀ q, r.get "interaction" = .num q → least ≤ q ∧ q ≤ hi) ∧
      lo = (if least = 1 then 0 else least) ∧ (lo : ℝ) ≤ x ∧ x ≤ hi ∧ (lo < hi → (lo : ℝ) < x) := by
  have hne : train.rows ≠ [] := by
    intro e
    simp only [interactionRange, Mem.min, Mem.max, hc, if_true, e, List.map_nil] at h
    cases h
  obtain ⟨lo', hi', l0, h1, h2, h3, h4, h5⟩ := range_ok hc hne hnum
  rw [h] at h1
  simp only [Except.ok.injEq, Prod.mk.injEq, Option.some.injEq] at h1
  obtain ⟨rfl, rfl⟩ := h1
  have hle : lo ≤ hi := by
    obtain ⟨r, hr, e⟩ := h3
    have := (h5 r hr l0 e).2
    rw [h2]
    split <;> linarith
  unfold Dmf.predict at hx
  split at hx
  · cases hx
  · rename_i d p _
    simp only [Except.ok.injEq] at hx
    subst hx
    obtain ⟨s1, s2⟩ := score_range m p.1 p.2
    have hle' : (lo : ℝ) ≤ hi := by exact_mod_cast hle
    have s0 : (0 : ℝ) < m.score p.1 p.2 := lt_of_lt_of_le (by positivity) s1
    refine ⟨l0, h3, h4, h5, h2, by nlinarith, by nlinarith, fun hlt => ?_⟩
    have hlt' : (lo : ℝ) < hi := by exact_mod_cast hlt
    nlinarith

/-! ## C80 -/

/-- **C80** (partial: `use_nce` is on; the full property is for every DMF and fails, see `C80_raw_wrong`).  A DMF
whose networks give exactly the training target of an interaction predicts that interaction. -/
theorem C80_learned_partial (m : Dmf) (hn : m.useNce = true) (lo hi v y : ℚ)
    (ht : m.target lo hi v = .ok y) (ds : Mem) (uid iid : Nat) (d : Mem) (u i : List ℚ)
    (hv : Dmf.vectors ds uid iid = (d, .ok (u, i))) (hs : m.score u i = y) :
    (m.predict lo hi ds uid iid).2 = .ok (v : ℝ) := by
  simp only [Dmf.target, hn, if_true, standardize] at ht
  split at ht
  · cases ht
  rename_i hd
  simp only [Except.ok.injEq] at ht
  subst ht
  simp only [Dmf.predict, hv, hs, Except.ok.injEq]
  have : ((hi : ℝ) - lo) ≠ 0 := by exact_mod_cast hd
  push_cast
  field_simp
  ring

/-- **C80 fails** without `use_nce`: a model that gives exactly the training target of an interaction predicts another
value, unless the interaction is the one point where rescaling changes nothing. -/
theorem C80_raw_targets (m : Dmf) (hn : m.useNce = false) (lo hi v y : ℚ)
    (ht : m.target lo hi v = .ok y) (ds : Mem) (uid iid : Nat) (d : Mem) (u i : List ℚ)
    (hv : Dmf.vectors ds uid iid = (d, .ok (u, i))) (hs : m.score u i = y) :
    (m.predict lo hi ds uid iid).2 = .ok (v : ℝ) ↔ lo + (hi - lo) * v = v := by
  simp only [Dmf.target, hn, Bool.false_eq_true, if_false, Except.ok.injEq] at ht
  subst ht
  simp only [Dmf.predict, hv, hs, Except.ok.injEq]
  constructor <;> intro h
  · exact_mod_cast h
  · exact_mod_cast h

/-- **C80 fails** without `use_nce`, values above 1: no networks give the training target. -/
theorem C80_raw_unreachable (m : Dmf) (hn : m.useNce = false) (lo hi v y : ℚ) (h1 : 1 < v)
    (ht : m.target lo hi v = .ok y) (u i : List ℚ) : m.score u i < y := by
  simp only [Dmf.target, hn, Bool.false_eq_true, if_false, Except.ok.injEq] at ht
  subst ht
  have := (score_range m u i).2
  have h1' : (1 : ℝ) < v := by exact_mod_cast h1
  linarith

/-! ## C83 -/

theorem serveAll_state (ds : Mem) (h : Fresh ds) (hc : CacheOk ds) (qs : List VecReq)
    (hq : ∀ q ∈ qs, q.Known ds) (hu : 2 ≤ ds.userMap.length ∨ ∀ q ∈ qs, ∃ u, q = .user u) :
    Fresh (serveAll ds qs).1 ∧ CacheOk (serveAll ds qs).1 ∧ (serveAll ds qs).1.rows = ds.rows ∧
      (serveAll ds qs).1.userMap = ds.userMap ∧ (serveAll ds qs).1.itemMap = ds.itemMap := by
  induction qs generalizing ds with
  | nil => exact ⟨h, hc, rfl, rfl, rfl⟩
  | cons q qs ih =>
    obtain ⟨_, g2, g3, g4, g5, g6, g7⟩ := serve_ok ds h hc q (hq q (by simp)) (by
      rcases hu with hu | hu
      · exact Or.inl hu
      · exact Or.inr (hu q (by simp)))
    have := ih (serve ds q).1 (fresh_congr h g3 g4 g5 g6 g7) g2 (by
      intro q' hq'
      have hk := hq q' (by simp [hq'])
      cases q'
      · show _ < _; rw [g6]; exact hk
      · show _ < _; rw [g7]; exact hk) (by
      rcases hu with hu | hu
      · left; rw [g6]; exact hu
      · exact Or.inr fun q' hq' => hu q' (by simp [hq']))
    simp only [serveAll]
    rw [g4, g6, g7] at this
    exact this

theorem vecSpec_congr {a b : Mem} (h1 : b.rows = a.rows) (h2 : b.userMap = a.userMap) (h3 : b.itemMap = a.itemMap)
    (q : VecReq) : vecSpec b q = vecSpec a q := by
  cases q <;> simp only [vecSpec, h1, h2, h3]

/-- **C83** (partial: at least two users; the full property is for every dataset and fails, see
`C83_single_user_raises`).  For known ids, after any earlier requests, the two vectors DMF feeds to its networks are
the interactions of the user with all items and of the item with all users, of the sizes the networks were built
for. -/
theorem C83_inputs_partial (ds : Mem) (h : Fresh ds) (hc : ds.cache = none) (h2 : 2 ≤ ds.userMap.length)
    (qs : List VecReq) (hq : ∀ q ∈ qs, q.Known ds) (uid iid : Nat) (hu : uid < ds.userMap.length)
    (hi : iid < ds.itemMap.length) :
    ∃ u i, (Dmf.vectors (serveAll ds qs).1 uid iid).2 = .ok (u, i) ∧
      u = (List.range ds.itemMap.length).map (pairTotal ds.rows uid) ∧
      i = (List.range ds.userMap.length).map (fun k => pairTotal ds.rows k iid) ∧
      u.length = countDistinct "iid" ds.rows ∧ i.length = countDistinct "uid" ds.rows := by
  obtain ⟨f1, c1, r1, u1, i1⟩ := serveAll_state ds h (Or.inl hc) qs hq (Or.inl h2)
  obtain ⟨a1, a2, a3, a4, a5, a6, a7⟩ := serve_ok _ f1 c1 (.user uid) (by show _ < _; rw [u1]; exact hu)
    (Or.inr ⟨uid, rfl⟩)
  obtain ⟨b1, _⟩ := serve_ok _ (fresh_congr f1 a3 a4 a5 a6 a7) a2 (.item iid)
    (by show _ < _; rw [a7, i1]; exact hi) (Or.inl (by rw [a6, u1]; exact h2))
  rw [vecSpec_congr r1 u1 i1] at a1
  rw [vecSpec_congr (a4.trans r1) (a6.trans u1) (a7.trans i1)] at b1
  simp only [serve] at a1 b1
  refine ⟨vecSpec ds (.user uid), vecSpec ds (.item iid), ?_, rfl, rfl, ?_, ?_⟩
  · unfold Dmf.vectors
    split
    · rename_i e1
      rw [e1] at a1; cases a1
    · rename_i e1
      rw [e1] at a1 b1
      simp only [Except.ok.injEq] at a1
      split
      · rename_i e2
        rw [e2] at b1; cases b1
      · rename_i e2
        rw [e2] at b1
        simp only [Except.ok.injEq] at b1 ⊢
        rw [a1, b1]
  · simp only [vecSpec, List.length_map, List.length_range]
    exact (countDistinct_eq ds "item" "iid" ds.itemMap h.ids.item h.items).symm
  · simp only [vecSpec, List.length_map, List.length_range]
    exact (countDistinct_eq ds "user" "uid" ds.userMap h.ids.user h.users).symm

/-- **C83** (partial, as above).  Every triple of a training batch, whatever was drawn, has internal ids for which
the networks get such vectors. -/
theorem C83_batches_partial (ds : Mem) (h : Fresh ds) (hc : ds.cache = none) (h2 : 2 ≤ ds.userMap.length)
    (t : Option PyNum) (ht : ∀ x ∈ t, PrintedNum x) (pos : RecGen) (neg : NullGen)
    (hs : ds.pointSampler t = .ok (pos, neg)) (n : Nat) (choices : List ℚ) (ps ns : List Nat)
    (l : List Triple) (hl : pointSample pos.next neg.next n choices ps ns = some l)
    (qs : List VecReq) (hq : ∀ q ∈ qs, q.Known ds) :
    ∀ x ∈ l, ∃ uid iid : Nat, x.uid = .num uid ∧ x.iid = .num iid ∧ uid < countDistinct "uid" ds.rows ∧
      iid < countDistinct "iid" ds.rows ∧ ∃ u i, (Dmf.vectors (serveAll ds qs).1 uid iid).2 = .ok (u, i) ∧
        u.length = countDistinct "iid" ds.rows ∧ i.length = countDistinct "uid" ds.rows := by
  have hne : ds.rows ≠ [] := by
    intro e
    obtain ⟨r, hr, _⟩ := h.users ds.userMap[0] (List.getElem_mem _)
    rw [e] at hr; cases hr
  intro x hx
  have hU := countDistinct_eq ds "user" "uid" ds.userMap h.ids.user h.users
  have hI := countDistinct_eq ds "item" "iid" ds.itemMap h.ids.item h.items
  have key : ∃ uid iid : Nat, x.uid = .num uid ∧ x.iid = .num iid ∧ uid < ds.userMap.length ∧
      iid < ds.itemMap.length := by
    rcases (C67_point_sampler_partial ds h hne t ht pos neg hs n choices ps ns l hl).2 x hx with
      ⟨_, r, ⟨hr, _⟩, e1, e2, _⟩ | ⟨_, _, u, i, e1, e2, e3, e4, _⟩
    · have c1 := h.ids.user.code r hr
      have c2 := h.ids.item.code r hr
      exact ⟨_, _, e1.trans c1.2, e2.trans c2.2, List.idxOf_lt_length_iff.2 c1.1, List.idxOf_lt_length_iff.2 c2.1⟩
    · exact ⟨u, i, e1, e2, e3, e4⟩
  obtain ⟨uid, iid, e1, e2, hu, hi⟩ := key
  obtain ⟨u, i, k1, _, _, k2, k3⟩ := C83_inputs_partial ds h hc h2 qs hq uid iid hu hi
  exact ⟨uid, iid, e1, e2, hU ▸ hu, hI ▸ hi, u, i, k1, k2, k3⟩

/-- One user who has rated two items. -/
def exSingle : Mem := (mkMem .obj [(.str "u", .str "a", 3), (.str "u", .str "b", 4)]).assignIds.1

theorem exSingle_fresh : Fresh exSingle :=
  C15_fresh_after_assign _ (by decide) (by decide) (by decide) (by
    intro r hr
    simp only [mkMem, List.zipIdx_cons, List.zipIdx_nil, List.map_cons, List.map_nil,
      List.mem_cons, List.not_mem_nil, or_false] at hr
    rcases hr with rfl | rfl
    · exact ⟨3, by decide⟩
    · exact ⟨4, by decide⟩)

/-- **C83 fails** for a dataset with one user: the vectors of the known pair (0, 1) cannot be computed, not even the
first time. -/
theorem C83_single_user_raises : Fresh exSingle ∧ exSingle.cache = none ∧ 0 < exSingle.userMap.length ∧
    1 < exSingle.itemMap.length ∧ (Dmf.vectors exSingle 0 1).2 = .error .outOfRange :=
  ⟨exSingle_fresh, rfl, by decide +kernel, by decide +kernel, by decide +kernel⟩

/-! ### Examples -/

/-- Networks that return a fixed vector. -/
noncomputable def exDmf (nce : Bool) (u i : List ℝ) : Dmf := ⟨nce, true, fun _ => u, fun _ => i⟩

theorem exDmf_score (nce : Bool) (u i : List ℚ) : (exDmf nce [1] [1]).score u i = 1 := by
  have h : l2Normalize [1] = [1] := by
    have : max (1 : ℝ) (1 / 10 ^ 12) = 1 := max_eq_left (by norm_num)
    simp only [l2Normalize, List.map_cons, List.map_nil, List.sum_cons, List.sum_nil, one_pow, add_zero, this,
      Real.sqrt_one, div_one]
  simp only [exDmf, Dmf.score, h, vecDot]
  norm_num

/-! ## C83: what the networks get -/

/-- **C83**, without `l2_norm_vectors` the networks get the vectors as they are. -/
theorem C83_plain (m : Dmf) (h : m.l2Norm = false) (v : List ℚ) : m.input v = v.map fun q : ℚ => (q : ℝ) := by
  simp [Dmf.input, h]

/-- **C83**, with `l2_norm_vectors` they get the vectors divided by a positive number; it is chosen so that the length
becomes 1, unless the vector was shorter than 1e-6. -/
theorem C83_normalised (m : Dmf) (h : m.l2Norm = true) (v : List ℚ) :
    (∃ s : ℝ, 0 < s ∧ m.input v = v.map fun q : ℚ => (q : ℝ) / s) ∧
    (1 / 10 ^ 12 ≤ (v.map fun q => q ^ 2).sum → ((m.input v).map fun x => x ^ 2).sum = 1) := by
  have hM : ∀ S : ℝ, 0 < max S (1 / 10 ^ 12) := fun S => lt_of_lt_of_le (by positivity) (le_max_right _ _)
  simp only [Dmf.input, h, if_true, l2Normalize, List.map_map]
  refine ⟨⟨_, Real.sqrt_pos.2 (hM _), rfl⟩, fun hs => ?_⟩
  have hc : (v.map ((fun y : ℝ => y ^ 2) ∘ fun q : ℚ => (q : ℝ))).sum = (((v.map fun q => q ^ 2).sum : ℚ) : ℝ) := by
    clear hs
    induction v with
    | nil => simp
    | cons a v ih => simp only [List.map_cons, List.sum_cons, ih]; push_cast; simp
  rw [hc]
  generalize hS : (v.map fun q => q ^ 2).sum = S at *
  have hS1 : (1 / 10 ^ 12 : ℝ) ≤ (S : ℝ) := by
    have : ((1 / 10 ^ 12 : ℚ) : ℝ) ≤ (S : ℝ) := by exact_mod_cast hs
    push_cast at this
    exact this
  have hpos : (0 : ℝ) < S := lt_of_lt_of_le (by positivity) hS1
  have e : (v.map ((fun x : ℝ => x ^ 2) ∘ (fun x : ℝ => x / Real.sqrt (max (S : ℝ) (1 / 10 ^ 12))) ∘ fun q : ℚ => (q : ℝ))) =
      v.map fun q : ℚ => ((fun y : ℝ => y ^ 2) ∘ fun q : ℚ => (q : ℝ)) q * (1 / (S : ℝ)) := by
    apply List.map_congr_left
    intro q _
    simp only [Function.comp_apply, div_pow, max_eq_left hS1, Real.sq_sqrt hpos.le]
    ring
  rw [e, List.sum_map_mul_right, hc, mul_one_div, div_self hpos.ne']

/-- The example vector has length 5 before. -/
example : (1 / 10 ^ 12 : ℚ) ≤ ([3, 0, 4].map fun q : ℚ => q ^ 2).sum ∧ (exDmf true [1] [1]).l2Norm = true := by
  constructor
  · norm_num
  · rfl

/-- **C79** on the example data: the two networks agree, the largest value 5 is predicted. -/
example : "interaction" ∈ exIds.cols ∧ interactionRange exIds = .ok (some 0, some 5) ∧
    ((exDmf true [1] [1]).predict 0 5 exIds 0 2).2 = .ok 5 := by
  refine ⟨exIds_fresh.hasInter, by decide +kernel, ?_⟩
  have hv : (Dmf.vectors exIds 0 2).2 = .ok ([3, 0, 5], [5, 0]) := by decide +kernel
  unfold Dmf.predict
  split
  · rename_i e; rw [e] at hv; cases hv
  · simp [exDmf_score]

/-- **C80**: the record with value 5 has target 1, and value 5 is predicted. -/
example : (exDmf true [1] [1]).useNce = true ∧ (exDmf true [1] [1]).target 0 5 5 = .ok 1 ∧
    (Dmf.vectors exIds 0 2).2 = .ok ([3, 0, 5], [5, 0]) ∧
    (exDmf true [1] [1]).score [3, 0, 5] [5, 0] = ((1 : ℚ) : ℝ) :=
  ⟨rfl, by simp [exDmf, Dmf.target, standardize], by decide +kernel, by simp [exDmf_score]⟩

/-- **C80 fails** without `use_nce`: the record with value 1 has target 1, the networks give exactly 1, and 5 is
predicted. -/
theorem C80_raw_wrong : (exDmf false [1] [1]).useNce = false ∧ Fresh exIds ∧ (exDmf false [1] [1]).target 0 5 1 = .ok 1 ∧ interactionRange exIds = .ok (some 0, some 5) ∧
    (∃ r ∈ exIds.rows, OfPair r 1 1 ∧ r.get "interaction" = .num 1) ∧
    (∀ u i, (exDmf false [1] [1]).score u i = 1) ∧
    ((exDmf false [1] [1]).predict 0 5 exIds 1 1).2 = .ok 5 := by
  refine ⟨rfl, exIds_fresh, rfl, by decide +kernel, by unfold OfPair; decide +kernel, exDmf_score false, ?_⟩
  have hv : (Dmf.vectors exIds 1 1).2 = .ok ([0, 1, 0], [0, 1]) := by decide +kernel
  unfold Dmf.predict
  split
  · rename_i e; rw [e] at hv; cases hv
  · simp [exDmf_score]

/-- **C83**: two users, mixed earlier requests, a sampler with threshold 2. -/
example : Fresh exIds ∧ exIds.cache = none ∧ 2 ≤ exIds.userMap.length ∧
    (∀ q ∈ [VecReq.user 1, .item 2, .item 0], q.Known exIds) ∧ 1 < exIds.userMap.length ∧
    2 < exIds.itemMap.length ∧ (∃ g, exIds.pointSampler (some (.int 2)) = .ok g) := by
  have h1 : exIds.userMap.length = 2 := by decide +kernel
  have h2 : exIds.itemMap.length = 3 := by decide +kernel
  refine ⟨exIds_fresh, rfl, by omega, ?_, by omega, by omega, ?_⟩
  · intro q hq
    simp only [List.mem_cons, List.not_mem_nil, or_false] at hq
    rcases hq with rfl | rfl | rfl <;> simp only [VecReq.Known, h1, h2] <;> omega
  · have h : ∃ r ∈ exIds.rows, (2 : ℚ) ≤ numCell (r.get "interaction") := by decide +kernel
    obtain ⟨r, hr, h3⟩ := h
    refine C67_sampler_starts exIds exIds_fresh _ ?_ r hr ?_
    · intro x hx; cases hx; trivial
    · intro x hx
      simp only [Option.map_some, Option.mem_def, Option.some.injEq] at hx
      rw [← hx]
      simpa [PyNum.value] using h3

end DRec
