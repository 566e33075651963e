import Verif.Lemmas.CaserNet
import Verif.Props.Caser
import Mathlib.MeasureTheory.Integral.Bochner.Set
import Mathlib.MeasureTheory.Measure.Lebesgue.Basic
import Mathlib.Tactic.NormNum

/-! # C134: the network of Caser -/

namespace DRec.Cas

open DRec.Spec

/-- The features that belong to a sequence of items: first the numbers of `conv_v`, then for every height from 1 to `L` the largest
value of every horizontal filter over all positions. -/
def IsFeatures (m : Net) (seq : List Nat) (feats : List ℝ) : Prop :=
  feats.length = m.cfg.nv + m.cfg.L * m.cfg.nh ∧
  (∀ f < m.cfg.nv, feats.getD f 0 = weighted m seq f) ∧
  ∀ h f, 1 ≤ h → h ≤ m.cfg.L → f < m.cfg.nh →
    IsGreatest {x | ∃ t, t + h ≤ m.cfg.L ∧ x = horizontalAt m seq h f t} (feats.getD (m.cfg.nv + (h - 1) * m.cfg.nh + f) 0)

theorem feat_isFeatures (m : Net) (s : List Nat) : IsFeatures m s (feat m s) := by
  refine ⟨length_feat m s, feat_vertical m s, ?_⟩
  intro h f h1 h2 hf
  rw [feat_horizontal m s (h - 1) f (by omega) hf, show h - 1 + 1 = h by omega]
  obtain ⟨g1, g2⟩ := maxOf_greatest ((List.range (m.cfg.L - (h - 1))).map fun t => horizontalAt m s h f t) (by
    rw [ne_eq, List.map_eq_nil_iff, List.range_eq_nil]; omega)
  constructor
  · obtain ⟨t, ht, e⟩ := List.mem_map.1 g1
    rw [List.mem_range] at ht
    exact ⟨t, by omega, e.symm⟩
  · rintro x ⟨t, ht, rfl⟩
    exact g2 _ (List.mem_map.2 ⟨t, List.mem_range.2 (by omega), rfl⟩)

/-- **C134.** With at least `L` filters per height and known ids, the result has one row per example and one score per item to
score, and the score is the one of the network: the features of the sequence, the dense layer, and the product of its output
and of the vector of the user with the vector of the item. -/
theorem C134_network (m : Net) (hL : 1 ≤ m.cfg.L) (hn : m.cfg.L ≤ m.cfg.nh) (ex : List (Nat × List Nat × List Nat)) (hne : ex ≠ [])
    (hk : ∀ e ∈ ex, KnownIds m e) (hs : ∀ e ∈ ex, e.2.1.length = m.cfg.L) (n : Nat) (ht : ∀ e ∈ ex, e.2.2.length = n) :
    ∃ out, m.forward (ex.map (·.1)) (ex.map (·.2.1)) (ex.map (·.2.2)) none = some out ∧ out.length = ex.length ∧
      ∀ (b : Nat) (e : Nat × List Nat × List Nat), ex[b]? = some e →
        ∃ feats, IsFeatures m e.2.1 feats ∧ out[b]? = some (e.2.2.map (caserScore m feats e.1)) := by
  refine ⟨_, forward_map m ex hne hk hs n ht hL hn none, by simp, ?_⟩
  intro b e hb
  refine ⟨feat m e.2.1, feat_isFeatures m _, ?_⟩
  rw [List.getElem?_map, List.getElem?_zipIdx, hb]
  rfl

theorem mapM_known {α β : Type} (f : α → Option β) (l : List α) (r : List β) (h : l.mapM f = some r) (a : α) (ha : a ∈ l) :
    f a ≠ none := by
  intro g
  rw [mapM_none f l ⟨a, ha, g⟩] at h
  exact absurd h (by simp)

theorem lookup_known {n width : Nat} {M : Nat → Nat → ℝ} {i : Nat} (h : lookup n width M i ≠ none) : i < n := by
  by_contra g
  exact h (if_neg g)

theorem tensor_some {α : Type} {l l' : List (List α)} (h : tensor l = some l') : l' = l := by
  unfold tensor at h
  split at h
  · exact (Option.some.inj h).symm
  · exact absurd h (by simp)

/-- **C134.** A batch of sequences of L items, in training or not, raises exactly when one of its ids (of users, of items of the
sequences, of items to score) is unknown. -/
theorem C134_unknown (m : Net) (hL : 1 ≤ m.cfg.L) (hn : m.cfg.L ≤ m.cfg.nh) (ex : List (Nat × List Nat × List Nat)) (hne : ex ≠ [])
    (hs : ∀ e ∈ ex, e.2.1.length = m.cfg.L) (n : Nat) (ht : ∀ e ∈ ex, e.2.2.length = n)
    (noise : Option (ℝ × (Nat → Nat → ℝ))) :
    m.forward (ex.map (·.1)) (ex.map (·.2.1)) (ex.map (·.2.2)) noise = none ↔
      ∃ e ∈ ex, m.users ≤ e.1 ∨ (∃ i ∈ e.2.1, m.items ≤ i) ∨ ∃ i ∈ e.2.2, m.items ≤ i := by
  constructor
  · intro h
    by_contra g
    push Not at g
    rw [forward_map m ex hne (fun e he => g e he) hs n ht hL hn noise] at h
    exact absurd h (by simp)
  · rintro ⟨e, he, h⟩
    rw [Option.eq_none_iff_forall_ne_some]
    intro out ho
    unfold Net.forward Net.sequences Net.targets at ho
    obtain ⟨xs, hx, ho⟩ := Option.bind_eq_some_iff.1 ho
    obtain ⟨us, hu, ho⟩ := Option.bind_eq_some_iff.1 ho
    obtain ⟨_, _, ho⟩ := Option.bind_eq_some_iff.1 ho
    obtain ⟨_, _, ho⟩ := Option.bind_eq_some_iff.1 ho
    obtain ⟨_, _, ho⟩ := Option.bind_eq_some_iff.1 ho
    obtain ⟨ws, hw, _⟩ := Option.bind_eq_some_iff.1 ho
    obtain ⟨l1, h1, hx⟩ := Option.bind_eq_some_iff.1 hx
    obtain ⟨l2, h2, hw⟩ := Option.bind_eq_some_iff.1 hw
    rw [tensor_some h1] at hx
    rw [tensor_some h2] at hw
    rcases h with h | ⟨i, hi, h⟩ | ⟨i, hi, h⟩
    · exact absurd (lookup_known (mapM_known _ _ _ hu e.1 (List.mem_map_of_mem he))) (by omega)
    · have := mapM_known _ _ _ hx e.2.1 (List.mem_map_of_mem (f := fun e : Nat × List Nat × List Nat => e.2.1) he)
      obtain ⟨r, hr⟩ := Option.ne_none_iff_exists'.1 this
      exact absurd (lookup_known (mapM_known _ _ _ hr i hi)) (by omega)
    · have := mapM_known _ _ _ hw e.2.2 (List.mem_map_of_mem (f := fun e : Nat × List Nat × List Nat => e.2.2) he)
      obtain ⟨r, hr⟩ := Option.ne_none_iff_exists'.1 this
      have g := mapM_known _ _ _ hr i hi
      rw [ne_eq, Option.map_eq_none_iff] at g
      exact absurd (lookup_known g) (by omega)

/-- **C134.** The score of an item for an example does not depend on the other examples of the batch, nor on the other items to
score. -/
theorem C134_alone (m : Net) (hL : 1 ≤ m.cfg.L) (hn : m.cfg.L ≤ m.cfg.nh) (ex : List (Nat × List Nat × List Nat)) (hne : ex ≠ [])
    (hk : ∀ e ∈ ex, KnownIds m e) (hs : ∀ e ∈ ex, e.2.1.length = m.cfg.L) (n : Nat) (ht : ∀ e ∈ ex, e.2.2.length = n) :
    ∃ out, m.forward (ex.map (·.1)) (ex.map (·.2.1)) (ex.map (·.2.2)) none = some out ∧
      ∀ (b j i : Nat) (e : Nat × List Nat × List Nat), ex[b]? = some e → e.2.2[j]? = some i →
        ∃ x, (out[b]?.bind fun row => row[j]?) = some x ∧ m.forward [e.1] [e.2.1] [[i]] none = some [[x]] := by
  refine ⟨_, forward_map m ex hne hk hs n ht hL hn none, ?_⟩
  intro b j i e hb hj
  have he := List.mem_of_getElem? hb
  refine ⟨caserScore m (feat m e.2.1) e.1 i, ?_, ?_⟩
  · rw [List.getElem?_map, List.getElem?_zipIdx, hb]
    simp only [Option.map_some, Option.bind_some, List.getElem?_map, hj]
    rfl
  · have := forward_map m [(e.1, e.2.1, [i])] (by simp) (by
        intro e' h'
        rw [List.mem_singleton.1 h']
        exact ⟨(hk e he).1, (hk e he).2.1, fun i' h => by
          rw [List.mem_singleton.1 h]
          exact (hk e he).2.2 i (List.mem_of_getElem? hj)⟩) (by
        intro e' h'
        rw [List.mem_singleton.1 h']
        exact hs e he) 1 (by
        intro e' h'
        rw [List.mem_singleton.1 h']
        rfl) hL hn none
    exact this

/-- **C134.** `_rank` has one score per item of the dataset, the one that the network gives for the item. -/
theorem C134_scores (m : Net) (hL : 1 ≤ m.cfg.L) (hn : m.cfg.L ≤ m.cfg.nh) (uid : Nat) (hu : uid < m.users) (seq : List Nat)
    (hs : seq.length = m.cfg.L) (hk : ∀ i ∈ seq, i < m.items) :
    ∃ l, m.scores uid seq = some l ∧ l.length = m.items ∧
      ∀ i < m.items, ∃ x, l[i]? = some x ∧ m.forward [uid] [seq] [[i]] none = some [[x]] := by
  have key : ∀ is : List Nat, (∀ i ∈ is, i < m.items) →
      m.forward [uid] [seq] [is] none = some [is.map (caserScore m (feat m seq) uid)] := by
    intro is his
    exact forward_map m [(uid, seq, is)] (by simp) (by
      intro e' h'
      rw [List.mem_singleton.1 h']
      exact ⟨hu, hk, his⟩) (by
      intro e' h'
      rw [List.mem_singleton.1 h']
      exact hs) is.length (by
      intro e' h'
      rw [List.mem_singleton.1 h']) hL hn none
  refine ⟨(List.range m.items).map (caserScore m (feat m seq) uid), ?_, by simp, ?_⟩
  · unfold Net.scores
    rw [key _ fun i h => List.mem_range.1 h]
    rfl
  · intro i hi
    refine ⟨_, ?_, key [i] fun j h => by rw [List.mem_singleton.1 h]; exact hi⟩
    rw [List.getElem?_map, List.getElem?_range hi]
    rfl

/-- **C134.** In a training step every feature goes through the dropout, with a random number of its own; everything else is as when
ranking.  A rate of 0 changes nothing, for all random numbers from [0, 1). -/
theorem C134_training (m : Net) (hL : 1 ≤ m.cfg.L) (hn : m.cfg.L ≤ m.cfg.nh) (ex : List (Nat × List Nat × List Nat)) (hne : ex ≠ [])
    (hk : ∀ e ∈ ex, KnownIds m e) (hs : ∀ e ∈ ex, e.2.1.length = m.cfg.L) (n : Nat) (ht : ∀ e ∈ ex, e.2.2.length = n) (rate : ℝ)
    (u : Nat → Nat → ℝ) :
    (∃ out, m.forward (ex.map (·.1)) (ex.map (·.2.1)) (ex.map (·.2.2)) (some (rate, u)) = some out ∧ out.length = ex.length ∧
      ∀ (b : Nat) (e : Nat × List Nat × List Nat), ex[b]? = some e →
        ∃ feats kept, IsFeatures m e.2.1 feats ∧ kept.length = feats.length ∧
          (∀ i < feats.length, kept.getD i 0 = if u b i < rate then 0 else feats.getD i 0 / (1 - rate)) ∧
          out[b]? = some (e.2.2.map (caserScore m kept e.1))) ∧
    (rate = 0 → (∀ b i, 0 ≤ u b i) →
      m.forward (ex.map (·.1)) (ex.map (·.2.1)) (ex.map (·.2.2)) (some (rate, u)) =
        m.forward (ex.map (·.1)) (ex.map (·.2.1)) (ex.map (·.2.2)) none) := by
  constructor
  · refine ⟨_, forward_map m ex hne hk hs n ht hL hn _, by simp, ?_⟩
    intro b e hb
    refine ⟨feat m e.2.1, noisy (some (rate, u)) b (feat m e.2.1), feat_isFeatures m _, length_noisy .., ?_, ?_⟩
    · intro i hi
      unfold noisy
      rw [List.getD_eq_getElem?_getD, List.getD_eq_getElem?_getD, List.getElem?_map, List.getElem?_zipIdx,
        List.getElem?_eq_getElem hi]
      simp only [Option.map_some, Option.getD_some, zero_add]
      rfl
    · rw [List.getElem?_map, List.getElem?_zipIdx, hb]
      simp only [Option.map_some, zero_add]
  · intro h0 hu
    rw [forward_map m ex hne hk hs n ht hL hn _, forward_map m ex hne hk hs n ht hL hn _]
    congr 1
    refine List.map_congr_left fun p _ => ?_
    have : noisy (some (rate, u)) p.2 (feat m p.1.2.1) = noisy none p.2 (feat m p.1.2.1) := by
      unfold noisy
      dsimp only
      rw [show (fun q : ℝ × Nat => dropout rate (u p.2 q.2) q.1) = Prod.fst from funext fun q => by
        unfold dropout
        rw [h0, if_neg (not_lt.2 (hu _ _)), sub_zero, div_one]]
      exact List.zipIdx_map_fst ..
    rw [this]

/-- **C134.** Dropout with a rate below 1 does not change the expected value of a feature; the random number is uniform on
[0, 1). -/
theorem C134_unbiased (rate : ℝ) (h0 : 0 ≤ rate) (h1 : rate < 1) (x : ℝ) : ∫ u in Set.Ico (0 : ℝ) 1, dropout rate u x = x := by
  have he : (fun u => dropout rate u x) = Set.indicator (Set.Ici rate) fun _ => x / (1 - rate) := by
    funext u
    unfold dropout Set.indicator
    by_cases h : u < rate
    · rw [if_pos h, if_neg (by simpa using h)]
    · rw [if_neg h, if_pos (by simpa using h)]
  have hi : Set.Ico (0 : ℝ) 1 ∩ Set.Ici rate = Set.Ico rate 1 := by
    ext u
    simp only [Set.mem_inter_iff, Set.mem_Ico, Set.mem_Ici]
    constructor
    · rintro ⟨⟨_, h⟩, g⟩; exact ⟨g, h⟩
    · rintro ⟨g, h⟩; exact ⟨⟨h0.trans g, h⟩, g⟩
  rw [he, MeasureTheory.setIntegral_indicator measurableSet_Ici, hi, MeasureTheory.setIntegral_const, MeasureTheory.Measure.real,
    Real.volume_Ico, ENNReal.toReal_ofReal (by linarith), smul_eq_mul]
  have : (1 : ℝ) - rate ≠ 0 := (sub_pos.2 h1).ne'
  rw [mul_div_assoc', mul_div_cancel_left₀ x this]

/-- **C134.** The contents have the shapes of `Model/Nets`: for sequences of a length that training and ranking can produce, the
network computes a result exactly when the shapes fit, and it has the shape computed there. -/
theorem C134_shape (m : Net) (ex : List (Nat × List Nat × List Nat)) (hne : ex ≠ []) (hk : ∀ e ∈ ex, KnownIds m e) (hn : 1 ≤ m.cfg.nh)
    (hL : 1 ≤ m.cfg.L) (len : Nat) (hl : len ≤ m.cfg.L) (hs : ∀ e ∈ ex, e.2.1.length = len) (n : Nat)
    (ht : ∀ e ∈ ex, e.2.2.length = n) :
    (m.forward (ex.map (·.1)) (ex.map (·.2.1)) (ex.map (·.2.2)) none).map (fun out => [out.length, n]) =
        m.cfg.forward ex.length len n ∧
      ∀ out, m.forward (ex.map (·.1)) (ex.map (·.2.1)) (ex.map (·.2.2)) none = some out → ∀ row ∈ out, row.length = n := by
  rw [forward_eq m.cfg hL hn]
  by_cases h : m.cfg.L ≤ len ∧ len ≤ m.cfg.nh
  · have hlen : len = m.cfg.L := by omega
    subst hlen
    rw [if_pos h, forward_map m ex hne hk hs n ht hL h.2 none]
    refine ⟨by simp, ?_⟩
    intro out ho row hr
    obtain rfl := Option.some.inj ho
    obtain ⟨p, hp, rfl⟩ := List.mem_map.1 hr
    rw [List.length_map]
    exact ht _ (List.fst_mem_of_mem_zipIdx hp)
  · have hnone : m.forward (ex.map (·.1)) (ex.map (·.2.1)) (ex.map (·.2.2)) none = none := by
      have h1 : m.sequences (ex.map (·.2.1)) = some ((ex.map (·.2.1)).map (emb m)) :=
        sequences_eq m _ len (by
          intro s h
          obtain ⟨e, he, rfl⟩ := List.mem_map.1 h
          exact hs e he) (by
          intro s h
          obtain ⟨e, he, rfl⟩ := List.mem_map.1 h
          exact (hk e he).2.1)
      unfold Net.forward
      rw [h1, Option.bind_some, features_none m _ (by simpa using hne) len (by
          intro s h
          obtain ⟨e, he, rfl⟩ := List.mem_map.1 h
          exact hs e he) (by omega)]
      cases (ex.map (·.1)).mapM (lookup m.users m.cfg.d m.U) <;> rfl
    rw [if_neg h, hnone]
    exact ⟨rfl, fun out ho => absurd ho (by simp)⟩

/-! ## Vertical filters -/

/-- The full claim for the vertical layer: for every network there are `n_v` filters of `L` weights, and the output for a sequence
of `L` known items has for every filter and every latent dimension the weighted sum of the embeddings of the items. -/
def VerticalAsInPaper : Prop :=
  ∀ m : Net, 1 ≤ m.cfg.L → ∃ F : Nat → Nat → ℝ, ∀ (s : List Nat) (xs : List Mat), s.length = m.cfg.L → m.sequences [s] = some xs →
    m.outV xs = some [(List.range m.cfg.nv).flatMap fun k => (List.range m.cfg.d).map (verticalAt m (F k) s)]

theorem outV_one (m : Net) (hL : 1 ≤ m.cfg.L) (s : List Nat) (hs : s.length = m.cfg.L) (xs : List Mat) (hx : m.sequences [s] = some xs)
    (hk : ∀ i ∈ s, i < m.items) : m.outV xs = some [(List.range m.cfg.nv).map (weighted m s)] := by
  rw [sequences_eq m [s] s.length (by simp) (by simpa using hk)] at hx
  obtain rfl := Option.some.inj hx
  unfold Net.outV
  rw [List.map_cons, List.map_nil, if_neg (by simp), List.mapM_cons, outV_row m s hs hL]
  simp

/-- **C134** (partial: one latent dimension and no bias; the full property is for every dimension and fails, see
`C134_vertical_refuted`). -/
theorem C134_vertical_partial (m : Net) (hL : 1 ≤ m.cfg.L) (hd : m.cfg.d = 1) (hb : ∀ k, m.bv k = 0) :
    ∃ F : Nat → Nat → ℝ, ∀ (s : List Nat) (xs : List Mat), s.length = m.cfg.L → (∀ i ∈ s, i < m.items) → m.sequences [s] = some xs →
      m.outV xs = some [(List.range m.cfg.nv).flatMap fun k => (List.range m.cfg.d).map (verticalAt m (F k) s)] := by
  refine ⟨fun k j => m.Kv j 0 k, fun s xs hs hk hx => ?_⟩
  rw [outV_one m hL s hs xs hx hk, hd]
  congr 2
  rw [show List.range 1 = [0] from rfl]
  rw [show (fun k => List.map (verticalAt m (fun j => m.Kv j 0 k) s) [0]) = fun k => [weighted m s k] from funext fun k => by
    unfold weighted verticalAt
    rw [hd, hb, add_zero, List.map_cons, List.map_nil]
    congr 1
    exact Finset.sum_congr rfl fun j _ => by rw [Finset.sum_range_one, mul_comm]]
  exact List.map_eq_flatMap ..

/-- A network with three items and two latent dimensions: items 1 and 2 have the two unit vectors, and `conv_v` adds them up. -/
noncomputable def exVertical : Net where
  cfg := ⟨1, 1, 2, 1, 1⟩
  users := 1
  items := 3
  U := fun _ _ => 0
  E := fun i c => if i = c + 1 then 1 else 0
  Kv := fun _ _ _ => 1
  bv := fun _ => 0
  Kh := fun _ _ _ _ => 1
  bh := fun _ _ => 0
  actH := fun x => max 0 x
  actMlp := fun x => max 0 x
  D := fun _ _ => 1
  bd := fun _ => 0
  W := fun _ _ => 1
  b := fun _ => 0

theorem exVertical_weighted (i : Nat) : weighted exVertical [i] 0 = if i = 1 ∨ i = 2 then 1 else 0 := by
  unfold weighted exVertical
  simp only [Finset.sum_range_succ, Finset.sum_range_zero]
  by_cases h1 : i = 1
  · subst h1; norm_num
  · by_cases h2 : i = 2
    · subst h2; norm_num
    · simp [h1, h2]

/-- **C134 fails** for the vertical layer.  Its output has `n_v` numbers instead of `n_v * d`; and with two latent dimensions, even
without bias, the number of a filter is no weighted sum along one dimension, for any weights and any dimension. -/
theorem C134_vertical_refuted : ¬ VerticalAsInPaper ∧
    ∀ (F : Nat → ℝ) (c : Nat), ∃ s : List Nat, s.length = exVertical.cfg.L ∧ (∀ i ∈ s, i < exVertical.items) ∧
      ∃ xs, exVertical.sequences [s] = some xs ∧ exVertical.outV xs ≠ some [[verticalAt exVertical F s c]] := by
  have hseq : ∀ i < 3, exVertical.sequences [[i]] = some ([[i]].map (emb exVertical)) := fun i hi =>
    sequences_eq exVertical _ 1 (by simp) (by simpa [exVertical] using hi)
  have hout : ∀ i < 3, exVertical.outV ([[i]].map (emb exVertical)) = some [[if i = 1 ∨ i = 2 then 1 else 0]] := by
    intro i hi
    rw [outV_one exVertical (le_refl 1) [i] rfl _ (hseq i hi) (by simpa [exVertical] using hi), ← exVertical_weighted]
    rfl
  constructor
  · intro h
    obtain ⟨F, hF⟩ := h exVertical (le_refl 1)
    have h1 := hF [1] _ rfl (hseq 1 (by omega))
    rw [hout 1 (by omega)] at h1
    have h2 := congrArg List.length (List.cons.inj (Option.some.inj h1)).1
    revert h2
    simp [exVertical]
  · intro F c
    by_cases hc : c = 0
    · refine ⟨[2], rfl, by simp [exVertical], _, hseq 2 (by omega), ?_⟩
      rw [hout 2 (by omega), hc]
      simp [verticalAt, exVertical]
    · refine ⟨[1], rfl, by simp [exVertical], _, hseq 1 (by omega), ?_⟩
      rw [hout 1 (by omega)]
      have : ¬ (1 = c + 1) := by omega
      simp [verticalAt, exVertical, hc]

/-- The example meets the hypotheses of the other theorems: a batch of two examples. -/
example : 1 ≤ exVertical.cfg.L ∧ exVertical.cfg.L ≤ exVertical.cfg.nh ∧
    ∀ e ∈ [(0, [1], [0, 2]), (0, [2], [1, 1])], KnownIds exVertical e ∧ e.2.1.length = exVertical.cfg.L ∧ e.2.2.length = 2 := by
  simp [exVertical, KnownIds]

end DRec.Cas
