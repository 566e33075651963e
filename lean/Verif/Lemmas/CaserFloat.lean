import Verif.Spec.CaserFloat
import Verif.Lemmas.CaserNet
import Verif.Lemmas.CdaeFloat

/-! # Lemmas about Caser's scores in single precision -/

namespace DRec.Cas

open DRec.Spec Dm

theorem pow_mono_step {a b : ℕ} (h : a ≤ b) : (1 + 1 / 2 ^ 24 : ℝ) ^ a - 1 ≤ (1 + 1 / 2 ^ 24) ^ b - 1 :=
  sub_le_sub_right (pow_le_pow_right₀ (by norm_num) h) 1

theorem pow_step_nonneg (a : ℕ) : (0 : ℝ) ≤ (1 + 1 / 2 ^ 24) ^ a - 1 := sub_nonneg.2 (one_le_pow₀ (by norm_num))

theorem sum_flatMap_range (n : Nat) (g : Nat → List ℝ) :
    ((List.range n).flatMap g).sum = ∑ j ∈ Finset.range n, (g j).sum := by
  induction n with
  | zero => simp
  | succ n ih => rw [List.range_succ, List.flatMap_append, List.sum_append, ih, Finset.sum_range_succ]; simp

/-- One number of a convolution before the activation. -/
noncomputable def convAt (m : Net) (s : List Nat) (k : Nat) (K : Nat → Nat → Nat → ℝ) (bias : Nat → ℝ) (t f : Nat) : ℝ :=
  ∑ j ∈ Finset.range k, ∑ c ∈ Finset.range m.cfg.d, m.E (s.getD (t + j) 0) c * K j c f + bias f

theorem convAt_error (m : Net) (s : List Nat) (k : Nat) (K : Nat → Nat → Nat → ℝ) (bias : Nat → ℝ) (t f : Nat) (d : ℝ)
    (ht : t + k ≤ s.length)
    (hd : Dotted ((List.range k).flatMap fun j => ((emb m s).getD (t + j) []).zipIdx.map fun p => (p.1, K j p.2 f)) d) :
    |single (d + bias f) - convAt m s k K bias t f| ≤ ((1 + 1 / 2 ^ 24) ^ (k * m.cfg.d + 1) - 1) *
        convAt (absNet m) s k (fun j c f => |K j c f|) (fun f => |bias f|) t f ∧
      |convAt m s k K bias t f| ≤ convAt (absNet m) s k (fun j c f => |K j c f|) (fun f => |bias f|) t f := by
  have e : ((List.range k).flatMap fun j => ((emb m s).getD (t + j) []).zipIdx.map fun p => (p.1, K j p.2 f)) =
      (List.range k).flatMap fun j => (List.range m.cfg.d).map fun c => (m.E (s.getD (t + j) 0) c, K j c f) := by
    refine List.flatMap_congr fun j hj => ?_
    rw [List.mem_range] at hj
    rw [emb_getD m s (t + j) (by omega)]
    exact zipIdx_range _ _ fun a c => (a, K j c f)
  rw [e] at hd
  have h1 := dotted_error hd
  rw [List.map_flatMap, List.map_flatMap, sum_flatMap_range, sum_flatMap_range, List.length_flatMap] at h1
  simp only [List.map_map, List.length_map, List.length_range, List.map_const', List.sum_replicate, smul_eq_mul] at h1
  have h2 : ∀ j, ((List.range m.cfg.d).map ((fun p : ℝ × ℝ => p.1 * p.2) ∘ fun c => (m.E (s.getD (t + j) 0) c, K j c f))).sum =
      ∑ c ∈ Finset.range m.cfg.d, m.E (s.getD (t + j) 0) c * K j c f := fun j => sum_range_map _ _
  have h3 : ∀ j, ((List.range m.cfg.d).map ((fun p : ℝ × ℝ => |p.1 * p.2|) ∘ fun c => (m.E (s.getD (t + j) 0) c, K j c f))).sum =
      ∑ c ∈ Finset.range m.cfg.d, |m.E (s.getD (t + j) 0) c| * |K j c f| := fun j => by
    rw [sum_range_map]
    exact Finset.sum_congr rfl fun c _ => abs_mul _ _
  simp only [h2, h3] at h1
  have h4 : |∑ j ∈ Finset.range k, ∑ c ∈ Finset.range m.cfg.d, m.E (s.getD (t + j) 0) c * K j c f| ≤
      ∑ j ∈ Finset.range k, ∑ c ∈ Finset.range m.cfg.d, |m.E (s.getD (t + j) 0) c| * |K j c f| := by
    refine (Finset.abs_sum_le_sum_abs _ _).trans (Finset.sum_le_sum fun j _ => ?_)
    refine (Finset.abs_sum_le_sum_abs _ _).trans (le_of_eq ?_)
    exact Finset.sum_congr rfl fun c _ => abs_mul _ _
  exact ⟨step_error (q := 0) (b := bias f) h4 le_rfl h1 (by simp) (pow_step _ _ le_rfl) (pow_step0 _ (by omega)),
    (abs_add_le _ _).trans (add_le_add h4 le_rfl)⟩

theorem convAt_abs_nonneg (m : Net) (s : List Nat) (k : Nat) (K : Nat → Nat → Nat → ℝ) (bias : Nat → ℝ) (t f : Nat) :
    0 ≤ convAt (absNet m) s k (fun j c f => |K j c f|) (fun f => |bias f|) t f :=
  add_nonneg (Finset.sum_nonneg fun _ _ => Finset.sum_nonneg fun _ _ => mul_nonneg (abs_nonneg _) (abs_nonneg _)) (abs_nonneg _)

theorem relu_abs (x : ℝ) : |relu x| ≤ |x| := by
  unfold relu
  rw [abs_of_nonneg (le_max_left 0 x)]
  exact max_le (abs_nonneg x) (le_abs_self x)

theorem relu_close (x y : ℝ) : |relu x - relu y| ≤ |x - y| := by
  unfold relu
  rw [max_comm 0, max_comm 0]
  exact abs_max_sub_max_le_abs _ _ _

theorem relu_nonneg {x : ℝ} (h : 0 ≤ x) : relu x = x := max_eq_right h

/-- The largest of numbers that are off. -/
theorem maxOf_error (n : Nat) (hn : 0 < n) (a a' A : Nat → ℝ) (c : ℝ) (hc : 0 ≤ c)
    (h : ∀ t, t < n → |a' t - a t| ≤ c * A t ∧ |a t| ≤ A t) :
    |maxOf ((List.range n).map a') - maxOf ((List.range n).map a)| ≤ c * maxOf ((List.range n).map A) ∧
      |maxOf ((List.range n).map a)| ≤ maxOf ((List.range n).map A) := by
  have ne : ∀ g : Nat → ℝ, (List.range n).map g ≠ [] := fun g => by
    rw [ne_eq, List.map_eq_nil_iff, List.range_eq_nil]; omega
  obtain ⟨p1, p2⟩ := maxOf_greatest _ (ne a)
  obtain ⟨q1, q2⟩ := maxOf_greatest _ (ne a')
  obtain ⟨r1, r2⟩ := maxOf_greatest _ (ne A)
  have mem : ∀ (g : Nat → ℝ) (t : Nat), t < n → g t ∈ (List.range n).map g := fun g t ht =>
    List.mem_map_of_mem (List.mem_range.2 ht)
  obtain ⟨t, ht, et⟩ := List.mem_map.1 p1
  obtain ⟨u, hu, eu⟩ := List.mem_map.1 q1
  rw [List.mem_range] at ht hu
  have at1 := abs_le.1 (h t ht).1
  have at2 := (h t ht).2
  have au1 := abs_le.1 (h u hu).1
  have m1 := mul_le_mul_of_nonneg_left (r2 _ (mem A t ht)) hc
  have m2 := mul_le_mul_of_nonneg_left (r2 _ (mem A u hu)) hc
  have b1 := p2 _ (mem a u hu)
  have b2 := q2 _ (mem a' t ht)
  constructor
  · rw [abs_le]
    constructor <;> linarith [at1.1, at1.2, au1.1, au1.2]
  · rw [← et]
    exact at2.trans (r2 _ (mem A t ht))

theorem emb_of_mapM {m : Net} {seq : List Nat} {x : Mat} (h : seq.mapM (lookup m.items m.cfg.d m.E) = some x) :
    x = emb m seq ∧ ∀ i ∈ seq, i < m.items := by
  have hk : ∀ i ∈ seq, i < m.items := by
    intro i hi
    by_contra g
    rw [mapM_none _ _ ⟨i, hi, if_neg g⟩] at h
    exact absurd h (by simp)
  refine ⟨?_, hk⟩
  rw [mapM_some (lookup m.items m.cfg.d m.E) (fun i => (List.range m.cfg.d).map (m.E i)) _ fun i hi => if_pos (hk i hi)] at h
  exact (Option.some.inj h).symm

/-- The features of the network with all numbers replaced by their absolute values bound the error. -/
theorem features_error {m : Net} (hH : m.actH = relu) (hn : m.cfg.L ≤ m.cfg.nh) {s : List Nat}
    (hs : s.length = m.cfg.L) {feats : List ℝ} (h : m.FeaturesF (emb m s) feats) :
    feats.length = m.cfg.nv + m.cfg.L * m.cfg.nh ∧ ∀ p, p < m.cfg.nv + m.cfg.L * m.cfg.nh →
      |feats.getD p 0 - (feat m s).getD p 0| ≤ ((1 + 1 / 2 ^ 24) ^ (m.cfg.L * m.cfg.d + 1) - 1) * (feat (absNet m) s).getD p 0 ∧
        |(feat m s).getD p 0| ≤ (feat (absNet m) s).getD p 0 := by
  have hl : (emb m s).length = m.cfg.L := by rw [emb, List.length_map, hs]
  obtain ⟨v, hh, ⟨hL, _, d, hd, rfl⟩, hf, rfl⟩ := h
  rw [hl, Nat.sub_self] at hd
  rw [hl, Nat.sub_self]
  have hrow : ∀ i, i < m.cfg.L → ∃ d : Nat → Nat → ℝ, (∀ t f, t < m.cfg.L - i → f < m.cfg.nh →
      Dotted ((List.range (i + 1)).flatMap fun j => ((emb m s).getD (t + j) []).zipIdx.map fun p => (p.1, m.Kh i j p.2 f)) (d t f)) ∧
      hh i = (List.range m.cfg.nh).map fun f => maxOf ((List.range (m.cfg.L - i)).map fun t => relu (single (d t f + m.bh i f))) := by
    intro i hi
    obtain ⟨y, ⟨_, _, d, hd, rfl⟩, hp⟩ := hf i hi
    rw [hl, show m.cfg.L - (i + 1) + 1 = m.cfg.L - i by omega] at hd hp
    refine ⟨d, hd, ?_⟩
    rw [pool_one _ _ _ (by simp; omega) (by simp; omega), Option.bind_some] at hp
    rw [← Option.some.inj hp]
    refine List.map_congr_left fun f hf => ?_
    rw [List.mem_range] at hf
    rw [List.map_map, List.map_map]
    congr 1
    refine List.map_congr_left fun t _ => ?_
    dsimp only [Function.comp_apply]
    rw [List.map_map, getD_range_map _ _ _ _ hf, hH]
    rfl
  have hlen : ∀ i ∈ List.range m.cfg.L, (hh i).length = m.cfg.nh := by
    intro i hi
    obtain ⟨d, _, e⟩ := hrow i (List.mem_range.1 hi)
    rw [e, List.length_map, List.length_range]
  have hflat : ((List.range (0 + 1)).map fun t => (List.range m.cfg.nv).map fun f => single (d t f + m.bv f)).flatten =
      (List.range m.cfg.nv).map fun f => single (d 0 f + m.bv f) := by
    rw [show List.range (0 + 1) = [0] from rfl]
    simp
  rw [hflat]
  refine ⟨?_, fun p hp => ?_⟩
  · rw [List.length_append, List.length_map, List.length_range, List.length_flatMap, List.map_congr_left hlen]
    simp
  · by_cases hv : p < m.cfg.nv
    · rw [feat_vertical m s p hv, feat_vertical (absNet m) s p hv, List.getD_eq_getElem?_getD,
        List.getElem?_append_left (by simpa using hv), ← List.getD_eq_getElem?_getD, getD_range_map _ _ _ _ hv]
      have := convAt_error m s m.cfg.L m.Kv m.bv 0 p (d 0 p) (by omega) (hd 0 p (by omega) hv)
      simp only [convAt, zero_add] at this
      exact this
    · obtain ⟨i, f, hi, hf', e⟩ : ∃ i f, i < m.cfg.L ∧ f < m.cfg.nh ∧ p = m.cfg.nv + i * m.cfg.nh + f := by
        have h0 : 0 < m.cfg.nh := by omega
        refine ⟨(p - m.cfg.nv) / m.cfg.nh, (p - m.cfg.nv) % m.cfg.nh, ?_, Nat.mod_lt _ h0, ?_⟩
        · rw [Nat.div_lt_iff_lt_mul h0]; omega
        · have := Nat.div_add_mod' (p - m.cfg.nv) m.cfg.nh
          omega
      subst e
      obtain ⟨d, hd, e⟩ := hrow i hi
      rw [feat_horizontal m s i f hi hf', show (feat (absNet m) s).getD (m.cfg.nv + i * m.cfg.nh + f) 0 = _ from feat_horizontal (absNet m) s i f hi hf', List.getD_eq_getElem?_getD,
        List.getElem?_append_right (by rw [List.length_map, List.length_range]; omega), List.length_map, List.length_range,
        show m.cfg.nv + i * m.cfg.nh + f - m.cfg.nv = i * m.cfg.nh + f by omega, flatMap_getElem? _ m.cfg.nh _ hlen i f hf',
        List.getElem?_range hi, Option.bind_some, e, List.getElem?_map, List.getElem?_range hf', Option.map_some, Option.getD_some]
      refine maxOf_error _ (by omega) _ _ _ _ (pow_step_nonneg _) fun t ht => ?_
      obtain ⟨e1, e2⟩ := convAt_error m s (i + 1) (m.Kh i) (m.bh i) t f (d t f) (by omega) (hd t f ht hf')
      have h0 := convAt_abs_nonneg m s (i + 1) (m.Kh i) (m.bh i) t f
      have ex : horizontalAt m s (i + 1) f t = relu (convAt m s (i + 1) (m.Kh i) (m.bh i) t f) := by
        unfold horizontalAt convAt
        rw [hH, Nat.add_sub_cancel]
      have ea : horizontalAt (absNet m) s (i + 1) f t =
          convAt (absNet m) s (i + 1) (fun j c f => |m.Kh i j c f|) (fun f => |m.bh i f|) t f := by
        rw [← relu_nonneg h0]
        unfold horizontalAt convAt
        rw [Nat.add_sub_cancel, ← hH]
        rfl
      rw [ex, ea]
      refine ⟨(relu_close _ _).trans (e1.trans (mul_le_mul_of_nonneg_right (pow_mono_step ?_) h0)), (relu_abs _).trans e2⟩
      have : (i + 1) * m.cfg.d ≤ m.cfg.L * m.cfg.d := Nat.mul_le_mul_right _ hi
      omega

theorem zip_range (n : Nat) (f g : Nat → ℝ) :
    List.zip ((List.range n).map f) ((List.range n).map g) = (List.range n).map fun k => (f k, g k) := by
  rw [List.zip, List.zipWith_map, List.zipWith_self]

/-- Two vectors of the same length, one after the other. -/
theorem append_range (d : Nat) (f g : Nat → ℝ) :
    (List.range d).map f ++ (List.range d).map g = (List.range (2 * d)).map fun k => if k < d then f k else g (k - d) := by
  rw [two_mul, List.range_add, List.map_append, List.map_map]
  congr 1
  · exact List.map_congr_left fun k hk => by rw [if_pos (List.mem_range.1 hk)]
  · refine List.map_congr_left fun k _ => ?_
    dsimp only [Function.comp_apply]
    rw [if_neg (by omega), Nat.add_sub_cancel_left]

theorem sum_twice (d : Nat) (f g w : Nat → ℝ) :
    ∑ k ∈ Finset.range (2 * d), (if k < d then f k else g (k - d)) * w k =
      ∑ k ∈ Finset.range d, f k * w k + ∑ k ∈ Finset.range d, g k * w (d + k) := by
  rw [two_mul, Finset.sum_range_add]
  congr 1
  · exact Finset.sum_congr rfl fun k hk => by rw [if_pos (Finset.mem_range.1 hk)]
  · exact Finset.sum_congr rfl fun k _ => by rw [if_neg (by omega), Nat.add_sub_cancel_left]

/-- The output of the dense layer. -/
noncomputable def denseAt (m : Net) (feats : List ℝ) (k : Nat) : ℝ :=
  m.actMlp (∑ i ∈ Finset.range feats.length, feats.getD i 0 * m.D i k + m.bd k)

theorem scores_error {m : Net} (hH : m.actH = relu) (hM : m.actMlp = relu) (hn : m.cfg.L ≤ m.cfg.nh) {uid : Nat} {seq : List Nat}
    (hs : seq.length = m.cfg.L) {l : List ℝ} (h : m.ScoresF uid seq l) (i : Nat) (hi : i < m.items) :
    |l.getD i 0 - caserScore m (feat m seq) uid i| ≤
      ((1 + 1 / 2 ^ 24) ^ caserSteps m.cfg - 1) * caserScore (absNet m) (feat (absNet m) seq) uid i := by
  obtain ⟨_, x, feats, z, hx, hf, ⟨dz, hdz, rfl⟩, _, hl⟩ := h
  obtain ⟨rfl, hk⟩ := emb_of_mapM hx
  obtain ⟨flen, ferr⟩ := features_error hH hn hs hf
  obtain ⟨d, hd, e⟩ := hl i hi
  dsimp only at hdz hd
  have hfeats : feats = (List.range (m.cfg.nv + m.cfg.L * m.cfg.nh)).map fun j => feats.getD j 0 := by
    rw [← flen]; exact eq_range_getD feats
  have zerr : ∀ k, k < m.cfg.d → |max 0 (single (dz k + m.bd k)) - denseAt m (feat m seq) k| ≤
      ((1 + 1 / 2 ^ 24) ^ (m.cfg.L * m.cfg.d + 1 + (m.cfg.nv + m.cfg.L * m.cfg.nh + 1)) - 1) *
        denseAt (absNet m) (feat (absNet m) seq) k ∧ |denseAt m (feat m seq) k| ≤ denseAt (absNet m) (feat (absNet m) seq) k := by
    intro k hk
    have hd' := hdz k hk
    rw [hfeats, zipIdx_range _ _ fun a j => (a, m.D j k)] at hd'
    have u := unit_error (m.cfg.nv + m.cfg.L * m.cfg.nh) ⟨m.cfg.d, m.D, m.bd⟩ k (fun j => (feat m seq).getD j 0) (fun j => feats.getD j 0)
      (fun j => (feat (absNet m) seq).getD j 0) _ _ (fun j hj => (ferr j hj).2) (fun j hj => (ferr j hj).1) hd'
    have hpos : ∀ j ∈ Finset.range (m.cfg.nv + m.cfg.L * m.cfg.nh), 0 ≤ (feat (absNet m) seq).getD j 0 := fun j hj =>
      (abs_nonneg _).trans (ferr j (Finset.mem_range.1 hj)).2
    have ea : denseAt (absNet m) (feat (absNet m) seq) k =
        ∑ j ∈ Finset.range (m.cfg.nv + m.cfg.L * m.cfg.nh), (feat (absNet m) seq).getD j 0 * |m.D j k| + |m.bd k| := by
      unfold denseAt
      rw [length_feat, show (absNet m).actMlp = relu from hM]
      exact relu_nonneg (add_nonneg (Finset.sum_nonneg fun j hj => mul_nonneg (hpos j hj) (abs_nonneg _)) (abs_nonneg _))
    have em : denseAt m (feat m seq) k =
        max 0 (∑ j ∈ Finset.range (m.cfg.nv + m.cfg.L * m.cfg.nh), (feat m seq).getD j 0 * m.D j k + m.bd k) := by
      unfold denseAt
      rw [length_feat, hM]
      rfl
    rw [ea, em]
    refine ⟨u, (relu_abs _).trans ((abs_add_le _ _).trans (add_le_add ?_ le_rfl))⟩
    refine (Finset.abs_sum_le_sum_abs _ _).trans (Finset.sum_le_sum fun j hj => ?_)
    rw [abs_mul]
    exact mul_le_mul_of_nonneg_right (ferr j (Finset.mem_range.1 hj)).2 (abs_nonneg _)
  rw [append_range, zip_range] at hd
  have A := affine_error (2 * m.cfg.d) (m.W i) (m.b i) (fun k => if k < m.cfg.d then denseAt m (feat m seq) k else m.U uid (k - m.cfg.d))
    (fun k => if k < m.cfg.d then max 0 (single (dz k + m.bd k)) else m.U uid (k - m.cfg.d))
    (fun k => if k < m.cfg.d then denseAt (absNet m) (feat (absNet m) seq) k else |m.U uid (k - m.cfg.d)|)
    (m.cfg.L * m.cfg.d + 1 + (m.cfg.nv + m.cfg.L * m.cfg.nh + 1)) d
    (fun k _ => by
      split
      · rename_i hk; exact (zerr k hk).2
      · exact le_rfl)
    (fun k _ => by
      split
      · rename_i hk; exact (zerr k hk).1
      · rw [sub_self, abs_zero]
        exact mul_nonneg (pow_step_nonneg _) (abs_nonneg _)) hd
  rw [sum_twice, sum_twice m.cfg.d _ (fun k => |m.U uid k|) fun k => |m.W i k|, ← e] at A
  exact A

theorem scores_eq {m : Net} (hL : 1 ≤ m.cfg.L) (hn : m.cfg.L ≤ m.cfg.nh) {uid : Nat} (hu : uid < m.users) {seq : List Nat}
    (hs : seq.length = m.cfg.L) (hk : ∀ i ∈ seq, i < m.items) :
    m.scores uid seq = some ((List.range m.items).map (caserScore m (feat m seq) uid)) := by
  have := forward_map m [(uid, seq, List.range m.items)] (by simp) (by
      intro e' h'
      rw [List.mem_singleton.1 h']
      exact ⟨hu, hk, fun i h => List.mem_range.1 h⟩) (by
      intro e' h'
      rw [List.mem_singleton.1 h']
      exact hs) m.items (by
      intro e' h'
      rw [List.mem_singleton.1 h']
      simp) hL hn none
  unfold Net.scores
  rw [show m.forward [uid] [seq] [List.range m.items] none = _ from this]
  rfl

theorem convF_exists (filters k : Nat) (K : Nat → Nat → Nat → ℝ) (bias : Nat → ℝ) (x : Mat) (h1 : 1 ≤ k) (hk : k ≤ x.length) :
    ∃ y, ConvF filters k K bias x y ∧ y.length = x.length - k + 1 := by
  choose d hd using fun t f => dotted_exists ((List.range k).flatMap fun j => (x.getD (t + j) []).zipIdx.map fun p => (p.1, K j p.2 f))
  exact ⟨_, ⟨h1, hk, d, fun t f _ _ => hd t f, rfl⟩, by simp⟩

theorem scoresF_exists (m : Net) (hL : 1 ≤ m.cfg.L) (hn : m.cfg.L ≤ m.cfg.nh) (uid : Nat) (hu : uid < m.users) (seq : List Nat)
    (hs : seq.length = m.cfg.L) (hk : ∀ i ∈ seq, i < m.items) : ∃ l, m.ScoresF uid seq l := by
  have hl : (emb m seq).length = m.cfg.L := by rw [emb, List.length_map, hs]
  obtain ⟨v, hv, _⟩ := convF_exists m.cfg.nv m.cfg.L m.Kv m.bv (emb m seq) hL (by omega)
  have hh : ∀ i, ∃ r, i < m.cfg.L → m.OutHF (emb m seq) i r := by
    intro i
    by_cases hi : i < m.cfg.L
    · obtain ⟨y, hy, hlen⟩ := convF_exists m.cfg.nh (i + 1) (m.Kh i) (m.bh i) (emb m seq) (by omega) (by omega)
      exact ⟨_, fun _ => ⟨y, hy, by rw [pool_one _ _ _ (by rw [List.length_map]; omega) (by rw [List.length_map]; omega)]; rfl⟩⟩
    · exact ⟨[], fun g => absurd g hi⟩
  choose h hh using hh
  choose dz hdz using fun k => dotted_exists ((v.flatten ++ (List.range m.cfg.L).flatMap h).zipIdx.map fun p => (p.1, m.D p.2 k))
  choose d hd using fun i => dotted_exists (List.zip ((List.range m.cfg.d).map (fun k => max 0 (single (dz k + m.bd k))) ++
    (List.range m.cfg.d).map (m.U uid)) ((List.range (2 * m.cfg.d)).map (m.W i)))
  refine ⟨(List.range m.items).map fun i => single (d i + m.b i), hu, emb m seq, _, _,
    mapM_some _ _ _ fun i hi => if_pos (hk i hi), ⟨v, h, hv, hh, rfl⟩, ⟨dz, fun k _ => hdz k, rfl⟩, by simp, fun i hi => ⟨d i, hd i, ?_⟩⟩
  exact getD_range_map _ _ _ _ hi

end DRec.Cas
