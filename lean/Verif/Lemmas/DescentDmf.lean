import Verif.Lemmas.DescentCdae
import Verif.Spec.Descent
import Verif.Props.Untouched
import Mathlib.Analysis.SpecialFunctions.Sqrt
import Mathlib.Analysis.SpecialFunctions.Log.Deriv

/-! # The loss of DMF is differentiable wherever no value is at a bound -/

namespace DRec.Trn

open DRec.Spec DRec.Opt

variable {E : Type} [NormedAddCommGroup E] [NormedSpace ℝ E]

theorem diff_max_left {f : E → ℝ} {v : E} (c : ℝ) (h : DifferentiableAt ℝ f v) (hc : f v ≠ c) : DifferentiableAt ℝ (fun x => max c (f x)) v := by
  rcases lt_or_gt_of_ne hc with h1 | h1
  · refine (differentiableAt_const c).congr_of_eventuallyEq ?_
    filter_upwards [h.continuousAt.eventually (gt_mem_nhds h1)] with x hx
    exact max_eq_left hx.le
  · refine h.congr_of_eventuallyEq ?_
    filter_upwards [h.continuousAt.eventually (lt_mem_nhds h1)] with x hx
    exact max_eq_right hx.le

/-- A list of differentiable numbers. -/
def D1 (F : E → List ℝ) (v : E) : Prop := ∃ gs : List (E → ℝ), (∀ x, F x = gs.map fun g => g x) ∧ ∀ g ∈ gs, DifferentiableAt ℝ g v

/-- A list of such lists. -/
def D2 (F : E → List (List ℝ)) (v : E) : Prop := ∃ gs : List (E → List ℝ), (∀ x, F x = gs.map fun g => g x) ∧ ∀ g ∈ gs, D1 g v

theorem D1.of {α : Type} (l : List α) {φ : α → E → ℝ} {v : E} (h : ∀ y ∈ l, DifferentiableAt ℝ (φ y) v) : D1 (fun x => l.map fun y => φ y x) v := by
  refine ⟨l.map φ, fun x => by rw [List.map_map]; rfl, fun g hg => ?_⟩
  obtain ⟨y, hy, rfl⟩ := List.mem_map.1 hg
  exact h y hy

theorem D2.of {α : Type} (l : List α) {φ : α → E → List ℝ} {v : E} (h : ∀ y ∈ l, D1 (φ y) v) : D2 (fun x => l.map fun y => φ y x) v := by
  refine ⟨l.map φ, fun x => by rw [List.map_map]; rfl, fun g hg => ?_⟩
  obtain ⟨y, hy, rfl⟩ := List.mem_map.1 hg
  exact h y hy

theorem D2.const (l : List (List ℝ)) (v : E) : D2 (fun _ => l) v := by
  have : D2 (fun _ : E => l.map fun r => r.map fun y => y) v := D2.of l fun r _ => D1.of r fun _ _ => differentiableAt_const _
  simpa using this

theorem D1.sum {F : E → List ℝ} {v : E} (h : D1 F v) : DifferentiableAt ℝ (fun x => (F x).sum) v := by
  obtain ⟨gs, h1, h2⟩ := h
  simp only [h1]
  exact diff_sum gs h2

theorem D1.length {F : E → List ℝ} {v : E} (h : D1 F v) (x y : E) : (F x).length = (F y).length := by
  obtain ⟨gs, h1, -⟩ := h
  simp [h1]

/-- The mapped rows of a family of rows. -/
theorem D2.map {F : E → List (List ℝ)} {v : E} (h : D2 F v) {φ : E → List ℝ → List ℝ}
    (hφ : ∀ g : E → List ℝ, D1 g v → g v ∈ F v → D1 (fun x => φ x (g x)) v) : D2 (fun x => (F x).map (φ x)) v := by
  obtain ⟨gs, h1, h2⟩ := h
  have : D2 (fun x => gs.map fun g => φ x (g x)) v := D2.of gs fun g hg => hφ g (h2 g hg) (by rw [h1]; exact List.mem_map.2 ⟨g, hg, rfl⟩)
  simp only [h1, List.map_map]
  exact this

/-! ## Layers -/

theorem dense_row {g : E → List ℝ} {v : E} (h : D1 g v) (units : Nat) {W : E → Nat → Nat → ℝ} {b : E → Nat → ℝ}
    (hW : ∀ r k, DifferentiableAt ℝ (fun x => W x r k) v) (hb : ∀ k, DifferentiableAt ℝ (fun x => b x k) v)
    (h0 : ∀ k, k < units → ((g v).zipIdx.map fun p => p.1 * W v p.2 k).sum + b v k ≠ 0) :
    D1 (fun x => (List.range units).map fun k => max 0 (((g x).zipIdx.map fun p => p.1 * W x p.2 k).sum + b x k)) v := by
  refine D1.of (List.range units) fun k hk => ?_
  refine diff_max_left 0 ?_ (h0 k (List.mem_range.1 hk))
  refine DifferentiableAt.add ?_ (hb k)
  obtain ⟨gs, h1, h2⟩ := h
  have : (fun x => ((g x).zipIdx.map fun p => p.1 * W x p.2 k).sum) = fun x => (gs.zipIdx.map fun q => q.1 x * W x q.2 k).sum := by
    funext x
    rw [h1, List.zipIdx_map, List.map_map]
    rfl
  rw [this]
  refine diff_sum gs.zipIdx fun q hq => (h2 q.1 ?_).mul (hW _ _)
  exact (List.mem_zipIdx' hq).2 ▸ List.getElem_mem _

/-- An operation that raises for all weights, or computes differentiable rows for all. -/
def DO (F : E → Option (List (List ℝ))) (v : E) : Prop := (∀ x, F x = none) ∨ ∃ G, (∀ x, F x = some (G x)) ∧ D2 G v

theorem DO.bind {F : E → Option (List (List ℝ))} {v : E} (h : DO F v) {K : E → List (List ℝ) → Option (List (List ℝ))}
    (hK : ∀ G, D2 G v → F v = some (G v) → DO (fun x => K x (G x)) v) : DO (fun x => (F x).bind (K x)) v := by
  rcases h with h | ⟨G, h1, h2⟩
  · exact Or.inl fun x => by beta_reduce; rw [h]; rfl
  · rcases hK G h2 (h1 v) with h3 | ⟨G', h3, h4⟩
    · exact Or.inl fun x => by beta_reduce; rw [h1]; exact h3 x
    · exact Or.inr ⟨G', fun x => by beta_reduce; rw [h1]; exact h3 x, h4⟩

theorem dense_DO (n : Nat) {F : E → List (List ℝ)} {v : E} (h : D2 F v) (l : E → Dm.Layer) {units : Nat} (hu : ∀ x, (l x).units = units)
    (hW : ∀ r k, DifferentiableAt ℝ (fun x => (l x).W r k) v) (hb : ∀ k, DifferentiableAt ℝ (fun x => (l x).b k) v)
    (h0 : ∀ r ∈ F v, ∀ k, k < units → (r.zipIdx.map fun p => p.1 * (l v).W p.2 k).sum + (l v).b k ≠ 0) :
    DO (fun x => Dm.dense n (l x) (F x)) v := by
  have hc : ∀ x, (F x).all (fun r => r.length == n) = (F v).all fun r => r.length == n := by
    intro x
    obtain ⟨gs, h1, h2⟩ := h
    rw [h1, h1, List.all_map, List.all_map]
    rw [Bool.eq_iff_iff, List.all_eq_true, List.all_eq_true]
    refine forall₂_congr fun g hg => ?_
    simp only [Function.comp_apply, (h2 g hg).length x v]
  unfold Dm.dense
  by_cases hh : (F v).all (fun r => r.length == n) = true
  · refine Or.inr ⟨_, fun x => by beta_reduce; rw [if_pos (by rw [hc x]; exact hh)], ?_⟩
    refine h.map (φ := fun x r => (List.range (l x).units).map fun k => max 0 ((r.zipIdx.map fun p => p.1 * (l x).W p.2 k).sum + (l x).b k)) fun g hg hgv => ?_
    simp only [hu]
    exact dense_row hg units hW hb fun k hk => h0 _ hgv k hk
  · exact Or.inl fun x => by beta_reduce; rw [if_neg (by rw [hc x]; exact hh)]

/-! ## The layers of one network -/

/-- Layers with their variables from `a` on. -/
def layersOf (w : Weights) (a : Nat) : List Nat → List Dm.Layer
  | [] => []
  | s :: ss => ⟨s, fun r c => w a (r * s + c), w (a + 1)⟩ :: layersOf w (a + 2) ss

theorem layersOf_eq (w : Weights) (a : Nat) (g : Nat → Nat) (ss : List Nat) : ∀ k0, (∀ k, k < ss.length → g (k0 + k) = ss.getD k 0) →
    (ss.zipIdx k0).map (fun s => (⟨s.1, fun r c => w (a + 2 * s.2) (r * g s.2 + c), w (a + 2 * s.2 + 1)⟩ : Dm.Layer)) = layersOf w (a + 2 * k0) ss := by
  induction ss with
  | nil => intro k0 _; rfl
  | cons s ss ih =>
    intro k0 h
    simp only [List.zipIdx_cons, List.map_cons, layersOf]
    have h1 := h 0 (by simp)
    rw [Nat.add_zero, List.getD_cons_zero] at h1
    rw [ih (k0 + 1) fun k hk => by
      have := h (k + 1) (by simpa using hk)
      rw [List.getD_cons_succ] at this
      rw [← this]
      congr 1
      omega]
    rw [h1]
    congr 1

theorem dmfOf_eq (users items : Nat) (norm : Bool) (f : List Nat × List Nat) (a : Nat) (w : Weights) :
    dmfOf users items norm f a w = ⟨users, items, norm, layersOf w a f.1, layersOf w (a + 2 * f.1.length) f.2⟩ := by
  unfold dmfOf Dm.preFit
  congr 1
  · exact layersOf_eq w a (fun k => f.1.getD k 0) f.1 0 fun k _ => by simp
  · exact layersOf_eq w (a + 2 * f.1.length) (fun k => f.2.getD k 0) f.2 0 fun k _ => by simp

theorem tower_DO {W : E → Weights} {v : E} (hW : ∀ a i, DifferentiableAt ℝ (fun x => W x a i) v) (ss : List Nat) :
    ∀ (n a : Nat) {F : E → List (List ℝ)}, D2 F v → NoKink n (layersOf (W v) a ss) (F v) → DO (fun x => Dm.tower n (layersOf (W x) a ss) (F x)) v := by
  induction ss with
  | nil => exact fun n a F h _ => Or.inr ⟨F, fun _ => rfl, h⟩
  | cons s ss ih =>
    intro n a F h h0
    simp only [layersOf, Dm.tower]
    simp only [layersOf, NoKink] at h0
    refine DO.bind (dense_DO n h (fun x => ⟨s, fun r c => W x a (r * s + c), W x (a + 1)⟩) (units := s) (fun _ => rfl) (fun _ _ => hW _ _) (fun _ => hW _ _)
      h0.1) fun G hG hv => ih s (a + 2) hG (h0.2 _ hv)

theorem l2_D1 {g : E → List ℝ} {v : E} (h : D1 g v) (h0 : ((g v).map fun y => y ^ 2).sum ≠ 1 / 10 ^ 12) : D1 (fun x => l2Normalize (g x)) v := by
  obtain ⟨gs, h1, h2⟩ := h
  have hs : DifferentiableAt ℝ (fun x => ((g x).map fun y => y ^ 2).sum) v := by
    simp only [h1, List.map_map]
    exact diff_sum gs fun q hq => (h2 q hq).pow 2
  have hm : DifferentiableAt ℝ (fun x => max ((g x).map fun y => y ^ 2).sum (1 / 10 ^ 12)) v := by
    simp only [max_comm _ (1 / 10 ^ 12 : ℝ)]
    exact diff_max_left _ hs h0
  have hp : 0 < max ((g v).map fun y => y ^ 2).sum (1 / 10 ^ 12) := lt_max_of_lt_right (by norm_num)
  have hd := hm.sqrt hp.ne'
  have : (fun x => l2Normalize (g x)) = fun x => gs.map fun q => q x / Real.sqrt (max ((g x).map fun y => y ^ 2).sum (1 / 10 ^ 12)) := by
    funext x
    unfold l2Normalize
    conv_lhs => arg 2; rw [h1]
    rw [List.map_map]
    rfl
  rw [this]
  have hne : (fun x => Real.sqrt (max ((g x).map fun y => y ^ 2).sum (1 / 10 ^ 12))) v ≠ 0 := Real.sqrt_ne_zero'.2 hp
  have key : ∀ (q R : E → ℝ), DifferentiableAt ℝ q v → DifferentiableAt ℝ R v → R v ≠ 0 → DifferentiableAt ℝ (fun x => q x / R x) v :=
    fun q R h3 h4 h5 => by
      have h6 : DifferentiableAt ℝ (fun x => (R x)⁻¹) v := (differentiableAt_inv h5).comp v h4
      simp only [div_eq_mul_inv]
      exact h3.mul h6
  exact D1.of gs fun q hq => key q _ (h2 q hq) hd hne

theorem mul_DO {F G : E → List (List ℝ)} {v : E} (hF : D2 F v) (hG : D2 G v) : DO (fun x => Dm.multiply (F x) (G x)) v := by
  obtain ⟨fs, f1, f2⟩ := hF
  obtain ⟨gs, g1, g2⟩ := hG
  have hl : ∀ (hs : List (E → List ℝ)), (∀ h ∈ hs, D1 h v) → ∀ x, (hs.map fun h => h x).map List.length = (hs.map fun h => h v).map List.length := by
    intro hs hh x
    rw [List.map_map, List.map_map]
    exact List.map_congr_left fun h hm => (hh h hm).length x v
  unfold Dm.multiply
  simp only [f1, g1]
  by_cases hc : (fs.map fun h => h v).map List.length = (gs.map fun h => h v).map List.length
  · refine Or.inr ⟨_, fun x => by beta_reduce; rw [if_pos (by rw [hl fs f2, hl gs g2]; exact hc)], ?_⟩
    have : (fun x => List.zipWith (List.zipWith (· * ·)) (fs.map fun h => h x) (gs.map fun h => h x)) =
        fun x => (fs.zip gs).map fun q => List.zipWith (· * ·) (q.1 x) (q.2 x) := by
      funext x
      rw [List.zipWith_map, List.zip, List.map_zipWith]
    rw [this]
    refine D2.of (fs.zip gs) fun q hq => ?_
    obtain ⟨hs, h1, h2⟩ := f2 q.1 (List.of_mem_zip hq).1
    obtain ⟨ks, k1, k2⟩ := g2 q.2 (List.of_mem_zip hq).2
    have : (fun x => List.zipWith (· * ·) (q.1 x) (q.2 x)) = fun x => (hs.zip ks).map fun p => p.1 x * p.2 x := by
      funext x
      rw [h1, k1, List.zipWith_map, List.zip, List.map_zipWith]
    rw [this]
    exact D1.of (hs.zip ks) fun p hp => (h2 _ (List.of_mem_zip hp).1).mul (k2 _ (List.of_mem_zip hp).2)
  · exact Or.inl fun x => by beta_reduce; rw [if_neg (by rw [hl fs f2, hl gs g2]; exact hc)]

/-- The predictions of DMF. -/
theorem forward_diff (users items : Nat) (norm : Bool) (f : List Nat × List Nat) (a : Nat) (b : DmfBatch) {W : E → Weights} {v : E}
    (hW : ∀ a i, DifferentiableAt ℝ (fun x => W x a i) v) (hs : DmfSmooth (dmfOf users items norm f a (W v)) b) :
    (∀ x, (dmfOf users items norm f a (W x)).forward b.users b.items = none) ∨
    ∃ gs : List (E → ℝ), (∀ x, (dmfOf users items norm f a (W x)).forward b.users b.items = some (gs.map fun g => g x)) ∧
      ∀ g ∈ gs, DifferentiableAt ℝ g v ∧ kEps < g v ∧ g v ≠ 1 - kEps := by
  simp only [dmfOf_eq] at hs ⊢
  unfold Dm.Net.forward
  cases hu : Dm.stack b.users with
  | none => exact Or.inl fun _ => rfl
  | some u =>
    cases hi : Dm.stack b.items with
    | none => exact Or.inl fun _ => rfl
    | some i =>
      simp only [Option.bind_some]
      have A := tower_DO hW f.1 items a (D2.const (if norm then u.map l2Normalize else u) v) (hs.user u hu)
      have B := tower_DO hW f.2 users (a + 2 * f.1.length) (D2.const (if norm then i.map l2Normalize else i) v) (hs.item i hi)
      have hin : ∀ (x : E) (r : Dm.Rows), Dm.Net.input ⟨users, items, norm, layersOf (W x) a f.1, layersOf (W x) (a + 2 * f.1.length) f.2⟩ r =
        if norm then r.map l2Normalize else r := fun x r => rfl
      simp only [hin]
      rcases A with A | ⟨U, A1, A2⟩
      · beta_reduce at A
        exact Or.inl fun x => by rw [A]; rfl
      beta_reduce at A1
      rcases B with B | ⟨I, B1, B2⟩
      · beta_reduce at B
        exact Or.inl fun x => by rw [A1, B]; rfl
      beta_reduce at B1
      have hn := hs.userNorm u (U v) hu (A1 v)
      have hm := hs.itemNorm i (I v) hi (B1 v)
      have M := mul_DO (A2.map (φ := fun _ => l2Normalize) fun g hg hgv => l2_D1 hg (hn _ hgv))
        (B2.map (φ := fun _ => l2Normalize) fun g hg hgv => l2_D1 hg (hm _ hgv))
      rcases M with M | ⟨G, M1, M2⟩
      · beta_reduce at M
        exact Or.inl fun x => by rw [A1, B1, Option.bind_some, Option.bind_some, M]; rfl
      beta_reduce at M1
      have hc := hs.cosine u i (U v) (I v) (G v) hu hi (A1 v) (B1 v) (M1 v)
      obtain ⟨gs, g1, g2⟩ := M2
      refine Or.inr ⟨gs.map fun g x => max (1 / 10 ^ 6) (g x).sum, fun x => ?_, fun q hq => ?_⟩
      · rw [A1, B1, Option.bind_some, Option.bind_some, M1, Option.map_some, g1, List.map_map, List.map_map]
        rfl
      · obtain ⟨g, hg, rfl⟩ := List.mem_map.1 hq
        obtain ⟨c1, c2⟩ := hc (g v) (by rw [g1]; exact List.mem_map.2 ⟨g, hg, rfl⟩)
        refine ⟨diff_max_left _ (g2 g hg).sum c1, lt_max_of_lt_left (by norm_num [kEps]), ?_⟩
        rcases max_choice (1 / 10 ^ 6) (g v).sum with h | h
        · simp only [h]
          norm_num [kEps]
        · simp only [h]
          exact c2

theorem bce_diff (d : ℝ) {p : ℝ} (h1 : kEps < p) (h2 : p ≠ 1 - kEps) : DifferentiableAt ℝ (bce d) p := by
  have hk : (0 : ℝ) < kEps := by norm_num [kEps]
  have hk2 : kEps < 1 - kEps := by norm_num [kEps]
  rcases lt_or_gt_of_ne h2 with h3 | h3
  · have hev : (bce d) =ᶠ[nhds p] fun q => -(d * Real.log (q + kEps) + (1 - d) * Real.log (1 - q + kEps)) := by
      filter_upwards [Ioo_mem_nhds h1 h3] with q hq
      have : clipProb q = q := by
        unfold clipProb
        rw [min_eq_left hq.2.le, max_eq_right hq.1.le]
      simp only [bce, this]
    refine DifferentiableAt.congr_of_eventuallyEq ?_ hev
    have a1 : p + kEps ≠ 0 := by linarith
    have a2 : 1 - p + kEps ≠ 0 := by linarith
    have d1 : DifferentiableAt ℝ (fun q : ℝ => Real.log (q + kEps)) p := (differentiableAt_id.add_const _).log a1
    have d2 : DifferentiableAt ℝ (fun q : ℝ => Real.log (1 - q + kEps)) p := ((differentiableAt_id.const_sub 1).add_const _).log a2
    exact ((d1.const_mul d).add (d2.const_mul (1 - d))).neg
  · have hev : (bce d) =ᶠ[nhds p] fun _ => bce d p := by
      filter_upwards [lt_mem_nhds h3] with q hq
      have : ∀ r, 1 - kEps < r → clipProb r = 1 - kEps := by
        intro r hr
        unfold clipProb
        rw [min_eq_right hr.le, max_eq_right hk2.le]
      simp only [bce, this q hq, this p h3]
    exact (differentiableAt_const _).congr_of_eventuallyEq hev

theorem squares_diff {W : E → Weights} {v : E} (hW : ∀ a i, DifferentiableAt ℝ (fun x => W x a i) v) (rate : ℝ) (ss : List Nat) : ∀ a n,
    DifferentiableAt ℝ (fun x => regLoss rate (kernels (W x) a n ss)) v := by
  induction ss with
  | nil => exact fun a n => differentiableAt_const _
  | cons s ss ih =>
    intro a n
    simp only [kernels, regLoss, List.map_cons, List.sum_cons]
    refine DifferentiableAt.add ?_ (ih (a + 2) s)
    unfold elements
    simp only [List.map_map]
    exact (diff_sum (List.range (n * s)) fun i _ => (hW a i).pow 2).const_mul rate

theorem dmf_diff (rate : ℝ) (users items : Nat) (norm : Bool) (f : List Nat × List Nat) (a : Nat) (b : DmfBatch) {W : E → Weights} {v : E}
    (hW : ∀ a i, DifferentiableAt ℝ (fun x => W x a i) v) (hs : DmfSmooth (dmfOf users items norm f a (W v)) b) {y : ℝ}
    (hy : dmfObjective rate users items norm f a b (W v) = .ok y) :
    ∃ φ : E → ℝ, (∀ x, dmfObjective rate users items norm f a b (W x) = .ok (φ x)) ∧ DifferentiableAt ℝ φ v := by
  rcases forward_diff users items norm f a b hW hs with h | ⟨gs, h1, h2⟩
  · unfold dmfObjective at hy
    rw [h v] at hy
    cases hy
  · refine ⟨_, fun x => by simp only [dmfObjective, h1 x]; rfl, ?_⟩
    have hr : ∀ ks ls : List (List ℝ), regLoss rate (ks ++ ls) = regLoss rate ks + regLoss rate ls := by
      intro ks ls
      simp [regLoss]
    simp only [hr]
    refine DifferentiableAt.add ?_ ((squares_diff hW rate f.1 a items).add (squares_diff hW rate f.2 _ users))
    unfold average
    have : ∀ x, ((b.wanted.zip (gs.map fun g => g x)).map fun (q : ℚ × ℝ) => bce q.1 q.2) = (b.wanted.zip gs).map fun q => bce q.1 (q.2 x) := by
      intro x
      rw [List.zip_map_right, List.map_map]
      rfl
    simp only [this, List.length_map, div_eq_mul_inv]
    refine DifferentiableAt.mul_const (diff_sum _ fun q hq => ?_) _
    obtain ⟨e1, e2, e3⟩ := h2 q.2 (List.of_mem_zip hq).2
    exact (bce_diff (q.1 : ℝ) e2 e3).comp v e1

/-! ## The numbers that DMF trains -/

/-- The numbers of one network. -/
def towerElements (a : Nat) : Nat → List Nat → Finset (Addr × Nat)
  | _, [] => ∅
  | n, s :: ss => (Finset.range (n * s)).image (fun i => (a, i)) ∪ (Finset.range s).image (fun i => (a + 1, i)) ∪ towerElements (a + 2) s ss

theorem mem_towerElements_cons {a n s : Nat} {ss : List Nat} {x : Addr} {i : Nat} : (x, i) ∈ towerElements a n (s :: ss) ↔
    (x = a ∧ i < n * s) ∨ (x = a + 1 ∧ i < s) ∨ (x, i) ∈ towerElements (a + 2) s ss := by
  simp only [towerElements, Finset.mem_union, Finset.mem_image, Finset.mem_range, Prod.mk.injEq]
  constructor
  · rintro ((⟨j, h, rfl, rfl⟩ | ⟨j, h, rfl, rfl⟩) | h)
    · exact Or.inl ⟨rfl, h⟩
    · exact Or.inr (Or.inl ⟨rfl, h⟩)
    · exact Or.inr (Or.inr h)
  · rintro (⟨rfl, h⟩ | ⟨rfl, h⟩ | h)
    · exact Or.inl (Or.inl ⟨i, h, rfl, rfl⟩)
    · exact Or.inl (Or.inr ⟨i, h, rfl, rfl⟩)
    · exact Or.inr h

theorem towerElements_vars (ss : List Nat) : ∀ (a n : Nat) (x : Addr) (i : Nat), (x, i) ∈ towerElements a n ss → x ∈ denseVars a ss.length := by
  induction ss with
  | nil => intro a n x i h; simp [towerElements] at h
  | cons s ss ih =>
    intro a n x i h
    simp only [denseVars, addrs, List.length_cons, List.mem_range'_1]
    rcases mem_towerElements_cons.1 h with ⟨rfl, -⟩ | ⟨rfl, -⟩ | h
    · exact ⟨le_rfl, by omega⟩
    · exact ⟨Nat.le_succ a, by omega⟩
    · have := ih (a + 2) s x i h
      simp only [denseVars, addrs, List.mem_range'_1] at this
      obtain ⟨h1, h2⟩ := this
      exact ⟨le_trans (Nat.le_add_right a 2) h1, lt_of_lt_of_le h2 (by omega)⟩

theorem tower_agree {w w' : Weights} (ss : List Nat) : ∀ (a n : Nat) (x : Dm.Rows), (∀ z i, (z, i) ∈ towerElements a n ss → w' z i = w z i) →
    Dm.tower n (layersOf w' a ss) x = Dm.tower n (layersOf w a ss) x ∧ kernels w' a n ss = kernels w a n ss := by
  induction ss with
  | nil => exact fun a n x _ => ⟨rfl, rfl⟩
  | cons s ss ih =>
    intro a n x h
    have h1 : ∀ i, i < n * s → w' a i = w a i := fun i hi => h a i (mem_towerElements_cons.2 (Or.inl ⟨rfl, hi⟩))
    have h2 : ∀ i, i < s → w' (a + 1) i = w (a + 1) i := fun i hi => h _ i (mem_towerElements_cons.2 (Or.inr (Or.inl ⟨rfl, hi⟩)))
    have h3 := fun x => ih (a + 2) s x fun z i hz => h z i (mem_towerElements_cons.2 (Or.inr (Or.inr hz)))
    refine ⟨?_, ?_⟩
    · simp only [layersOf, Dm.tower]
      have hd : Dm.dense n ⟨s, fun r c => w' a (r * s + c), w' (a + 1)⟩ x = Dm.dense n ⟨s, fun r c => w a (r * s + c), w (a + 1)⟩ x := by
        unfold Dm.dense
        split
        · next hx =>
          congr 1
          refine List.map_congr_left fun r hr => List.map_congr_left fun k hk => ?_
          have hk := List.mem_range.1 hk
          have hrl : r.length = n := by
            have := List.all_eq_true.1 hx r hr
            simpa using this
          have e : (r.zipIdx.map fun p => p.1 * w' a (p.2 * s + k)) = r.zipIdx.map fun p => p.1 * w a (p.2 * s + k) := by
            refine List.map_congr_left fun p hp => ?_
            have hl := List.snd_lt_of_mem_zipIdx hp
            rw [Nat.add_zero, hrl] at hl
            rw [h1 _ (row_lt hl hk)]
          simp only
          rw [e, h2 k hk]
        · rfl
      rw [hd]
      refine congrArg _ (funext fun y => ?_)
      exact (h3 y).1
    · simp only [kernels]
      rw [(h3 []).2]
      congr 1
      exact List.map_congr_left fun i hi => h1 i (List.mem_range.1 hi)

theorem dmf_agree (rate : ℝ) (users items : Nat) (norm : Bool) (f : List Nat × List Nat) (a : Nat) (b : DmfBatch) {w w' : Weights}
    (h : ∀ z i, (z, i) ∈ towerElements a items f.1 ∪ towerElements (a + 2 * f.1.length) users f.2 → w' z i = w z i) :
    (dmfOf users items norm f a w').forward b.users b.items = (dmfOf users items norm f a w).forward b.users b.items ∧
    dmfObjective rate users items norm f a b w' = dmfObjective rate users items norm f a b w := by
  have h1 := fun x => tower_agree (w := w) (w' := w') f.1 a items x fun z i hz => h z i (Finset.mem_union_left _ hz)
  have h2 := fun x => tower_agree (w := w) (w' := w') f.2 (a + 2 * f.1.length) users x fun z i hz => h z i (Finset.mem_union_right _ hz)
  have hf : (dmfOf users items norm f a w').forward b.users b.items = (dmfOf users items norm f a w).forward b.users b.items := by
    rw [forward_split, forward_split]
    simp only [dmfOf_eq, (h1 _).1, (h2 _).1, Dm.Net.input]
  refine ⟨hf, ?_⟩
  unfold dmfObjective
  rw [hf, (h1 []).2, (h2 []).2]

end DRec.Trn
