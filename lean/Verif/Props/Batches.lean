import Verif.Spec.Batches
import Verif.Lemmas.DescentCdae
import Verif.Lemmas.DescentDmf
import Verif.Lemmas.DescentCaser
import Verif.Lemmas.DmfNet
import Verif.Lemmas.CdaeFloat

/-!
# C148: every sample of a batch counts the same

For DMF and Caser the loss of a batch is the mean of the losses of its samples, and so are the derivatives.  For all three networks the order of
the samples does not matter to training.  For CDAE the loss is no such mean.
-/

namespace DRec.Trn

open DRec.Spec DRec.Opt

theorem each_of {α : Type} {obj : List α → Weights → Except Err ℝ} {l : List α} (cost : Weights → α → ℝ) (reg : Weights → ℝ) (hne : l ≠ [])
    (h : ∀ t, t ≠ [] → (∀ s ∈ t, s ∈ l) → ∀ w, obj t w = .ok ((t.map (cost w)).sum / t.length + reg w)) : EachEqually obj l := by
  intro w
  refine ⟨l.map fun s => cost w s + reg w, ?_, ?_⟩
  · rw [List.map_map]
    refine List.map_congr_left fun s hs => ?_
    rw [h [s] (by simp) (by simpa using hs) w]
    simp
  · rw [h l hne (fun _ hs => hs) w]
    have hl : (l.length : ℝ) ≠ 0 := by
      have := List.length_pos_iff.2 hne
      positivity
    rw [List.sum_map_add, List.length_map, List.map_const', List.sum_replicate, nsmul_eq_mul]
    congr 1
    field_simp

theorem each_perm {α : Type} {obj : List α → Weights → Except Err ℝ} {l l' : List α} (hp : l.Perm l') (h : EachEqually obj l) (h' : EachEqually obj l') :
    obj l = obj l' := by
  funext w
  obtain ⟨xs, h1, h2⟩ := h w
  obtain ⟨ys, h3, h4⟩ := h' w
  have hq : (xs.map (Except.ok (ε := Err))).Perm (ys.map .ok) := by
    rw [← h1, ← h3]
    exact hp.map _
  have hxy : xs.Perm ys := by
    have := hq.map lossOr0
    simpa [List.map_map, Function.comp_def, lossOr0] using this
  rw [h2, h4, hxy.sum_eq, hxy.length_eq]

/-- The derivatives of the loss of a batch are the means of those of its samples. -/
theorem C148_gradient {α : Type} {obj : List α → Weights → Except Err ℝ} {l : List α} (h : EachEqually obj l) (w : Weights) (a : Addr) (i : Nat)
    (hd : ∀ s ∈ l, HasPartial (obj [s]) w a i) :
    HasPartial (obj l) w a i ∧ partialAt (obj l) w a i = (l.map fun s => partialAt (obj [s]) w a i).sum / l.length := by
  have e : (fun x => lossOr0 (obj l (put w a i x))) = fun x => (l.map fun s => lossOr0 (obj [s] (put w a i x))).sum / l.length := by
    funext x
    obtain ⟨xs, h1, h2⟩ := h (put w a i x)
    have h3 : (l.map fun s => lossOr0 (obj [s] (put w a i x))) = xs := by
      have := congrArg (List.map lossOr0) h1
      simpa [List.map_map, Function.comp_def, lossOr0] using this
    rw [h2, h3]
    have : xs.length = l.length := by rw [← h3, List.length_map]
    rw [this]
    rfl
  have hs : ∀ t : List α, (∀ s ∈ t, HasPartial (obj [s]) w a i) →
      HasDerivAt (fun x => (t.map fun s => lossOr0 (obj [s] (put w a i x))).sum) (t.map fun s => partialAt (obj [s]) w a i).sum (w a i) := by
    intro t
    induction t with
    | nil => intro _; simpa using hasDerivAt_const (w a i) (0 : ℝ)
    | cons s t ih =>
      intro ht
      simp only [List.map_cons, List.sum_cons]
      exact (ht s (by simp)).hasDerivAt.add (ih fun s' hs' => ht s' (by simp [hs']))
  have := (hs l hd).div_const (l.length : ℝ)
  unfold HasPartial partialAt
  rw [e]
  exact ⟨this.differentiableAt, this.deriv⟩

theorem layersOf_units (w : Weights) (a : Nat) (ss : List Nat) : (layersOf w a ss).map (·.units) = ss := by
  induction ss generalizing a with
  | nil => rfl
  | cons s ss ih => simp [layersOf, ih]

theorem dmf_sizes (users items : Nat) (l2Norm : Bool) (f : List Nat × List Nat) (a : Nat) (h1 : f.1 ≠ []) (h2 : f.1.getLast? = f.2.getLast?) (w : Weights) :
    Sizes (dmfOf users items l2Norm f a w) := by
  have h3 : f.2 ≠ [] := by
    rintro h
    rw [h] at h2
    exact h1 (by simpa using h2)
  have n1 : layersOf w a f.1 ≠ [] := fun h => h1 (by rw [← layersOf_units w a f.1, h]; rfl)
  have n2 : layersOf w (a + 2 * f.1.length) f.2 ≠ [] := fun h => h3 (by rw [← layersOf_units w (a + 2 * f.1.length) f.2, h]; rfl)
  rw [dmfOf_eq]
  refine ⟨n1, n2, Option.some_injective _ ?_⟩
  show some (repSize items (layersOf w a f.1)) = some (repSize users (layersOf w (a + 2 * f.1.length) f.2))
  rw [Dm.repSize_nonneg_last _ _ n1, Dm.repSize_nonneg_last _ _ n2, layersOf_units, layersOf_units, h2]

/-- DMF: every sample counts the same. -/
theorem C148_dmf (rate : ℝ) (users items : Nat) (l2Norm : Bool) (f : List Nat × List Nat) (a : Nat) (h1 : f.1 ≠ []) (h2 : f.1.getLast? = f.2.getLast?)
    (l : List DmfRow) (hne : l ≠ []) (hl : ∀ s ∈ l, s.user.length = items ∧ s.item.length = users) :
    EachEqually (fun l => dmfObjective rate users items l2Norm f a (dmfRows l)) l := by
  refine each_of (fun w s => bce s.wanted (max (1 / 10 ^ 6) (dmfCosine (dmfOf users items l2Norm f a w) s.user s.item)))
    (fun w => regLoss rate (kernels w a items f.1 ++ kernels w (a + 2 * f.1.length) users f.2)) hne fun t ht hm w => ?_
  have := Dm.forward_map (dmfOf users items l2Norm f a w) (t.map (·.user)) (t.map (·.item)) (by simpa using ht) (by simp) (dmf_sizes users items l2Norm f a h1 h2 w)
    (by
      intro v hv
      obtain ⟨s, h, rfl⟩ := List.mem_map.1 hv
      exact (hl s (hm s h)).1) (by
      intro v hv
      obtain ⟨s, h, rfl⟩ := List.mem_map.1 hv
      exact (hl s (hm s h)).2)
  unfold dmfObjective dmfRows
  simp only [this]
  congr 2
  unfold average
  rw [List.zipWith_map, List.zipWith_self, List.zip_eq_zipWith, List.zipWith_map, List.zipWith_self, List.map_map, List.length_map]
  rfl

theorem zipIdx_rows {α β γ : Type} (l : List α) (g : α → β) (F : β × Nat → γ) (G : α → γ) (h : ∀ i s, l[i]? = some s → F (g s, i) = G s) :
    (l.map g).zipIdx.map F = l.map G := by
  refine List.ext_getElem? fun i => ?_
  simp only [List.getElem?_map, List.getElem?_zipIdx, Option.map_map]
  cases hi : l[i]? with
  | none => rfl
  | some s => simpa using h i s hi

/-- Caser: every sample counts the same. -/
theorem C148_caser (rate : ℝ) (c : Caser) (users items : Nat) (actH actMlp : ℝ → ℝ) (a : Nat) (p : ℝ) (l : List CaserRow)
    (hx : GoodExamples c users items (l.map fun s => (s.user, s.before, s.after))) :
    EachEqually (fun l => caserObjective rate c users items actH actMlp a (caserRows p l)) l := by
  have hne : l ≠ [] := by simpa using hx.nonempty
  refine each_of (fun w s => vecLoss bce s.labels (s.after.map (caserScore (caserOf c users items actH actMlp a w)
      (Cas.noisy (some (p, fun _ => s.drop)) 0 (Cas.feat (caserOf c users items actH actMlp a w) s.before)) s.user)))
    (fun w => regLoss rate ([elements w a (users * c.d), elements w (a + 1) (items * c.d), elements w (a + 2) (c.L * c.d * c.nv),
        elements w (a + 4) ((c.nv + c.L * c.nh) * c.d), elements w (a + 6) (items * (2 * c.d))] ++
        (List.range c.L).map fun i => elements w (a + 8 + 2 * i) ((i + 1) * c.d * c.nh))) hne fun t ht hm w => ?_
  have sub : ∀ e ∈ t.map (fun s => (s.user, s.before, s.after)), e ∈ l.map fun s => (s.user, s.before, s.after) := by
    intro e he
    obtain ⟨s, h, rfl⟩ := List.mem_map.1 he
    exact List.mem_map.2 ⟨s, hm s h, rfl⟩
  obtain ⟨n, hn⟩ := hx.after
  have hg : GoodExamples c users items (t.map fun s => (s.user, s.before, s.after)) :=
    ⟨by simpa using ht, fun e he => hx.known e (sub e he), fun e he => hx.before e (sub e he), ⟨n, fun e he => hn e (sub e he)⟩, hx.one, hx.filters⟩
  have hb : caserRows p t = caserBatch (t.map fun s => (s.user, s.before, s.after)) (t.map (·.labels))
      (p, fun r => ((t.map (·.drop))[r]?).getD fun _ => 0) := by
    simp [caserRows, caserBatch, List.map_map, Function.comp_def]
  show caserObjective rate c users items actH actMlp a (caserRows p t) w = _
  rw [hb, caser_formula rate actH actMlp a hg]
  congr 1
  unfold caserFormula
  congr 1
  rw [zipIdx_rows t _ _ (fun s => s.after.map (caserScore (caserOf c users items actH actMlp a w)
      (Cas.noisy (some (p, fun _ => s.drop)) 0 (Cas.feat (caserOf c users items actH actMlp a w) s.before)) s.user)) (by
    intro i s hi
    simp only [Cas.noisy, List.getElem?_map, hi, Option.map_some, Option.getD_some])]
  unfold caserLoss average
  rw [List.zip_eq_zipWith, List.zipWith_map, List.zipWith_self, List.map_map, List.length_map]
  rfl

theorem cdae_perm (f : ℝ → ℝ → ℝ) (rate : ℝ) (users items hidden a : Nat) {b b' : List CdaeSample} (hp : b.Perm b')
    (hb : ∀ s ∈ b, s.uid < users ∧ s.input.length = items) :
    cdaeObjective f rate users items hidden a b = cdaeObjective f rate users items hidden a b' := by
  funext w
  rw [cdae_formula f rate hb, cdae_formula f rate fun s hs => hb s (hp.mem_iff.2 hs)]
  congr 1
  unfold cdaeFormula
  have h1 : ∀ s : CdaeSample, ((b.map (·.wanted)).map fun d =>
      ((d.zip (List.range items)).map fun p => f p.1 (cdaePred items hidden a s w p.2)).sum / (((d.zip (List.range items)).length : Nat) : ℝ)).sum =
      ((b'.map (·.wanted)).map fun d =>
      ((d.zip (List.range items)).map fun p => f p.1 (cdaePred items hidden a s w p.2)).sum / (((d.zip (List.range items)).length : Nat) : ℝ)).sum :=
    fun s => ((hp.map _).map _).sum_eq
  simp only [h1]
  rw [(hp.map _).sum_eq, hp.length_eq, (hp.map fun _ => b'.length).sum_eq]

/-- CDAE: training with the samples of every batch in another order gives the same weights and state of the optimizer. -/
theorem C148_cdae_order {S : Type} (R : Algo S) (f : ℝ → ℝ → ℝ) (rate : ℝ) (users items hidden a : Nat) (b b' : Nat → List CdaeSample)
    (hp : ∀ e, (b e).Perm (b' e)) (hb : ∀ e, ∀ s ∈ b e, s.uid < users ∧ s.input.length = items) (n : Nat) (s : St S) :
    fitEpochs R (cdaeNet a) (fun e => cdaeObjective f rate users items hidden a (b e)) n s =
      fitEpochs R (cdaeNet a) (fun e => cdaeObjective f rate users items hidden a (b' e)) n s := by
  have : (fun e => cdaeObjective f rate users items hidden a (b e)) = fun e => cdaeObjective f rate users items hidden a (b' e) :=
    funext fun e => cdae_perm f rate users items hidden a (hp e) (hb e)
  rw [this]

/-- DMF: training with the samples of every batch in another order gives the same weights and state of the optimizer. -/
theorem C148_dmf_order {S : Type} (R : Algo S) (rate : ℝ) (users items : Nat) (l2Norm : Bool) (f : List Nat × List Nat) (a : Nat)
    (h1 : f.1 ≠ []) (h2 : f.1.getLast? = f.2.getLast?) (b b' : Nat → List DmfRow) (hp : ∀ e, (b e).Perm (b' e)) (hne : ∀ e, b e ≠ [])
    (hb : ∀ e, ∀ s ∈ b e, s.user.length = items ∧ s.item.length = users) (n : Nat) (s : St S) :
    fitEpochs R (dmfNet f.1.length f.2.length a) (fun e => dmfObjective rate users items l2Norm f a (dmfRows (b e))) n s =
      fitEpochs R (dmfNet f.1.length f.2.length a) (fun e => dmfObjective rate users items l2Norm f a (dmfRows (b' e))) n s := by
  have : (fun e => dmfObjective rate users items l2Norm f a (dmfRows (b e))) = fun e => dmfObjective rate users items l2Norm f a (dmfRows (b' e)) := by
    funext e
    refine each_perm (obj := fun l => dmfObjective rate users items l2Norm f a (dmfRows l)) (hp e)
      (C148_dmf rate users items l2Norm f a h1 h2 _ (hne e) (hb e))
      (C148_dmf rate users items l2Norm f a h1 h2 _ (fun h => hne e ?_) fun s hs => hb e s ((hp e).mem_iff.2 hs))
    have := hp e
    rw [h] at this
    exact this.eq_nil
  rw [this]

/-- Caser: training with the samples of every batch in another order (each with its own dropout) gives the same weights and state of the
optimizer. -/
theorem C148_caser_order {S : Type} (R : Algo S) (rate : ℝ) (c : Caser) (users items : Nat) (actH actMlp : ℝ → ℝ) (a : Nat) (p : ℝ)
    (b b' : Nat → List CaserRow) (hp : ∀ e, (b e).Perm (b' e))
    (hb : ∀ e, GoodExamples c users items ((b e).map fun s => (s.user, s.before, s.after))) (n : Nat) (s : St S) :
    fitEpochs R (caserNet c.L a) (fun e => caserObjective rate c users items actH actMlp a (caserRows p (b e))) n s =
      fitEpochs R (caserNet c.L a) (fun e => caserObjective rate c users items actH actMlp a (caserRows p (b' e))) n s := by
  have : (fun e => caserObjective rate c users items actH actMlp a (caserRows p (b e))) =
      fun e => caserObjective rate c users items actH actMlp a (caserRows p (b' e)) := by
    funext e
    have hm := (hp e).map fun s : CaserRow => (s.user, s.before, s.after)
    obtain ⟨k, hk⟩ := (hb e).after
    refine each_perm (obj := fun l => caserObjective rate c users items actH actMlp a (caserRows p l)) (hp e)
      (C148_caser rate c users items actH actMlp a p _ (hb e)) (C148_caser rate c users items actH actMlp a p _
      ⟨fun h => (hb e).nonempty ?_, fun x hx => (hb e).known x (hm.mem_iff.2 hx), fun x hx => (hb e).before x (hm.mem_iff.2 hx),
        ⟨k, fun x hx => hk x (hm.mem_iff.2 hx)⟩, (hb e).one, (hb e).filters⟩)
    rw [h] at hm
    exact hm.eq_nil
  rw [this]

/-- The two samples of the witness for CDAE: user 0 without and user 1 with an interaction. -/
def exPair : List CdaeSample := [⟨0, [0], [0]⟩, ⟨1, [0], [1]⟩]

/-- Weights with which the two users of `exPair` get different predictions. -/
def exPairWeights : Weights := fun a i => if a = 1 ∨ (a = 2 ∧ i = 1) then 1 else 0

/-- CDAE: the samples of a batch are mixed up, its loss is not the mean of the losses of the samples, even without regularization. -/
theorem C148_cdae_refuted : ¬ ∀ (f : ℝ → ℝ → ℝ) (users items hidden a : Nat) (b : List CdaeSample), b ≠ [] →
    (∀ s ∈ b, s.uid < users ∧ s.input.length = items ∧ s.wanted.length = items) →
    EachEqually (fun b => cdaeObjective f 0 users items hidden a b) b := by
  intro h
  have h := h mse 2 1 1 0 exPair (by simp [exPair]) (by simp [exPair])
  obtain ⟨xs, h1, h2⟩ := h exPairWeights
  have k : ∀ t : List CdaeSample, (∀ s ∈ t, s.uid < 2 ∧ s.input.length = 1) → _ := fun t ht => cdae_formula (hidden := 1) (a := 0) mse 0 ht exPairWeights
  have v0 : ∀ j, cdaePred 1 1 0 ⟨0, [0], [0]⟩ exPairWeights j = sigmoid (sigmoid 0) := fun j => by
    simp [cdaePred, cdaeHidden, exPairWeights]
  have v1 : ∀ j, cdaePred 1 1 0 ⟨1, [0], [1]⟩ exPairWeights j = sigmoid (sigmoid 1) := fun j => by
    simp [cdaePred, cdaeHidden, exPairWeights]
  simp only [exPair, List.map_cons, List.map_nil] at h1 h2
  rw [k _ (by simp), k _ (by simp)] at h1
  rw [k _ (by simp)] at h2
  have hx := congrArg (List.map lossOr0) h1
  simp only [List.map_map, Function.comp_def, lossOr0, List.map_id', List.map_cons, List.map_nil] at hx
  rw [← hx] at h2
  simp [cdaeFormula, v0, v1, mse] at h2
  have hlt : sigmoid (sigmoid 0) < sigmoid (sigmoid 1) := by
    simp only [DRec.Cd.sigmoid_eq, Real.sigmoid_lt_iff]
    norm_num
  nlinarith

/-- Two samples of DMF with different wanted scores. -/
example : EachEqually (fun l => dmfObjective 1 2 3 true ([4, 2], [2]) 7 (dmfRows l)) [⟨[1, 0, 5], [1, 2], 1⟩, ⟨[0, 0, 4], [0, 3], 0⟩] :=
  C148_dmf 1 2 3 true ([4, 2], [2]) 7 (by simp) rfl _ (by simp) (by simp)

/-- The two samples in the other order, for three epochs with Adam. -/
example (s : St (ℝ × ℝ)) : fitEpochs (adam 1) (dmfNet 2 1 7)
      (fun _ => dmfObjective 1 2 3 true ([4, 2], [2]) 7 (dmfRows [⟨[1, 0, 5], [1, 2], 1⟩, ⟨[0, 0, 4], [0, 3], 0⟩])) 3 s =
    fitEpochs (adam 1) (dmfNet 2 1 7)
      (fun _ => dmfObjective 1 2 3 true ([4, 2], [2]) 7 (dmfRows [⟨[0, 0, 4], [0, 3], 0⟩, ⟨[1, 0, 5], [1, 2], 1⟩])) 3 s :=
  C148_dmf_order (adam 1) 1 2 3 true ([4, 2], [2]) 7 (by simp) rfl (fun _ => _) (fun _ => _) (fun _ => List.Perm.swap _ _ _) (by simp) (by simp) 3 s

/-- Two samples of Caser with different dropout. -/
example : EachEqually (fun l => caserObjective 1 ⟨2, 1, 3, 1, 2⟩ 2 3 (fun y => max 0 y) id 0 (caserRows (1 / 2) l))
    [⟨0, [0, 1], [2], [1], fun _ => 1⟩, ⟨1, [2, 1], [0], [0], fun _ => 0⟩] :=
  C148_caser 1 ⟨2, 1, 3, 1, 2⟩ 2 3 _ id 0 (1 / 2) _ ⟨by simp, by simp, by simp, ⟨1, by simp⟩, by decide, by decide⟩

/-- A loss of the kind of `C148_gradient`: the squared distance of a weight to the samples. -/
example (w : Weights) : partialAt (fun w => .ok ((List.map (fun x => (w 0 0 - x) ^ 2) [1, 5]).sum / 2)) w 0 0 =
    (([1, 5].map fun x : ℝ => 2 * (w 0 0 - x)).sum) / 2 := by
  have he : EachEqually (fun (l : List ℝ) (w : Weights) => (.ok ((l.map fun x => (w 0 0 - x) ^ 2).sum / (l.length : ℝ)) : Except Err ℝ)) [1, 5] :=
    fun w => ⟨[(w 0 0 - 1) ^ 2, (w 0 0 - 5) ^ 2], by simp, by simp⟩
  have hd : ∀ c : ℝ, HasDerivAt (fun x => (x - c) ^ 2) (2 * (w 0 0 - c)) (w 0 0) := fun c => by
    have := ((hasDerivAt_id (w 0 0)).sub_const c).pow 2
    have e : (2 : ℕ) * (id (w 0 0) - c) ^ (2 - 1) * 1 = 2 * (w 0 0 - c) := by simp
    rw [e] at this
    exact this
  have hs : ∀ c : ℝ, (fun x => lossOr0 (Except.ok (([c].map fun y => (put w 0 0 x 0 0 - y) ^ 2).sum / (([c] : List ℝ).length : ℝ)))) = fun x => (x - c) ^ 2 :=
    fun c => by funext x; simp [lossOr0, put]
  have := (C148_gradient he w 0 0 fun s _ => by
    unfold HasPartial
    rw [hs]
    exact (hd s).differentiableAt).2
  have h2 : ∀ c : ℝ, partialAt (fun w : Weights => (.ok (([c].map fun x => (w 0 0 - x) ^ 2).sum / (([c] : List ℝ).length : ℝ)) : Except Err ℝ)) w 0 0 = 2 * (w 0 0 - c) :=
    fun c => by
      unfold partialAt
      rw [hs]
      exact (hd c).deriv
  simp only [h2] at this
  simpa using this

end DRec.Trn
