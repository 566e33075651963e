import Verif.Lemmas.Untouched
import Verif.Props.Optimizer
import Verif.Props.Training

/-!
# C144: training leaves the users and items outside the batches alone

The weights of users and items that the batches do not use: with plain gradient descent they only shrink, by the factor the regularization
asks for, and without regularization no optimizer changes them.
-/

namespace DRec.Trn

open DRec.Spec DRec.Opt

variable {S : Type}

/-- **C144.** The optimizers are still: they move nothing as long as the derivatives are 0. -/
theorem C144_still (lr mu : ℝ) : Still (sgd lr) ∧ Still (momentum lr mu) ∧ Still (adam lr) := by
  refine ⟨fun t => ?_, fun t => ?_, fun t => ?_⟩ <;> simp [sgd, momentum, adam]

/-! ## CDAE -/

theorem put_ne {w : Weights} {a b : Addr} (h : b ≠ a) (i : Nat) (x : ℝ) : put w a i x b = w b := by
  funext j
  exact if_neg fun hh => h hh.1

theorem mapM_eq_of {m : Type → Type} [Monad m] [LawfulMonad m] {α β : Type} {f g : α → m β} {l : List α} (h : ∀ x ∈ l, f x = g x) :
    l.mapM f = l.mapM g := by
  induction l with
  | nil => rfl
  | cons x l ih => rw [List.mapM_cons, List.mapM_cons, h x (by simp), ih fun y hy => h y (by simp [hy])]

theorem cdae_outside (f : ℝ → ℝ → ℝ) (rate : ℝ) (users items hidden a : Nat) (batch : List CdaeSample) {x : Addr} {i : Nat}
    (hr : ∀ w v, ∀ s ∈ batch, (cdaeOf users items hidden a (put w x i v)).reconstruct s.uid s.input =
      (cdaeOf users items hidden a w).reconstruct s.uid s.input)
    (hx : (x = a ∧ i < items * hidden) ∨ (x = a + 2 ∧ i < users * hidden)) :
    Outside (rate / (2 * batch.length)) (cdaeObjective f rate users items hidden a batch) x i := by
  intro w v
  have hm : (batch.mapM fun s => (cdaeOf users items hidden a (put w x i v)).reconstruct s.uid s.input) =
      batch.mapM fun s => (cdaeOf users items hidden a w).reconstruct s.uid s.input := by
    exact mapM_eq_of fun s hs => hr w v s hs
  unfold cdaeObjective
  rw [hm]
  cases batch.mapM fun s => (cdaeOf users items hidden a w).reconstruct s.uid s.input with
  | error e => rfl
  | ok preds =>
    simp only [Except.map]
    congr 1
    have : cdaeReg rate batch.length [elements (put w x i v) a (items * hidden), elements (put w x i v) (a + 1) (hidden * items),
          elements (put w x i v) (a + 2) (users * hidden)] =
        cdaeReg rate batch.length [elements w a (items * hidden), elements w (a + 1) (hidden * items), elements w (a + 2) (users * hidden)] +
          rate / (2 * batch.length) * (v ^ 2 - w x i ^ 2) := by
      rcases hx with ⟨rfl, hi⟩ | ⟨rfl, hi⟩
      · rw [elements_put_ne (show x + 1 ≠ x by simp), elements_put_ne (show x + 2 ≠ x by simp)]
        simp only [cdaeReg, List.map_cons, List.map_nil, List.sum_cons, List.sum_nil, squares_put w _ i v _ hi]
        ring
      · rw [elements_put_ne (show a ≠ a + 2 by simp), elements_put_ne (show a + 1 ≠ a + 2 by simp)]
        simp only [cdaeReg, List.map_cons, List.map_nil, List.sum_cons, List.sum_nil, squares_put w _ i v _ hi]
        ring
    rw [this]
    ring

theorem row_lt {n width r k : Nat} (hr : r < n) (hk : k < width) : r * width + k < n * width := by
  calc r * width + k < r * width + width := by omega
    _ = (r + 1) * width := by ring
    _ ≤ n * width := Nat.mul_le_mul_right _ hr

theorem cdae_user_outside (f : ℝ → ℝ → ℝ) (rate : ℝ) (users items hidden a : Nat) (batch : List CdaeSample) {u k : Nat} (hu : u < users)
    (hk : k < hidden) (hb : ∀ s ∈ batch, s.uid ≠ u) :
    Outside (rate / (2 * batch.length)) (cdaeObjective f rate users items hidden a batch) (a + 2) (u * hidden + k) := by
  refine cdae_outside f rate users items hidden a batch (fun w v s hs => ?_) (Or.inr ⟨rfl, row_lt hu hk⟩)
  have hl : (cdaeOf users items hidden a (put w (a + 2) (u * hidden + k) v)).layer s.uid s.input =
      (cdaeOf users items hidden a w).layer s.uid s.input := by
    unfold Cdae.layer
    refine List.map_congr_left fun k' hk' => ?_
    have hk' : k' < hidden := List.mem_range.1 hk'
    have h1 : put w (a + 2) (u * hidden + k) v (a + 2) (s.uid * hidden + k') = w (a + 2) (s.uid * hidden + k') := by
      refine if_neg fun h => hb s hs ?_
      exact (split_eq hk' hk h.2).1
    simp only [cdaeOf, h1]
    simp [put]
  rw [reconstruct_cdaeOf, reconstruct_cdaeOf, hl, put_ne (show a + 1 ≠ a + 2 by simp), put_ne (show a + 4 ≠ a + 2 by simp)]

theorem cdae_item_outside (f : ℝ → ℝ → ℝ) (rate : ℝ) (users items hidden a : Nat) (batch : List CdaeSample) {i k : Nat} (hi : i < items)
    (hk : k < hidden) (hb : ∀ s ∈ batch, s.input.getD i 0 = 0) :
    Outside (rate / (2 * batch.length)) (cdaeObjective f rate users items hidden a batch) a (i * hidden + k) := by
  refine cdae_outside f rate users items hidden a batch (fun w v s hs => ?_) (Or.inl ⟨rfl, row_lt hi hk⟩)
  have hl : (cdaeOf users items hidden a (put w a (i * hidden + k) v)).layer s.uid s.input =
      (cdaeOf users items hidden a w).layer s.uid s.input := by
    unfold Cdae.layer
    refine List.map_congr_left fun k' hk' => ?_
    have hk' : k' < hidden := List.mem_range.1 hk'
    have h1 : (s.input.zipIdx.map fun p => p.1 * put w a (i * hidden + k) v a (p.2 * hidden + k')) =
        s.input.zipIdx.map fun p => p.1 * w a (p.2 * hidden + k') := by
      refine List.map_congr_left fun p hp => ?_
      unfold put
      split
      · rename_i h
        have h2 := (split_eq hk' hk h.2).1
        have h3 := List.mem_zipIdx_iff_getElem?.1 hp
        have h4 := hb s hs
        rw [← h2, List.getD_eq_getElem?_getD, h3] at h4
        have h5 : p.1 = 0 := h4
        rw [h5, zero_mul, zero_mul]
      · rfl
    simp only [cdaeOf, h1]
    simp [put]
  rw [reconstruct_cdaeOf, reconstruct_cdaeOf, hl, put_ne (show a + 1 ≠ a by simp), put_ne (show a + 4 ≠ a by simp)]

theorem cdae_nodup (a : Nat) : (cdaeNet a).all.Nodup := (C142_models 1 1 1 a le_rfl le_rfl).1.2

theorem cdae_mem (a k : Nat) (hk : k < 5) : a + k ∈ (cdaeNet a).all := by
  simp [DRec.Net.all, cdaeNet, addrs, List.mem_range']
  omega

theorem shrink {n : Nat} (lr rate : ℝ) (b : Nat → Nat) :
    ((List.range n).map fun e => 1 - 2 * lr * (rate / (2 * (b (e + 1) : ℝ)))) = (List.range n).map fun e => 1 - lr * rate / b (e + 1) := by
  refine List.map_congr_left fun e _ => ?_
  by_cases h : (b (e + 1) : ℝ) = 0
  · simp [h]
  · field_simp

/-- **C144.** CDAE with gradient descent: the vector of a user who is in none of the batches shrinks in every epoch by the factor
`1 - lr · reg_rate / batch size`, and nothing else happens to it. -/
theorem C144_cdae_user (f : ℝ → ℝ → ℝ) (lr rate : ℝ) (users items hidden a n : Nat) (batches : Nat → List CdaeSample) (s s' : St Unit)
    (h : fitEpochs (sgd lr) (cdaeNet a) (fun e => cdaeObjective f rate users items hidden a (batches e)) n s = .ok s')
    (u k : Nat) (hu : u < users) (hk : k < hidden) (hb : ∀ e, 1 ≤ e → e ≤ n → ∀ x ∈ batches e, x.uid ≠ u) :
    (cdaeOf users items hidden a s'.w).V u k =
      (cdaeOf users items hidden a s.w).V u k * ((List.range n).map fun e => 1 - lr * rate / (batches (e + 1)).length).prod := by
  rw [← shrink lr rate fun e => (batches e).length]
  exact fitEpochs_sgd lr _ (cdae_nodup a) (cdae_mem a 2 (by omega)) _ (fun e => rate / (2 * (batches e).length)) _ n s s'
    (fun e h1 h2 => cdae_user_outside f rate users items hidden a _ hu hk (hb e h1 h2)) h

/-- **C144.** The same for the weights of an item that no corrupted vector contains. -/
theorem C144_cdae_item (f : ℝ → ℝ → ℝ) (lr rate : ℝ) (users items hidden a n : Nat) (batches : Nat → List CdaeSample) (s s' : St Unit)
    (h : fitEpochs (sgd lr) (cdaeNet a) (fun e => cdaeObjective f rate users items hidden a (batches e)) n s = .ok s')
    (i k : Nat) (hi : i < items) (hk : k < hidden) (hb : ∀ e, 1 ≤ e → e ≤ n → ∀ x ∈ batches e, x.input.getD i 0 = 0) :
    (cdaeOf users items hidden a s'.w).W i k =
      (cdaeOf users items hidden a s.w).W i k * ((List.range n).map fun e => 1 - lr * rate / (batches (e + 1)).length).prod := by
  rw [← shrink lr rate fun e => (batches e).length]
  exact fitEpochs_sgd lr _ (cdae_nodup a) (cdae_mem a 0 (by omega)) _ (fun e => rate / (2 * (batches e).length)) _ n s s'
    (fun e h1 h2 => cdae_item_outside f rate users items hidden a _ hi hk (hb e h1 h2)) h

/-- **C144.** Without regularization no (still) optimizer changes them. -/
theorem C144_cdae_kept (R : Algo S) (hR : Still R) (f : ℝ → ℝ → ℝ) (users items hidden a n : Nat) (batches : Nat → List CdaeSample)
    (w : Weights) (s' : St S)
    (h : fitEpochs R (cdaeNet a) (fun e => cdaeObjective f 0 users items hidden a (batches e)) n (St.init R w) = .ok s')
    (k : Nat) (hk : k < hidden) :
    (∀ u, u < users → (∀ e, 1 ≤ e → e ≤ n → ∀ x ∈ batches e, x.uid ≠ u) →
      (cdaeOf users items hidden a s'.w).V u k = (cdaeOf users items hidden a w).V u k) ∧
    (∀ i, i < items → (∀ e, 1 ≤ e → e ≤ n → ∀ x ∈ batches e, x.input.getD i 0 = 0) →
      (cdaeOf users items hidden a s'.w).W i k = (cdaeOf users items hidden a w).W i k) := by
  refine ⟨fun u hu hb => ?_, fun i hi hb => ?_⟩
  · refine fitEpochs_still R hR _ (cdae_nodup a) (cdae_mem a 2 (by omega)) _ _ n w s' (fun e h1 h2 => ?_) h
    simpa using cdae_user_outside f 0 users items hidden a _ hu hk (hb e h1 h2)
  · refine fitEpochs_still R hR _ (cdae_nodup a) (cdae_mem a 0 (by omega)) _ _ n w s' (fun e h1 h2 => ?_) h
    simpa using cdae_item_outside f 0 users items hidden a _ hi hk (hb e h1 h2)

/-! ## Caser -/

/-- The regularized kernels of Caser. -/
theorem caser_outside (rate cc : ℝ) (c : Caser) (users items : Nat) (actH actMlp : ℝ → ℝ) (a : Nat) (b : CaserBatch) {x : Addr} {i : Nat}
    (hr : ∀ w v, (caserOf c users items actH actMlp a (put w x i v)).forward b.uids b.befores b.afters (some b.noise) =
      (caserOf c users items actH actMlp a w).forward b.uids b.befores b.afters (some b.noise))
    (hx : cc = rate ∧ ((x = a ∧ i < users * c.d) ∨ (x = a + 1 ∧ i < items * c.d) ∨ (x = a + 6 ∧ i < items * (2 * c.d))) ∨
      cc = 0 ∧ x = a + 7) :
    Outside cc (caserObjective rate c users items actH actMlp a b) x i := by
  intro w v
  unfold caserObjective
  rw [hr w v]
  cases (caserOf c users items actH actMlp a w).forward b.uids b.befores b.afters (some b.noise) with
  | none => rfl
  | some preds =>
    simp only [Except.map]
    congr 1
    have h8 : ((List.range c.L).map fun j => elements (put w x i v) (a + 8 + 2 * j) ((j + 1) * c.d * c.nh)) =
        (List.range c.L).map fun j => elements w (a + 8 + 2 * j) ((j + 1) * c.d * c.nh) := by
      refine List.map_congr_left fun j _ => elements_put_ne ?_ _ _ _
      intro he
      rcases hx with ⟨-, ⟨rfl, -⟩ | ⟨rfl, -⟩ | ⟨rfl, -⟩⟩ | ⟨-, rfl⟩ <;> simp only [Addr] at he <;> omega
    rw [h8]
    simp only [regLoss, List.map_append, List.map_cons, List.map_nil, List.sum_append, List.sum_cons, List.sum_nil]
    rcases hx with ⟨rfl, ⟨rfl, hi⟩ | ⟨rfl, hi⟩ | ⟨rfl, hi⟩⟩ | ⟨rfl, rfl⟩
    · rw [elements_put_ne (show x + 1 ≠ x by simp), elements_put_ne (show x + 2 ≠ x by simp), elements_put_ne (show x + 4 ≠ x by simp),
        elements_put_ne (show x + 6 ≠ x by simp), squares_put w _ i v _ hi]
      ring
    · rw [elements_put_ne (show a ≠ a + 1 by simp), elements_put_ne (show a + 2 ≠ a + 1 by simp),
        elements_put_ne (show a + 4 ≠ a + 1 by simp), elements_put_ne (show a + 6 ≠ a + 1 by simp), squares_put w _ i v _ hi]
      ring
    · rw [elements_put_ne (show a ≠ a + 6 by simp), elements_put_ne (show a + 1 ≠ a + 6 by simp),
        elements_put_ne (show a + 2 ≠ a + 6 by simp), elements_put_ne (show a + 4 ≠ a + 6 by simp), squares_put w _ i v _ hi]
      ring
    · rw [elements_put_ne (show a ≠ a + 7 by simp), elements_put_ne (show a + 1 ≠ a + 7 by simp),
        elements_put_ne (show a + 2 ≠ a + 7 by simp), elements_put_ne (show a + 4 ≠ a + 7 by simp), elements_put_ne (show a + 6 ≠ a + 7 by simp)]
      ring

theorem lookup_put {n width : Nat} {w : Weights} {x : Addr} {r k : Nat} (hk : k < width) (v : ℝ) {id : Nat} (hid : id ≠ r) :
    Cas.lookup n width (fun i j => put w x (r * width + k) v x (i * width + j)) id = Cas.lookup n width (fun i j => w x (i * width + j)) id := by
  unfold Cas.lookup
  split
  · congr 1
    refine List.map_congr_left fun j hj => ?_
    refine if_neg fun h => hid ?_
    exact (split_eq (List.mem_range.1 hj) hk h.2).1
  · rfl

theorem tensor_bind_same {β : Type} {l : List (List Nat)} {f g : List Nat → Option β} (h : ∀ x ∈ l, f x = g x) :
    ((Cas.tensor l).bind fun l => l.mapM f) = (Cas.tensor l).bind fun l => l.mapM g := by
  unfold Cas.tensor
  split
  · exact mapM_eq_of h
  · rfl

/-- A user who is not in the batch. -/
theorem caser_user_outside (rate : ℝ) (c : Caser) (users items : Nat) (actH actMlp : ℝ → ℝ) (a : Nat) (b : CaserBatch) {u k : Nat}
    (hu : u < users) (hk : k < c.d) (hb : u ∉ b.uids) :
    Outside rate (caserObjective rate c users items actH actMlp a b) a (u * c.d + k) := by
  refine caser_outside rate rate c users items actH actMlp a b (fun w v => ?_) (Or.inl ⟨rfl, Or.inl ⟨rfl, row_lt hu hk⟩⟩)
  have he : caserOf c users items actH actMlp a (put w a (u * c.d + k) v) = { caserOf c users items actH actMlp a w with
      U := fun i j => put w a (u * c.d + k) v a (i * c.d + j) } := by
    have h : ∀ j : Nat, 1 ≤ j → put w a (u * c.d + k) v (a + j) = w (a + j) := fun j hj => put_ne (show (a + j : Nat) ≠ a by omega) _ _
    have h8 : ∀ j : Nat, put w a (u * c.d + k) v (a + 8 + 2 * j) = w (a + 8 + 2 * j) :=
      fun j => put_ne (show (a + 8 + 2 * j : Nat) ≠ a by omega) _ _
    have h9 : ∀ j : Nat, put w a (u * c.d + k) v (a + 9 + 2 * j) = w (a + 9 + 2 * j) :=
      fun j => put_ne (show (a + 9 + 2 * j : Nat) ≠ a by omega) _ _
    simp only [caserOf, h 1 le_rfl, h 2 (by omega), h 3 (by omega), h 4 (by omega), h 5 (by omega), h 6 (by omega), h 7 (by omega), h8, h9]
  rw [he]
  have hm : b.uids.mapM (Cas.lookup users c.d fun i j => put w a (u * c.d + k) v a (i * c.d + j)) =
      b.uids.mapM (Cas.lookup users c.d fun i j => w a (i * c.d + j)) :=
    mapM_eq_of fun id hid => lookup_put hk v fun h => hb (h ▸ hid)
  unfold Cas.Net.forward
  change ((Cas.Net.sequences _ b.befores).bind fun xs => (b.uids.mapM (Cas.lookup users c.d fun i j => put w a (u * c.d + k) v a (i * c.d + j))).bind
    fun us => _) = _
  rw [hm]
  rfl

/-- An item that is in none of the sequences of the batch. -/
theorem caser_before_outside (rate : ℝ) (c : Caser) (users items : Nat) (actH actMlp : ℝ → ℝ) (a : Nat) (b : CaserBatch) {i k : Nat}
    (hi : i < items) (hk : k < c.d) (hb : ∀ l ∈ b.befores, i ∉ l) :
    Outside rate (caserObjective rate c users items actH actMlp a b) (a + 1) (i * c.d + k) := by
  refine caser_outside rate rate c users items actH actMlp a b (fun w v => ?_) (Or.inl ⟨rfl, Or.inr (Or.inl ⟨rfl, row_lt hi hk⟩)⟩)
  have he : caserOf c users items actH actMlp a (put w (a + 1) (i * c.d + k) v) = { caserOf c users items actH actMlp a w with
      E := fun i' j => put w (a + 1) (i * c.d + k) v (a + 1) (i' * c.d + j) } := by
    have h0 : put w (a + 1) (i * c.d + k) v a = w a := put_ne (show (a : Nat) ≠ a + 1 by omega) _ _
    have h : ∀ j : Nat, 2 ≤ j → put w (a + 1) (i * c.d + k) v (a + j) = w (a + j) :=
      fun j hj => put_ne (show (a + j : Nat) ≠ a + 1 by omega) _ _
    have h8 : ∀ j : Nat, put w (a + 1) (i * c.d + k) v (a + 8 + 2 * j) = w (a + 8 + 2 * j) :=
      fun j => put_ne (show (a + 8 + 2 * j : Nat) ≠ a + 1 by omega) _ _
    have h9 : ∀ j : Nat, put w (a + 1) (i * c.d + k) v (a + 9 + 2 * j) = w (a + 9 + 2 * j) :=
      fun j => put_ne (show (a + 9 + 2 * j : Nat) ≠ a + 1 by omega) _ _
    simp only [caserOf, h0, h 2 (by omega), h 3 (by omega), h 4 (by omega), h 5 (by omega), h 6 (by omega), h 7 (by omega), h8, h9]
  rw [he]
  have hm : ((Cas.tensor b.befores).bind fun l => l.mapM fun s => s.mapM
        (Cas.lookup items c.d fun i' j => put w (a + 1) (i * c.d + k) v (a + 1) (i' * c.d + j))) =
      (Cas.tensor b.befores).bind fun l => l.mapM fun s => s.mapM (Cas.lookup items c.d fun i' j => w (a + 1) (i' * c.d + j)) :=
    tensor_bind_same fun l hl => mapM_eq_of fun id hid => lookup_put hk v fun h => hb l hl (h ▸ hid)
  unfold Cas.Net.forward
  change ((Cas.tensor b.befores).bind fun l => l.mapM fun s => s.mapM
        (Cas.lookup items c.d fun i' j => put w (a + 1) (i * c.d + k) v (a + 1) (i' * c.d + j))).bind (fun xs => _) = _
  rw [hm]
  rfl

/-- An item that is not among the targets of the batch: its weights. -/
theorem caser_target_outside (rate : ℝ) (c : Caser) (users items : Nat) (actH actMlp : ℝ → ℝ) (a : Nat) (b : CaserBatch) {i k : Nat}
    (hi : i < items) (hk : k < 2 * c.d) (hb : ∀ l ∈ b.afters, i ∉ l) :
    Outside rate (caserObjective rate c users items actH actMlp a b) (a + 6) (i * (2 * c.d) + k) := by
  refine caser_outside rate rate c users items actH actMlp a b (fun w v => ?_) (Or.inl ⟨rfl, Or.inr (Or.inr ⟨rfl, row_lt hi hk⟩)⟩)
  have he : caserOf c users items actH actMlp a (put w (a + 6) (i * (2 * c.d) + k) v) = { caserOf c users items actH actMlp a w with
      W := fun i' j => put w (a + 6) (i * (2 * c.d) + k) v (a + 6) (i' * (2 * c.d) + j) } := by
    have h0 : put w (a + 6) (i * (2 * c.d) + k) v a = w a := put_ne (show (a : Nat) ≠ a + 6 by omega) _ _
    have h : ∀ j : Nat, j ≠ 6 → put w (a + 6) (i * (2 * c.d) + k) v (a + j) = w (a + j) :=
      fun j hj => put_ne (show (a + j : Nat) ≠ a + 6 by omega) _ _
    have h8 : ∀ j : Nat, put w (a + 6) (i * (2 * c.d) + k) v (a + 8 + 2 * j) = w (a + 8 + 2 * j) :=
      fun j => put_ne (show (a + 8 + 2 * j : Nat) ≠ a + 6 by omega) _ _
    have h9 : ∀ j : Nat, put w (a + 6) (i * (2 * c.d) + k) v (a + 9 + 2 * j) = w (a + 9 + 2 * j) :=
      fun j => put_ne (show (a + 9 + 2 * j : Nat) ≠ a + 6 by omega) _ _
    simp only [caserOf, h0, h 1 (by omega), h 2 (by omega), h 3 (by omega), h 4 (by omega), h 5 (by omega), h 7 (by omega), h8, h9]
  rw [he]
  have hm : (Cas.Net.targets { caserOf c users items actH actMlp a w with
        W := fun i' j => put w (a + 6) (i * (2 * c.d) + k) v (a + 6) (i' * (2 * c.d) + j) } b.afters) =
      (caserOf c users items actH actMlp a w).targets b.afters :=
    tensor_bind_same fun l hl => mapM_eq_of fun id hid =>
      congrArg (Option.map fun (x : List ℝ) => (x, w (a + 7) id)) (lookup_put hk v fun h => hb l hl (h ▸ hid))
  unfold Cas.Net.forward
  rw [hm]
  rfl

/-- The same item: its bias. -/
theorem caser_bias_outside (rate : ℝ) (c : Caser) (users items : Nat) (actH actMlp : ℝ → ℝ) (a : Nat) (b : CaserBatch) {i : Nat}
    (hb : ∀ l ∈ b.afters, i ∉ l) : Outside 0 (caserObjective rate c users items actH actMlp a b) (a + 7) i := by
  refine caser_outside rate 0 c users items actH actMlp a b (fun w v => ?_) (Or.inr ⟨rfl, rfl⟩)
  have he : caserOf c users items actH actMlp a (put w (a + 7) i v) = { caserOf c users items actH actMlp a w with
      b := put w (a + 7) i v (a + 7) } := by
    have h0 : put w (a + 7) i v a = w a := put_ne (show (a : Nat) ≠ a + 7 by omega) _ _
    have h : ∀ j : Nat, j ≠ 7 → put w (a + 7) i v (a + j) = w (a + j) := fun j hj => put_ne (show (a + j : Nat) ≠ a + 7 by omega) _ _
    have h8 : ∀ j : Nat, put w (a + 7) i v (a + 8 + 2 * j) = w (a + 8 + 2 * j) :=
      fun j => put_ne (show (a + 8 + 2 * j : Nat) ≠ a + 7 by omega) _ _
    have h9 : ∀ j : Nat, put w (a + 7) i v (a + 9 + 2 * j) = w (a + 9 + 2 * j) :=
      fun j => put_ne (show (a + 9 + 2 * j : Nat) ≠ a + 7 by omega) _ _
    simp only [caserOf, h0, h 1 (by omega), h 2 (by omega), h 3 (by omega), h 4 (by omega), h 5 (by omega), h 6 (by omega), h8, h9]
  rw [he]
  have hm : (Cas.Net.targets { caserOf c users items actH actMlp a w with b := put w (a + 7) i v (a + 7) } b.afters) =
      (caserOf c users items actH actMlp a w).targets b.afters := by
    refine tensor_bind_same fun l hl => mapM_eq_of fun id hid => ?_
    have : put w (a + 7) i v (a + 7) id = w (a + 7) id := by
      unfold put
      exact if_neg fun (h : (a + 7 = a + 7) ∧ id = i) => hb l hl (h.2 ▸ hid)
    simp only [this]
    rfl
  unfold Cas.Net.forward
  rw [hm]
  rfl

theorem caser_nodup (L a : Nat) : (caserNet L a).all.Nodup := (C142_models L 1 1 a le_rfl le_rfl).2.1.2

theorem caser_mem (L a : Nat) : a ∈ (caserNet L a).all ∧ a + 1 ∈ (caserNet L a).all ∧ a + 6 ∈ (caserNet L a).all ∧ a + 7 ∈ (caserNet L a).all := by
  simp [DRec.Net.all, caserNet]

theorem shrink_pow (n : Nat) (x : ℝ) : ((List.range n).map fun _ => x).prod = x ^ n := by
  simp

/-- **C144.** Caser with gradient descent.  The vector of a user in none of the batches, the embedding of an item in none of their sequences and
the output weights of an item that is never a target shrink in every epoch by the factor `1 - 2 · lr · reg_rate`; the output bias of such
an item stays as it is. -/
theorem C144_caser (lr rate : ℝ) (c : Caser) (users items : Nat) (actH actMlp : ℝ → ℝ) (a n : Nat) (batches : Nat → CaserBatch)
    (s s' : St Unit) (h : fitEpochs (sgd lr) (caserNet c.L a) (fun e => caserObjective rate c users items actH actMlp a (batches e)) n s = .ok s') :
    (∀ u k, u < users → k < c.d → (∀ e, 1 ≤ e → e ≤ n → u ∉ (batches e).uids) →
      (caserOf c users items actH actMlp a s'.w).U u k = (caserOf c users items actH actMlp a s.w).U u k * (1 - 2 * lr * rate) ^ n) ∧
    (∀ i k, i < items → k < c.d → (∀ e, 1 ≤ e → e ≤ n → ∀ l ∈ (batches e).befores, i ∉ l) →
      (caserOf c users items actH actMlp a s'.w).E i k = (caserOf c users items actH actMlp a s.w).E i k * (1 - 2 * lr * rate) ^ n) ∧
    (∀ i k, i < items → k < 2 * c.d → (∀ e, 1 ≤ e → e ≤ n → ∀ l ∈ (batches e).afters, i ∉ l) →
      (caserOf c users items actH actMlp a s'.w).W i k = (caserOf c users items actH actMlp a s.w).W i k * (1 - 2 * lr * rate) ^ n) ∧
    (∀ i, (∀ e, 1 ≤ e → e ≤ n → ∀ l ∈ (batches e).afters, i ∉ l) →
      (caserOf c users items actH actMlp a s'.w).b i = (caserOf c users items actH actMlp a s.w).b i) := by
  obtain ⟨m0, m1, m6, m7⟩ := caser_mem c.L a
  have hn := caser_nodup c.L a
  refine ⟨fun u k hu hk hb => ?_, fun i k hi hk hb => ?_, fun i k hi hk hb => ?_, fun i hb => ?_⟩
  · rw [← shrink_pow]
    exact fitEpochs_sgd lr _ hn m0 _ (fun _ => rate) _ n s s' (fun e h1 h2 => caser_user_outside rate c users items actH actMlp a _ hu hk (hb e h1 h2)) h
  · rw [← shrink_pow]
    exact fitEpochs_sgd lr _ hn m1 _ (fun _ => rate) _ n s s' (fun e h1 h2 => caser_before_outside rate c users items actH actMlp a _ hi hk (hb e h1 h2)) h
  · rw [← shrink_pow]
    exact fitEpochs_sgd lr _ hn m6 _ (fun _ => rate) _ n s s' (fun e h1 h2 => caser_target_outside rate c users items actH actMlp a _ hi hk (hb e h1 h2)) h
  · have := fitEpochs_sgd lr _ hn m7 i (fun _ => 0) _ n s s' (fun e h1 h2 => caser_bias_outside rate c users items actH actMlp a _ (hb e h1 h2)) h
    simpa [caserOf] using this

/-- **C144.** Without regularization no (still) optimizer changes any of them; the biases stay with regularization as well. -/
theorem C144_caser_kept (R : Algo S) (hR : Still R) (rate : ℝ) (c : Caser) (users items : Nat) (actH actMlp : ℝ → ℝ) (a n : Nat)
    (batches : Nat → CaserBatch) (w : Weights) (s' : St S)
    (h : fitEpochs R (caserNet c.L a) (fun e => caserObjective rate c users items actH actMlp a (batches e)) n (St.init R w) = .ok s') :
    (∀ u k, rate = 0 → u < users → k < c.d → (∀ e, 1 ≤ e → e ≤ n → u ∉ (batches e).uids) →
      (caserOf c users items actH actMlp a s'.w).U u k = (caserOf c users items actH actMlp a w).U u k) ∧
    (∀ i k, rate = 0 → i < items → k < c.d → (∀ e, 1 ≤ e → e ≤ n → ∀ l ∈ (batches e).befores, i ∉ l) →
      (caserOf c users items actH actMlp a s'.w).E i k = (caserOf c users items actH actMlp a w).E i k) ∧
    (∀ i k, rate = 0 → i < items → k < 2 * c.d → (∀ e, 1 ≤ e → e ≤ n → ∀ l ∈ (batches e).afters, i ∉ l) →
      (caserOf c users items actH actMlp a s'.w).W i k = (caserOf c users items actH actMlp a w).W i k) ∧
    (∀ i, (∀ e, 1 ≤ e → e ≤ n → ∀ l ∈ (batches e).afters, i ∉ l) →
      (caserOf c users items actH actMlp a s'.w).b i = (caserOf c users items actH actMlp a w).b i) := by
  obtain ⟨m0, m1, m6, m7⟩ := caser_mem c.L a
  have hn := caser_nodup c.L a
  refine ⟨fun u k h0 hu hk hb => ?_, fun i k h0 hi hk hb => ?_, fun i k h0 hi hk hb => ?_, fun i hb => ?_⟩
  · subst h0
    exact fitEpochs_still R hR _ hn m0 _ _ n w s' (fun e h1 h2 => caser_user_outside 0 c users items actH actMlp a _ hu hk (hb e h1 h2)) h
  · subst h0
    exact fitEpochs_still R hR _ hn m1 _ _ n w s' (fun e h1 h2 => caser_before_outside 0 c users items actH actMlp a _ hi hk (hb e h1 h2)) h
  · subst h0
    exact fitEpochs_still R hR _ hn m6 _ _ n w s' (fun e h1 h2 => caser_target_outside 0 c users items actH actMlp a _ hi hk (hb e h1 h2)) h
  · exact fitEpochs_still R hR _ hn m7 _ _ n w s' (fun e h1 h2 => caser_bias_outside rate c users items actH actMlp a _ (hb e h1 h2)) h

/-! ## DMF -/

theorem tower_first {n : Nat} {l l' : Dm.Layer} (hu : l'.units = l.units) (hb : l'.b = l.b) (ls : List Dm.Layer) {x : Dm.Rows} {i : Nat}
    (hw : ∀ r k, k < l.units → r ≠ i → l'.W r k = l.W r k) (hx : ∀ r ∈ x, r.getD i 0 = 0) :
    Dm.tower n (l' :: ls) x = Dm.tower n (l :: ls) x := by
  have : Dm.dense n l' x = Dm.dense n l x := by
    unfold Dm.dense
    split
    · congr 1
      refine List.map_congr_left fun r hr => ?_
      rw [hu]
      refine List.map_congr_left fun k hk => ?_
      have h1 : (r.zipIdx.map fun p => p.1 * l'.W p.2 k) = r.zipIdx.map fun p => p.1 * l.W p.2 k := by
        refine List.map_congr_left fun p hp => ?_
        by_cases hi : p.2 = i
        · have h3 := List.mem_zipIdx_iff_getElem?.1 hp
          have h4 := hx r hr
          rw [← hi, List.getD_eq_getElem?_getD, h3] at h4
          have h5 : p.1 = 0 := h4
          rw [h5, zero_mul, zero_mul]
        · rw [hw p.2 k (List.mem_range.1 hk) hi]
      rw [h1, hb]
    · rfl
  simp only [Dm.tower, this, hu]

theorem input_zero (m : Dm.Net) {i : Nat} {l : List (List ℚ)} (h : ∀ v ∈ l, v.getD i 0 = 0) {x : Dm.Rows} (hx : Dm.stack l = some x) :
    ∀ r ∈ m.input x, r.getD i 0 = 0 := by
  have hs : ∀ r ∈ x, r.getD i 0 = 0 := by
    unfold Dm.stack Cas.tensor at hx
    split at hx
    · cases hx
    · split at hx
      · cases hx
        intro r hr
        obtain ⟨v, hv, rfl⟩ := List.mem_map.1 hr
        have := h v hv
        rw [List.getD_eq_getElem?_getD] at this ⊢
        rw [List.getElem?_map]
        cases hq : v[i]? with
        | none => rfl
        | some q =>
          rw [hq] at this
          have h0 : q = 0 := this
          simp [h0]
      · cases hx
  unfold Dm.Net.input
  split
  · intro r hr
    obtain ⟨v, hv, rfl⟩ := List.mem_map.1 hr
    have := hs v hv
    unfold l2Normalize
    rw [List.getD_eq_getElem?_getD] at this ⊢
    rw [List.getElem?_map]
    cases hq : v[i]? with
    | none => rfl
    | some q =>
      rw [hq] at this
      have h0 : q = 0 := this
      simp [h0]
  · exact hs

theorem kernels_put (w : Weights) (x : Nat) (i : Nat) (v : ℝ) (n s : Nat) (ss : List Nat) (hi : i < n * s) (rate : ℝ) :
    regLoss rate (kernels (put w x i v) x n (s :: ss)) = regLoss rate (kernels w x n (s :: ss)) + rate * (v ^ 2 - w x i ^ 2) := by
  simp only [kernels, regLoss, List.map_cons, List.sum_cons]
  rw [squares_put w x i v _ hi, kernels_congr (w := w) ss (x + 2) s fun k _ => put_ne (show (x + 2 + 2 * k : Nat) ≠ x by omega) _ _]
  ring

theorem regLoss_append (rate : ℝ) (k l : List (List ℝ)) : regLoss rate (k ++ l) = regLoss rate k + regLoss rate l := by
  simp [regLoss]

/-- An item that none of the vectors of users in the batch contains. -/
theorem dmf_item_outside (rate : ℝ) (users items : Nat) (norm : Bool) (s : Nat) (ss : List Nat) (f2 : List Nat) (a : Nat) (b : DmfBatch) {i k : Nat}
    (hi : i < items) (hk : k < s) (hb : ∀ v ∈ b.users, v.getD i 0 = 0) :
    Outside rate (dmfObjective rate users items norm (s :: ss, f2) a b) a (i * s + k) := by
  intro w v
  have hp : ∀ j : Nat, 1 ≤ j → put w a (i * s + k) v (a + j) = w (a + j) := fun j hj => put_ne (show (a + j : Nat) ≠ a by omega) _ _
  have hf : (dmfOf users items norm (s :: ss, f2) a (put w a (i * s + k) v)).forward b.users b.items =
      (dmfOf users items norm (s :: ss, f2) a w).forward b.users b.items := by
    have hit : (dmfOf users items norm (s :: ss, f2) a (put w a (i * s + k) v)).itemNN = (dmfOf users items norm (s :: ss, f2) a w).itemNN := by
      simp only [dmfOf, Dm.preFit]
      refine List.map_congr_left fun q _ => ?_
      have h1 : put w a (i * s + k) v (a + 2 * (s :: ss).length + 2 * q.2) = w (a + 2 * (s :: ss).length + 2 * q.2) :=
        put_ne (show (a + 2 * (s :: ss).length + 2 * q.2 : Nat) ≠ a by simp only [List.length_cons]; omega) _ _
      have h2 : put w a (i * s + k) v (a + 2 * (s :: ss).length + 2 * q.2 + 1) = w (a + 2 * (s :: ss).length + 2 * q.2 + 1) :=
        put_ne (show (a + 2 * (s :: ss).length + 2 * q.2 + 1 : Nat) ≠ a by simp only [List.length_cons]; omega) _ _
      rw [h1, h2]
    have hus : ∀ x : Dm.Rows, (∀ r ∈ x, r.getD i 0 = 0) →
        Dm.tower items (dmfOf users items norm (s :: ss, f2) a (put w a (i * s + k) v)).userNN x =
        Dm.tower items (dmfOf users items norm (s :: ss, f2) a w).userNN x := by
      intro x hx
      simp only [dmfOf, Dm.preFit, List.zipIdx_cons, List.map_cons]
      have ht : ((ss.zipIdx (0 + 1)).map fun q : Nat × Nat => (⟨q.1, fun r c => put w a (i * s + k) v (a + 2 * q.2) (r * (s :: ss).getD q.2 0 + c),
            put w a (i * s + k) v (a + 2 * q.2 + 1)⟩ : Dm.Layer)) =
          (ss.zipIdx (0 + 1)).map fun q : Nat × Nat => (⟨q.1, fun r c => w (a + 2 * q.2) (r * (s :: ss).getD q.2 0 + c), w (a + 2 * q.2 + 1)⟩ : Dm.Layer) := by
        refine List.map_congr_left fun q hq => ?_
        have := List.le_snd_of_mem_zipIdx hq
        rw [hp _ (show 1 ≤ 2 * q.2 by omega), show a + 2 * q.2 + 1 = a + (2 * q.2 + 1) by ring, hp _ (show 1 ≤ 2 * q.2 + 1 by omega)]
      rw [ht]
      refine tower_first (i := i) ?_ ?_ _ (fun r c hc hr => ?_) hx
      · rfl
      · simp only [Nat.mul_zero, Nat.add_zero]
        exact hp 1 le_rfl
      · simp only [Nat.mul_zero, Nat.add_zero, List.getD_cons_zero] at hc ⊢
        unfold put
        exact if_neg fun h => hr (split_eq hc hk h.2).1
    unfold Dm.Net.forward
    rw [hit]
    cases hst : Dm.stack b.users with
    | none => rfl
    | some x =>
      simp only [Option.bind_some]
      have hz := hus _ (input_zero (dmfOf users items norm (s :: ss, f2) a w) hb hst)
      have hin : (dmfOf users items norm (s :: ss, f2) a (put w a (i * s + k) v)).input = (dmfOf users items norm (s :: ss, f2) a w).input := rfl
      rw [hin]
      show (Dm.stack b.items).bind (fun y => (Dm.tower items (dmfOf users items norm (s :: ss, f2) a (put w a (i * s + k) v)).userNN
        ((dmfOf users items norm (s :: ss, f2) a w).input x)).bind fun ur => _) = _
      rw [hz]
      rfl
  unfold dmfObjective
  rw [hf]
  cases (dmfOf users items norm (s :: ss, f2) a w).forward b.users b.items with
  | none => rfl
  | some preds =>
    simp only [Except.map]
    congr 1
    rw [regLoss_append, regLoss_append, kernels_put w a _ v items s ss (row_lt hi hk),
      kernels_congr (w := w) f2 _ users fun j _ => put_ne (show (a + 2 * (s :: ss).length + 2 * j : Nat) ≠ a by simp only [List.length_cons]; omega) _ _]
    ring

/-- A user whom none of the vectors of items in the batch contains. -/
theorem dmf_user_outside (rate : ℝ) (users items : Nat) (norm : Bool) (f1 : List Nat) (t : Nat) (ts : List Nat) (a : Nat) (b : DmfBatch) {u k : Nat}
    (hu : u < users) (hk : k < t) (hb : ∀ v ∈ b.items, v.getD u 0 = 0) :
    Outside rate (dmfObjective rate users items norm (f1, t :: ts) a b) (a + 2 * f1.length) (u * t + k) := by
  intro w v
  have hp : ∀ j : Nat, 1 ≤ j → put w (a + 2 * f1.length) (u * t + k) v (a + 2 * f1.length + j) = w (a + 2 * f1.length + j) :=
    fun j hj => put_ne (show (a + 2 * f1.length + j : Nat) ≠ a + 2 * f1.length by omega) _ _
  have hf : (dmfOf users items norm (f1, t :: ts) a (put w (a + 2 * f1.length) (u * t + k) v)).forward b.users b.items =
      (dmfOf users items norm (f1, t :: ts) a w).forward b.users b.items := by
    have hus : (dmfOf users items norm (f1, t :: ts) a (put w (a + 2 * f1.length) (u * t + k) v)).userNN =
        (dmfOf users items norm (f1, t :: ts) a w).userNN := by
      simp only [dmfOf, Dm.preFit]
      refine List.map_congr_left fun q hq => ?_
      have hl := List.snd_lt_of_mem_zipIdx hq
      rw [Nat.add_zero] at hl
      have h1 : put w (a + 2 * f1.length) (u * t + k) v (a + 2 * q.2) = w (a + 2 * q.2) :=
        put_ne (show (a + 2 * q.2 : Nat) ≠ a + 2 * f1.length by omega) _ _
      have h2 : put w (a + 2 * f1.length) (u * t + k) v (a + 2 * q.2 + 1) = w (a + 2 * q.2 + 1) :=
        put_ne (show (a + 2 * q.2 + 1 : Nat) ≠ a + 2 * f1.length by omega) _ _
      rw [h1, h2]
    have hit : ∀ x : Dm.Rows, (∀ r ∈ x, r.getD u 0 = 0) →
        Dm.tower users (dmfOf users items norm (f1, t :: ts) a (put w (a + 2 * f1.length) (u * t + k) v)).itemNN x =
        Dm.tower users (dmfOf users items norm (f1, t :: ts) a w).itemNN x := by
      intro x hx
      simp only [dmfOf, Dm.preFit, List.zipIdx_cons, List.map_cons]
      have ht : ((ts.zipIdx (0 + 1)).map fun q : Nat × Nat => (⟨q.1, fun r c => put w (a + 2 * f1.length) (u * t + k) v (a + 2 * f1.length + 2 * q.2)
              (r * (t :: ts).getD q.2 0 + c), put w (a + 2 * f1.length) (u * t + k) v (a + 2 * f1.length + 2 * q.2 + 1)⟩ : Dm.Layer)) =
          (ts.zipIdx (0 + 1)).map fun q : Nat × Nat => (⟨q.1, fun r c => w (a + 2 * f1.length + 2 * q.2) (r * (t :: ts).getD q.2 0 + c),
            w (a + 2 * f1.length + 2 * q.2 + 1)⟩ : Dm.Layer) := by
        refine List.map_congr_left fun q hq => ?_
        have := List.le_snd_of_mem_zipIdx hq
        rw [hp _ (show 1 ≤ 2 * q.2 by omega), show a + 2 * f1.length + 2 * q.2 + 1 = a + 2 * f1.length + (2 * q.2 + 1) by ring,
          hp _ (show 1 ≤ 2 * q.2 + 1 by omega)]
      rw [ht]
      refine tower_first (i := u) ?_ ?_ _ (fun r c hc hr => ?_) hx
      · rfl
      · simp only [Nat.mul_zero, Nat.add_zero]
        exact hp 1 le_rfl
      · simp only [Nat.mul_zero, Nat.add_zero, List.getD_cons_zero] at hc ⊢
        unfold put
        exact if_neg fun h => hr (split_eq hc hk h.2).1
    unfold Dm.Net.forward
    rw [hus]
    cases Dm.stack b.users with
    | none => rfl
    | some y =>
      simp only [Option.bind_some]
      cases hst : Dm.stack b.items with
      | none => rfl
      | some x =>
        simp only [Option.bind_some]
        have hz := hit _ (input_zero (dmfOf users items norm (f1, t :: ts) a w) hb hst)
        show (Dm.tower items (dmfOf users items norm (f1, t :: ts) a w).userNN ((dmfOf users items norm (f1, t :: ts) a w).input y)).bind
          (fun ur => (Dm.tower users (dmfOf users items norm (f1, t :: ts) a (put w (a + 2 * f1.length) (u * t + k) v)).itemNN
          ((dmfOf users items norm (f1, t :: ts) a w).input x)).bind fun ir => _) = _
        rw [hz]
        rfl
  unfold dmfObjective
  rw [hf]
  cases (dmfOf users items norm (f1, t :: ts) a w).forward b.users b.items with
  | none => rfl
  | some preds =>
    simp only [Except.map]
    congr 1
    rw [regLoss_append, regLoss_append, kernels_put w _ _ v users t ts (row_lt hu hk),
      kernels_congr (w := w) f1 _ items fun j hj => put_ne (show (a + 2 * j : Nat) ≠ a + 2 * f1.length by omega) _ _]
    ring

/-- **C144.** DMF with gradient descent: the first kernel of the network for users has a row for every item, which shrinks by `1 - 2 · lr · reg_rate`
as long as no user in the batches has a value for the item; so do the rows for users in the first kernel of the network for items.
Without regularization no (still) optimizer changes them. -/
theorem C144_dmf (users items : Nat) (norm : Bool) (s : Nat) (ss : List Nat) (t : Nat) (ts : List Nat) (a n : Nat) (batches : Nat → DmfBatch) :
    (∀ (lr rate : ℝ) (st st' : St Unit),
      fitEpochs (sgd lr) (dmfNet (s :: ss).length (t :: ts).length a) (fun e => dmfObjective rate users items norm (s :: ss, t :: ts) a (batches e)) n st
        = .ok st' →
      (∀ i k, i < items → k < s → (∀ e, 1 ≤ e → e ≤ n → ∀ v ∈ (batches e).users, v.getD i 0 = 0) →
        st'.w a (i * s + k) = st.w a (i * s + k) * (1 - 2 * lr * rate) ^ n) ∧
      (∀ u k, u < users → k < t → (∀ e, 1 ≤ e → e ≤ n → ∀ v ∈ (batches e).items, v.getD u 0 = 0) →
        st'.w (a + 2 * (s :: ss).length) (u * t + k) = st.w (a + 2 * (s :: ss).length) (u * t + k) * (1 - 2 * lr * rate) ^ n)) ∧
    (∀ (S : Type) (R : Algo S), Still R → ∀ (w : Weights) (st' : St S),
      fitEpochs R (dmfNet (s :: ss).length (t :: ts).length a) (fun e => dmfObjective 0 users items norm (s :: ss, t :: ts) a (batches e)) n (St.init R w)
        = .ok st' →
      (∀ i k, i < items → k < s → (∀ e, 1 ≤ e → e ≤ n → ∀ v ∈ (batches e).users, v.getD i 0 = 0) → st'.w a (i * s + k) = w a (i * s + k)) ∧
      (∀ u k, u < users → k < t → (∀ e, 1 ≤ e → e ≤ n → ∀ v ∈ (batches e).items, v.getD u 0 = 0) →
        st'.w (a + 2 * (s :: ss).length) (u * t + k) = w (a + 2 * (s :: ss).length) (u * t + k))) := by
  have hn : (dmfNet (s :: ss).length (t :: ts).length a).all.Nodup := (C142_models 1 _ _ a (by simp) (by simp)).2.2.2
  have m0 : a ∈ (dmfNet (s :: ss).length (t :: ts).length a).all := by
    simp [DRec.Net.all, dmfNet, denseVars, addrs, List.mem_range']
  have m1 : a + 2 * (s :: ss).length ∈ (dmfNet (s :: ss).length (t :: ts).length a).all := by
    simp [DRec.Net.all, dmfNet, denseVars, addrs, List.mem_range']
  refine ⟨fun lr rate st st' h => ⟨fun i k hi hk hb => ?_, fun u k hu hk hb => ?_⟩, fun S R hR w st' h => ⟨fun i k hi hk hb => ?_, fun u k hu hk hb => ?_⟩⟩
  · rw [← shrink_pow]
    exact fitEpochs_sgd lr _ hn m0 _ (fun _ => rate) _ n st st' (fun e h1 h2 => dmf_item_outside rate users items norm s ss _ a _ hi hk (hb e h1 h2)) h
  · rw [← shrink_pow]
    exact fitEpochs_sgd lr _ hn m1 _ (fun _ => rate) _ n st st' (fun e h1 h2 => dmf_user_outside rate users items norm _ t ts a _ hu hk (hb e h1 h2)) h
  · exact fitEpochs_still R hR _ hn m0 _ _ n w st' (fun e h1 h2 => dmf_item_outside 0 users items norm s ss _ a _ hi hk (hb e h1 h2)) h
  · exact fitEpochs_still R hR _ hn m1 _ _ n w st' (fun e h1 h2 => dmf_user_outside 0 users items norm _ t ts a _ hu hk (hb e h1 h2)) h

/-! ## Adam -/

theorem adam_first (lr g : ℝ) : ((adam lr).step 1 (0, 0) g).2 = lr * (g / (|g| + 1e-7 / √0.001)) := by
  have h1 : (0 : ℝ) < √0.001 := Real.sqrt_pos.2 (by norm_num)
  have h2 : √(0.999 * 0 + 0.001 * g ^ 2) = √0.001 * |g| := by
    rw [mul_zero, zero_add, Real.sqrt_mul (by norm_num), Real.sqrt_sq_eq_abs]
  have h3 : correction 1 = √0.001 / 0.1 := by
    unfold correction
    norm_num
  simp only [adam, h2, h3]
  have h4 : 0 < |g| + 1e-7 / √0.001 := by positivity
  have h5 : √0.001 * |g| + 1e-7 = √0.001 * (|g| + 1e-7 / √0.001) := by field_simp
  rw [h5]
  generalize |g| + 1e-7 / √0.001 = d at h4
  have := h4.ne'
  have := h1.ne'
  field_simp
  ring

/-- **C144** (witness): with Adam, which `fit` uses by default, the regularization moves the vectors of users outside the batch nearly as far as
training moves the others.  In the first epoch of Caser each number of such a vector with a derivative `2 · reg_rate · x` of at least `1e-5`
moves by more than 3/4 of the learning rate, however small the rate of the regularization is. -/
theorem C144_adam_refuted (lr rate : ℝ) (hlr : 0 < lr) (c : Caser) (users items : Nat) (actH actMlp : ℝ → ℝ) (a : Nat) (b : CaserBatch)
    (w : Weights) (s' : St (ℝ × ℝ))
    (h : fitEpochs (adam lr) (caserNet c.L a) (fun _ => caserObjective rate c users items actH actMlp a b) 1 (St.init (adam lr) w) = .ok s')
    (u k : Nat) (hu : u < users) (hk : k < c.d) (hb : u ∉ b.uids)
    (hx : 1e-5 ≤ |2 * rate * (caserOf c users items actH actMlp a w).U u k|) :
    3 / 4 * lr < |(caserOf c users items actH actMlp a s'.w).U u k - (caserOf c users items actH actMlp a w).U u k| := by
  have hp : place (caserNet c.L a) a = 1 := by
    simp [place, groups, caserNet, List.findIdx_cons]
  have key := (fitEpochs_outside (adam lr) _ (caser_nodup c.L a) (caser_mem c.L a).1 (u * c.d + k) (fun _ => rate)
    (fun _ => caserObjective rate c users items actH actMlp a b) 1 (St.init (adam lr) w) s'
    (fun e _ _ => caser_user_outside rate c users items actH actMlp a b hu hk hb)
    (fun e x z => (e = 0 → x = w a (u * c.d + k) ∧ z = (0, 0)) ∧ (e = 1 → x - w a (u * c.d + k) =
      - (lr * (2 * rate * w a (u * c.d + k) / (|2 * rate * w a (u * c.d + k)| + 1e-7 / √0.001)))))
    ⟨fun _ => ⟨rfl, rfl⟩, by simp⟩ (by
      intro e x z he hh
      obtain rfl : e = 0 := by omega
      obtain ⟨rfl, rfl⟩ := hh.1 rfl
      refine ⟨by simp, fun _ => ?_⟩
      simp only [St.init, hp, Nat.zero_mul, Nat.zero_add]
      rw [adam_first]
      ring) h).1.2 rfl
  have e1 : (caserOf c users items actH actMlp a s'.w).U u k = s'.w a (u * c.d + k) := rfl
  have e2 : (caserOf c users items actH actMlp a w).U u k = w a (u * c.d + k) := rfl
  rw [e2] at hx
  rw [e1, e2, key, abs_neg, abs_mul, abs_of_pos hlr, abs_div]
  set g := 2 * rate * w a (u * c.d + k) with hg
  have h1 : (0.0316 : ℝ) < √0.001 := Real.lt_sqrt_of_sq_lt (by norm_num)
  have h2 : (1e-7 : ℝ) / √0.001 < 1e-5 / 3 := by
    rw [div_lt_iff₀ (by linarith)]
    linarith
  have h3 : 0 < |g| + 1e-7 / √0.001 := by positivity
  rw [abs_of_pos h3, mul_comm (3 / 4 : ℝ) lr]
  refine mul_lt_mul_of_pos_left ?_ hlr
  rw [lt_div_iff₀ h3]
  linarith

/-! ## Examples -/

theorem fitEpochs_ok (R : Algo S) (net : DRec.Net) {loss : Nat → Weights → Except Err ℝ} (h : ∀ e w, ∃ y, loss e w = .ok y) (n : Nat) (s : St S) :
    ∃ s', fitEpochs R net loss n s = .ok s' := by
  induction n with
  | zero => exact ⟨s, rfl⟩
  | succ n ih =>
    obtain ⟨t, ht⟩ := ih
    obtain ⟨y, hy⟩ := h (n + 1) t.w
    rw [fitEpochs_succ, ht]
    simp only [hy]
    rw [C142_raises]
    unfold updateAll updateMany
    rw [if_pos (by simp [gradient]), if_pos]
    rw [List.all_eq_true]
    intro ws _
    rw [if_pos]
    · rfl
    · cases ws with
      | nil => simp
      | cons a l => right; simp [gradient]

/-- CDAE trains for three epochs on user 0 and item 0 only; user 1 and item 1 exist. -/
example (f : ℝ → ℝ → ℝ) (w : Weights) :
    (∃ s', fitEpochs (sgd 0.1) (cdaeNet 0) (fun _ => cdaeObjective f 0.5 2 2 1 0 [⟨0, [1, 0], [1, 0]⟩]) 3 (St.init (sgd 0.1) w) = .ok s' ∧
      (cdaeOf 2 2 1 0 s'.w).V 1 0 = (cdaeOf 2 2 1 0 w).V 1 0 * 0.95 ^ 3 ∧ (cdaeOf 2 2 1 0 s'.w).W 1 0 = (cdaeOf 2 2 1 0 w).W 1 0 * 0.95 ^ 3) := by
  obtain ⟨s', h⟩ := fitEpochs_ok (sgd 0.1) (cdaeNet 0) (loss := fun _ => cdaeObjective f 0.5 2 2 1 0 [⟨0, [1, 0], [1, 0]⟩])
    (fun e w => ⟨_, rfl⟩) 3 (St.init (sgd 0.1) w)
  refine ⟨s', h, ?_, ?_⟩
  · rw [C144_cdae_user f 0.1 0.5 2 2 1 0 3 (fun _ => [⟨0, [1, 0], [1, 0]⟩]) _ s' h 1 0 (by omega) (by omega) (by simp)]
    simp [List.range_succ, St.init]
    norm_num
  · rw [C144_cdae_item f 0.1 0.5 2 2 1 0 3 (fun _ => [⟨0, [1, 0], [1, 0]⟩]) _ s' h 1 0 (by omega) (by omega) (by simp)]
    simp [List.range_succ, St.init]
    norm_num

/-- Caser trains on user 0 with the items 0 and 1; user 1 and item 2 exist.  With Adam their vectors move in the first epoch, though the
rate of the regularization is 0.001. -/
example : ∃ s' : St (ℝ × ℝ), fitEpochs (adam 0.01) (caserNet 1 0)
      (fun _ => caserObjective 0.001 ⟨1, 1, 1, 1, 1⟩ 2 3 id id 0 ⟨[0], [[0]], [[1, 0]], [[1, 0]], 0, fun _ _ => 1⟩) 1 (St.init (adam 0.01) fun _ _ => 1) = .ok s' ∧
    3 / 4 * 0.01 < |(caserOf ⟨1, 1, 1, 1, 1⟩ 2 3 id id 0 s'.w).U 1 0 - 1| ∧ (caserOf ⟨1, 1, 1, 1, 1⟩ 2 3 id id 0 s'.w).b 2 = 1 := by
  obtain ⟨s', h⟩ := fitEpochs_ok (adam 0.01) (caserNet 1 0)
    (loss := fun _ => caserObjective 0.001 ⟨1, 1, 1, 1, 1⟩ 2 3 id id 0 ⟨[0], [[0]], [[1, 0]], [[1, 0]], 0, fun _ _ => 1⟩)
    (fun e w => by
      have : ∃ p, (caserOf ⟨1, 1, 1, 1, 1⟩ 2 3 id id 0 w).forward [0] [[0]] [[1, 0]] (some (0, fun _ _ => 1)) = some p := by
        simp [Cas.Net.forward, Cas.Net.sequences, Cas.tensor, Cas.lookup, Cas.Net.features, Cas.Net.outV, Cas.Net.outH, Cas.conv, Cas.pool,
          Cas.squeeze, Cas.concats, Cas.concat, Cas.Net.dense, Cas.dropped, Cas.Net.targets, caserOf, List.mapM_cons, List.mapM_nil]
      obtain ⟨p, hp⟩ := this
      exact ⟨_, by simp only [caserObjective, hp]; rfl⟩) 1 (St.init (adam 0.01) fun _ _ => 1)
  refine ⟨s', h, ?_, ?_⟩
  · refine C144_adam_refuted 0.01 0.001 (by norm_num) ⟨1, 1, 1, 1, 1⟩ 2 3 id id 0 _ _ s' h 1 0 (by omega) (by simp) (by simp) ?_
    simp only [caserOf]
    norm_num [abs_of_pos]
  · exact (C144_caser_kept (adam 0.01) (C144_still 0.01 0).2.2 0.001 ⟨1, 1, 1, 1, 1⟩ 2 3 id id 0 1
      (fun _ => ⟨[0], [[0]], [[1, 0]], [[1, 0]], 0, fun _ _ => 1⟩) _ s' h).2.2.2 2 (by simp)

/-- DMF trains on user 0 and item 0. -/
example (w : Weights) : ∃ s', fitEpochs (sgd 0.1) (dmfNet 1 1 0) (fun _ => dmfObjective 0.5 2 2 true ([3], [3]) 0 ⟨[[5, 0]], [[5, 0]], [1]⟩) 2
      (St.init (sgd 0.1) w) = .ok s' ∧ s'.w 0 (1 * 3 + 2) = w 0 (1 * 3 + 2) * 0.9 ^ 2 := by
  obtain ⟨s', h⟩ := fitEpochs_ok (sgd 0.1) (dmfNet 1 1 0) (loss := fun _ => dmfObjective 0.5 2 2 true ([3], [3]) 0 ⟨[[5, 0]], [[5, 0]], [1]⟩)
    (fun e w => ⟨_, rfl⟩) 2 (St.init (sgd 0.1) w)
  refine ⟨s', h, ?_⟩
  rw [((C144_dmf 2 2 true 3 [] 3 [] 0 2 (fun _ => ⟨[[5, 0]], [[5, 0]], [1]⟩)).1 0.1 0.5 _ s' h).1 1 2 (by omega) (by omega) (by simp)]
  norm_num [St.init]

end DRec.Trn
