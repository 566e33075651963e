import Verif.Lemmas.Training

/-!
# C143: the numbering of users and items does not matter to the networks
-/

namespace DRec.Trn

open DRec.Spec DRec.Opt

variable {S : Type} {σ τ : Nat → Nat}

/-! ## CDAE -/

theorem cdaePlaces_inj {users items hidden a : Nat} (hs : Renumbers σ items) (ht : Renumbers τ users) (x : Addr) :
    Function.Injective (cdaePlaces σ τ items hidden a x) := by
  unfold cdaePlaces
  split
  · exact byRow_inj hs.inj _
  split
  · exact byCol_inj hs
  split
  · exact byRow_inj ht.inj _
  split
  · exact hs.inj
  · exact fun _ _ h => h

theorem cdae_moved {items hidden a : Nat} {w w' : Weights} (h : Moved (cdaePlaces σ τ items hidden a) w w') :
    (∀ i, w' a (byRow σ hidden i) = w a i) ∧ (∀ i, w' (a + 1) (byCol σ items i) = w (a + 1) i) ∧
    (∀ i, w' (a + 2) (byRow τ hidden i) = w (a + 2) i) ∧ w' (a + 3) = w (a + 3) ∧ ∀ i, w' (a + 4) (σ i) = w (a + 4) i := by
  refine ⟨fun i => ?_, fun i => ?_, fun i => ?_, funext fun i => ?_, fun i => ?_⟩
  · have := h a i; simpa [cdaePlaces] using this
  · have := h (a + 1) i; simpa [cdaePlaces] using this
  · have := h (a + 2) i; simpa [cdaePlaces] using this
  · have := h (a + 3) i; simpa [cdaePlaces] using this
  · have := h (a + 4) i; simpa [cdaePlaces] using this

theorem forall₂_map {α α' β : Type} {r : α → α' → Prop} {f : α → β} {f' : α' → β} {l : List α} {l' : List α'} (h : List.Forall₂ r l l')
    (hf : ∀ x x', x ∈ l → r x x' → f' x' = f x) : l'.map f' = l.map f := by
  induction h with
  | nil => rfl
  | cons h1 _ ih => rw [List.map_cons, List.map_cons, hf _ _ (by simp) h1, ih fun x x' hx => hf x x' (by simp [hx])]

theorem reconstruct_cdaeOf (users items hidden a : Nat) (w : Weights) (uid : Nat) (x : List ℝ) :
    (cdaeOf users items hidden a w).reconstruct uid x = if users ≤ uid then .error .outOfRange
      else if x.length ≠ items then .error .badValue
      else .ok ((List.range items).map fun j => sigmoid ((((cdaeOf users items hidden a w).layer uid x).zipIdx.map fun p =>
        p.1 * w (a + 1) (p.2 * items + j)).sum + w (a + 4) j)) := rfl

/-- **C143.** CDAE's scores after renumbering: those of the same items. -/
theorem C143_cdae_scores {users items hidden a : Nat} (hs : Renumbers σ items) (ht : Renumbers τ users) {w w' : Weights}
    (h : Moved (cdaePlaces σ τ items hidden a) w w') (uid : Nat) (x x' : List ℝ) (hx : Permuted σ x x') :
    SameUpTo (Permuted σ) ((cdaeOf users items hidden a w).reconstruct uid x)
      ((cdaeOf users items hidden a w').reconstruct (τ uid) x') := by
  obtain ⟨h1, h2, h3, h4, h5⟩ := cdae_moved h
  rw [reconstruct_cdaeOf, reconstruct_cdaeOf]
  by_cases hu : users ≤ uid
  · rw [if_pos hu, if_pos (show users ≤ τ uid by have := ht.lt uid; omega)]
    exact rfl
  rw [if_neg hu, if_neg (show ¬ users ≤ τ uid by have := ht.lt uid; omega), hx.1]
  by_cases hl : x.length ≠ items
  · rw [if_pos hl, if_pos hl]
    exact rfl
  rw [if_neg hl, if_neg hl]
  rw [not_not] at hl
  refine permuted_range hs _ _ fun j hj => ?_
  have hlayer : (cdaeOf users items hidden a w').layer (τ uid) x' = (cdaeOf users items hidden a w).layer uid x := by
    unfold Cdae.layer
    refine List.map_congr_left fun k hk => ?_
    have hk : k < hidden := by simpa [cdaeOf] using hk
    simp only [cdaeOf, h4]
    rw [sum_zipIdx_moved (hl ▸ hs) hx (fun i => w a (i * hidden + k)) (fun i => w' a (i * hidden + k))
      (fun i _ => by rw [← byRow_at σ i hk, h1]), ← byRow_at τ uid hk, h3]
  rw [hlayer, h5 j]
  congr 3
  refine List.map_congr_left fun p _ => ?_
  rw [← byCol_at σ p.2 hj, h2]

theorem mapM_same {α α' β β' : Type} {r : α → α' → Prop} {q : β → β' → Prop} {f : α → Except Err β} {f' : α' → Except Err β'}
    {l : List α} {l' : List α'} (h : List.Forall₂ r l l') (hf : ∀ x x', r x x' → SameUpTo q (f x) (f' x')) :
    SameUpTo (List.Forall₂ q) (l.mapM f) (l'.mapM f') := by
  induction h with
  | nil => exact List.Forall₂.nil
  | @cons x x' l l' h1 _ ih =>
    have h2 := hf x x' h1
    rw [List.mapM_cons, List.mapM_cons]
    cases e1 : f x with
    | error z =>
      cases e2 : f' x' with
      | error z' => rw [e1, e2] at h2; exact h2
      | ok y' => rw [e1, e2] at h2; exact h2.elim
    | ok y =>
      cases e2 : f' x' with
      | error z' => rw [e1, e2] at h2; exact h2.elim
      | ok y' =>
        rw [e1, e2] at h2
        cases e3 : l.mapM f with
        | error z =>
          cases e4 : l'.mapM f' with
          | error z' => rw [e3, e4] at ih; exact ih
          | ok y' => rw [e3, e4] at ih; exact ih.elim
        | ok ys =>
          cases e4 : l'.mapM f' with
          | error z' => rw [e3, e4] at ih; exact ih.elim
          | ok ys' => rw [e3, e4] at ih; exact List.Forall₂.cons h2 ih

theorem reconstruct_length {m : Cdae} {u : Nat} {x y : List ℝ} (h : m.reconstruct u x = .ok y) : y.length = m.items := by
  unfold Cdae.reconstruct at h
  split at h
  · cases h
  · split at h
    · cases h
    · cases h; simp

theorem mapM_all {α β : Type} {f : α → Except Err β} {P : β → Prop} {l : List α} {ys : List β} (h : l.mapM f = .ok ys)
    (hf : ∀ x y, f x = .ok y → P y) : ∀ y ∈ ys, P y := by
  induction l generalizing ys with
  | nil => cases h; simp
  | cons x l ih =>
    rw [List.mapM_cons] at h
    cases e1 : f x with
    | error z => rw [e1] at h; cases h
    | ok y =>
      cases e2 : l.mapM f with
      | error z => rw [e1, e2] at h; cases h
      | ok zs =>
        rw [e1, e2] at h
        cases h
        intro z hz
        rcases List.mem_cons.1 hz with rfl | hz
        · exact hf x _ e1
        · exact ih e2 z hz

theorem vecLoss_moved {n : Nat} (hn : Renumbers σ n) (f : ℝ → ℝ → ℝ) {d d' p p' : List ℝ} (hd : Permuted σ d d') (hp : Permuted σ p p')
    (ld : d.length = n) (lp : p.length = n) : vecLoss f d' p' = vecLoss f d p := by
  have hz := permuted_zip hd hp
  have hl : (d.zip p).length = n := by simp [ld, lp]
  unfold vecLoss average
  rw [sum_map_moved (hl ▸ hn) hz, List.length_map, List.length_map, hz.1]

theorem cdaeObjective_moved {users items hidden a : Nat} (hs : Renumbers σ items) (ht : Renumbers τ users) (f : ℝ → ℝ → ℝ) (rate : ℝ)
    {batch batch' : List CdaeSample} (hb : List.Forall₂ (SameSample σ τ) batch batch') (hw : ∀ s ∈ batch, s.wanted.length = items)
    {w w' : Weights} (h : Moved (cdaePlaces σ τ items hidden a) w w') :
    cdaeObjective f rate users items hidden a batch' w' = cdaeObjective f rate users items hidden a batch w := by
  obtain ⟨h1, h2, h3, _, _⟩ := cdae_moved h
  have hm := mapM_same (q := Permuted σ) (f := fun s : CdaeSample => (cdaeOf users items hidden a w).reconstruct s.uid s.input)
    (f' := fun s : CdaeSample => (cdaeOf users items hidden a w').reconstruct s.uid s.input) hb fun x x' hx => by
      rw [hx.uid]
      exact C143_cdae_scores hs ht h _ _ _ hx.input
  unfold cdaeObjective
  cases e1 : batch.mapM fun s => (cdaeOf users items hidden a w).reconstruct s.uid s.input with
  | error z =>
    cases e2 : batch'.mapM fun s => (cdaeOf users items hidden a w').reconstruct s.uid s.input with
    | error z' => rw [e1, e2] at hm; rw [show z' = z from hm.symm]
    | ok y' => rw [e1, e2] at hm; exact hm.elim
  | ok ys =>
    cases e2 : batch'.mapM fun s => (cdaeOf users items hidden a w').reconstruct s.uid s.input with
    | error z' => rw [e1, e2] at hm; exact hm.elim
    | ok ys' =>
      rw [e1, e2] at hm
      have hm : List.Forall₂ (Permuted σ) ys ys' := hm
      have hlen : ∀ y ∈ ys, y.length = items := mapM_all e1 fun s y hy => reconstruct_length hy
      simp only
      have hl : cdaeLoss f ys' (batch'.map (·.wanted)) = cdaeLoss f ys (batch.map (·.wanted)) := by
        unfold cdaeLoss
        congr 1
        rw [List.flatMap_def, List.flatMap_def]
        congr 1
        refine forall₂_map hm fun p p' hp hpp => ?_
        rw [List.map_map, List.map_map]
        exact forall₂_map hb fun s s' hs' hss => vecLoss_moved hs f hss.wanted hpp (hw s hs') (hlen p hp)
      have hr : cdaeReg rate batch'.length [elements w' a (items * hidden), elements w' (a + 1) (hidden * items), elements w' (a + 2) (users * hidden)] =
          cdaeReg rate batch.length [elements w a (items * hidden), elements w (a + 1) (hidden * items), elements w (a + 2) (users * hidden)] := by
        unfold cdaeReg elements
        simp only [List.map_cons, List.map_nil, hb.length_eq]
        rw [squares_moved (byRow_inj hs.inj hidden) (fun i hi => byRow_lt hs hi) (w a) (w' a) h1,
          squares_moved (byCol_inj hs) (fun i hi => byCol_lt hs hi) (w (a + 1)) (w' (a + 1)) h2,
          squares_moved (byRow_inj ht.inj hidden) (fun i hi => byRow_lt ht hi) (w (a + 2)) (w' (a + 2)) h3]
      rw [hl, hr]

/-- **C143** for CDAE: after renumbering users and items in the batches and in the initial weights, every number of epochs with every optimizer
leads to the renumbered weights, and so to the same scores (`C143_cdae_scores`); or both fits raise the same error. -/
theorem C143_cdae (R : Algo S) {users items hidden a : Nat} (hs : Renumbers σ items) (ht : Renumbers τ users) (f : ℝ → ℝ → ℝ) (rate : ℝ)
    (batch batch' : Nat → List CdaeSample) (hb : ∀ e, List.Forall₂ (SameSample σ τ) (batch e) (batch' e))
    (hw : ∀ e, ∀ s ∈ batch e, s.wanted.length = items) (w w' : Weights) (h : Moved (cdaePlaces σ τ items hidden a) w w') (n : Nat) :
    SameUpTo (fun s s' => Moved (cdaePlaces σ τ items hidden a) s.w s'.w ∧ ∀ uid x x', Permuted σ x x' →
        SameUpTo (Permuted σ) ((cdaeOf users items hidden a s.w).reconstruct uid x)
          ((cdaeOf users items hidden a s'.w).reconstruct (τ uid) x'))
      (fitEpochs R (cdaeNet a) (fun e => cdaeObjective f rate users items hidden a (batch e)) n (St.init R w))
      (fitEpochs R (cdaeNet a) (fun e => cdaeObjective f rate users items hidden a (batch' e)) n (St.init R w')) := by
  have key := fitEpochs_moved (cdaePlaces_inj hs ht) R (cdaeNet a)
    (loss := fun e => cdaeObjective f rate users items hidden a (batch e))
    (loss' := fun e => cdaeObjective f rate users items hidden a (batch' e))
    (fun e w w' hm => cdaeObjective_moved hs ht f rate (hb e) (hw e) hm) n (init_moved R h)
  generalize fitEpochs R (cdaeNet a) (fun e => cdaeObjective f rate users items hidden a (batch e)) n (St.init R w) = p at key ⊢
  generalize fitEpochs R (cdaeNet a) (fun e => cdaeObjective f rate users items hidden a (batch' e)) n (St.init R w') = q at key ⊢
  cases p <;> cases q
  · exact key
  · exact key
  · exact key
  · exact ⟨key.w, fun uid x x' hx => C143_cdae_scores hs ht key.w uid x x' hx⟩

/-! ## DMF -/

theorem dmfPlaces_inj {users items a : Nat} {f : List Nat × List Nat} (hs : Renumbers σ items) (ht : Renumbers τ users) (x : Addr) :
    Function.Injective (dmfPlaces σ τ f a x) := by
  unfold dmfPlaces
  split
  · exact byRow_inj hs.inj _
  split
  · exact byRow_inj ht.inj _
  · exact fun _ _ h => h

theorem tower_moved {π : Nat → Nat} {n : Nat} (hn : Renumbers π n) {x x' : Dm.Rows} (hx : List.Forall₂ (Permuted π) x x')
    (hl : ∀ r ∈ x, r.length = n) (l l' : Dm.Layer) (ls : List Dm.Layer) (hu : l'.units = l.units)
    (hW : ∀ i k, k < l.units → l'.W (π i) k = l.W i k) (hb : l'.b = l.b) :
    Dm.tower n (l' :: ls) x' = Dm.tower n (l :: ls) x := by
  have hd : Dm.dense n l' x' = Dm.dense n l x := by
    have hl' : ∀ r ∈ x', r.length = n := by
      clear hW
      induction hx with
      | nil => simp
      | cons h1 _ ih =>
        intro r hr
        rcases List.mem_cons.1 hr with rfl | hr
        · rw [h1.1]; exact hl _ (by simp)
        · exact ih (fun r hr => hl r (by simp [hr])) r hr
    unfold Dm.dense
    rw [if_pos (by simpa using hl'), if_pos (by simpa using hl), hu, hb]
    congr 1
    refine forall₂_map hx fun r r' hr hrr => ?_
    refine List.map_congr_left fun k hk => ?_
    rw [sum_zipIdx_moved (by rw [hl r hr]; exact hn) hrr (fun i => l.W i k) (fun i => l'.W i k) fun i _ => hW i k (by simpa using hk)]
  simp only [Dm.tower]
  rw [hd, hu]

theorem l2_moved {π : Nat → Nat} {n : Nat} (hn : Renumbers π n) {v v' : List ℝ} (h : Permuted π v v') (hl : v.length = n) :
    Permuted π (l2Normalize v) (l2Normalize v') := by
  unfold l2Normalize
  rw [sum_map_moved (hl ▸ hn) h]
  exact permuted_map _ h

theorem stack_eq {n : Nat} {l : List (List ℚ)} (h : ∀ v ∈ l, v.length = n) :
    Dm.stack l = if l.length = 0 then none else some (l.map fun r => r.map fun (q : ℚ) => (q : ℝ)) := by
  unfold Dm.stack Cas.tensor
  rw [if_pos (c := (l.all fun x => l.all fun y => x.length == y.length) = true)]
  · rfl
  · simp only [List.all_eq_true, beq_iff_eq]
    intro x hx y hy
    rw [h x hx, h y hy]

theorem forall₂_imp_map {α α' β β' : Type} {r : α → α' → Prop} {q : β → β' → Prop} {f : α → β} {f' : α' → β'} {l : List α} {l' : List α'}
    (h : List.Forall₂ r l l') (hf : ∀ x x', x ∈ l → r x x' → q (f x) (f' x')) : List.Forall₂ q (l.map f) (l'.map f') := by
  induction h with
  | nil => exact .nil
  | cons h1 _ ih => exact .cons (hf _ _ (by simp) h1) (ih fun x x' hx => hf x x' (by simp [hx]))

/-- One side of the network. -/
theorem side_moved {π : Nat → Nat} {n : Nat} (hn : Renumbers π n) {us us' : List (List ℚ)} (hx : List.Forall₂ (Permuted π) us us')
    (hl : ∀ r ∈ us, r.length = n) (norm : Bool) (m m' : Dm.Net) (hm : m.l2Norm = norm) (hm' : m'.l2Norm = norm)
    (l l' : Dm.Layer) (ls : List Dm.Layer) (hu : l'.units = l.units)
    (hW : ∀ i k, k < l.units → l'.W (π i) k = l.W i k) (hb : l'.b = l.b) :
    ((Dm.stack us').bind fun u => Dm.tower n (l' :: ls) (m'.input u)) = (Dm.stack us).bind fun u => Dm.tower n (l :: ls) (m.input u) := by
  have hl' : ∀ r ∈ us', r.length = n := by
    clear hW
    induction hx with
    | nil => simp
    | cons h1 _ ih =>
      intro r hr
      rcases List.mem_cons.1 hr with rfl | hr
      · rw [h1.1]; exact hl _ (by simp)
      · exact ih (fun r hr => hl r (by simp [hr])) r hr
  rw [stack_eq hl, stack_eq hl', hx.length_eq]
  by_cases h0 : us'.length = 0
  · rw [if_pos h0, if_pos h0]; rfl
  rw [if_neg h0, if_neg h0]
  simp only [Option.bind_some]
  have hc : List.Forall₂ (Permuted π) (us.map fun r => r.map fun (q : ℚ) => (q : ℝ)) (us'.map fun r => r.map fun (q : ℚ) => (q : ℝ)) :=
    forall₂_imp_map hx fun x x' _ h => permuted_map _ h
  have hcl : ∀ r ∈ us.map fun r => r.map fun (q : ℚ) => (q : ℝ), r.length = n := by
    intro r hr
    obtain ⟨v, hv, rfl⟩ := List.mem_map.1 hr
    rw [List.length_map]; exact hl v hv
  refine tower_moved hn ?_ ?_ l l' ls hu hW hb
  · unfold Dm.Net.input
    rw [hm, hm']
    cases norm
    · exact hc
    · exact forall₂_imp_map hc fun x x' hx h => l2_moved hn h (hcl x hx)
  · unfold Dm.Net.input
    rw [hm]
    cases norm
    · exact hcl
    · intro r hr
      obtain ⟨v, hv, rfl⟩ := List.mem_map.1 hr
      unfold l2Normalize
      rw [List.length_map]
      exact hcl v hv

theorem forward_split (m : Dm.Net) (us is : List (List ℚ)) : m.forward us is =
    ((Dm.stack us).bind fun u => Dm.tower m.items m.userNN (m.input u)).bind fun ur =>
    ((Dm.stack is).bind fun i => Dm.tower m.users m.itemNN (m.input i)).bind fun ir =>
      (Dm.multiply (ur.map l2Normalize) (ir.map l2Normalize)).map fun p => p.map fun r => max (1 / 10 ^ 6) r.sum := by
  unfold Dm.Net.forward
  cases Dm.stack us with
  | none => rfl
  | some u =>
    cases Dm.stack is with
    | none => simp
    | some i => rfl

theorem dmf_moved {f : List Nat × List Nat} {a : Nat} {w w' : Weights} (h : Moved (dmfPlaces σ τ f a) w w') (h1 : f.1 ≠ []) :
    (∀ i, w' a (byRow σ (f.1.getD 0 0) i) = w a i) ∧ (∀ i, w' (a + 2 * f.1.length) (byRow τ (f.2.getD 0 0) i) = w (a + 2 * f.1.length) i) ∧
    ∀ x, x ≠ a → x ≠ a + 2 * f.1.length → w' x = w x := by
  have h0 : 0 < f.1.length := List.length_pos_of_ne_nil h1
  refine ⟨fun i => ?_, fun i => ?_, fun x h2 h3 => funext fun i => ?_⟩
  · have := h a i; simpa [dmfPlaces] using this
  · have := h (a + 2 * f.1.length) i
    have hne : a + 2 * f.1.length ≠ a := by omega
    simpa only [dmfPlaces, hne, if_false, if_true] using this
  · have := h x i; simpa only [dmfPlaces, h2, h3, if_false, id] using this

theorem zipIdx_layers (ss : List Nat) (k0 : Nat) (W W' : Nat → Nat → Nat → ℝ) (b b' : Nat → Nat → ℝ)
    (h : ∀ k, k0 ≤ k → k < k0 + ss.length → W' k = W k ∧ b' k = b k) :
    (ss.zipIdx k0).map (fun s => (⟨s.1, W' s.2, b' s.2⟩ : Dm.Layer)) = (ss.zipIdx k0).map fun s => ⟨s.1, W s.2, b s.2⟩ := by
  refine List.map_congr_left fun s hs => ?_
  have h1 := List.le_snd_of_mem_zipIdx hs
  have h2 := List.snd_lt_add_of_mem_zipIdx hs
  obtain ⟨e1, e2⟩ := h s.2 h1 (by omega)
  rw [e1, e2]

/-- **C143.** DMF's scores after renumbering. -/
theorem C143_dmf_scores {users items : Nat} (norm : Bool) {f : List Nat × List Nat} {a : Nat} (h1 : f.1 ≠ []) (h2 : f.2 ≠ [])
    (hs : Renumbers σ items) (ht : Renumbers τ users) {w w' : Weights} (h : Moved (dmfPlaces σ τ f a) w w') {us us' is is' : List (List ℚ)}
    (hu : List.Forall₂ (Permuted σ) us us') (hi : List.Forall₂ (Permuted τ) is is') (lu : ∀ v ∈ us, v.length = items)
    (li : ∀ v ∈ is, v.length = users) :
    (dmfOf users items norm f a w').forward us' is' = (dmfOf users items norm f a w).forward us is := by
  obtain ⟨m1, m2, m3⟩ := dmf_moved h h1
  obtain ⟨f1, f2⟩ := f
  obtain ⟨s, ss, rfl⟩ := List.exists_cons_of_ne_nil h1
  obtain ⟨t, ts, rfl⟩ := List.exists_cons_of_ne_nil h2
  simp only [List.length_cons] at m1 m2 m3
  rw [forward_split, forward_split]
  simp only [dmfOf, Dm.preFit, List.zipIdx_cons, List.map_cons]
  have e1 := zipIdx_layers ss (0 + 1) (fun k r c => w (a + 2 * k) (r * (s :: ss).getD k 0 + c))
    (fun k r c => w' (a + 2 * k) (r * (s :: ss).getD k 0 + c)) (fun k => w (a + 2 * k + 1)) (fun k => w' (a + 2 * k + 1))
    (fun k hk1 hk2 => ⟨by rw [m3 (a + 2 * k) (by omega) (by omega)], m3 _ (by omega) (by omega)⟩)
  have e2 := zipIdx_layers ts (0 + 1) (fun k r c => w (a + 2 * (s :: ss).length + 2 * k) (r * (t :: ts).getD k 0 + c))
    (fun k r c => w' (a + 2 * (s :: ss).length + 2 * k) (r * (t :: ts).getD k 0 + c))
    (fun k => w (a + 2 * (s :: ss).length + 2 * k + 1)) (fun k => w' (a + 2 * (s :: ss).length + 2 * k + 1))
    (fun k hk1 hk2 => ⟨by rw [m3 (a + 2 * (s :: ss).length + 2 * k) (by simp only [List.length_cons]; omega) (by simp only [List.length_cons]; omega)],
      m3 _ (by simp only [List.length_cons]; omega) (by simp only [List.length_cons]; omega)⟩)
  rw [e1, e2]
  have A := side_moved hs hu lu norm (dmfOf users items norm (s :: ss, t :: ts) a w) (dmfOf users items norm (s :: ss, t :: ts) a w') rfl rfl
    ⟨s, fun r c => w (a + 2 * 0) (r * (s :: ss).getD 0 0 + c), w (a + 2 * 0 + 1)⟩
    ⟨s, fun r c => w' (a + 2 * 0) (r * (s :: ss).getD 0 0 + c), w' (a + 2 * 0 + 1)⟩
    (List.map (fun s_1 : Nat × Nat => (⟨s_1.1, fun r c => w (a + 2 * s_1.2) (r * (s :: ss).getD s_1.2 0 + c), w (a + 2 * s_1.2 + 1)⟩ : Dm.Layer)) (ss.zipIdx (0 + 1))) rfl
    (fun i k hk => by
      simp only [List.getD_cons_zero, Nat.mul_zero, Nat.add_zero] at m1 hk ⊢
      rw [← byRow_at σ i hk, m1]) (m3 _ (by omega) (by omega))
  have B := side_moved ht hi li norm (dmfOf users items norm (s :: ss, t :: ts) a w) (dmfOf users items norm (s :: ss, t :: ts) a w') rfl rfl
    ⟨t, fun r c => w (a + 2 * (s :: ss).length + 2 * 0) (r * (t :: ts).getD 0 0 + c), w (a + 2 * (s :: ss).length + 2 * 0 + 1)⟩
    ⟨t, fun r c => w' (a + 2 * (s :: ss).length + 2 * 0) (r * (t :: ts).getD 0 0 + c), w' (a + 2 * (s :: ss).length + 2 * 0 + 1)⟩
    (List.map (fun s_1 : Nat × Nat => (⟨s_1.1, fun r c => w (a + 2 * (s :: ss).length + 2 * s_1.2) (r * (t :: ts).getD s_1.2 0 + c),
      w (a + 2 * (s :: ss).length + 2 * s_1.2 + 1)⟩ : Dm.Layer)) (ts.zipIdx (0 + 1))) rfl
    (fun i k hk => by
      simp only [List.getD_cons_zero, Nat.mul_zero, Nat.add_zero, List.length_cons] at m2 hk ⊢
      rw [← byRow_at τ i hk, m2]) (m3 _ (by simp only [List.length_cons]; omega) (by simp only [List.length_cons]; omega))
  exact congrArg₂ (fun (p q : Option Dm.Rows) => p.bind fun ur => q.bind fun ir =>
    (Dm.multiply (ur.map l2Normalize) (ir.map l2Normalize)).map fun p => p.map fun r => max (1 / 10 ^ 6) r.sum) A B

theorem kernels_congr {w w' : Weights} (ss : List Nat) : ∀ (a n : Nat), (∀ k, k < ss.length → w' (a + 2 * k) = w (a + 2 * k)) →
    kernels w' a n ss = kernels w a n ss := by
  induction ss with
  | nil => intro a n _; rfl
  | cons s ss ih =>
    intro a n h
    simp only [kernels, elements]
    rw [ih (a + 2) s fun k hk => by rw [show a + 2 + 2 * k = a + 2 * (k + 1) by ring]; exact h (k + 1) (by simpa using hk)]
    have := h 0 (by simp)
    rw [Nat.mul_zero, Nat.add_zero] at this
    rw [this]

theorem dmfObjective_moved {users items : Nat} (norm : Bool) {f : List Nat × List Nat} {a : Nat} (h1 : f.1 ≠ []) (h2 : f.2 ≠ [])
    (hs : Renumbers σ items) (ht : Renumbers τ users) (rate : ℝ) {b b' : DmfBatch} (hb : SameBatch σ τ b b')
    (lu : ∀ v ∈ b.users, v.length = items) (li : ∀ v ∈ b.items, v.length = users) {w w' : Weights} (h : Moved (dmfPlaces σ τ f a) w w') :
    dmfObjective rate users items norm f a b' w' = dmfObjective rate users items norm f a b w := by
  have hr : regLoss rate (kernels w' a items f.1 ++ kernels w' (a + 2 * f.1.length) users f.2) =
      regLoss rate (kernels w a items f.1 ++ kernels w (a + 2 * f.1.length) users f.2) := by
    obtain ⟨m1, m2, m3⟩ := dmf_moved h h1
    obtain ⟨f1, f2⟩ := f
    obtain ⟨s, ss, rfl⟩ := List.exists_cons_of_ne_nil h1
    obtain ⟨t, ts, rfl⟩ := List.exists_cons_of_ne_nil h2
    simp only [List.length_cons, List.getD_cons_zero] at m1 m2 m3 ⊢
    simp only [kernels, elements]
    rw [kernels_congr ss (a + 2) s fun k hk => m3 _ (by omega) (by omega),
      kernels_congr ts (a + 2 * (ss.length + 1) + 2) t fun k hk => m3 _ (by omega) (by omega)]
    unfold regLoss
    simp only [List.cons_append, List.map_cons, List.map_append, List.sum_cons, List.sum_append]
    rw [squares_moved (byRow_inj hs.inj s) (fun i hi => byRow_lt hs hi) (w a) (w' a) m1,
      squares_moved (byRow_inj ht.inj t) (fun i hi => byRow_lt ht hi) (w (a + 2 * (ss.length + 1))) (w' (a + 2 * (ss.length + 1))) m2]
  unfold dmfObjective
  rw [C143_dmf_scores norm h1 h2 hs ht h hb.users hb.items lu li, hb.wanted, hr]

/-- **C143** for DMF. -/
theorem C143_dmf (R : Algo S) {users items : Nat} (norm : Bool) {f : List Nat × List Nat} {a : Nat} (h1 : f.1 ≠ []) (h2 : f.2 ≠ [])
    (hs : Renumbers σ items) (ht : Renumbers τ users) (rate : ℝ) (batch batch' : Nat → DmfBatch) (hb : ∀ e, SameBatch σ τ (batch e) (batch' e))
    (lu : ∀ e, ∀ v ∈ (batch e).users, v.length = items) (li : ∀ e, ∀ v ∈ (batch e).items, v.length = users) (w w' : Weights)
    (h : Moved (dmfPlaces σ τ f a) w w') (n : Nat) :
    SameUpTo (fun s s' => Moved (dmfPlaces σ τ f a) s.w s'.w ∧ ∀ (u u' i i' : List ℚ), Permuted σ u u' → Permuted τ i i' → u.length = items →
        i.length = users → (dmfOf users items norm f a s'.w).forward [u'] [i'] = (dmfOf users items norm f a s.w).forward [u] [i])
      (fitEpochs R (dmfNet f.1.length f.2.length a) (fun e => dmfObjective rate users items norm f a (batch e)) n (St.init R w))
      (fitEpochs R (dmfNet f.1.length f.2.length a) (fun e => dmfObjective rate users items norm f a (batch' e)) n (St.init R w')) := by
  have key := fitEpochs_moved (dmfPlaces_inj hs ht) R (dmfNet f.1.length f.2.length a)
    (loss := fun e => dmfObjective rate users items norm f a (batch e))
    (loss' := fun e => dmfObjective rate users items norm f a (batch' e))
    (fun e w w' hm => dmfObjective_moved norm h1 h2 hs ht rate (hb e) (lu e) (li e) hm) n (init_moved R h)
  generalize fitEpochs R (dmfNet f.1.length f.2.length a) (fun e => dmfObjective rate users items norm f a (batch e)) n (St.init R w) = p at key ⊢
  generalize fitEpochs R (dmfNet f.1.length f.2.length a) (fun e => dmfObjective rate users items norm f a (batch' e)) n (St.init R w') = q at key ⊢
  cases p <;> cases q
  · exact key
  · exact key
  · exact key
  · exact ⟨key.w, fun u u' i i' hu hi hlu hli => C143_dmf_scores norm h1 h2 hs ht key.w (.cons hu .nil) (.cons hi .nil)
      (by simpa using hlu) (by simpa using hli)⟩

/-! ## Caser -/

theorem caserPlaces_inj {users items d a : Nat} (hs : Renumbers σ items) (ht : Renumbers τ users) (x : Addr) :
    Function.Injective (caserPlaces σ τ d a x) := by
  unfold caserPlaces
  split
  · exact byRow_inj ht.inj _
  split
  · exact byRow_inj hs.inj _
  split
  · exact byRow_inj hs.inj _
  split
  · exact hs.inj
  · exact fun _ _ h => h

theorem caser_moved {d a : Nat} {w w' : Weights} (h : Moved (caserPlaces σ τ d a) w w') :
    (∀ i, w' a (byRow τ d i) = w a i) ∧ (∀ i, w' (a + 1) (byRow σ d i) = w (a + 1) i) ∧
    (∀ i, w' (a + 6) (byRow σ (2 * d) i) = w (a + 6) i) ∧ (∀ i, w' (a + 7) (σ i) = w (a + 7) i) ∧
    ∀ x, x ≠ a → x ≠ a + 1 → x ≠ a + 6 → x ≠ a + 7 → w' x = w x := by
  refine ⟨fun i => ?_, fun i => ?_, fun i => ?_, fun i => ?_, fun x h1 h2 h3 h4 => funext fun i => ?_⟩
  · have := h a i; simpa [caserPlaces] using this
  · have := h (a + 1) i; simpa [caserPlaces] using this
  · have := h (a + 6) i; simpa [caserPlaces] using this
  · have := h (a + 7) i; simpa [caserPlaces] using this
  · have := h x i; simpa only [caserPlaces, h1, h2, h3, h4, if_false, id] using this

theorem lookup_moved {π : Nat → Nat} {n width : Nat} (hn : Renumbers π n) (M M' : Nat → Nat → ℝ)
    (h : ∀ i k, k < width → M' (π i) k = M i k) (i : Nat) : Cas.lookup n width M' (π i) = Cas.lookup n width M i := by
  unfold Cas.lookup
  by_cases hi : i < n
  · rw [if_pos hi, if_pos ((hn.lt i).2 hi)]
    congr 1
    exact List.map_congr_left fun k hk => h i k (by simpa using hk)
  · rw [if_neg hi, if_neg (fun h => hi ((hn.lt i).1 h))]

theorem mapM_map' {α β γ : Type} (f : α → β) (g : β → Option γ) (g' : α → Option γ) (h : ∀ x, g (f x) = g' x) (l : List α) :
    (l.map f).mapM g = l.mapM g' := by
  induction l with
  | nil => rfl
  | cons x l ih => rw [List.map_cons, List.mapM_cons, List.mapM_cons, h x, ih]

theorem tensor_map {α β : Type} (f : α → β) (l : List (List α)) : Cas.tensor (l.map (List.map f)) = (Cas.tensor l).map (List.map (List.map f)) := by
  unfold Cas.tensor
  have : ((l.map (List.map f)).all fun x => (l.map (List.map f)).all fun y => x.length == y.length) =
      l.all fun x => l.all fun y => x.length == y.length := by
    simp [List.all_map, Function.comp_def]
  rw [this]
  split <;> rfl

theorem sequences_moved {c : Caser} {users items : Nat} {actH actMlp : ℝ → ℝ} {a : Nat} (hs : Renumbers σ items) {w w' : Weights}
    (h : Moved (caserPlaces σ τ c.d a) w w') (l : List (List Nat)) :
    (caserOf c users items actH actMlp a w').sequences (l.map (List.map σ)) = (caserOf c users items actH actMlp a w).sequences l := by
  obtain ⟨_, h2, _, _, _⟩ := caser_moved h
  unfold Cas.Net.sequences
  rw [tensor_map]
  cases Cas.tensor l with
  | none => rfl
  | some t =>
    simp only [Option.map_some, Option.bind_some]
    refine mapM_map' _ _ _ (fun x => ?_) _
    refine mapM_map' _ _ _ (fun i => ?_) _
    exact lookup_moved hs _ _ (fun i k hk => by
      have hk : k < c.d := hk
      simp only [caserOf]
      rw [← byRow_at σ i hk, h2]) i

theorem targets_moved {c : Caser} {users items : Nat} {actH actMlp : ℝ → ℝ} {a : Nat} (hs : Renumbers σ items) {w w' : Weights}
    (h : Moved (caserPlaces σ τ c.d a) w w') (l : List (List Nat)) :
    (caserOf c users items actH actMlp a w').targets (l.map (List.map σ)) = (caserOf c users items actH actMlp a w).targets l := by
  obtain ⟨_, _, h6, h7, _⟩ := caser_moved h
  unfold Cas.Net.targets
  rw [tensor_map]
  cases Cas.tensor l with
  | none => rfl
  | some t =>
    simp only [Option.map_some, Option.bind_some]
    refine mapM_map' _ _ _ (fun x => ?_) _
    refine mapM_map' _ _ _ (fun i => ?_) _
    have e : (caserOf c users items actH actMlp a w').b (σ i) = (caserOf c users items actH actMlp a w).b i := h7 i
    rw [e]
    congr 1
    exact lookup_moved hs _ _ (fun i k hk => by
      have hk : k < 2 * c.d := hk
      simp only [caserOf]
      rw [← byRow_at σ i hk, h6]) i

theorem users_moved {c : Caser} {users items : Nat} {actH actMlp : ℝ → ℝ} {a : Nat} (ht : Renumbers τ users) {w w' : Weights}
    (h : Moved (caserPlaces σ τ c.d a) w w') (l : List Nat) :
    (l.map τ).mapM (Cas.lookup users c.d (caserOf c users items actH actMlp a w').U) =
      l.mapM (Cas.lookup users c.d (caserOf c users items actH actMlp a w).U) := by
  obtain ⟨h1, _, _, _, _⟩ := caser_moved h
  refine mapM_map' _ _ _ (fun i => ?_) _
  exact lookup_moved ht _ _ (fun i k hk => by simp only [caserOf]; rw [← byRow_at τ i hk, h1]) i

theorem rest_moved {c : Caser} {users items : Nat} {actH actMlp : ℝ → ℝ} {a : Nat} {w w' : Weights}
    (h : Moved (caserPlaces σ τ c.d a) w w') (xs : List Cas.Mat) (x : Cas.Mat) :
    (caserOf c users items actH actMlp a w').features xs = (caserOf c users items actH actMlp a w).features xs ∧
    (caserOf c users items actH actMlp a w').dense x = (caserOf c users items actH actMlp a w).dense x := by
  obtain ⟨_, _, _, _, h0⟩ := caser_moved h
  have e2 := h0 (a + 2) (by omega) (by omega) (by omega) (by omega)
  have e3 := h0 (a + 3) (by omega) (by omega) (by omega) (by omega)
  have e4 := h0 (a + 4) (by omega) (by omega) (by omega) (by omega)
  have e5 := h0 (a + 5) (by omega) (by omega) (by omega) (by omega)
  have e8 : ∀ i, w' (a + 8 + 2 * i) = w (a + 8 + 2 * i) := fun i => h0 _ (by omega) (by omega) (by omega) (by omega)
  have e9 : ∀ i, w' (a + 9 + 2 * i) = w (a + 9 + 2 * i) := fun i => h0 _ (by omega) (by omega) (by omega) (by omega)
  constructor
  · unfold Cas.Net.features Cas.Net.outV
    have : (caserOf c users items actH actMlp a w').outH xs = (caserOf c users items actH actMlp a w).outH xs := by
      funext i
      unfold Cas.Net.outH
      simp only [caserOf, e8, e9]
    rw [this]
    simp only [caserOf, e2, e3]
  · unfold Cas.Net.dense
    simp only [caserOf, e4, e5]
    rfl

/-- **C143.** Caser's scores of given items after renumbering. -/
theorem C143_caser_forward {c : Caser} {users items : Nat} {actH actMlp : ℝ → ℝ} {a : Nat} (hs : Renumbers σ items) (ht : Renumbers τ users)
    {w w' : Weights} (h : Moved (caserPlaces σ τ c.d a) w w') (uids : List Nat) (befores afters : List (List Nat))
    (noise : Option (ℝ × (Nat → Nat → ℝ))) :
    (caserOf c users items actH actMlp a w').forward (uids.map τ) (befores.map (List.map σ)) (afters.map (List.map σ)) noise =
      (caserOf c users items actH actMlp a w).forward uids befores afters noise := by
  unfold Cas.Net.forward
  rw [sequences_moved hs h, targets_moved hs h]
  have hu := users_moved (c := c) (items := items) (actH := actH) (actMlp := actMlp) ht h uids
  show (_ : Option _).bind (fun xs => ((uids.map τ).mapM (Cas.lookup users c.d (caserOf c users items actH actMlp a w').U)).bind _) =
    (_ : Option _).bind (fun xs => (uids.mapM (Cas.lookup users c.d (caserOf c users items actH actMlp a w).U)).bind _)
  rw [hu]
  refine congrArg _ (funext fun xs => congrArg _ (funext fun us => ?_))
  rw [(rest_moved h xs []).1]
  refine congrArg _ (funext fun feats => ?_)
  rw [(rest_moved h xs _).2]

theorem caserObjective_moved {c : Caser} {users items : Nat} {actH actMlp : ℝ → ℝ} {a : Nat} (hs : Renumbers σ items) (ht : Renumbers τ users)
    (rate : ℝ) (b : CaserBatch) {w w' : Weights} (h : Moved (caserPlaces σ τ c.d a) w w') :
    caserObjective rate c users items actH actMlp a (CaserBatch.renumber σ τ b) w' = caserObjective rate c users items actH actMlp a b w := by
  unfold caserObjective CaserBatch.renumber
  simp only
  rw [C143_caser_forward hs ht h]
  obtain ⟨h1, h2, h6, _, h0⟩ := caser_moved h
  have e2 := h0 (a + 2) (by omega) (by omega) (by omega) (by omega)
  have e4 := h0 (a + 4) (by omega) (by omega) (by omega) (by omega)
  have e8 : ∀ i, w' (a + 8 + 2 * i) = w (a + 8 + 2 * i) := fun i => h0 _ (by omega) (by omega) (by omega) (by omega)
  have hr : regLoss rate ([elements w' a (users * c.d), elements w' (a + 1) (items * c.d), elements w' (a + 2) (c.L * c.d * c.nv),
        elements w' (a + 4) ((c.nv + c.L * c.nh) * c.d), elements w' (a + 6) (items * (2 * c.d))] ++
        (List.range c.L).map fun i => elements w' (a + 8 + 2 * i) ((i + 1) * c.d * c.nh)) =
      regLoss rate ([elements w a (users * c.d), elements w (a + 1) (items * c.d), elements w (a + 2) (c.L * c.d * c.nv),
        elements w (a + 4) ((c.nv + c.L * c.nh) * c.d), elements w (a + 6) (items * (2 * c.d))] ++
        (List.range c.L).map fun i => elements w (a + 8 + 2 * i) ((i + 1) * c.d * c.nh)) := by
    unfold regLoss
    simp only [List.map_append, List.map_cons, List.map_nil, List.sum_append, List.sum_cons, elements, e2, e4, e8]
    rw [squares_moved (byRow_inj ht.inj c.d) (fun i hi => byRow_lt ht hi) (w a) (w' a) h1,
      squares_moved (byRow_inj hs.inj c.d) (fun i hi => byRow_lt hs hi) (w (a + 1)) (w' (a + 1)) h2,
      squares_moved (byRow_inj hs.inj (2 * c.d)) (fun i hi => byRow_lt hs hi) (w (a + 6)) (w' (a + 6)) h6]
  rw [hr]

theorem mapM_some' {α β : Type} (g : α → Option β) (f : α → β) (l : List α) (h : ∀ x ∈ l, g x = some (f x)) : l.mapM g = some (l.map f) := by
  induction l with
  | nil => rfl
  | cons x l ih =>
    rw [List.mapM_cons, h x (by simp), ih fun y hy => h y (by simp [hy])]
    rfl

/-- What Caser multiplies the weights of the items with. -/
theorem scores_eq (m : Cas.Net) (uid : Nat) (seq : List Nat) : m.scores uid seq =
    (((m.sequences [seq]).bind fun xs => ([uid].mapM (Cas.lookup m.users m.cfg.d m.U)).bind fun us =>
      (m.features xs).bind fun feats => (m.dense feats).bind fun ds => Cas.concat ds us).bind fun zs =>
        if zs.length = 1 then zs.head? else none).map fun z => (List.range m.items).map fun i =>
          (List.zipWith (· * ·) z ((List.range (2 * m.cfg.d)).map (m.W i))).sum + m.b i := by
  have ht : m.targets [List.range m.items] = some [(List.range m.items).map fun i => ((List.range (2 * m.cfg.d)).map (m.W i), m.b i)] := by
    unfold Cas.Net.targets Cas.tensor
    rw [if_pos (by simp)]
    simp only [Option.bind_some]
    rw [mapM_some' _ (fun is => is.map fun i => ((List.range (2 * m.cfg.d)).map (m.W i), m.b i))]
    · rfl
    · intro is his
      have : is = List.range m.items := by simpa using his
      subst this
      rw [mapM_some' _ fun i => ((List.range (2 * m.cfg.d)).map (m.W i), m.b i)]
      intro i hi
      unfold Cas.lookup
      rw [if_pos (by simpa using hi)]
      rfl
  unfold Cas.Net.scores Cas.Net.forward
  rw [ht]
  cases m.sequences [seq] with
  | none => rfl
  | some xs =>
    cases [uid].mapM (Cas.lookup m.users m.cfg.d m.U) with
    | none => rfl
    | some us =>
      simp only [Option.bind_some]
      cases m.features xs with
      | none => rfl
      | some feats =>
        simp only [Option.bind_some, Cas.dropped]
        cases m.dense feats with
        | none => rfl
        | some ds =>
          simp only [Option.bind_some]
          cases Cas.concat ds us with
          | none => rfl
          | some zs =>
            simp only [Option.bind_some, List.length_singleton]
            by_cases h : zs.length = 1
            · rw [if_pos h, if_pos h]
              obtain ⟨z, rfl⟩ := List.length_eq_one_iff.1 h
              simp [Cas.product, List.map_map, Function.comp_def]
            · rw [if_neg h, if_neg h]; rfl

/-- **C143.** The scores of all items that Caser ranks by. -/
theorem C143_caser_scores {c : Caser} {users items : Nat} {actH actMlp : ℝ → ℝ} {a : Nat} (hs : Renumbers σ items) (ht : Renumbers τ users)
    {w w' : Weights} (h : Moved (caserPlaces σ τ c.d a) w w') (uid : Nat) (seq : List Nat) :
    Option.Rel (Permuted σ) ((caserOf c users items actH actMlp a w).scores uid seq)
      ((caserOf c users items actH actMlp a w').scores (τ uid) (seq.map σ)) := by
  obtain ⟨_, _, h6, h7, _⟩ := caser_moved h
  have e1 := sequences_moved (c := c) (users := users) (actH := actH) (actMlp := actMlp) hs h [seq]
  have e2 := users_moved (c := c) (items := items) (actH := actH) (actMlp := actMlp) ht h [uid]
  rw [scores_eq, scores_eq]
  have e : (((caserOf c users items actH actMlp a w').sequences [seq.map σ]).bind fun xs =>
      ([τ uid].mapM (Cas.lookup users c.d (caserOf c users items actH actMlp a w').U)).bind fun us =>
      ((caserOf c users items actH actMlp a w').features xs).bind fun feats => ((caserOf c users items actH actMlp a w').dense feats).bind fun ds =>
        Cas.concat ds us) =
      ((caserOf c users items actH actMlp a w).sequences [seq]).bind fun xs =>
      ([uid].mapM (Cas.lookup users c.d (caserOf c users items actH actMlp a w).U)).bind fun us =>
      ((caserOf c users items actH actMlp a w).features xs).bind fun feats => ((caserOf c users items actH actMlp a w).dense feats).bind fun ds =>
        Cas.concat ds us := by
    rw [show [seq.map σ] = [seq].map (List.map σ) from rfl, e1, show [τ uid] = [uid].map τ from rfl, e2]
    refine congrArg _ (funext fun xs => congrArg _ (funext fun us => ?_))
    rw [(rest_moved h xs []).1]
    refine congrArg _ (funext fun feats => ?_)
    rw [(rest_moved h xs feats).2]
  change Option.Rel _ (Option.map _ (Option.bind _ _)) (Option.map _ (Option.bind (((caserOf c users items actH actMlp a w').sequences [seq.map σ]).bind
    fun xs => ([τ uid].mapM (Cas.lookup users c.d (caserOf c users items actH actMlp a w').U)).bind fun us =>
      ((caserOf c users items actH actMlp a w').features xs).bind fun feats => ((caserOf c users items actH actMlp a w').dense feats).bind fun ds =>
        Cas.concat ds us) _))
  rw [e]
  change Option.Rel _ (Option.map _ (Option.bind (((caserOf c users items actH actMlp a w).sequences [seq]).bind
    fun xs => ([uid].mapM (Cas.lookup users c.d (caserOf c users items actH actMlp a w).U)).bind fun us =>
      ((caserOf c users items actH actMlp a w).features xs).bind fun feats => ((caserOf c users items actH actMlp a w).dense feats).bind fun ds =>
        Cas.concat ds us) _)) _
  generalize (Option.bind (((caserOf c users items actH actMlp a w).sequences [seq]).bind
    fun xs => ([uid].mapM (Cas.lookup users c.d (caserOf c users items actH actMlp a w).U)).bind fun us =>
      ((caserOf c users items actH actMlp a w).features xs).bind fun feats => ((caserOf c users items actH actMlp a w).dense feats).bind fun ds =>
        Cas.concat ds us) fun zs => if zs.length = 1 then zs.head? else none) = o
  cases o with
  | none => exact .none
  | some z =>
    refine .some (permuted_range hs _ _ fun i hi => ?_)
    simp only [caserOf]
    rw [h7 i]
    congr 3
    refine List.map_congr_left fun k hk => ?_
    rw [← byRow_at σ i (by simpa using hk), h6]

/-- **C143** for Caser. -/
theorem C143_caser (R : Algo S) {c : Caser} {users items : Nat} {actH actMlp : ℝ → ℝ} {a : Nat} (hs : Renumbers σ items)
    (ht : Renumbers τ users) (rate : ℝ) (batch : Nat → CaserBatch) (w w' : Weights) (h : Moved (caserPlaces σ τ c.d a) w w') (n : Nat) :
    SameUpTo (fun s s' => Moved (caserPlaces σ τ c.d a) s.w s'.w ∧ ∀ uid seq,
        Option.Rel (Permuted σ) ((caserOf c users items actH actMlp a s.w).scores uid seq)
          ((caserOf c users items actH actMlp a s'.w).scores (τ uid) (seq.map σ)))
      (fitEpochs R (caserNet c.L a) (fun e => caserObjective rate c users items actH actMlp a (batch e)) n (St.init R w))
      (fitEpochs R (caserNet c.L a) (fun e => caserObjective rate c users items actH actMlp a (CaserBatch.renumber σ τ (batch e))) n (St.init R w')) := by
  have key := fitEpochs_moved (caserPlaces_inj hs ht) R (caserNet c.L a)
    (loss := fun e => caserObjective rate c users items actH actMlp a (batch e))
    (loss' := fun e => caserObjective rate c users items actH actMlp a (CaserBatch.renumber σ τ (batch e)))
    (fun e w w' hm => caserObjective_moved hs ht rate (batch e) hm) n (init_moved R h)
  generalize fitEpochs R (caserNet c.L a) (fun e => caserObjective rate c users items actH actMlp a (batch e)) n (St.init R w) = p at key ⊢
  generalize fitEpochs R (caserNet c.L a) (fun e => caserObjective rate c users items actH actMlp a (CaserBatch.renumber σ τ (batch e))) n
    (St.init R w') = q at key ⊢
  cases p <;> cases q
  · exact key
  · exact key
  · exact key
  · exact ⟨key.w, fun uid seq => C143_caser_scores hs ht key.w uid seq⟩

end DRec.Trn
