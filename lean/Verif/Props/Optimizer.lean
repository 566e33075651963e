import Verif.Lemmas.Optimizer

/-!
# C142: an epoch is one step of the optimizer

Full claim: after every number of epochs the weights are those of the optimizer's algorithm, one step per epoch for every
registered variable.  It is false for the default optimizer (Adam) and every recommender of the library: `apply_gradients` is called once
per trainable, so that the trainables of an epoch get different step numbers (`C142_adam_first`, `C142_models_refuted`).  `C142_exact` says
which numbers these are, `C142_same_partial` when the claim holds.
-/

namespace DRec.Opt

open DRec.Spec

variable {S : Type}

/-- **C142.** An update raises exactly in the cases of C78: some variable has no gradient, or no variable of a layer or model has one. -/
theorem C142_raises (R : Algo S) (net : Net) (g : Addr → Option (Nat → ℝ)) (s : St S) :
    (∃ s', updateWeights R net g s = .ok s') ↔ updateAll net (fun a => (g a).isSome) = .ok () := by
  have one : ∀ (ws : List Addr) (s : St S), (∃ s', applyGradients R g ws s = .ok s') ↔ (updateMany (fun a => (g a).isSome) ws).isOk = true := by
    intro ws s
    unfold applyGradients updateMany
    by_cases h0 : ws = []
    · simp [h0, Except.isOk, Except.toBool]
    · rw [if_neg h0]
      by_cases h : ws.any (fun a => (g a).isSome) = true
      · rw [if_neg, if_pos (.inr h)]
        · simp [Except.isOk, Except.toBool]
        · intro h2
          obtain ⟨a, ha, hs⟩ := List.any_eq_true.1 h
          have := List.all_eq_true.1 h2 a ha
          cases hg : g a <;> simp [hg] at this hs
      · rw [if_pos, if_neg (not_or.2 ⟨h0, h⟩)]
        · simp [Except.isOk, Except.toBool]
        · refine List.all_eq_true.2 fun a ha => ?_
          simp only [Bool.not_eq_true, List.any_eq_false] at h
          have := h a ha
          cases hg : g a <;> simp [hg] at this ⊢
  have many : ∀ (gs : List (List Addr)) (s : St S), (∃ s', chain (applyGradients R g) gs s = .ok s') ↔
      (gs.all fun ws => (updateMany (fun a => (g a).isSome) ws).isOk) = true := by
    intro gs
    induction gs with
    | nil => intro s; simp [chain]
    | cons ws gs ih =>
      intro s
      simp only [chain, List.all_cons, Bool.and_eq_true]
      rw [← one ws s]
      cases h : applyGradients R g ws s with
      | error e => simp
      | ok t => rw [ih t]; simp
  have vars : ∀ (l : List Addr) (s : St S), (∃ s', chain (updateVar R g) l s = .ok s') ↔ (l.all fun a => (g a).isSome) = true := by
    intro l
    induction l with
    | nil => intro s; simp [chain]
    | cons a l ih =>
      intro s
      simp only [chain, List.all_cons, Bool.and_eq_true, updateVar]
      cases hg : g a with
      | none => simp
      | some x =>
        simp only [Option.isNone_some, Bool.false_eq_true, if_false, Option.isSome_some, true_and]
        have : ∃ t, applyGradients R g [a] s = .ok t := ⟨_, by simp [applyGradients, hg]; rfl⟩
        obtain ⟨t, ht⟩ := this
        rw [ht]
        exact ih t
  unfold updateWeights updateAll
  by_cases hv : (net.vars.all fun a => (g a).isSome) = true
  · rw [if_pos hv]
    obtain ⟨t, ht⟩ := (vars net.vars s).2 hv
    rw [ht]
    simp only
    rw [many]
    split <;> simp_all
  · rw [if_neg hv]
    have : ¬ ∃ s', chain (updateVar R g) net.vars s = .ok s' := fun h => hv ((vars net.vars s).1 h)
    cases h : chain (updateVar R g) net.vars s with
    | ok t => exact absurd ⟨t, h⟩ this
    | error e => simp

theorem train_succ (R : Algo S) (net : Net) (grad : Nat → (Addr → Nat → ℝ) → Addr → Option (Nat → ℝ)) (n : Nat) (s : St S) :
    train R net grad (n + 1) s = match train R net grad n s with
      | .error e => .error e
      | .ok t => updateWeights R net (grad (n + 1) t.w) t := by
  unfold train
  rw [List.range'_concat, chain_append]
  cases chain (fun e s => updateWeights R net (grad e s.w) s) (List.range' 1 n) s with
  | error e => rfl
  | ok t =>
    simp only [chain, Nat.one_mul, Nat.add_comm 1 n]
    cases updateWeights R net (grad (n + 1) t.w) t <;> rfl

/-- **C142.** What training does: in epoch `e`, variable `a` takes the step with the number of calls so far: those before this fit, those
of the epochs before, and its place among the trainables. -/
theorem C142_exact (R : Algo S) (net : Net) (grad : Nat → (Addr → Nat → ℝ) → Addr → Option (Nat → ℝ)) (n : Nat) (s s' : St S)
    (hn : net.all.Nodup) (h : train R net grad n s = .ok s') :
    (s'.w, s'.slots) = epochs R (fun a e => s.iterations + (e - 1) * (groups net).length + place net a) net.all grad (s.w, s.slots) n ∧
    s'.iterations = s.iterations + n * (groups net).length := by
  induction n generalizing s' with
  | zero => cases h; simp [epochs]
  | succ n ih =>
    rw [train_succ] at h
    split at h
    · cases h
    · rename_i t ht
      obtain ⟨i1, i2⟩ := ih t ht
      rw [updateWeights_ok] at h
      obtain ⟨c1, c2, c3⟩ := chain_groups R _ (groups net) t s' (fun _ => groups_nonempty) (by rw [groups_flatten]; exact hn) h
      refine ⟨?_, by rw [c3, i2]; ring⟩
      simp only [epochs]
      rw [← i1]
      unfold epochStep
      rw [c1, c2, i2, groups_flatten]
      simp only [place, Nat.add_sub_cancel, Nat.add_assoc]
      refine Prod.ext (funext fun a => funext fun i => ?_) (funext fun a => funext fun i => ?_) <;>
        by_cases ha : a ∈ net.all <;> simp only [ha, if_true, if_false] <;> cases grad (n + 1) t.w a <;> rfl

theorem place_one {net : Net} (h : (groups net).length = 1) {a : Addr} (ha : a ∈ net.all) : place net a = 1 := by
  rw [← groups_flatten] at ha
  unfold place
  match hg : groups net, h with
  | [ws], _ =>
    rw [hg] at ha
    have : a ∈ ws := by simpa using ha
    simp [List.findIdx_cons, this]

/-- **C142.** With a new optimizer that does not count its calls, or a single registered trainable, the weights after every number of epochs
are those of the algorithm.  Missing from the full claim: Adam with several trainables. -/
theorem C142_same_partial (R : Algo S) (net : Net) (grad : Nat → (Addr → Nat → ℝ) → Addr → Option (Nat → ℝ)) (n : Nat) (w : Addr → Nat → ℝ)
    (s' : St S) (hn : net.all.Nodup) (hc : Countless R ∨ (groups net).length = 1) (h : train R net grad n (St.init R w) = .ok s') :
    s'.w = trained R net.all grad w n := by
  have h1 := (C142_exact R net grad n _ s' hn h).1
  have h2 := congrArg Prod.fst h1
  simp only [St.init] at h2
  rw [h2]
  unfold trained
  rw [epochs_congr R _ (fun _ e => e) net.all net.all (fun _ => Iff.rfl)]
  intro a ha e he s x
  rcases hc with hc | hc
  · exact hc _ _ s x
  · rw [hc, place_one hc ha]
    congr 1
    omega

/-- **C142.** Gradient descent and momentum do not count. -/
theorem C142_countless (lr mu : ℝ) : Countless (sgd lr) ∧ Countless (momentum lr mu) := ⟨fun _ _ _ _ => rfl, fun _ _ _ _ => rfl⟩

/-- **C142.** The order in which trainables are registered, and how they are grouped into layers and models, does not matter to an
optimizer that does not count. -/
theorem C142_order (R : Algo S) (hc : Countless R) (net net' : Net) (hv : ∀ a, a ∈ net.all ↔ a ∈ net'.all) (hn : net.all.Nodup)
    (hn' : net'.all.Nodup) (grad : Nat → (Addr → Nat → ℝ) → Addr → Option (Nat → ℝ)) (n : Nat) (w : Addr → Nat → ℝ) (s s' : St S)
    (h : train R net grad n (St.init R w) = .ok s) (h' : train R net' grad n (St.init R w) = .ok s') : s.w = s'.w := by
  rw [C142_same_partial R net grad n w s hn (.inl hc) h, C142_same_partial R net' grad n w s' hn' (.inl hc) h']
  unfold trained
  rw [epochs_congr R _ _ net.all net'.all hv]
  intros
  rfl

/-- **C142.** An optimizer that does not count can be used for several fits: variables it has not seen are trained as with a new one. -/
theorem C142_reused (R : Algo S) (hc : Countless R) (net : Net) (grad : Nat → (Addr → Nat → ℝ) → Addr → Option (Nat → ℝ)) (n : Nat) (s s' : St S)
    (hs : ∀ a ∈ net.all, s.slots a = fun _ => R.start) (hn : net.all.Nodup) (h : train R net grad n s = .ok s') :
    s'.w = trained R net.all grad s.w n := by
  have h1 := congrArg Prod.fst (C142_exact R net grad n _ s' hn h).1
  simp only at h1
  rw [h1]
  have key : ∀ n, (epochs R (fun a e => s.iterations + (e - 1) * (groups net).length + place net a) net.all grad (s.w, s.slots) n).1 =
      (epochs R (fun _ e => e) net.all grad (s.w, fun _ _ => R.start) n).1 ∧
      ∀ a ∈ net.all, (epochs R (fun a e => s.iterations + (e - 1) * (groups net).length + place net a) net.all grad (s.w, s.slots) n).2 a =
      (epochs R (fun _ e => e) net.all grad (s.w, fun _ _ => R.start) n).2 a := by
    intro n
    induction n with
    | zero => exact ⟨rfl, fun a ha => hs a ha⟩
    | succ n ih =>
      obtain ⟨i1, i2⟩ := ih
      simp only [epochs, epochStep]
      rw [i1]
      refine ⟨?_, ?_⟩
      · funext b i
        by_cases hb : b ∈ net.all
        · simp only [hb, if_true, i2 b hb]
          cases grad (n + 1) (epochs R (fun _ e => e) net.all grad (s.w, fun _ _ => R.start) n).1 b with
          | none => rfl
          | some x => simp only; rw [hc _ (n + 1)]
        · simp only [hb, if_false]
      · intro b hb
        funext i
        simp only [hb, if_true, i2 b hb]
        cases grad (n + 1) (epochs R (fun _ e => e) net.all grad (s.w, fun _ _ => R.start) n).1 b with
        | none => rfl
        | some x => simp only; rw [hc _ (n + 1)]
  rw [(key n).1]
  rfl

/-! ## Adam -/

/-- **C142.** The first epoch with Adam: variables of the trainable in place `j` move `correction j / correction 1` times as far as Adam
moves them; that is less for all but the first of up to 20 trainables. -/
theorem C142_adam_first (lr : ℝ) (net : Net) (grad : Nat → (Addr → Nat → ℝ) → Addr → Option (Nat → ℝ)) (w : Addr → Nat → ℝ)
    (s' : St (ℝ × ℝ)) (hn : net.all.Nodup) (h : train (adam lr) net grad 1 (St.init (adam lr) w) = .ok s') (a : Addr) (ha : a ∈ net.all)
    (i : Nat) :
    s'.w a i - w a i = correction (place net a) / correction 1 * (trained (adam lr) net.all grad w 1 a i - w a i) ∧
    (2 ≤ place net a → place net a ≤ 20 → 0 < correction (place net a) / correction 1 ∧ correction (place net a) / correction 1 < 1) := by
  have h1 := congrArg (fun p => p.1 a i) (C142_exact (adam lr) net grad 1 _ s' hn h).1
  simp only [St.init, epochs, epochStep, ha, if_true, Nat.zero_add, Nat.sub_self, Nat.zero_mul] at h1
  have c1 := correction_pos le_rfl
  refine ⟨?_, fun h2 h20 => ⟨div_pos (correction_pos (by omega)) c1, (div_lt_one c1).2 (correction_lt h2 h20)⟩⟩
  rw [h1]
  simp only [trained, epochs, epochStep, ha, if_true, Nat.zero_add]
  cases grad 1 w a with
  | none => simp
  | some x =>
    simp only [adam]
    field_simp
    ring

/-- All gradients are 1. -/
def ones : Nat → (Addr → Nat → ℝ) → Addr → Option (Nat → ℝ) := fun _ _ _ => some fun _ => 1

theorem ones_ok (R : Algo S) (net : Net) (s : St S) : ∃ s', train R net ones 1 s = .ok s' := by
  have : updateAll net (fun a => (ones 1 s.w a).isSome) = .ok () := by
    unfold updateAll updateMany
    rw [if_pos (by simp [ones]), if_pos]
    rw [List.all_eq_true]
    intro ws _
    rw [if_pos]
    · rfl
    · cases ws with
      | nil => simp
      | cons a l => right; simp [ones]
  obtain ⟨s', hs⟩ := (C142_raises R net (ones 1 s.w) s).2 this
  refine ⟨s', ?_⟩
  rw [show (1 : Nat) = 0 + 1 from rfl, train_succ]
  simpa [train, chain] using hs

theorem ones_moves {lr : ℝ} (hl : lr ≠ 0) (t : Nat) (ht : 1 ≤ t) : ((adam lr).step t (adam lr).start 1).2 ≠ 0 := by
  have := correction_pos ht
  simp only [adam]
  have h2 : (0 : ℝ) < √(0.999 * 0 + 0.001 * 1 ^ 2) + 1e-7 := by positivity
  refine div_ne_zero (mul_ne_zero (mul_ne_zero hl this.ne') (by norm_num)) h2.ne'

/-- **C142** (witness): with Adam, every variable of the second to twentieth trainable of every model gets wrong weights in the first epoch
already, whatever the learning rate and the initial weights. -/
theorem C142_adam_refuted (lr : ℝ) (hl : lr ≠ 0) (net : Net) (hn : net.all.Nodup) (w : Addr → Nat → ℝ) (a : Addr) (ha : a ∈ net.all)
    (h2 : 2 ≤ place net a) (h20 : place net a ≤ 20) :
    ∃ s', train (adam lr) net ones 1 (St.init (adam lr) w) = .ok s' ∧ ∀ i, s'.w a i ≠ trained (adam lr) net.all ones w 1 a i := by
  obtain ⟨s', hs⟩ := ones_ok (adam lr) net (St.init (adam lr) w)
  refine ⟨s', hs, fun i he => ?_⟩
  obtain ⟨h1, h3⟩ := C142_adam_first lr net ones w s' hn hs a ha i
  obtain ⟨_, h4⟩ := h3 h2 h20
  rw [he] at h1
  have hd : trained (adam lr) net.all ones w 1 a i - w a i ≠ 0 := by
    simp only [trained, epochs, epochStep, ha, if_true, ones, Nat.zero_add]
    rw [sub_sub_cancel_left]
    exact neg_ne_zero.2 (ones_moves hl 1 le_rfl)
  have : correction (place net a) / correction 1 = 1 := by
    have h5 : (1 - correction (place net a) / correction 1) * (trained (adam lr) net.all ones w 1 a i - w a i) = 0 := by linarith
    rcases mul_eq_zero.1 h5 with h | h
    · linarith
    · exact absurd h hd
  linarith

theorem denseVars_ne {b n : Nat} (h : 1 ≤ n) : denseVars b n ≠ [] := by
  simp [denseVars, addrs]
  omega

/-- **C142.** The recommenders register 5 trainables (CDAE), L + 6 (Caser) and 2 (DMF), no variable twice. -/
theorem C142_models (L u i b : Nat) (hu : 1 ≤ u) (hi : 1 ≤ i) :
    ((groups (cdaeNet b)).length = 5 ∧ (cdaeNet b).all.Nodup) ∧ ((groups (caserNet L b)).length = L + 6 ∧ (caserNet L b).all.Nodup) ∧
    ((groups (dmfNet u i b)).length = 2 ∧ (dmfNet u i b).all.Nodup) := by
  refine ⟨⟨by simp [groups, cdaeNet, addrs, List.filter_map, Function.comp_def], ?_⟩, ⟨by simp [groups, caserNet, List.filter_map, Function.comp_def], ?_⟩,
    ⟨by simp [groups, dmfNet, denseVars_ne hu, denseVars_ne hi], ?_⟩⟩
  · simp [Net.all, cdaeNet, addrs, List.nodup_range']
  · have hh : ∀ L : Nat, (((List.range L).map fun i => [b + 8 + 2 * i, b + 9 + 2 * i]).flatten).Nodup ∧
        ∀ x ∈ ((List.range L).map fun i => [b + 8 + 2 * i, b + 9 + 2 * i]).flatten, b + 8 ≤ x ∧ x < b + 8 + 2 * L := by
      intro L
      induction L with
      | zero => simp
      | succ L ih =>
        rw [List.range_succ, List.map_append, List.flatten_append]
        refine ⟨List.nodup_append.2 ⟨ih.1, by simp, ?_⟩, ?_⟩
        · intro x hx y hy
          have := ih.2 x hx
          simp at hy
          omega
        · intro x hx
          rcases List.mem_append.1 hx with hx | hx
          · have := ih.2 x hx; omega
          · simp at hx; omega
    obtain ⟨h1, h2⟩ := hh L
    simp only [Net.all, caserNet, List.nil_append, List.flatten_nil, List.append_nil, List.flatten_append]
    rw [List.append_assoc]
    refine List.nodup_append.2 ⟨by simp, List.nodup_append.2 ⟨h1, by simp, ?_⟩, ?_⟩
    · rintro x hx y hy rfl
      have := h2 x hx
      simp at hy
      rcases hy with rfl | rfl | rfl | rfl <;> omega
    · rintro x hx y hy rfl
      simp at hx
      rcases List.mem_append.1 hy with hy | hy
      · have := h2 x hy
        rcases hx with rfl | rfl | rfl | rfl <;> omega
      · simp at hy
        rcases hx with rfl | rfl | rfl | rfl <;> rcases hy with h | h | h | h <;> exact absurd h (by show ¬ (_ : Nat) = _; omega)
  · simp only [Net.all, dmfNet, List.nil_append, List.flatten_cons, List.flatten_nil, List.append_nil, denseVars, addrs]
    refine List.nodup_append.2 ⟨List.nodup_range', List.nodup_range', ?_⟩
    rintro x hx y hy rfl
    simp only [List.mem_range'_1] at hx hy
    omega

/-- **C142** (witness): the decoder weights of CDAE, the item embeddings of Caser and the item network of DMF. -/
theorem C142_models_refuted (lr : ℝ) (hl : lr ≠ 0) (w : Addr → Nat → ℝ) (L u i b : Nat) (hu : 1 ≤ u) (hi : 1 ≤ i) :
    (∃ s', train (adam lr) (cdaeNet b) ones 1 (St.init (adam lr) w) = .ok s' ∧
      s'.w (b + 1) ≠ trained (adam lr) (cdaeNet b).all ones w 1 (b + 1)) ∧
    (∃ s', train (adam lr) (caserNet L b) ones 1 (St.init (adam lr) w) = .ok s' ∧
      s'.w (b + 1) ≠ trained (adam lr) (caserNet L b).all ones w 1 (b + 1)) ∧
    (∃ s', train (adam lr) (dmfNet u i b) ones 1 (St.init (adam lr) w) = .ok s' ∧
      s'.w (b + 2 * u) ≠ trained (adam lr) (dmfNet u i b).all ones w 1 (b + 2 * u)) := by
  obtain ⟨⟨_, n1⟩, ⟨_, n2⟩, ⟨_, n3⟩⟩ := C142_models L u i b hu hi
  have p1 : place (cdaeNet b) (b + 1) = 2 := by simp [place, groups, cdaeNet, addrs, List.range', List.findIdx_cons]
  have p2 : place (caserNet L b) (b + 1) = 2 := by simp [place, groups, caserNet, List.findIdx_cons]
  have p3 : place (dmfNet u i b) (b + 2 * u) = 2 := by
    have h1 : b + 2 * u ∉ denseVars b u := by simp [denseVars, addrs, List.mem_range'_1]
    have h2 : b + 2 * u ∈ denseVars (b + 2 * u) i := by simp [denseVars, addrs, List.mem_range'_1]; omega
    simp [place, groups, dmfNet, List.findIdx_cons, h1, h2, denseVars_ne hu, denseVars_ne hi]
  have m1 : b + 1 ∈ (cdaeNet b).all := by simp [Net.all, cdaeNet, addrs, List.mem_range'_1]
  have m2 : b + 1 ∈ (caserNet L b).all := by simp [Net.all, caserNet]
  have m3 : b + 2 * u ∈ (dmfNet u i b).all := by simp [Net.all, dmfNet, denseVars, addrs, List.mem_range'_1]; omega
  obtain ⟨s1, a1, b1⟩ := C142_adam_refuted lr hl _ n1 w _ m1 (by omega) (by omega)
  obtain ⟨s2, a2, b2⟩ := C142_adam_refuted lr hl _ n2 w _ m2 (by omega) (by omega)
  obtain ⟨s3, a3, b3⟩ := C142_adam_refuted lr hl _ n3 w _ m3 (by omega) (by omega)
  exact ⟨⟨s1, a1, fun h => b1 0 (congrFun h 0)⟩, ⟨s2, a2, fun h => b2 0 (congrFun h 0)⟩, ⟨s3, a3, fun h => b3 0 (congrFun h 0)⟩⟩

/-- **C142** (witness): the order in which two variables are registered matters. -/
theorem C142_order_refuted (lr : ℝ) (hl : lr ≠ 0) (w : Addr → Nat → ℝ) : ∃ s s',
    train (adam lr) ⟨[0, 1], [], []⟩ ones 1 (St.init (adam lr) w) = .ok s ∧
    train (adam lr) ⟨[1, 0], [], []⟩ ones 1 (St.init (adam lr) w) = .ok s' ∧ s.w 1 ≠ s'.w 1 := by
  obtain ⟨s, hs, h⟩ := C142_adam_refuted lr hl ⟨[0, 1], [], []⟩ (by decide) w 1 (by decide) (by decide) (by decide)
  obtain ⟨s', hs'⟩ := ones_ok (adam lr) ⟨[1, 0], [], []⟩ (St.init (adam lr) w)
  refine ⟨s, s', hs, hs', fun e => h 0 ?_⟩
  have := (C142_adam_first lr ⟨[1, 0], [], []⟩ ones w s' (by decide) hs' 1 (by decide) 0).1
  rw [show place ⟨[1, 0], [], []⟩ 1 = 1 by decide, div_self (correction_pos le_rfl).ne', one_mul] at this
  rw [congrFun e 0]
  have t : trained (adam lr) (Net.all ⟨[0, 1], [], []⟩) ones w 1 1 0 = trained (adam lr) (Net.all ⟨[1, 0], [], []⟩) ones w 1 1 0 := by
    simp [trained, epochs, epochStep, Net.all]
  rw [t]
  linarith

/-- **C142** (witness): a variable that is registered twice takes two steps per epoch, with any optimizer. -/
theorem C142_twice_refuted (lr : ℝ) (hl : lr ≠ 0) (w : Addr → Nat → ℝ) : ∃ s',
    train (sgd lr) ⟨[0], [[0, 1]], []⟩ ones 1 (St.init (sgd lr) w) = .ok s' ∧
    s'.w 0 0 ≠ trained (sgd lr) (Net.all ⟨[0], [[0, 1]], []⟩) ones w 1 0 0 := by
  refine ⟨_, rfl, ?_⟩
  simp [trained, epochs, epochStep, Net.all, sgd, ones, applyOne, St.init]
  intro h
  apply hl
  linarith

/-- **C142** (witness): an Adam optimizer that has been used before, given to `fit`, moves new variables less. -/
theorem C142_reused_refuted (lr : ℝ) (hl : lr ≠ 0) (w : Addr → Nat → ℝ) : ∃ s s',
    train (adam lr) ⟨[1], [], []⟩ ones 1 (St.init (adam lr) w) = .ok s ∧
    train (adam lr) ⟨[0], [], []⟩ ones 1 s = .ok s' ∧ s.w 0 = w 0 ∧ s'.w 0 ≠ trained (adam lr) [0] ones s.w 1 0 := by
  refine ⟨_, _, rfl, rfl, ?_, fun h => ?_⟩
  · funext i
    simp [applyOne, ones, St.init]
  · have h0 := congrFun h 0
    simp only [trained, epochs, epochStep, ones, applyOne, St.init, List.foldl, List.mem_singleton, if_true, Nat.zero_add, sub_right_inj,
      show ((0 : Nat) = 1) = False by simp, if_false, adam] at h0
    have c := correction_lt (j := 2) le_rfl (by omega)
    have p : (0 : ℝ) < √(0.999 * 0 + 0.001 * 1 ^ 2) + 1e-7 := by positivity
    rw [div_left_inj' p.ne'] at h0
    have := mul_left_cancel₀ hl (mul_right_cancel₀ (by norm_num : (0.9 * 0 + 0.1 * 1 : ℝ) ≠ 0) h0)
    norm_num at this
    linarith

/-- **C142** (witness): a DMF that is fitted again is trained differently from a new one: the networks of the first fit are still registered
and count as calls (cf. C78). -/
theorem C142_refit_refuted (lr : ℝ) (hl : lr ≠ 0) (w : Addr → Nat → ℝ) (u i u' i' b b' : Nat) (hu : 1 ≤ u) (hi : 1 ≤ i) (hu' : 1 ≤ u')
    (hi' : 1 ≤ i') (hb : b + 2 * u + 2 * i ≤ b') :
    ∃ s s', train (adam lr) (dmfNet u' i' b') ones 1 (St.init (adam lr) w) = .ok s ∧
      train (adam lr) ((dmfNet u i b).add (dmfNet u' i' b')) ones 1 (St.init (adam lr) w) = .ok s' ∧ s.w b' ≠ s'.w b' := by
  obtain ⟨_, _, _, n1⟩ := C142_models 0 u i b hu hi
  obtain ⟨_, _, _, n2⟩ := C142_models 0 u' i' b' hu' hi'
  have v : ∀ (u i b x : Nat), x ∈ (dmfNet u i b).all → b ≤ x ∧ x < b + 2 * u + 2 * i := by
    intro u i b x hx
    simp [Net.all, dmfNet, denseVars, addrs, List.mem_range'_1] at hx
    omega
  have e : ((dmfNet u i b).add (dmfNet u' i' b')).all = (dmfNet u i b).all ++ (dmfNet u' i' b').all := by
    simp [Net.all, Net.add, dmfNet]
  have n : ((dmfNet u i b).add (dmfNet u' i' b')).all.Nodup := by
    rw [e]
    refine List.nodup_append.2 ⟨n1, n2, ?_⟩
    rintro x hx y hy rfl
    have := v _ _ _ x hx
    have := v _ _ _ x hy
    omega
  have m0 : b' ∈ denseVars b' u' := by simp [denseVars, addrs, List.mem_range'_1]; omega
  have m2 : b' ∈ (dmfNet u' i' b').all := by simp [Net.all, dmfNet, m0]
  have m1 : b' ∈ ((dmfNet u i b).add (dmfNet u' i' b')).all := by rw [e]; exact List.mem_append_right _ m2
  have p1 : place (dmfNet u' i' b') b' = 1 := by simp [place, groups, dmfNet, List.findIdx_cons, m0, denseVars_ne hu']
  have p2 : place ((dmfNet u i b).add (dmfNet u' i' b')) b' = 3 := by
    have h1 : b' ∉ denseVars b u := by simp [denseVars, addrs, List.mem_range'_1]; omega
    have h2 : b' ∉ denseVars (b + 2 * u) i := by simp [denseVars, addrs, List.mem_range'_1]; omega
    simp [place, groups, Net.add, dmfNet, List.findIdx_cons, m0, h1, h2, denseVars_ne hu, denseVars_ne hi, denseVars_ne hu']
  obtain ⟨s, hs⟩ := ones_ok (adam lr) (dmfNet u' i' b') (St.init (adam lr) w)
  obtain ⟨s', hs', h⟩ := C142_adam_refuted lr hl _ n w b' m1 (by omega) (by omega)
  refine ⟨s, s', hs, hs', fun he => h 0 ?_⟩
  have := (C142_adam_first lr _ ones w s n2 hs b' m2 0).1
  rw [p1, div_self (correction_pos le_rfl).ne', one_mul] at this
  rw [← congrFun he 0]
  have t : trained (adam lr) (dmfNet u' i' b').all ones w 1 b' 0 =
      trained (adam lr) ((dmfNet u i b).add (dmfNet u' i' b')).all ones w 1 b' 0 := by
    simp only [trained, epochs, epochStep, m1, m2, if_true]
  rw [← t]
  linarith

/-! ## Examples -/

/-- Two trainables and two epochs of gradient descent on `w0 ^ 2 + 3 * w1`. -/
example : ∃ s', train (sgd 1) ⟨[0], [[1]], []⟩ (fun _ w a => some fun i => if a = 0 then 2 * w 0 i else 3) 2
      (St.init (sgd 1) fun _ _ => 5) = .ok s' ∧ s'.w 0 0 = 5 ∧ s'.w 1 0 = -1 ∧ s'.iterations = 4 ∧
    (Net.all ⟨[0], [[1]], []⟩).Nodup := by
  refine ⟨_, rfl, ?_, ?_, rfl, by decide⟩ <;> norm_num [applyOne, sgd, St.init]

/-- Two variables in both orders, with momentum. -/
example : ∃ s s', train (momentum 1 2) ⟨[0, 1], [], []⟩ ones 1 (St.init (momentum 1 2) fun _ _ => 0) = .ok s ∧
    train (momentum 1 2) ⟨[1, 0], [], []⟩ ones 1 (St.init (momentum 1 2) fun _ _ => 0) = .ok s' ∧ (∀ a, a ∈ Net.all ⟨[0, 1], [], []⟩ ↔
    a ∈ Net.all ⟨[1, 0], [], []⟩) :=
  ⟨_, _, (ones_ok _ _ _).choose_spec, (ones_ok _ _ _).choose_spec, fun a => by simp [Net.all, or_comm]⟩

/-- A second fit with the same optimizer, of a new variable. -/
example : ∃ s, train (momentum 1 2) ⟨[0], [], []⟩ ones 1 (St.init (momentum 1 2) fun _ _ => 0) = .ok s ∧ s.iterations = 1 ∧
    s.slots 1 = (fun _ => (momentum 1 2).start) ∧ s.slots 0 ≠ fun _ => (momentum 1 2).start := by
  refine ⟨_, rfl, rfl, ?_, fun h => ?_⟩
  · funext i; simp [applyOne, ones, St.init]
  · have := congrFun h 0
    norm_num [applyOne, ones, St.init, momentum] at this

/-- A model with a single trainable, trained with Adam. -/
example : ∃ s', train (adam 1) ⟨[], [], [[0, 1]]⟩ ones 1 (St.init (adam 1) fun _ _ => 0) = .ok s' ∧ (groups ⟨[], [], [[0, 1]]⟩).length = 1 :=
  ⟨_, (ones_ok (adam 1) _ _).choose_spec, rfl⟩

end DRec.Opt
