import Verif.Model.Missing
import Mathlib.Tactic.Ring
import Mathlib.Tactic.Linarith

/-! # Lemmas about missing interactions -/

namespace DRec.Miss

@[simp] theorem val?_top {K : Type} : val? (⊤ : Num K) = none := rfl
@[simp] theorem val?_coe {K : Type} (q : K) : val? (q : Num K) = some q := rfl
@[simp] theorem cmp_top (op : Op) (v : ℚ) : cmp op ⊤ v = decide (op = .ne) := rfl
@[simp] theorem cmp_coe (op : Op) (q v : ℚ) : cmp op (q : Num ℚ) v = op.onRat q v := rfl
@[simp] theorem lift_top {K : Type} (f : K → K) : lift f ⊤ = ⊤ := rfl
@[simp] theorem lift_coe {K : Type} (f : K → K) (q : K) : lift f (q : Num K) = ((f q : K) : Num K) := rfl
@[simp] theorem lift₂_top_left {K : Type} (f : K → K → K) (y : Num K) : lift₂ f ⊤ y = ⊤ := rfl
@[simp] theorem lift₂_top_right {K : Type} (f : K → K → K) (x : Num K) : lift₂ f x ⊤ = ⊤ := by
  induction x using WithTop.recTopCoe <;> rfl
@[simp] theorem lift₂_coe {K : Type} (f : K → K → K) (p q : K) : lift₂ f (p : Num K) (q : Num K) = ((f p q : K) : Num K) := rfl

theorem lift_eq_top {K : Type} {f : K → K} {x : Num K} : lift f x = ⊤ ↔ x = ⊤ := by
  induction x using WithTop.recTopCoe <;> simp

theorem val?_eq_none {K : Type} {x : Num K} : val? x = none ↔ x = ⊤ := by
  induction x using WithTop.recTopCoe <;> simp

theorem val?_eq_some {K : Type} {x : Num K} {q : K} : val? x = some q ↔ x = q := by
  induction x using WithTop.recTopCoe <;> simp

theorem sum_eq_top {K : Type} [AddCommMonoid K] {l : List (Num K)} : l.sum = ⊤ ↔ ⊤ ∈ l := by
  induction l with
  | nil => simp
  | cons x l ih => rw [List.sum_cons, WithTop.add_eq_top, ih, List.mem_cons]; exact or_congr eq_comm Iff.rfl

theorem sum_coe {K : Type} [AddCommMonoid K] (l : List K) : (l.map fun x : K => (x : Num K)).sum = ((l.sum : K) : Num K) := by
  induction l with
  | nil => rfl
  | cons x l ih => rw [List.map_cons, List.sum_cons, ih, List.sum_cons, WithTop.coe_add]

/-- A list without NaN. -/
theorem exists_values {K : Type} {l : List (Num K)} (h : ⊤ ∉ l) : ∃ l' : List K, l = l'.map fun x : K => (x : Num K) := by
  induction l with
  | nil => exact ⟨[], rfl⟩
  | cons x l ih =>
    obtain ⟨l', rfl⟩ := ih fun g => h (List.mem_cons_of_mem _ g)
    induction x using WithTop.recTopCoe with
    | top => exact absurd (List.mem_cons_self ..) h
    | coe q => exact ⟨q :: l', rfl⟩

theorem filterMap_val? {K : Type} (l : List K) : (l.map fun x : K => (x : Num K)).filterMap val? = l := by
  rw [List.filterMap_map]
  exact List.filterMap_some ..

/-! ## Similarities -/

/-- Pairs of numbers. -/
def coePairs {K : Type} (l : List (K × K)) : List (Num K × Num K) := l.map fun p => ((p.1 : Num K), (p.2 : Num K))

theorem coePairs_sum {K : Type} [AddCommMonoid K] (l : List (K × K)) (f : Num K × Num K → Num K) (g : K × K → K)
    (h : ∀ p : K × K, f (p.1, p.2) = ((g p : K) : Num K)) :
    ((coePairs l).map f).sum = (((l.map g).sum : K) : Num K) := by
  rw [coePairs, List.map_map, ← sum_coe, List.map_map]
  congr 1
  exact List.map_congr_left fun p _ => h p

theorem cosOfM_coe (l : List (ℝ × ℝ)) : cosOfM (coePairs l) = ((cosOf l : ℝ) : Num ℝ) := by
  unfold cosOfM cosOf
  rw [coePairs_sum l _ (fun p => p.1 * p.2) fun _ => rfl, coePairs_sum l _ (fun p => p.1 ^ 2) fun _ => rfl,
    coePairs_sum l _ (fun p => p.2 ^ 2) fun _ => rfl]
  rfl

theorem coe_sum_eq_zero (x : ℝ) : ((x : ℝ) : Num ℝ) = 0 ↔ x = 0 := WithTop.coe_eq_zero

theorem centredM_coe (l : List (ℝ × ℝ)) : centredM (coePairs l) = coePairs (centred l) := by
  have h1 : ((coePairs l).map (·.1)).sum = (((l.map (·.1)).sum : ℝ) : Num ℝ) := coePairs_sum l _ _ fun _ => rfl
  have h2 : ((coePairs l).map (·.2)).sum = (((l.map (·.2)).sum : ℝ) : Num ℝ) := coePairs_sum l _ _ fun _ => rfl
  have h3 : (coePairs l).length = l.length := List.length_map ..
  unfold centredM centred
  rw [h1, h2, h3]
  unfold coePairs
  rw [List.map_map, List.map_map]
  exact List.map_congr_left fun p _ => rfl

/-- A pair with NaN. -/
theorem cosOfM_top {l : List (Num ℝ × Num ℝ)} (h : ∃ p ∈ l, p.1 = ⊤ ∨ p.2 = ⊤) : cosOfM l = ⊤ := by
  obtain ⟨p, hp, h⟩ := h
  have : (l.map fun p => lift₂ (· * ·) p.1 p.2).sum = ⊤ := by
    rw [sum_eq_top, List.mem_map]
    refine ⟨p, hp, ?_⟩
    rcases h with h | h <;> simp [h]
  rw [cosOfM, this, lift₂_top_left]

theorem centredM_top {l : List (Num ℝ × Num ℝ)} (h : ∃ p ∈ l, p.1 = ⊤ ∨ p.2 = ⊤) :
    ∃ p ∈ centredM l, p.1 = ⊤ ∨ p.2 = ⊤ := by
  obtain ⟨p, hp, h⟩ := h
  refine ⟨_, List.mem_map.2 ⟨p, hp, rfl⟩, ?_⟩
  rcases h with h | h
  · exact .inl (by dsimp only; rw [h, lift₂_top_left])
  · exact .inr (by dsimp only; rw [h, lift₂_top_left])

theorem foldl_lift₂_top {K : Type} (f : K → K → K) (l : List (Num K)) (v : Num K) (h : v = ⊤ ∨ ⊤ ∈ l) :
    l.foldl (lift₂ f) v = ⊤ := by
  induction l generalizing v with
  | nil => simpa using h
  | cons x l ih =>
    apply ih
    rcases h with rfl | h
    · exact .inl (lift₂_top_left ..)
    · rcases List.mem_cons.1 h with rfl | h
      · exact .inl (lift₂_top_right ..)
      · exact .inr h

theorem maxDiffM_top {K : Type} [Field K] [LinearOrder K] {rows : List (SRow (Num K))} (n : Nat)
    (h : ⊤ ∈ rows.flatten.map (·.2)) : maxDiffM rows n = ⊤ := by
  have h' : ⊤ ∈ allValues rows n := by
    unfold allValues
    dsimp only
    split
    · exact List.mem_cons_of_mem _ h
    · exact h
  unfold maxDiffM
  cases e : allValues rows n with
  | nil => rw [e] at h'; exact absurd h' List.not_mem_nil
  | cons v vs =>
    dsimp only
    rw [foldl_lift₂_top max vs v, lift₂_top_left]
    rw [e] at h'
    rcases List.mem_cons.1 h' with h | h
    · exact .inl h.symm
    · exact .inr h

theorem csrRows_top {K : Type} [AddCommMonoid K] {es : List (Nat × Nat × Num K)} (h : ∃ e ∈ es, e.2.2 = ⊤) :
    ⊤ ∈ (csrRows es).flatten.map (·.2) := by
  obtain ⟨e, he, ht⟩ := h
  have hlt : ∀ (l : List Nat) (x : Nat), x ∈ l → x ≤ l.foldr max 0 := by
    intro l
    induction l with
    | nil => intro x hx; exact absurd hx List.not_mem_nil
    | cons y l ih =>
      intro x hx
      rw [List.foldr_cons]
      rcases List.mem_cons.1 hx with rfl | hx
      · exact le_max_left ..
      · exact (ih x hx).trans (le_max_right ..)
  have h1 := hlt _ _ (List.mem_map.2 ⟨e, he, rfl⟩ : e.1 + 1 ∈ es.map fun e => e.1 + 1)
  rw [List.mem_map]
  refine ⟨(e.2.1, ((es.filter fun f => f.1 = e.1 ∧ f.2.1 = e.2.1).map fun f => f.2.2).sum), ?_, ?_⟩
  · rw [List.mem_flatten]
    refine ⟨_, List.mem_map.2 ⟨e.1, List.mem_range.2 (by omega), rfl⟩, ?_⟩
    rw [List.mem_map]
    refine ⟨e.2.1, ?_, rfl⟩
    rw [List.mem_insertionSort, List.mem_dedup, List.mem_map]
    exact ⟨e, List.mem_filter.2 ⟨he, by simp⟩, rfl⟩
  · dsimp only
    rw [sum_eq_top, List.mem_map]
    exact ⟨e, List.mem_filter.2 ⟨he, by simp⟩, ht⟩

theorem mem_upperLoop {K : Type} {f : SRow K → SRow K → Option K} {rows : List (SRow K)} {e : Nat × Nat × K}
    (h : e ∈ upperLoop f rows) : ∃ a b, f a b = some e.2.2 := by
  unfold upperLoop at h
  simp only [List.mem_flatMap] at h
  obtain ⟨i, _, j, _, h⟩ := h
  split at h
  · exact absurd h List.not_mem_nil
  · rename_i s hs
    refine ⟨_, _, hs.trans ?_⟩
    split at h
    · simp only [List.mem_cons, List.not_mem_nil, or_false] at h
      rcases h with rfl | rfl <;> rfl
    · simp only [List.mem_cons, List.not_mem_nil, or_false] at h
      rw [h]

theorem msdM_top {K : Type} [Field K] [DecidableEq K] {a b : SRow (Num K)} {s : Num K} (h : msdM ⊤ a b = some s) : s = ⊤ := by
  unfold msdM at h
  dsimp only at h
  split at h
  · exact absurd h (by simp)
  · rename_i hl
    rw [if_neg WithTop.top_ne_zero] at h
    rw [← Option.some.inj h, lift_eq_top, lift_eq_top, sum_eq_top, List.mem_map]
    obtain ⟨p, hp⟩ := List.exists_mem_of_length_pos (Nat.pos_of_ne_zero hl)
    exact ⟨p, hp, by rw [lift₂_top_right, lift_top]⟩

end DRec.Miss
