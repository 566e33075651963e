import Verif.Spec.RowOrder
import Verif.Props.Similarity

/-!
# Similarities do not depend on the order of the entries
-/

namespace DRec

open Spec

section

variable {K : Type} {π σ : Nat → Nat} {es es' : List (Nat × Nat × K)}

theorem relabel_fwd (h : Relabel π σ es es') {i c : Nat} (hc : HasCell es i c) : HasCell es' (π i) (σ c) := by
  obtain ⟨v, hv⟩ := hc
  exact ⟨v, h.perm.mem_iff.2 (List.mem_map.2 ⟨_, hv, rfl⟩)⟩

theorem relabel_bwd (h : Relabel π σ es es') {i' c' : Nat} (hc : HasCell es' i' c') :
    ∃ i c, i' = π i ∧ c' = σ c ∧ HasCell es i c := by
  obtain ⟨v, hv⟩ := hc
  obtain ⟨⟨i, c, w⟩, hm, e⟩ := List.mem_map.1 (h.perm.mem_iff.1 hv)
  simp only [Prod.mk.injEq] at e
  exact ⟨i, c, e.1.symm, e.2.1.symm, w, hm⟩

theorem relabel_row (h : Relabel π σ es es') {i c' : Nat} (hi : HasRow es i) (hc : HasCell es' (π i) c') :
    ∃ c, c' = σ c ∧ HasCell es i c := by
  obtain ⟨j, c, e1, e2, hm⟩ := relabel_bwd h hc
  have := h.rowInj i j hi ⟨c, hm⟩ e1
  subst this
  exact ⟨c, e2, hm⟩

theorem relabel_hasCell (h : Relabel π σ es es') {i c : Nat} (hi : HasRow es i) (hc : HasCol es c) :
    HasCell es' (π i) (σ c) ↔ HasCell es i c := by
  refine ⟨fun hh => ?_, relabel_fwd h⟩
  obtain ⟨d, e, hd⟩ := relabel_row h hi hh
  have := h.colInj c d hc ⟨i, hd⟩ e
  subst this
  exact hd

theorem relabel_cell [AddCommMonoid K] (h : Relabel π σ es es') {i c : Nat} (hi : HasRow es i) (hc : HasCol es c) :
    cell es' (π i) (σ c) = cell es i c := by
  unfold cell
  rw [((h.perm.filter fun e => decide (e.1 = π i ∧ e.2.1 = σ c)).map fun e => e.2.2).sum_eq, List.filter_map,
    List.map_map]
  congr 1
  have : es.filter ((fun e : Nat × Nat × K => decide (e.1 = π i ∧ e.2.1 = σ c)) ∘
      fun e : Nat × Nat × K => (π e.1, σ e.2.1, e.2.2)) = es.filter fun e => decide (e.1 = i ∧ e.2.1 = c) := by
    apply List.filter_congr
    rintro ⟨j, d, v⟩ hm
    simp only [Function.comp_apply, decide_eq_decide]
    constructor
    · rintro ⟨e1, e2⟩
      exact ⟨h.rowInj j i ⟨d, v, hm⟩ hi e1, h.colInj d c ⟨j, v, hm⟩ hc e2⟩
    · rintro ⟨rfl, rfl⟩; exact ⟨rfl, rfl⟩
  rw [this]
  rfl

theorem relabel_columns (h : Relabel π σ es es') {i : Nat} {ci : List Nat} (hi : HasRow es i) (hci : Columns es i ci) :
    Columns es' (π i) (ci.map σ) := by
  refine ⟨?_, fun c' => ?_⟩
  · refine (List.nodup_map_iff_inj_on hci.1).2 fun c hc d hd e => ?_
    exact h.colInj c d ⟨i, (hci.2 c).1 hc⟩ ⟨i, (hci.2 d).1 hd⟩ e
  · rw [List.mem_map]
    constructor
    · rintro ⟨c, hc, rfl⟩; exact relabel_fwd h ((hci.2 c).1 hc)
    · intro hh
      obtain ⟨c, e, hc⟩ := relabel_row h hi hh
      exact ⟨c, (hci.2 c).2 hc, e.symm⟩

theorem relabel_common (h : Relabel π σ es es') {i j : Nat} {cs : List Nat} (hi : HasRow es i) (hj : HasRow es j)
    (hcs : Common es i j cs) : Common es' (π i) (π j) (cs.map σ) := by
  refine ⟨?_, fun c' => ?_⟩
  · refine (List.nodup_map_iff_inj_on hcs.1).2 fun c hc d hd e => ?_
    exact h.colInj c d ⟨i, ((hcs.2 c).1 hc).1⟩ ⟨i, ((hcs.2 d).1 hd).1⟩ e
  · rw [List.mem_map]
    constructor
    · rintro ⟨c, hc, rfl⟩
      exact ⟨relabel_fwd h ((hcs.2 c).1 hc).1, relabel_fwd h ((hcs.2 c).1 hc).2⟩
    · rintro ⟨h1, h2⟩
      obtain ⟨c, rfl, hc⟩ := relabel_row h hi h1
      exact ⟨c, (hcs.2 c).2 ⟨hc, (relabel_hasCell h hj ⟨i, hc⟩).1 h2⟩, rfl⟩

theorem map_cell {β : Type} [AddCommMonoid K] (h : Relabel π σ es es') {i j : Nat} {cs : List Nat} (hi : HasRow es i)
    (hj : HasRow es j) (hcs : ∀ c ∈ cs, HasCol es c) (F : K → K → β) :
    ((cs.map σ).map fun c => F (cell es' (π i) c) (cell es' (π j) c)) =
      cs.map fun c => F (cell es i c) (cell es j c) := by
  rw [List.map_map]
  apply List.map_congr_left
  intro c hc
  simp only [Function.comp_apply, relabel_cell h hi (hcs c hc), relabel_cell h hj (hcs c hc)]

theorem common_cols {i j : Nat} {cs : List Nat} (hcs : Common es i j cs) : ∀ c ∈ cs, HasCol es c :=
  fun c hc => ⟨i, ((hcs.2 c).1 hc).1⟩

theorem columns_cols {i : Nat} {cs : List Nat} (hcs : Columns es i cs) : ∀ c ∈ cs, HasCol es c :=
  fun c hc => ⟨i, (hcs.2 c).1 hc⟩

theorem value_gapless [AddCommMonoid K] (h : Gapless es) (v : K) :
    Value es v ↔ ∃ i c, HasRow es i ∧ HasCol es c ∧ v = cell es i c := by
  constructor
  · rintro ⟨i, c, ⟨i', c', hi, hh⟩, ⟨i'', c'', hc, hh'⟩, rfl⟩
    exact ⟨i, c, h.1 i i' hi ⟨c', hh⟩, h.2 c c'' hc ⟨i'', hh'⟩, rfl⟩
  · rintro ⟨i, c, ⟨c', hi⟩, ⟨i', hc⟩, rfl⟩
    exact ⟨i, c, ⟨i, c', le_refl _, hi⟩, ⟨i', c, le_refl _, hc⟩, rfl⟩

theorem relabel_value [AddCommMonoid K] (h : Relabel π σ es es') (v : K) : Value es' v ↔ Value es v := by
  rw [value_gapless h.gapless', value_gapless h.gapless]
  constructor
  · rintro ⟨i', c', ⟨d', hi⟩, ⟨j', hc⟩, rfl⟩
    obtain ⟨i, d, rfl, _, hi⟩ := relabel_bwd h hi
    obtain ⟨j, c, _, rfl, hc2⟩ := relabel_bwd h hc
    exact ⟨i, c, ⟨d, hi⟩, ⟨j, hc2⟩, relabel_cell h ⟨d, hi⟩ ⟨j, hc2⟩⟩
  · rintro ⟨i, c, ⟨d, hi⟩, ⟨j, hc⟩, rfl⟩
    exact ⟨π i, σ c, ⟨σ d, relabel_fwd h hi⟩, ⟨π j, relabel_fwd h hc⟩, (relabel_cell h ⟨d, hi⟩ ⟨j, hc⟩).symm⟩

theorem relabel_maxDiff [Field K] [LinearOrder K] (h : Relabel π σ es es') {D : K} (hD : MaxDiff es D) :
    MaxDiff es' D := by
  obtain ⟨⟨v, w, hv, hw, e⟩, hb⟩ := hD
  exact ⟨⟨v, w, (relabel_value h v).2 hv, (relabel_value h w).2 hw, e⟩, fun v w hv hw =>
    hb v w ((relabel_value h v).1 hv) ((relabel_value h w).1 hw)⟩

end

end DRec
