import Verif.Spec.DmfNet
import Verif.Lemmas.CaserNet
import Mathlib.Algebra.BigOperators.Field
import Mathlib.Tactic.Linarith
import Mathlib.Tactic.Positivity
import Mathlib.Tactic.NormNum
import Mathlib.Tactic.FieldSimp

/-! # Lemmas about the networks of DMF -/

namespace DRec.Dm

open Spec
open DRec.Cas (tensor sum_zipIdx_range sum_range_map zip_product)

/-- One row through the layers. -/
noncomputable def rowOf : List Layer → List ℝ → List ℝ
  | [], r => r
  | l :: ls, r => rowOf ls ((List.range l.units).map fun k => max 0 ((r.zipIdx.map fun p => p.1 * l.W p.2 k).sum + l.b k))

theorem dense_some {n : Nat} {l : Layer} {x : Rows} (h : ∀ r ∈ x, r.length = n) :
    dense n l x = some (x.map fun r => (List.range l.units).map fun k => max 0 ((r.zipIdx.map fun p => p.1 * l.W p.2 k).sum + l.b k)) := by
  unfold dense
  rw [if_pos]
  rw [List.all_eq_true]
  intro r hr
  simpa using h r hr

theorem dense_none {n : Nat} {l : Layer} {x : Rows} (h : ¬ ∀ r ∈ x, r.length = n) : dense n l x = none := by
  unfold dense
  rw [if_neg]
  rw [List.all_eq_true]
  intro g
  exact h fun r hr => by simpa using g r hr

theorem tower_some (ls : List Layer) (n : Nat) (x : Rows) (h : ∀ r ∈ x, r.length = n) : tower n ls x = some (x.map (rowOf ls)) := by
  induction ls generalizing n x with
  | nil =>
    show some x = some (x.map fun r => r)
    rw [List.map_id']
  | cons l ls ih =>
    show (dense n l x).bind _ = _
    rw [dense_some h, Option.bind_some, ih, List.map_map]
    · rfl
    · intro r hr
      obtain ⟨s, _, rfl⟩ := List.mem_map.1 hr
      simp

theorem tower_none (ls : List Layer) (n : Nat) (x : Rows) (hne : ls ≠ []) (h : ¬ ∀ r ∈ x, r.length = n) : tower n ls x = none := by
  cases ls with
  | nil => exact absurd rfl hne
  | cons l ls =>
    show (dense n l x).bind _ = _
    rw [dense_none h, Option.bind_none]

theorem eq_range_getD (r : List ℝ) : r = (List.range r.length).map fun j => r.getD j 0 := by
  apply List.ext_getElem
  · simp
  · intro i h1 h2
    simp [h1]

theorem rowOf_range (ls : List Layer) (n : Nat) (x : Nat → ℝ) :
    rowOf ls ((List.range n).map x) = (List.range (repSize n ls)).map (repOf n ls x) := by
  induction ls generalizing n x with
  | nil => rfl
  | cons l ls ih =>
    have e : ∀ k, ((((List.range n).map x).zipIdx).map fun p => p.1 * l.W p.2 k).sum = ∑ j ∈ Finset.range n, x j * l.W j k :=
      fun k => sum_zipIdx_range x (fun j => l.W j k) n
    rw [rowOf]
    simp only [e]
    exact ih l.units _

theorem sqrt_max (s : ℝ) : Real.sqrt (max s (1 / 10 ^ 12)) = max (Real.sqrt s) (1 / 10 ^ 6) := by
  have h : Real.sqrt (1 / 10 ^ 12) = 1 / 10 ^ 6 := by
    rw [show (1 / 10 ^ 12 : ℝ) = (1 / 10 ^ 6) ^ 2 by norm_num]
    exact Real.sqrt_sq (by norm_num)
  rw [← h]
  exact Monotone.map_max (fun _ _ => Real.sqrt_le_sqrt)

theorem normalize_range (n : Nat) (x : Nat → ℝ) :
    l2Normalize ((List.range n).map x) = (List.range n).map fun k => x k / normOf n x := by
  unfold l2Normalize normOf
  rw [List.map_map, List.map_map, sqrt_max, sum_range_map]
  rfl

theorem normOf_pos (n : Nat) (x : Nat → ℝ) : 0 < normOf n x := lt_of_lt_of_le (by norm_num) (le_max_right _ _)

theorem stack_some {n : Nat} {l : List (List ℚ)} (hne : l ≠ []) (h : ∀ r ∈ l, r.length = n) :
    stack l = some (l.map fun r => r.map fun (q : ℚ) => (q : ℝ)) := by
  unfold stack tensor
  rw [if_neg (by simpa using hne), if_pos, Option.map_some]
  rw [List.all_eq_true]
  intro r hr
  rw [List.all_eq_true]
  intro s hs
  simp [h r hr, h s hs]

/-- What the network gets for one vector. -/
theorem input_row (m : Net) (n : Nat) (v : List ℚ) (h : v.length = n) :
    (if m.l2Norm then l2Normalize (v.map fun (q : ℚ) => (q : ℝ)) else v.map fun (q : ℚ) => (q : ℝ)) =
      (List.range n).map (inputOf m.l2Norm n v) := by
  have e : (v.map fun (q : ℚ) => (q : ℝ)) = (List.range n).map fun j => ((v.getD j 0 : ℚ) : ℝ) := by
    rw [← h]
    apply List.ext_getElem
    · simp
    · intro i h1 h2
      have h3 : i < v.length := by simpa using h1
      simp [h3]
  rw [e]
  cases hb : m.l2Norm with
  | false =>
    rw [if_neg (by simp)]
    apply List.map_congr_left
    intro j _
    unfold inputOf
    rw [if_neg (by simp)]
  | true =>
    rw [if_pos rfl, normalize_range]
    apply List.map_congr_left
    intro j _
    unfold inputOf
    rw [if_pos rfl]

/-- The normalised representation of one vector. -/
noncomputable def unitRep (m : Net) (n : Nat) (ls : List Layer) (v : List ℚ) : List ℝ :=
  (List.range (repSize n ls)).map fun k => repOf n ls (inputOf m.l2Norm n v) k / normOf (repSize n ls) (repOf n ls (inputOf m.l2Norm n v))

theorem side_some (m : Net) (n : Nat) (ls : List Layer) (vs : List (List ℚ)) (h : ∀ v ∈ vs, v.length = n) :
    (tower n ls (m.input (vs.map fun r => r.map fun (q : ℚ) => (q : ℝ)))).map (fun x => x.map l2Normalize) =
      some (vs.map (unitRep m n ls)) := by
  have e : m.input (vs.map fun r => r.map fun (q : ℚ) => (q : ℝ)) = vs.map fun v => (List.range n).map (inputOf m.l2Norm n v) := by
    have g : m.input (vs.map fun r => r.map fun (q : ℚ) => (q : ℝ)) = vs.map fun v =>
        (if m.l2Norm then l2Normalize (v.map fun (q : ℚ) => (q : ℝ)) else v.map fun (q : ℚ) => (q : ℝ)) := by
      unfold Net.input
      split
      · rw [List.map_map]; rfl
      · rfl
    rw [g]
    exact List.map_congr_left fun v hv => input_row m n v (h v hv)
  rw [e, tower_some, Option.map_some, List.map_map, List.map_map]
  · congr 1
    apply List.map_congr_left
    intro v _
    simp only [Function.comp_apply, rowOf_range, normalize_range]
    rfl
  · intro r hr
    obtain ⟨v, _, rfl⟩ := List.mem_map.1 hr
    simp

theorem repSize_nonneg_last (n : Nat) (ls : List Layer) (hne : ls ≠ []) : some (repSize n ls) = (ls.map (·.units)).getLast? := by
  induction ls generalizing n with
  | nil => exact absurd rfl hne
  | cons l ls ih =>
    cases ls with
    | nil => rfl
    | cons l' ls =>
      show some (repSize l.units (l' :: ls)) = _
      rw [ih l.units (by simp)]
      simp

theorem forward_map (m : Net) (us is : List (List ℚ)) (hne : us ≠ []) (hlen : us.length = is.length) (hs : Sizes m)
    (hu : ∀ v ∈ us, v.length = m.items) (hi : ∀ v ∈ is, v.length = m.users) :
    m.forward us is = some (List.zipWith (fun u i => max (1 / 10 ^ 6) (dmfCosine m u i)) us is) := by
  have hne' : is ≠ [] := by
    rintro rfl
    simp at hlen
    exact hne hlen
  have a := side_some m m.items m.userNN us hu
  have b := side_some m m.users m.itemNN is hi
  unfold Net.forward
  rw [stack_some hne hu, stack_some hne' hi, Option.bind_some, Option.bind_some]
  obtain ⟨ur, hur, ea⟩ := Option.map_eq_some_iff.1 a
  obtain ⟨ir, hir, eb⟩ := Option.map_eq_some_iff.1 b
  rw [hur, hir, Option.bind_some, Option.bind_some, ea, eb]
  unfold multiply
  have hlens : (us.map (unitRep m m.items m.userNN)).map List.length = (is.map (unitRep m m.users m.itemNN)).map List.length := by
    rw [List.map_map, List.map_map]
    apply List.ext_getElem
    · simpa using hlen
    · intro i h1 h2
      simp [unitRep, hs.2.2]
  rw [if_pos hlens, Option.map_some, List.zipWith_map, List.map_zipWith]
  congr 1
  congr 1
  funext u i
  unfold unitRep
  rw [← hs.2.2, zip_product]
  congr 1
  unfold dmfCosine cosineOf
  rw [Finset.sum_div]
  exact Finset.sum_congr rfl fun k _ => div_mul_div_comm ..

end DRec.Dm
