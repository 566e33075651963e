import Verif.Props.Cdae
import Mathlib.Data.Finset.Prod

/-!
# C87: the sparsity logged by `fit`
-/

namespace DRec

open Spec

instance (r : Row) (u i : Nat) : Decidable (OfPair r u i) := by unfold OfPair; infer_instance

/-- Number of pairs of a known user and a known item without a record. -/
def Spec.emptyPairs (ds : Mem) : Nat :=
  ((Finset.range ds.userMap.length ×ˢ Finset.range ds.itemMap.length).filter fun p =>
    ∀ r ∈ ds.rows, ¬ OfPair r p.1 p.2).card

/-- **C87** (partial: no pair has two records and there is a record; the full property is for every dataset and fails,
see `C87_several_records` and `C87_empty`).  The sparsity is the percentage of user–item pairs without a
record. -/
theorem C87_sparsity_partial (ds : Mem) (h : Fresh ds) (h1 : OnePerPair ds.rows) (hnd : ds.rows.Nodup)
    (hne : ds.rows ≠ []) :
    sparsity ds.rows.length (countDistinct "uid" ds.rows) (countDistinct "iid" ds.rows) =
      .ok (100 * (emptyPairs ds : ℚ) / (ds.userMap.length * ds.itemMap.length : ℕ)) := by
  rw [countDistinct_eq ds "user" "uid" ds.userMap h.ids.user h.users,
    countDistinct_eq ds "item" "iid" ds.itemMap h.ids.item h.items]
  obtain ⟨r0, hr0⟩ := List.exists_mem_of_ne_nil _ hne
  have hU : 0 < ds.userMap.length := List.length_pos_of_mem (h.ids.user.code r0 hr0).1
  have hI : 0 < ds.itemMap.length := List.length_pos_of_mem (h.ids.item.code r0 hr0).1
  have hpos : 0 < ds.userMap.length * ds.itemMap.length := Nat.mul_pos hU hI
  have hfull : ((Finset.range ds.userMap.length ×ˢ Finset.range ds.itemMap.length).filter fun p =>
      ¬ ∀ r ∈ ds.rows, ¬ OfPair r p.1 p.2).card = ds.rows.length := by
    have hcode : (ds.rows.map fun r =>
        (ds.userMap.idxOf (r.get "user"), ds.itemMap.idxOf (r.get "item"))).Nodup := by
      apply List.Nodup.map_on _ hnd
      intro a ha b hb hab
      simp only [Prod.mk.injEq] at hab
      exact h1 a ha b hb _ _ ⟨(h.ids.user.code a ha).2, (h.ids.item.code a ha).2⟩
        ⟨by rw [hab.1]; exact (h.ids.user.code b hb).2, by rw [hab.2]; exact (h.ids.item.code b hb).2⟩
    rw [← List.length_map (as := ds.rows)
      (fun r => (ds.userMap.idxOf (r.get "user"), ds.itemMap.idxOf (r.get "item"))),
      ← List.toFinset_card_of_nodup hcode]
    congr 1
    ext ⟨u, i⟩
    simp only [Finset.mem_filter, Finset.mem_product, Finset.mem_range, List.mem_toFinset, List.mem_map,
      Prod.mk.injEq]
    push Not
    constructor
    · rintro ⟨_, r, hr, ho⟩
      have c1 := (h.ids.user.code r hr).2
      have c2 := (h.ids.item.code r hr).2
      rw [ho.1] at c1
      rw [ho.2] at c2
      simp only [Val.num.injEq, Nat.cast_inj] at c1 c2
      exact ⟨r, hr, c1.symm, c2.symm⟩
    · rintro ⟨r, hr, rfl, rfl⟩
      have c1 := h.ids.user.code r hr
      have c2 := h.ids.item.code r hr
      exact ⟨⟨List.idxOf_lt_length_iff.2 c1.1, List.idxOf_lt_length_iff.2 c2.1⟩, r, hr, c1.2, c2.2⟩
  have hsum := Finset.card_filter_add_card_filter_not
    (s := Finset.range ds.userMap.length ×ˢ Finset.range ds.itemMap.length)
    (fun p => ∀ r ∈ ds.rows, ¬ OfPair r p.1 p.2)
  rw [hfull, Finset.card_product, Finset.card_range, Finset.card_range] at hsum
  unfold sparsity
  rw [if_neg hpos.ne']
  simp only [Except.ok.injEq]
  have he : (emptyPairs ds : ℚ) + ds.rows.length = (ds.userMap.length * ds.itemMap.length : ℕ) := by
    exact_mod_cast hsum
  have hq : ((ds.userMap.length * ds.itemMap.length : ℕ) : ℚ) ≠ 0 := by exact_mod_cast hpos.ne'
  rw [← he] at hq ⊢
  field_simp
  ring

/-- **C87 fails** when a pair has several records: four records on two users and two items, two of them for the same
pair, give sparsity 0 although one pair has no record. -/
theorem C87_several_records : Fresh exDup ∧
    sparsity exDup.rows.length (countDistinct "uid" exDup.rows) (countDistinct "iid" exDup.rows) = .ok 0 ∧
    emptyPairs exDup = 1 :=
  ⟨exDup_fresh, by decide +kernel, by decide +kernel⟩

/-- **C87 fails** without records: `fit` raises ZeroDivisionError when it logs the sparsity. -/
theorem C87_empty (ds : Mem) (hne : ds.rows = []) :
    sparsity ds.rows.length (countDistinct "uid" ds.rows) (countDistinct "iid" ds.rows) = .error .zeroDiv := by
  rw [hne]; rfl

/-- Three of six pairs have a record. -/
example : Fresh exIds ∧ OnePerPair exIds.rows ∧ exIds.rows.Nodup ∧ exIds.rows ≠ [] ∧ emptyPairs exIds = 3 ∧
    sparsity exIds.rows.length (countDistinct "uid" exIds.rows) (countDistinct "iid" exIds.rows) = .ok 50 := by
  have h : (exIds.rows.map (·.rid)).Nodup := by decide +kernel
  exact ⟨exIds_fresh, exIds_onePerPair, h.of_map _, exIds_ne, by decide +kernel, by decide +kernel⟩

end DRec
