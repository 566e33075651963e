import Verif.Model.Sampler
import Verif.Lemmas.Random
import Verif.Lemmas.Matrix
import Verif.Lemmas.MemRead

/-! # Lemmas about the random generators -/

namespace DRec

open Spec

/-- The cell holds an internal id. -/
def IsId (c : String) (r : Row) : Prop := ∃ k : ℕ, r.get c = .num (k : ℚ)

theorem maxId_ok (c : String) (rows : List Row) (hne : rows ≠ []) (h : ∀ r ∈ rows, IsId c r) :
    ∃ m, maxId c rows = some m ∧ (∃ r ∈ rows, r.get c = .num (m : ℚ)) ∧
      ∀ r ∈ rows, ∀ k : ℕ, r.get c = .num (k : ℚ) → k ≤ m := by
  obtain ⟨q, h1, h2, h3⟩ := foldNum_max (rows.map (·.get c))
    (by
      intro v hv
      obtain ⟨r, hr, rfl⟩ := List.mem_map.1 hv
      obtain ⟨k, hk⟩ := h r hr
      exact ⟨_, hk⟩) (by simpa using hne)
  obtain ⟨r, hr, he⟩ := List.mem_map.1 h2
  obtain ⟨k, hk⟩ := h r hr
  have hq : q = (k : ℚ) := by rw [hk] at he; simpa using he.symm
  subst hq
  refine ⟨k, by simp [maxId, h1, toNat?_num], ⟨r, hr, hk⟩, ?_⟩
  intro r' hr' k' hk'
  have := h3 (k' : ℚ) (List.mem_map.2 ⟨r', hr', hk'⟩)
  exact_mod_cast this

theorem nextRecord_mem {m : Nat} {rows : List Row} {draws : List Nat} {r : Row} {rest : List Nat}
    (h : nextRecord m rows draws = some (r, rest)) : r ∈ rows := by
  induction draws with
  | nil => simp [nextRecord] at h
  | cons d ds ih =>
    unfold nextRecord at h
    simp only at h
    split at h
    · exact ih h
    · cases ds with
      | nil => simp at h
      | cons e ds' =>
        simp only [Option.map_eq_some_iff, Prod.mk.injEq] at h
        obtain ⟨a, ha, rfl, _⟩ := h
        exact List.mem_of_mem_filter (List.mem_of_getElem? ha)

theorem nextRecord_reach {m : Nat} {rows : List Row} {r : Row} (hr : r ∈ rows) {k : Nat}
    (hk : r.get "uid" = .num (k : ℚ)) (hm : k ≤ m) (rest : List Nat) :
    ∃ e, nextRecord m rows (k :: e :: rest) = some (r, rest) := by
  have hin : r ∈ rowsWith "uid" k rows := by simp [rowsWith, hr, hk]
  obtain ⟨e, he, hre⟩ := List.getElem_of_mem hin
  refine ⟨e, ?_⟩
  unfold nextRecord
  have h0 : ¬ (rowsWith "uid" k rows).length = 0 := by omega
  simp only [randint0_of_le hm, h0, if_false]
  rw [randint0_of_le (by omega), List.getElem?_eq_getElem he, hre]
  rfl

theorem pairFound_iff (rows : List Row) (u i : Nat) : pairFound rows u i = true ↔
    ∃ r ∈ rows, r.get "uid" = .num (u : ℚ) ∧ r.get "iid" = .num (i : ℚ) := by
  simp [pairFound]

theorem nextNullMem_sound {rows : List Row} {mu mi : Nat} {draws : List Nat} {u i : Nat}
    {rest : List Nat} (h : nextNullMem rows mu mi draws = some ((u, i), rest)) :
    pairFound rows u i = false ∧ u ≤ mu ∧ i ≤ mi := by
  fun_induction nextNullMem rows mu mi draws with
  | case1 d e ds hf ih => exact ih h
  | case2 d e ds hf =>
    simp only [Option.some.injEq, Prod.mk.injEq] at h
    obtain ⟨⟨rfl, rfl⟩, _⟩ := h
    exact ⟨by simpa using hf, randint0_le _ _, randint0_le _ _⟩
  | case3 => cases h

theorem nextNullMem_reach {rows : List Row} {mu mi u i : Nat} (hu : u ≤ mu) (hi : i ≤ mi)
    (h : pairFound rows u i = false) (rest : List Nat) :
    nextNullMem rows mu mi (u :: i :: rest) = some ((u, i), rest) := by
  simp [nextNullMem, randint0_of_le hu, randint0_of_le hi, h]

theorem nextNullMixed_sound {rows neg : List Row} {mu mi nu : Nat} {draws eds : List Nat} {u i : Nat}
    {rest : List Nat × List Nat} (hids : ∀ r ∈ neg, IsId "uid" r ∧ IsId "iid" r)
    (h : nextNullMixed rows neg mu mi nu draws eds = some ((u, i), rest)) :
    (pairFound rows u i = false ∧ u ≤ mu ∧ i ≤ mi) ∨
    ∃ r ∈ neg, r.get "uid" = .num (u : ℚ) ∧ r.get "iid" = .num (i : ℚ) := by
  fun_induction nextNullMixed rows neg mu mi nu draws eds with
  | case1 => cases h
  | case2 d ds eds hge r eds' hnext k k' hk' hk =>
    have hmem := nextRecord_mem hnext
    obtain ⟨⟨a, ha⟩, ⟨b, hb⟩⟩ := hids r hmem
    rw [ha, toNat?_num] at hk
    rw [hb, toNat?_num] at hk'
    simp only [Option.some.injEq, Prod.mk.injEq] at h hk hk'
    obtain ⟨⟨rfl, rfl⟩, _⟩ := h
    subst hk; subst hk'
    exact Or.inr ⟨r, hmem, ha, hb⟩
  | case3 => cases h
  | case4 d eds hge e f ds' hf ih => exact ih h
  | case5 d eds hge e f ds' hf =>
    simp only [Option.some.injEq, Prod.mk.injEq] at h
    obtain ⟨⟨rfl, rfl⟩, _⟩ := h
    exact Or.inl ⟨by simpa using hf, randint0_le _ _, randint0_le _ _⟩
  | case6 => cases h
  | case7 => cases h

/-- With consistent ids and at least one record, the largest ids exist. -/
theorem idsOk_isId {ds : Mem} (h : IdsOk ds) : ∀ r ∈ ds.rows, IsId "uid" r ∧ IsId "iid" r :=
  fun r hr => ⟨⟨_, (h.user.code r hr).2⟩, ⟨_, (h.item.code r hr).2⟩⟩

/-- On a fresh dataset the largest uid is the number of users minus one. -/
theorem fresh_maxUid {ds : Mem} (h : Fresh ds) (hne : ds.rows ≠ []) :
    maxId "uid" ds.rows = some (ds.userMap.length - 1) ∧ 0 < ds.userMap.length := by
  obtain ⟨m, h1, ⟨r, hr, hrm⟩, h3⟩ := maxId_ok "uid" ds.rows hne (fun r hr => (idsOk_isId h.ids r hr).1)
  have hc := h.ids.user.code r hr
  have hlt : m < ds.userMap.length := by
    have e := hrm.symm.trans hc.2
    simp only [Val.num.injEq, Nat.cast_inj] at e
    rw [e]; exact List.idxOf_lt_length_iff.2 hc.1
  have hge : ds.userMap.length - 1 ≤ m := by
    obtain ⟨r', hr', he'⟩ := h.users ds.userMap[ds.userMap.length - 1] (List.getElem_mem _)
    have hc' := h.ids.user.code r' hr'
    apply h3 r' hr'
    rw [hc'.2, he', List.Nodup.idxOf_getElem h.ids.user.nodup]
  rw [h1]
  exact ⟨by congr 1; omega, by omega⟩

theorem fresh_maxIid {ds : Mem} (h : Fresh ds) (hne : ds.rows ≠ []) :
    maxId "iid" ds.rows = some (ds.itemMap.length - 1) ∧ 0 < ds.itemMap.length := by
  obtain ⟨m, h1, ⟨r, hr, hrm⟩, h3⟩ := maxId_ok "iid" ds.rows hne (fun r hr => (idsOk_isId h.ids r hr).2)
  have hc := h.ids.item.code r hr
  have hlt : m < ds.itemMap.length := by
    have e := hrm.symm.trans hc.2
    simp only [Val.num.injEq, Nat.cast_inj] at e
    rw [e]; exact List.idxOf_lt_length_iff.2 hc.1
  have hge : ds.itemMap.length - 1 ≤ m := by
    obtain ⟨r', hr', he'⟩ := h.items ds.itemMap[ds.itemMap.length - 1] (List.getElem_mem _)
    have hc' := h.ids.item.code r' hr'
    apply h3 r' hr'
    rw [hc'.2, he', List.Nodup.idxOf_getElem h.ids.item.nodup]
  rw [h1]
  exact ⟨by congr 1; omega, by omega⟩

end DRec
