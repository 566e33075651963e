import Verif.Model.SqlStmt
import Mathlib.Data.List.Sort
import Mathlib.Algebra.Order.Ring.Rat
import Mathlib.Data.String.Basic

/-!
# C123: comparisons of values of any kind in SQL
-/

namespace DRec

/-- **C123.** In SQL two values that are not null, of whatever kinds, are in exactly one of the relations `<`, `==` and `>`; the other
operators are combinations of these, and `<` is transitive: queries with opposite operators split the records of every column without
nulls into two parts, also where the in-memory dataset raises. -/
theorem C123_order (a b : Val) (ha : a ≠ .null) (hb : b ≠ .null) :
    (cmpSql .lt a b = true ∨ cmpSql .eq a b = true ∨ cmpSql .gt a b = true) ∧
    (cmpSql .gt a b = cmpSql .lt b a) ∧ (cmpSql .eq a b = decide (a = b)) ∧ (cmpSql .ne a b = !cmpSql .eq a b) ∧
    (cmpSql .ge a b = !cmpSql .lt a b) ∧ (cmpSql .le a b = !cmpSql .gt a b) ∧ (cmpSql .lt a b = true → cmpSql .gt a b = false ∧ a ≠ b) ∧
    ∀ c, cmpSql .lt a b = true → cmpSql .lt b c = true → cmpSql .lt a c = true := by
  cases a with
  | null => exact absurd rfl ha
  | num p =>
    cases b with
    | null => exact absurd rfl hb
    | num q =>
      refine ⟨?_, ?_, ?_, ?_, ?_, ?_, ?_, ?_⟩
      · simpa [cmpSql, Op.onRat] using lt_trichotomy p q
      · simp [cmpSql, Op.onRat]
      · simp [cmpSql, Op.onRat]
      · simp [cmpSql, Op.onRat]
      · simp [cmpSql, Op.onRat, ← not_lt]
      · simp [cmpSql, Op.onRat, ← not_lt]
      · simp only [cmpSql, Op.onRat, decide_eq_true_eq, decide_eq_false_iff_not, not_lt, ne_eq, Val.num.injEq]
        exact fun h => ⟨h.le, h.ne⟩
      · intro c
        cases c with
        | null => simp [cmpSql]
        | num r => simp only [cmpSql, Op.onRat, decide_eq_true_eq]; exact lt_trans
        | str s => simp [cmpSql]
    | str s =>
      refine ⟨by simp [cmpSql], by simp [cmpSql], by simp [cmpSql], by simp [cmpSql], by simp [cmpSql], by simp [cmpSql], by simp [cmpSql], ?_⟩
      intro c
      cases c <;> simp [cmpSql]
  | str s =>
    cases b with
    | null => exact absurd rfl hb
    | num q => refine ⟨by simp [cmpSql], by simp [cmpSql], by simp [cmpSql], by simp [cmpSql], by simp [cmpSql], by simp [cmpSql], by simp [cmpSql], by simp [cmpSql]⟩
    | str t =>
      refine ⟨?_, ?_, ?_, ?_, ?_, ?_, ?_, ?_⟩
      · simpa [cmpSql, Op.onStr] using lt_trichotomy s t
      · simp [cmpSql, Op.onStr]
      · simp [cmpSql, Op.onStr]
      · simp [cmpSql, Op.onStr]
      · simp [cmpSql, Op.onStr]
      · simp [cmpSql, Op.onStr]
      · simp only [cmpSql, Op.onStr, decide_eq_true_eq, decide_eq_false_iff_not, not_lt, ne_eq, Val.str.injEq]
        exact fun h => ⟨h.le, h.ne⟩
      · intro c
        cases c with
        | null => simp [cmpSql]
        | num r => simp [cmpSql]
        | str r => simp only [cmpSql, Op.onStr, decide_eq_true_eq]; exact lt_trans

/-- A number and a text. -/
example : cmpSql .gt (.str "a") (.num 7) = true ∧ cmpSql .lt (.num 7) (.str "a") = true ∧ cmpSql .gt (.str "a") .null = false := by decide +kernel

/-- **C124** (inserting).  A row that SQLite stores has the id that was given, which is a natural number, and the values that were given;
records with any other id are refused. -/
theorem C124_key (cells : List (String × Val)) :
    (∀ r, newRow cells = some r → cells.lookup "rid" = some (.num r.rid) ∧ ∀ c v, cells.lookup c = some v → r.get c = v) ∧
    (newRow cells = none ↔ ∀ k : Nat, cells.lookup "rid" ≠ some (.num k)) := by
  have key : ∀ q : ℚ, q.den = 1 ∧ 0 ≤ q.num ↔ ∃ k : Nat, q = k := by
    intro q
    constructor
    · rintro ⟨h1, h2⟩
      refine ⟨q.num.toNat, ?_⟩
      have h3 := Rat.coe_int_num_of_den_eq_one h1
      have h4 : ((q.num.toNat : Nat) : Int) = q.num := Int.toNat_of_nonneg h2
      calc q = ((q.num : Int) : ℚ) := h3.symm
        _ = (((q.num.toNat : Nat) : Int) : ℚ) := by rw [h4]
        _ = ((q.num.toNat : Nat) : ℚ) := rfl
    · rintro ⟨k, rfl⟩
      simp
  constructor
  · intro r h
    unfold newRow at h
    split at h
    · next q hq =>
      split at h
      · next hc =>
        cases h
        obtain ⟨k, rfl⟩ := (key q).1 hc
        refine ⟨by simpa using hq, fun c v hv => ?_⟩
        unfold Row.get
        split
        · next e =>
          subst e
          rw [hq] at hv
          cases hv
          simp
        · simp [hv]
      · cases h
    · cases h
  · unfold newRow
    constructor
    · intro h k hk
      rw [hk] at h
      simp at h
    · intro h
      split
      · next q hq =>
        refine if_neg fun hc => ?_
        obtain ⟨k, rfl⟩ := (key q).1 hc
        exact h k hq
      · rfl

/-- An id that is not a whole number, and one that is. -/
example : (newRow [("rid", .num (1 / 2))]).isNone ∧ (newRow [("rid", .num (-3))]).isNone ∧
    ((newRow [("rid", .num 3), ("user", .str "ann")]).map fun r => (r.rid, r.get "user")) = some (3, .str "ann") := by decide +kernel

end DRec
