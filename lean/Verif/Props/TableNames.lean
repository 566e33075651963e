import Verif.Spec.TableNames
import Verif.Spec.Mem
import Verif.Lemmas.Text
import Mathlib.Tactic.Linarith
import Mathlib.Tactic.NormNum
import Mathlib.Tactic.IntervalCases
import Mathlib.Algebra.Order.Field.Power

/-! # C120: random table names -/

namespace DRec

open Spec

theorem foldl_digits (ds : List Nat) (a : Nat) :
    ds.foldl (fun a d => 10 * a + d) a = a * 10 ^ ds.length + ofDigits ds := by
  induction ds generalizing a with
  | nil => simp [ofDigits]
  | cons x xs ih =>
    unfold ofDigits
    rw [List.foldl_cons, List.foldl_cons, ih, ih, List.length_cons, pow_succ]
    ring

theorem ofDigits_lt {ds : List Nat} (h : ∀ x ∈ ds, x < 10) : ofDigits ds < 10 ^ ds.length := by
  induction ds with
  | nil => simp [ofDigits]
  | cons x xs ih =>
    have := ih fun y hy => h y (List.mem_cons_of_mem _ hy)
    have hx := h x List.mem_cons_self
    unfold ofDigits
    rw [List.foldl_cons, foldl_digits, List.length_cons, pow_succ]
    have : x * 10 ^ xs.length ≤ 9 * 10 ^ xs.length := Nat.mul_le_mul_right _ (by omega)
    simp only [Nat.mul_zero, Nat.zero_add]
    omega

theorem value_bounds {d : Decimal} (hd : ∀ x ∈ d.digits, x < 10) (hf : ∃ x xs, d.digits = x :: xs ∧ x ≠ 0) :
    (10 : ℚ) ^ (d.point - 1) ≤ Decimal.value d ∧ Decimal.value d < (10 : ℚ) ^ d.point := by
  obtain ⟨x, xs, e, hx⟩ := hf
  have h10 : (10 : ℚ) ≠ 0 := by norm_num
  have hpos : (0 : ℚ) < (10 : ℚ) ^ (d.point - d.digits.length) := by positivity
  constructor
  · have h1 : 10 ^ xs.length ≤ ofDigits d.digits := by
      rw [e]
      unfold ofDigits
      rw [List.foldl_cons, foldl_digits]
      have : 1 * 10 ^ xs.length ≤ x * 10 ^ xs.length := Nat.mul_le_mul_right _ (by omega)
      simp only [Nat.mul_zero, Nat.zero_add]
      omega
    have h2 : ((10 ^ xs.length : Nat) : ℚ) ≤ ofDigits d.digits := by exact_mod_cast h1
    have h3 : (10 : ℚ) ^ (d.point - 1) = ((10 ^ xs.length : Nat) : ℚ) * (10 : ℚ) ^ (d.point - d.digits.length) := by
      push_cast
      rw [← zpow_natCast, ← zpow_add₀ h10, e, List.length_cons]
      congr 1
      push_cast
      ring
    rw [h3]
    exact mul_le_mul_of_nonneg_right h2 hpos.le
  · have h2 : (ofDigits d.digits : ℚ) < ((10 ^ d.digits.length : Nat) : ℚ) := by exact_mod_cast ofDigits_lt hd
    have h3 : (10 : ℚ) ^ d.point = ((10 ^ d.digits.length : Nat) : ℚ) * (10 : ℚ) ^ (d.point - d.digits.length) := by
      push_cast
      rw [← zpow_natCast, ← zpow_add₀ h10]
      congr 1
      ring
    rw [h3]
    exact mul_lt_mul_of_pos_right h2 hpos

theorem nearer_below {v a b : ℚ} (hab : a < b) (h : |v - a| < |v - b|) : v < (a + b) / 2 := by
  by_contra hc
  have : |v - b| ≤ |v - a| := by
    rw [abs_of_nonneg (show 0 ≤ v - a by linarith), abs_le]
    constructor <;> linarith
  linarith

theorem nearer_above {v a b : ℚ} (hab : b < a) (h : |v - a| < |v - b|) : (a + b) / 2 < v := by
  by_contra hc
  have : |v - b| ≤ |v - a| := by
    rw [abs_of_nonpos (show v - a ≤ 0 by linarith), abs_le]
    constructor <;> linarith
  linarith

theorem prints_bounds {k : Nat} {d : Decimal} (h : PrintedAs k d) (hk : 0 < k) (hk' : k < 2 ^ 53) :
    ((k : ℚ) - 1 / 2) / 2 ^ 53 < Decimal.value d ∧ Decimal.value d < ((k : ℚ) + 1 / 2) / 2 ^ 53 := by
  constructor
  · have := nearer_above (v := Decimal.value d) (a := (k : ℚ) / 2 ^ 53) (b := ((k - 1 : Nat) : ℚ) / 2 ^ 53)
      (by rw [div_lt_div_iff_of_pos_right (by norm_num)]; exact_mod_cast Nat.sub_lt hk one_pos)
      (h.nearest (k - 1) (by omega) (by omega))
    rw [Nat.cast_sub (by omega)] at this
    push_cast at this
    linarith
  · have := nearer_below (v := Decimal.value d) (a := (k : ℚ) / 2 ^ 53) (b := ((k + 1 : Nat) : ℚ) / 2 ^ 53)
      (by rw [div_lt_div_iff_of_pos_right (by norm_num)]; exact_mod_cast Nat.lt_succ_self k)
      (h.nearest (k + 1) (by omega) (by omega))
    push_cast at this
    linarith

theorem prints_point {k : Nat} {d : Decimal} (h : PrintedAs k d) (hk : 0 < k) (hk' : k < 2 ^ 53) : d.point ≤ 0 := by
  obtain ⟨b1, _⟩ := value_bounds h.digits h.first
  obtain ⟨_, p2⟩ := prints_bounds h hk hk'
  by_contra hc
  have h1 : (10 : ℚ) ^ (0 : Int) ≤ (10 : ℚ) ^ (d.point - 1) := zpow_le_zpow_right₀ (by norm_num) (by omega)
  rw [zpow_zero] at h1
  have h2 : ((k : ℚ) + 1 / 2) / 2 ^ 53 ≤ 1 := by
    rw [div_le_one (by norm_num)]
    have : ((k + 1 : Nat) : ℚ) ≤ ((2 ^ 53 : Nat) : ℚ) := by exact_mod_cast hk'
    push_cast at this
    linarith
  linarith

theorem prints_large {k : Nat} {d : Decimal} (h : PrintedAs k d) (hk : 900719925475 ≤ k) (hk' : k < 2 ^ 53) :
    -4 < d.point := by
  obtain ⟨_, b2⟩ := value_bounds h.digits h.first
  obtain ⟨p1, _⟩ := prints_bounds h (by omega) hk'
  by_contra hc
  have h1 : (10 : ℚ) ^ d.point ≤ (10 : ℚ) ^ (-4 : Int) := zpow_le_zpow_right₀ (by norm_num) (by omega)
  have h2 : (10 : ℚ) ^ (-4 : Int) < ((k : ℚ) - 1 / 2) / 2 ^ 53 := by
    rw [lt_div_iff₀ (by norm_num)]
    have : (900719925475 : ℚ) ≤ k := by exact_mod_cast hk
    norm_num
    linarith
  exact absurd (h2.trans (p1.trans b2)) (not_lt.2 h1)

theorem prints_small {k : Nat} {d : Decimal} (h : PrintedAs k d) (hk : 0 < k) (hk' : k ≤ 900719925473) : d.point ≤ -4 := by
  obtain ⟨b1, _⟩ := value_bounds h.digits h.first
  obtain ⟨_, p2⟩ := prints_bounds h hk (by omega)
  by_contra hc
  have h1 : (10 : ℚ) ^ (-4 : Int) ≤ (10 : ℚ) ^ (d.point - 1) := zpow_le_zpow_right₀ (by norm_num) (by omega)
  have h2 : ((k : ℚ) + 1 / 2) / 2 ^ 53 < (10 : ℚ) ^ (-4 : Int) := by
    rw [div_lt_iff₀ (by norm_num)]
    have : (k : ℚ) ≤ 900719925473 := by exact_mod_cast hk'
    norm_num
    linarith
  exact absurd (b1.trans_lt (p2.trans h2)) (not_lt.2 h1)

/-! ## The text -/

theorem digitChar_word {x : Nat} (h : x < 10) : sqlNameChar (Nat.digitChar x) = true ∧ Nat.digitChar x ≠ '.' := by
  interval_cases x <;> decide

theorem digitChar_zero {x : Nat} (h : x < 10) : Nat.digitChar x = '0' ↔ x = 0 := by
  interval_cases x <;> decide

theorem digitChar_inj' {x y : Nat} (hx : x < 10) (hy : y < 10) (h : Nat.digitChar x = Nat.digitChar y) : x = y := by
  interval_cases x <;> interval_cases y <;> first | rfl | exact absurd h (by decide)

theorem digitText_inj {l l' : List Nat} (h : ∀ x ∈ l, x < 10) (h' : ∀ x ∈ l', x < 10)
    (e : digitText l = digitText l') : l = l' := by
  induction l generalizing l' with
  | nil => cases l' with
    | nil => rfl
    | cons _ _ => cases e
  | cons x xs ih => cases l' with
    | nil => cases e
    | cons y ys =>
      simp only [digitText, List.map_cons, List.cons.injEq] at e
      rw [digitChar_inj' (h x List.mem_cons_self) (h' y List.mem_cons_self) e.1,
        ih (fun z hz => h z (List.mem_cons_of_mem _ hz)) (fun z hz => h' z (List.mem_cons_of_mem _ hz)) e.2]

theorem digitText_no_dot {l : List Nat} (h : ∀ x ∈ l, x < 10) : '.' ∉ digitText l := by
  intro hc
  obtain ⟨x, hx, e⟩ := List.mem_map.1 hc
  exact (digitChar_word (h x hx)).2 e

theorem name_fixed {d : Decimal} (hd : ∀ x ∈ d.digits, x < 10) (h1 : -4 < d.point) (h2 : d.point ≤ 0) :
    tableName d = some ("interactions_".toList ++ (List.replicate d.point.natAbs '0' ++ digitText d.digits)) := by
  have e : floatText d = ['0'] ++ '.' :: (List.replicate d.point.natAbs '0' ++ digitText d.digits) := by
    unfold floatText
    rw [if_neg (by omega), if_pos h2]
    rfl
  unfold tableName
  rw [e, pySplit_append _ _ _ (by decide), pySplit_none]
  · rfl
  · intro hc
    rcases List.mem_append.1 hc with hc | hc
    · have := List.eq_of_mem_replicate hc
      revert this
      decide
    · exact digitText_no_dot hd hc

theorem name_sci {d : Decimal} (hd : ∀ x ∈ d.digits, x < 10) (h : d.point ≤ -4) :
    tableName d = none ∨ ∃ n, tableName d = some n ∧ n.all sqlNameChar = false := by
  have e : floatText d = digitText (d.digits.take 1) ++ (if d.digits.length ≤ 1 then [] else '.' :: digitText (d.digits.drop 1)) ++
      'e' :: exponentText (d.point - 1) := by
    unfold floatText
    rw [if_pos (.inl h)]
  have hexp : exponentText (d.point - 1) = '-' ::
      (if (d.point - 1).natAbs < 10 then '0' :: Nat.toDigits 10 (d.point - 1).natAbs else Nat.toDigits 10 (d.point - 1).natAbs) := by
    unfold exponentText
    rw [if_pos (by omega)]
  have htake : '.' ∉ digitText (d.digits.take 1) := digitText_no_dot fun x hx => hd x (List.mem_of_mem_take hx)
  have hnd : '.' ∉ 'e' :: exponentText (d.point - 1) := by
    rw [hexp]
    have : '.' ∉ Nat.toDigits 10 (d.point - 1).natAbs := by
      intro hc
      have := Nat.isDigit_of_mem_toDigits (by norm_num) (by norm_num) hc
      revert this
      decide
    simp only [List.mem_cons, not_or]
    refine ⟨by decide, by decide, ?_⟩
    split
    · simp only [List.mem_cons, not_or]
      exact ⟨by decide, this⟩
    · exact this
  unfold tableName
  rw [e]
  by_cases hl : d.digits.length ≤ 1
  · left
    rw [if_pos hl, List.append_nil, pySplit_none]
    · rfl
    · intro hc
      rcases List.mem_append.1 hc with hc | hc
      · exact htake hc
      · exact hnd hc
  · right
    rw [if_neg hl, List.append_assoc, List.cons_append, pySplit_append _ _ _ htake, pySplit_none]
    · refine ⟨_, rfl, ?_⟩
      rw [List.all_eq_false]
      refine ⟨'-', ?_, by decide⟩
      rw [hexp]
      simp
    · intro hc
      rcases List.mem_append.1 hc with hc | hc
      · exact digitText_no_dot (fun x hx => hd x (List.mem_of_mem_drop hx)) hc
      · exact hnd hc

/-- **C120**, the names: a random number from about 0.0001 on gives a text that is an SQL name and not the name of the
first table. -/
theorem C120_name_partial (k : Nat) (d : Decimal) (h : PrintedAs k d) (hk : 900719925475 ≤ k) (hk' : k < 2 ^ 53) :
    ∃ n, tableName d = some n ∧ n.all sqlNameChar = true ∧ n ≠ "interactions".toList := by
  refine ⟨_, name_fixed h.digits (prints_large h hk hk') (prints_point h (by omega) hk'), ?_, ?_⟩
  · rw [List.all_append, List.all_append]
    have h1 : "interactions_".toList.all sqlNameChar = true := by decide
    have h2 : (List.replicate d.point.natAbs '0').all sqlNameChar = true := by
      rw [List.all_eq_true]
      intro c hc
      rw [List.eq_of_mem_replicate hc]
      decide
    have h3 : (digitText d.digits).all sqlNameChar = true := by
      rw [List.all_eq_true]
      intro c hc
      obtain ⟨x, hx, rfl⟩ := List.mem_map.1 hc
      exact (digitChar_word (h.digits x hx)).1
    rw [h1, h2, h3]
    rfl
  · intro e
    have := congrArg List.length e
    rw [List.length_append, show "interactions_".toList.length = 13 from rfl,
      show "interactions".toList.length = 12 from rfl] at this
    omega

/-- **C120 fails** for about one in ten thousand random numbers, those below 0.0001: the name is no SQL name or is not
even made. -/
theorem C120_small_fails (k : Nat) (d : Decimal) (h : PrintedAs k d) (hk : 0 < k) (hk' : k ≤ 900719925473) :
    tableName d = none ∨ ∃ n, tableName d = some n ∧ n.all sqlNameChar = false :=
  name_sci h.digits (prints_small h hk hk')

theorem lead_inj {a b : Nat} {l l' : List Nat} (h : ∀ x ∈ l, x < 10) (h' : ∀ x ∈ l', x < 10)
    (hf : ∃ x xs, l = x :: xs ∧ x ≠ 0) (hf' : ∃ x xs, l' = x :: xs ∧ x ≠ 0)
    (e : List.replicate a '0' ++ digitText l = List.replicate b '0' ++ digitText l') : a = b ∧ l = l' := by
  induction a generalizing b with
  | zero =>
    cases b with
    | zero => exact ⟨rfl, digitText_inj h h' e⟩
    | succ b =>
      obtain ⟨x, xs, rfl, hx⟩ := hf
      simp only [List.replicate_zero, List.nil_append, digitText, List.map_cons, List.replicate_succ, List.cons_append,
        List.cons.injEq] at e
      exact absurd ((digitChar_zero (h x List.mem_cons_self)).1 e.1) hx
  | succ a ih =>
    cases b with
    | zero =>
      obtain ⟨x, xs, rfl, hx⟩ := hf'
      simp only [List.replicate_zero, List.nil_append, digitText, List.map_cons, List.replicate_succ, List.cons_append,
        List.cons.injEq] at e
      exact absurd ((digitChar_zero (h' x List.mem_cons_self)).1 e.1.symm) hx
    | succ b =>
      rw [List.replicate_succ, List.replicate_succ, List.cons_append, List.cons_append, List.cons.injEq] at e
      obtain ⟨e1, e2⟩ := ih e.2
      exact ⟨by omega, e2⟩

/-- **C120**, different random numbers give different names. -/
theorem C120_distinct_partial (j k : Nat) (c d : Decimal) (hc : PrintedAs j c) (hd : PrintedAs k d) (hj : 900719925475 ≤ j)
    (hj' : j < 2 ^ 53) (hk : 900719925475 ≤ k) (hk' : k < 2 ^ 53) (e : tableName c = tableName d) : j = k := by
  have c1 := prints_large hc hj hj'
  have d1 := prints_large hd hk hk'
  have c2 := prints_point hc (by omega) hj'
  have d2 := prints_point hd (by omega) hk'
  rw [name_fixed hc.digits c1 c2, name_fixed hd.digits d1 d2, Option.some.injEq, List.append_cancel_left_eq] at e
  obtain ⟨e1, e2⟩ := lead_inj hc.digits hd.digits hc.first hd.first e
  have ec : c = d := by
    cases c; cases d
    simp only at e1 e2 c2 d2 ⊢
    rw [e2]
    congr 1
    omega
  subst ec
  by_contra hne
  exact absurd (hc.nearest k (by omega) (Ne.symm hne)) (not_lt.2 (hd.nearest j (by omega) hne).le)

/-! ## Creating the tables -/

theorem setName_same (nm : Nat → List Char) {w w' : World} (n : List Char) (h : w'.nextT = w.nextT) :
    setName nm w w' n = nm := by
  unfold setName
  rw [if_neg (by omega)]

theorem optimizeNamed_eq {w : World} {nm : Nat → List Char} {d : Decimal} {n : List Char} (hn : tableName d = some n)
    (hw : n.all sqlNameChar = true) (hf : n ∉ w.tableNames nm) (i : Nat) (skip : Bool) :
    ((w.optimizeNamed nm d i skip).1.1, (w.optimizeNamed nm d i skip).2) = w.optimize i skip := by
  unfold World.optimizeNamed World.optimize
  cases w.insts i with
  | none => rfl
  | some x =>
    simp only
    split
    · rfl
    · split
      · rfl
      · cases w.users x.table with
        | none => rfl
        | some us =>
          cases w.tables x.table with
          | none => rfl
          | some t =>
            simp only
            split
            · rfl
            · unfold World.splitNamed
              rw [hn]
              simp only
              cases hb : x.reset.buildTable with
              | error e => simp only [World.split, hb]
              | ok cols =>
                have : (w.put i x.reset).nameOk nm n = true := by
                  unfold World.nameOk
                  rw [hw, Bool.true_and, Bool.not_eq_true', decide_eq_false_iff_not]
                  exact hf
                simp only [this, if_true]

theorem applyNewNamed_eq {w : World} {nm : Nat → List Char} {d : Decimal} {n : List Char} (hn : tableName d = some n)
    (hw : n.all sqlNameChar = true) (hf : n ∉ w.tableNames nm) (i : Nat) (c : String) (f : Val → Option Lit) (dt : DType) :
    ((w.applyNewNamed nm d i c f dt).1.1, (w.applyNewNamed nm d i c f dt).2) = w.applyNew i c f dt := by
  have hok : w.nameOk nm n = true := by
    unfold World.nameOk
    rw [hw]
    simpa using hf
  unfold World.applyNewNamed
  cases hi : w.insts i with
  | none => simp only [World.applyNew, hi]
  | some x =>
    simp only
    cases ht : x.types with
    | none => simp only [World.applyNew, hi, ht]
    | some ty =>
      cases htb : w.tables x.table with
      | none => simp only [World.applyNew, hi, ht, htb]
      | some t =>
        cases hu : w.users x.table with
        | none => simp only [World.applyNew, hi, ht, htb, hu]
        | some us =>
          simp only
          cases he : evalSrc t x.query with
          | error e => simp only [World.applyNew, hi, ht, htb, hu, he]
          | ok p =>
            simp only [hn]
            split
            · next e hb => simp only [World.applyNew, hi, ht, htb, hu, he, hb]
            · simp only [hok, if_true]

theorem optimizeNamed_names {w : World} {nm : Nat → List Char} {d : Decimal} {n : List Char} (hn : tableName d = some n)
    (hw : n.all sqlNameChar = true) (hf : n ∉ w.tableNames nm) (i : Nat) (skip : Bool) :
    (w.optimizeNamed nm d i skip).1.2 = setName nm w (w.optimize i skip).1 n := by
  unfold World.optimizeNamed World.optimize
  cases w.insts i with
  | none => exact (setName_same nm n rfl).symm
  | some x =>
    simp only
    split
    · exact (setName_same nm n rfl).symm
    · split
      · exact (setName_same nm n rfl).symm
      · cases w.users x.table with
        | none => exact (setName_same nm n rfl).symm
        | some us =>
          cases w.tables x.table with
          | none => exact (setName_same nm n rfl).symm
          | some t =>
            simp only
            split
            · refine (setName_same nm n ?_).symm
              unfold World.shrink
              split
              · rfl
              · split
                · rfl
                · split <;> rfl
            · unfold World.splitNamed
              rw [hn]
              simp only
              cases hb : x.reset.buildTable with
              | error e =>
                simp only [World.split, hb]
                exact (setName_same nm n rfl).symm
              | ok cols =>
                have : (w.put i x.reset).nameOk nm n = true := by
                  unfold World.nameOk
                  rw [hw, Bool.true_and, Bool.not_eq_true', decide_eq_false_iff_not]
                  exact hf
                simp only [this, if_true]
                rfl

theorem applyNewNamed_names {w : World} {nm : Nat → List Char} {d : Decimal} {n : List Char} (hn : tableName d = some n)
    (hw : n.all sqlNameChar = true) (hf : n ∉ w.tableNames nm) (i : Nat) (c : String) (f : Val → Option Lit) (dt : DType) :
    (w.applyNewNamed nm d i c f dt).1.2 = setName nm w (w.applyNew i c f dt).1 n := by
  have hok : w.nameOk nm n = true := by
    unfold World.nameOk
    rw [hw]
    simpa using hf
  unfold World.applyNewNamed
  cases hi : w.insts i with
  | none => simp only [World.applyNew, hi]; exact (setName_same nm n rfl).symm
  | some x =>
    simp only
    cases ht : x.types with
    | none => simp only [World.applyNew, hi, ht]; exact (setName_same nm n rfl).symm
    | some ty =>
      cases htb : w.tables x.table with
      | none => simp only [World.applyNew, hi, ht, htb]; exact (setName_same nm n rfl).symm
      | some t =>
        cases hu : w.users x.table with
        | none => simp only [World.applyNew, hi, ht, htb, hu]; exact (setName_same nm n rfl).symm
        | some us =>
          simp only
          cases he : evalSrc t x.query with
          | error e => simp only [World.applyNew, hi, ht, htb, hu, he]; exact (setName_same nm n rfl).symm
          | ok p =>
            simp only [hn]
            split
            · next e hb =>
              simp only [World.applyNew, hi, ht, htb, hu, he, hb]
              exact (setName_same nm n rfl).symm
            · simp only [hok, if_true]

/-- A step that creates at most one table. -/
def Grows (w w' : World) : Prop :=
  (∀ n, n < w.nextT → (w'.tables n).isSome = true → (w.tables n).isSome = true) ∧
    (w'.nextT = w.nextT ∨ w'.nextT = w.nextT + 1)

theorem grows_refl (w : World) : Grows w w := ⟨fun _ _ h => h, .inl rfl⟩

theorem grows_split (w : World) (i : Nat) (x : Inst) (t : Table) (us : List Nat) : Grows w (w.split i x t us).1 := by
  unfold World.split
  split
  · exact grows_refl w
  · split
    · exact grows_refl w
    · split
      · refine ⟨fun n hn h => ?_, .inr rfl⟩
        simp only [World.put, World.putU, World.putT] at h
        rwa [if_neg (by omega)] at h
      · exact grows_refl w

theorem grows_shrink (w : World) (i : Nat) (x : Inst) (t : Table) (ht : w.tables x.table = some t) :
    Grows w (w.shrink i x t).1 := by
  unfold World.shrink
  split
  · exact grows_refl w
  · split
    · exact grows_refl w
    · split
      · refine ⟨fun n hn h => ?_, .inl rfl⟩
        simp only [World.put, World.putT] at h
        split at h
        · next e => rw [e, ht]; rfl
        · exact h
      · exact grows_refl w

theorem grows_optimize (w : World) (i : Nat) (skip : Bool) : Grows w (w.optimize i skip).1 := by
  unfold World.optimize
  cases w.insts i with
  | none => exact grows_refl w
  | some x =>
    simp only
    split
    · exact grows_refl w
    · split
      · exact grows_refl w
      · split
        · next us t hu ht =>
          split
          · exact grows_shrink (w.put i x.reset) i x.reset t ht
          · exact grows_split (w.put i x.reset) i x.reset t us
        · exact grows_refl w

theorem grows_applyNew (w : World) (i : Nat) (c : String) (f : Val → Option Lit) (dt : DType) :
    Grows w (w.applyNew i c f dt).1 := by
  unfold World.applyNew
  cases w.insts i with
  | none => exact grows_refl w
  | some x =>
    simp only
    split
    · split
      · exact grows_refl w
      · split
        · exact grows_refl w
        · split
          · exact grows_refl w
          · split
            · refine ⟨fun n hn h => ?_, .inr rfl⟩
              simp only [World.put, World.putU, World.putT] at h
              rwa [if_neg (by omega)] at h
            · exact grows_refl w
    · exact grows_refl w

/-- The names in use afterwards. -/
theorem grows_names {w w' : World} (h : Grows w w') (nm : Nat → List Char) (n : List Char) :
    ∀ m ∈ w'.tableNames (setName nm w w' n), m = n ∨ m ∈ w.tableNames nm := by
  intro m hm
  unfold World.tableNames at hm ⊢
  simp only [List.mem_map, List.mem_filter, List.mem_range] at hm ⊢
  obtain ⟨k, ⟨hk, hs⟩, rfl⟩ := hm
  unfold setName
  rcases h.2 with e | e
  · rw [if_neg (by omega)]
    exact .inr ⟨k, ⟨by omega, h.1 k (by omega) hs⟩, rfl⟩
  · rw [if_pos (by omega)]
    by_cases hkn : k = w.nextT
    · rw [if_pos hkn]; exact .inl rfl
    · rw [if_neg hkn]
      exact .inr ⟨k, ⟨by omega, h.1 k (by omega) hs⟩, rfl⟩

theorem forall2_right {R : Nat → Decimal → Prop} {l : List Nat} {l' : List Decimal} (h : List.Forall₂ R l l') {b : Decimal}
    (hb : b ∈ l') : ∃ a ∈ l, R a b := by
  induction h with
  | nil => cases hb
  | cons h1 _ ih =>
    rcases List.mem_cons.1 hb with rfl | hb
    · exact ⟨_, List.mem_cons_self, h1⟩
    · obtain ⟨a, ha, hr⟩ := ih hb
      exact ⟨a, List.mem_cons_of_mem _ ha, hr⟩

theorem runNamed_eq (es : List NEvent) (hc : ∀ f, NEvent.other f ∈ es → CreatesNone f) :
    ∀ (ks : List Nat) (w : World) (nm : Nat → List Char), List.Forall₂ PrintedAs ks (es.flatMap NEvent.draws) → ks.Nodup →
      (∀ k ∈ ks, 900719925475 ≤ k ∧ k < 2 ^ 53) →
      (∀ d ∈ es.flatMap NEvent.draws, ∀ n ∈ w.tableNames nm, tableName d ≠ some n) →
      runNamed w nm es = runNumbered w es := by
  induction es with
  | nil => intro ks w nm _ _ _ _; rfl
  | cons e es ih =>
    intro ks w nm hp hnd hks hfree
    have ih' := ih fun f hf => hc f (List.mem_cons_of_mem _ hf)
    -- a step with a random number
    have step : ∀ d, e.draws = [d] → ∃ n, tableName d = some n ∧ n.all sqlNameChar = true ∧ n ∉ w.tableNames nm ∧
        ∃ ks', List.Forall₂ PrintedAs ks' (es.flatMap NEvent.draws) ∧ ks'.Nodup ∧
          (∀ k ∈ ks', 900719925475 ≤ k ∧ k < 2 ^ 53) ∧
          ∀ w', Grows w w' → ∀ d' ∈ es.flatMap NEvent.draws, ∀ m ∈ w'.tableNames (setName nm w w' n),
            tableName d' ≠ some m := by
      intro d hd
      rw [List.flatMap_cons, hd] at hp
      rcases hp with _ | ⟨hk, hp'⟩
      rename_i k ks'
      obtain ⟨hk1, hk2⟩ := hks k List.mem_cons_self
      obtain ⟨n, hn, hw, _⟩ := C120_name_partial k d hk hk1 hk2
      have hmem : d ∈ (e :: es).flatMap NEvent.draws := by rw [List.flatMap_cons, hd]; exact List.mem_cons_self
      refine ⟨n, hn, hw, fun hc' => hfree d hmem n hc' hn, ks', hp', (List.nodup_cons.1 hnd).2,
        fun j hj => hks j (List.mem_cons_of_mem _ hj), ?_⟩
      intro w' hg d' hd' m hm
      rcases grows_names hg nm n m hm with rfl | hm
      · intro he
        obtain ⟨j, hj, hjd⟩ := forall2_right hp' hd'
        obtain ⟨hj1, hj2⟩ := hks j (List.mem_cons_of_mem _ hj)
        have := C120_distinct_partial k j d d' hk hjd hk1 hk2 hj1 hj2 (hn.trans he.symm)
        exact (List.nodup_cons.1 hnd).1 (this ▸ hj)
      · exact hfree d' (by rw [List.flatMap_cons]; exact List.mem_append_right _ hd') m hm
    cases e with
    | reduce i skip d =>
      obtain ⟨n, hn, hw, hf, ks', h1, h2, h3, h4⟩ := step d rfl
      have e1 := optimizeNamed_eq hn hw hf i skip
      have e2 := optimizeNamed_names hn hw hf i skip
      rw [runNamed, runNumbered]
      have e3 : (w.optimizeNamed nm d i skip).1.1 = (w.optimize i skip).1 := congrArg Prod.fst e1
      have e4 : (w.optimizeNamed nm d i skip).2 = (w.optimize i skip).2 := congrArg Prod.snd e1
      simp only [e3, e4]
      rw [ih' ks' _ _ h1 h2 h3 (by rw [e2]; exact h4 _ (grows_optimize w i skip))]
    | retype i c f dt d =>
      obtain ⟨n, hn, hw, hf, ks', h1, h2, h3, h4⟩ := step d rfl
      have e1 := applyNewNamed_eq hn hw hf i c f dt
      have e2 := applyNewNamed_names hn hw hf i c f dt
      rw [runNamed, runNumbered]
      have e3 : (w.applyNewNamed nm d i c f dt).1.1 = (w.applyNew i c f dt).1 := congrArg Prod.fst e1
      have e4 : (w.applyNewNamed nm d i c f dt).2 = (w.applyNew i c f dt).2 := congrArg Prod.snd e1
      simp only [e3, e4]
      rw [ih' ks' _ _ h1 h2 h3 (by rw [e2]; exact h4 _ (grows_applyNew w i c f dt))]
    | other f =>
      rw [runNamed, runNumbered]
      obtain ⟨c1, c2⟩ := hc f List.mem_cons_self w
      refine ih' ks _ _ hp hnd hks ?_
      intro d hd m hm
      refine hfree d hd m ?_
      unfold World.tableNames at hm ⊢
      rw [c1] at hm
      obtain ⟨k, hk, e⟩ := List.mem_map.1 hm
      obtain ⟨k1, k2⟩ := List.mem_filter.1 hk
      exact List.mem_map.2 ⟨k, List.mem_filter.2 ⟨k1, c2 k k2⟩, e⟩

/-- **C120**, histories: while the file has no other tables than `interactions` at the start, and the random numbers drawn
for new tables are different and at least about 0.0001, every hidden reduction and every `apply` with a new type does what
`Model/Db`, where tables have numbers, says: it never raises because of the name and never touches another table. -/
theorem C120_history_partial (w : World) (nm : Nat → List Char) (h0 : ∀ n ∈ w.tableNames nm, n = "interactions".toList)
    (es : List NEvent) (hc : ∀ f, NEvent.other f ∈ es → CreatesNone f) (ks : List Nat)
    (hp : List.Forall₂ PrintedAs ks (es.flatMap NEvent.draws)) (hnd : ks.Nodup)
    (hks : ∀ k ∈ ks, 900719925475 ≤ k ∧ k < 2 ^ 53) : runNamed w nm es = runNumbered w es := by
  refine runNamed_eq es hc ks w nm hp hnd hks ?_
  intro d hd n hn e
  obtain ⟨k, hk, hkd⟩ := forall2_right hp hd
  obtain ⟨n', e', _, hne⟩ := C120_name_partial k d hkd (hks k hk).1 (hks k hk).2
  rw [e, Option.some.injEq] at e'
  rw [← e'] at hne
  exact hne (h0 n hn)

theorem view_put {w : World} {i : Nat} {x y : Inst} (hx : w.insts i = some x) (h1 : y.columns = x.columns)
    (h2 : y.state = x.state) (h3 : y.table = x.table) (j : Nat) : (w.put i y).view j = w.view j := by
  unfold World.view World.put
  by_cases e : j = i
  · subst e
    simp only [if_true, hx, h3]
    have hq : y.query = x.query := by unfold Inst.query; rw [h2, h1]
    have hd : y.decode = x.decode := by funext; unfold Inst.decode; rw [h1]
    rw [hq, hd]
  · simp only [if_neg e]

/-- **C120**, a reduction that fails changes the records of no dataset, and doing it again with another random number
gives what it would have given at first. -/
theorem C120_refused (w : World) (nm : Nat → List Char) (d : Decimal) (i : Nat) (skip : Bool) (e : Err)
    (h : (w.optimizeNamed nm d i skip).2 = some e) :
    (∀ j, (w.optimizeNamed nm d i skip).1.1.view j = w.view j) ∧
    ∀ d', (w.optimizeNamed nm d i skip).1.1.optimizeNamed (w.optimizeNamed nm d i skip).1.2 d' i skip =
      w.optimizeNamed nm d' i skip := by
  cases hx : w.insts i with
  | none =>
    have : w.optimizeNamed nm d i skip = ((w, nm), some .crash) := by simp only [World.optimizeNamed, hx]
    rw [this]
    exact ⟨fun _ => rfl, fun _ => rfl⟩
  | some x =>
    have hst : (w.optimizeNamed nm d i skip).1 = (w.put i x.reset, nm) := by
      revert h
      unfold World.optimizeNamed
      simp only [hx]
      split
      · intro h; cases h
      · split
        · intro h; cases h
        · split
          · next us t hu ht =>
            split
            · unfold World.shrink
              split
              · intro h; cases h
              · split
                · intro _; rfl
                · split
                  · intro h; cases h
                  · intro _; rfl
            · unfold World.splitNamed
              split
              · intro _; rfl
              · split
                · intro _; rfl
                · split
                  · unfold World.split
                    split
                    · intro _; simp [setName]
                    · split
                      · intro _; simp [setName]
                      · split
                        · intro h; cases h
                        · intro _; simp [setName]
                  · intro _; rfl
          · intro _; rfl
    rw [hst]
    refine ⟨fun j => view_put (y := x.reset) hx rfl rfl rfl j, fun d' => ?_⟩
    have hput : (w.put i x.reset).put i x.reset.reset = w.put i x.reset := by
      unfold World.put
      congr 1
      funext j
      by_cases ej : j = i <;> simp [ej, Inst.reset]
    have hi : (w.put i x.reset).insts i = some x.reset := by simp [World.put]
    unfold World.optimizeNamed
    simp only [hi, hx, hput]
    rfl

/-! ## Witnesses -/

theorem prints_of_near {k : Nat} {d : Decimal} (h1 : ∀ x ∈ d.digits, x < 10) (h2 : ∃ x xs, d.digits = x :: xs ∧ x ≠ 0)
    (h3 : |Decimal.value d - k / 2 ^ 53| < 1 / 2 ^ 54) : PrintedAs k d := by
  refine ⟨h1, h2, fun j _ hj => ?_⟩
  have hgap : (1 : ℚ) / 2 ^ 53 ≤ |(k : ℚ) / 2 ^ 53 - j / 2 ^ 53| := by
    rw [← sub_div, abs_div, abs_of_pos (show (0 : ℚ) < 2 ^ 53 by norm_num), div_le_div_iff_of_pos_right (by norm_num)]
    have : (1 : Int) ≤ |(k : Int) - j| := Int.one_le_abs (by omega)
    exact_mod_cast this
  have htri := abs_sub_abs_le_abs_sub ((k : ℚ) / 2 ^ 53 - j / 2 ^ 53) ((k : ℚ) / 2 ^ 53 - Decimal.value d)
  have e1 : (k : ℚ) / 2 ^ 53 - j / 2 ^ 53 - ((k : ℚ) / 2 ^ 53 - Decimal.value d) = Decimal.value d - j / 2 ^ 53 := by ring
  rw [e1, abs_sub_comm _ (Decimal.value d)] at htri
  have : (1 : ℚ) / 2 ^ 53 = 2 * (1 / 2 ^ 54) := by norm_num
  linarith

/-- `0.5`. -/
def exHalf : Decimal := ⟨[5], 0⟩

/-- `1.1102230246251565e-16`, the smallest random number that is not zero. -/
def exTiny : Decimal := ⟨[1, 1, 1, 0, 2, 2, 3, 0, 2, 4, 6, 2, 5, 1, 5, 6, 5], -15⟩

theorem exHalf_prints : PrintedAs (2 ^ 52) exHalf :=
  prints_of_near (by decide) ⟨5, [], rfl, by decide⟩ (by
    have : Decimal.value exHalf = 1 / 2 := by decide +kernel
    rw [this]; norm_num)

theorem exTiny_prints : PrintedAs 1 exTiny :=
  prints_of_near (by decide) ⟨1, _, rfl, by decide⟩ (by decide +kernel)

/-- Three datasets on one table. -/
def exShared : World :=
  (((World.ofCsv ["interaction", "item", "rid", "user"] (fun c => if c = "interaction" then .int else .obj)
    [mkRow 0 [("user", .str "u"), ("item", .str "a"), ("interaction", .num 3), ("rid", .num 0)],
     mkRow 1 [("user", .str "v"), ("item", .str "b"), ("interaction", .num 4), ("rid", .num 1)]]).copy 0).1.copy 0).1

/-- **C120 fails** when a random number is drawn twice, as after `random.seed(0)` called twice: the table exists. -/
theorem C120_repeated_fails : ∃ (w : World) (nm : Nat → List Char) (d : Decimal) (k : Nat), PrintedAs k d ∧
    w.tableNames nm = ["interactions".toList] ∧
    (runNumbered w [.reduce 0 false d, .reduce 1 false d]).2 = [none, none] ∧
    (runNamed w nm [.reduce 0 false d, .reduce 1 false d]).2 = [none, some .crash] :=
  ⟨exShared, fun _ => "interactions".toList, exHalf, _, exHalf_prints, by decide +kernel, by decide +kernel, by decide +kernel⟩

/-- **C120 fails** for the smallest random number: the reduction raises. -/
theorem C120_tiny_fails : ∃ (w : World) (nm : Nat → List Char) (d : Decimal) (k : Nat), PrintedAs k d ∧
    tableName d = some "interactions_1102230246251565e-16".toList ∧
    (runNumbered w [.reduce 0 false d]).2 = [none] ∧ (runNamed w nm [.reduce 0 false d]).2 = [some .crash] :=
  ⟨exShared, fun _ => "interactions".toList, exTiny, _, exTiny_prints, by decide +kernel, by decide +kernel, by decide +kernel⟩

/-- **C120 fails** for `apply` with a new type: it raises because of the name, changes no record, and yet the dataset
is not what it was: a query on the column that worked before raises. -/
theorem C120_apply_fails : ∃ (w : World) (nm : Nat → List Char) (d : Decimal) (k : Nat) (f : Val → Option Lit), PrintedAs k d ∧
    (w.applyNewNamed nm d 0 "interaction" f .obj).2 = some .crash ∧
    (w.applyNewNamed nm d 0 "interaction" f .obj).1.1.view 0 = w.view 0 ∧
    (w.select 0 "interaction == 3".toList false).2.toOption.isSome = true ∧
    ((w.applyNewNamed nm d 0 "interaction" f .obj).1.1.select 0 "interaction == 3".toList false).2.toOption.isSome = false :=
  ⟨exShared, fun _ => "interactions".toList, exTiny, _, fun _ => some (.str "x"), exTiny_prints, by decide +kernel,
    by decide +kernel, by decide +kernel, by decide +kernel⟩

/-- **C120**, names that cannot be used: whenever the name is missing, no SQL name or in use, a reduction of a dataset that
shares its table and an `apply` with a new type raise; no record changes, but after the `apply` the dataset has the new
column type. -/
theorem C120_unusable (w : World) (nm : Nat → List Char) (d : Decimal) (i : Nat) (x : Inst) (ty : String → DType) (t : Table)
    (us : List Nat) (hx : w.insts i = some x) (hty : x.types = some ty) (ht : w.tables x.table = some t)
    (hu : w.users x.table = some us) (hs : us.length ≠ 1) (hg : w.gens = 0) (hbad : ∀ n, tableName d = some n → w.nameOk nm n = false)
    (c : String) (f : Val → Option Lit) (dt : DType) :
    (∃ e, (w.optimizeNamed nm d i false).2 = some e) ∧
    (∃ e, (w.applyNewNamed nm d i c f dt).2 = some e) ∧ (∀ j, (w.applyNewNamed nm d i c f dt).1.1.view j = w.view j) ∧
    ((∃ r, evalSrc t x.query = .ok r) → ∃ y ty', (w.applyNewNamed nm d i c f dt).1.1.insts i = some y ∧ y.types = some ty' ∧
      ty' c = dt ∧ ∀ c', c' ≠ c → ty' c' = ty c') := by
  have hok : ∀ n, (w.put i x.reset).nameOk nm n = w.nameOk nm n := fun n => rfl
  constructor
  · unfold World.optimizeNamed
    simp only [hx, hu, ht, hs, hg, if_false, Bool.false_eq_true, and_false, lt_irrefl]
    unfold World.splitNamed
    cases hn : tableName d with
    | none => exact ⟨_, rfl⟩
    | some n =>
      dsimp only
      cases x.reset.buildTable with
      | error e => exact ⟨_, rfl⟩
      | ok _ =>
        dsimp only
        rw [hok, hbad n hn]
        exact ⟨_, rfl⟩
  · unfold World.applyNewNamed
    simp only [hx, hu, ht, hty]
    cases he : evalSrc t x.query with
    | error e => exact ⟨⟨_, rfl⟩, fun _ => rfl, fun ⟨r, hr⟩ => by cases hr⟩
    | ok r =>
      dsimp only
      have key : ∀ y : Inst, y = { x with types := some fun c' => if c' = c then dt else ty c' } →
          (∀ j, (w.put i y).view j = w.view j) ∧ ∃ z ty', (w.put i y).insts i = some z ∧ z.types = some ty' ∧
            ty' c = dt ∧ ∀ c', c' ≠ c → ty' c' = ty c' := by
        intro y hy
        exact ⟨fun j => view_put (y := y) hx (by rw [hy]) (by rw [hy]) (by rw [hy]) j, y, _, by simp [World.put], by rw [hy], by simp,
          fun c' hc => by simp [hc]⟩
      cases hn : tableName d with
      | none => exact ⟨⟨_, rfl⟩, (key _ rfl).1, fun _ => (key _ rfl).2⟩
      | some n =>
        dsimp only
        split
        · exact ⟨⟨_, rfl⟩, (key _ rfl).1, fun _ => (key _ rfl).2⟩
        · rw [hbad n hn]
          exact ⟨⟨_, rfl⟩, (key _ rfl).1, fun _ => (key _ rfl).2⟩

/-- Its hypotheses hold for three datasets on one table and the smallest random number. -/
example : ∃ x t us ty, exShared.insts 0 = some x ∧ x.types = some ty ∧ exShared.tables x.table = some t ∧
    exShared.users x.table = some us ∧ us.length ≠ 1 ∧ exShared.gens = 0 ∧
    ∀ n, tableName exTiny = some n → exShared.nameOk (fun _ => "interactions".toList) n = false := by
  refine ⟨_, _, _, _, rfl, rfl, rfl, rfl, by decide, rfl, fun n hn => ?_⟩
  have h : tableName exTiny = some "interactions_1102230246251565e-16".toList := by decide +kernel
  rw [h, Option.some.injEq] at hn
  subst hn
  decide +kernel

/-- Two reductions with the random numbers 0.5 and 0.25. -/
example : ∃ d, PrintedAs (2 ^ 51) d ∧ List.Forall₂ PrintedAs [2 ^ 52, 2 ^ 51]
      ([NEvent.reduce 0 false exHalf, .other id, .reduce 1 false d].flatMap NEvent.draws) ∧
    [2 ^ 52, 2 ^ 51].Nodup ∧ (∀ k ∈ [2 ^ 52, 2 ^ 51], 900719925475 ≤ k ∧ k < 2 ^ 53) ∧ CreatesNone id ∧
    tableName d = some "interactions_25".toList ∧
    (runNamed exShared (fun _ => "interactions".toList) [.reduce 0 false exHalf, .other id, .reduce 1 false d]).2 =
      [none, none] := by
  have h : PrintedAs (2 ^ 51) ⟨[2, 5], 0⟩ :=
    prints_of_near (by decide) ⟨2, [5], rfl, by decide⟩ (by
      have : Decimal.value ⟨[2, 5], 0⟩ = 1 / 4 := by decide +kernel
      rw [this]; norm_num)
  exact ⟨_, h, .cons exHalf_prints (.cons h .nil), by decide, by decide, fun w => ⟨rfl, fun _ h => h⟩, by decide +kernel,
    by decide +kernel⟩

end DRec
