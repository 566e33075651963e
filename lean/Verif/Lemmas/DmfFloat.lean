import Verif.Lemmas.FloatFit
import Verif.Lemmas.FloatSim
import Verif.Lemmas.FloatCos
import Verif.Model.DmfFloat
import Verif.Spec.DmfFloat
import Mathlib.Tactic.Linarith
import Mathlib.Tactic.Positivity
import Mathlib.Tactic.GCongr

/-! # Errors of DMF's scores in single precision -/

namespace DRec.Dm

open Spec

theorem single_err (x : ℝ) : |single x - x| ≤ 1 / 2 ^ 24 * |x| := by
  have := roundTo_error (q := 23) x
  rw [div_eq_mul_one_div, mul_comm] at this
  exact this

/-! ## Sums -/

theorem added_error_pow {l : List ℝ} {s : ℝ} (h : Added l s) :
    |s - l.sum| ≤ ((1 + 1 / 2 ^ 24) ^ (l.length - 1) - 1) * (l.map abs).sum := by
  induction h with
  | nil => simp
  | one x => simp
  | @add l r a b hl hr _ _ ih1 ih2 =>
    have hl' : 1 ≤ l.length := List.length_pos_iff.2 hl
    have hr' : 1 ≤ r.length := List.length_pos_iff.2 hr
    rw [List.sum_append, List.map_append, List.sum_append, List.length_append]
    have hA : |l.sum| ≤ (l.map abs).sum := by simpa using abs_sum_le l id
    have hB : |r.sum| ≤ (r.map abs).sum := by simpa using abs_sum_le r id
    have hA0 : 0 ≤ (l.map abs).sum := (abs_nonneg _).trans hA
    have hB0 : 0 ≤ (r.map abs).sum := (abs_nonneg _).trans hB
    have e := single_err (a + b)
    generalize single (a + b) = s at *
    generalize (l.map abs).sum = A at *
    generalize (r.map abs).sum = B at *
    generalize l.sum = L at *
    generalize r.sum = R at *
    have key : ∀ k m : ℕ, k + 1 ≤ m → (1 + 1 / 2 ^ 24 : ℝ) * ((1 + 1 / 2 ^ 24) ^ k - 1) + 1 / 2 ^ 24 ≤ (1 + 1 / 2 ^ 24) ^ m - 1 := by
      intro k m h
      have : (1 + 1 / 2 ^ 24 : ℝ) ^ (k + 1) ≤ (1 + 1 / 2 ^ 24) ^ m := pow_le_pow_right₀ (by norm_num) h
      rw [pow_succ] at this
      linarith
    have k1 := key (l.length - 1) (l.length + r.length - 1) (by omega)
    have k2 := key (r.length - 1) (l.length + r.length - 1) (by omega)
    generalize ((1 + 1 / 2 ^ 24 : ℝ) ^ (l.length - 1) - 1) = p at *
    generalize ((1 + 1 / 2 ^ 24 : ℝ) ^ (r.length - 1) - 1) = q at *
    generalize ((1 + 1 / 2 ^ 24 : ℝ) ^ (l.length + r.length - 1) - 1) = t at *
    generalize hu : (1 / 2 ^ 24 : ℝ) = u at *
    have hu0 : 0 ≤ u := by rw [← hu]; positivity
    have hd : |a + b - (L + R)| ≤ p * A + q * B := by
      have : a + b - (L + R) = (a - L) + (b - R) := by ring
      rw [this]
      exact (abs_add_le _ _).trans (add_le_add ih1 ih2)
    have hab : |a + b| ≤ p * A + q * B + (A + B) := by
      have h1 : |a + b| ≤ |a + b - (L + R)| + |L + R| := by
        have := abs_add_le (a + b - (L + R)) (L + R)
        rwa [sub_add_cancel] at this
      have h2 := abs_add_le L R
      linarith
    have hs : |s - (L + R)| ≤ |s - (a + b)| + |a + b - (L + R)| := by
      have := abs_add_le (s - (a + b)) (a + b - (L + R))
      rwa [sub_add_sub_cancel] at this
    have m1 : u * |a + b| ≤ u * (p * A + q * B + (A + B)) := mul_le_mul_of_nonneg_left hab hu0
    have m2 : ((1 + u) * p + u) * A ≤ t * A := mul_le_mul_of_nonneg_right k1 hA0
    have m3 : ((1 + u) * q + u) * B ≤ t * B := mul_le_mul_of_nonneg_right k2 hB0
    linarith
  | perm hp _ ih =>
    rw [← hp.sum_eq, ← (hp.map abs).sum_eq, ← hp.length_eq]
    exact ih

theorem pow_linear (k : ℕ) (hk : k ≤ 2 ^ 16) : (1 + 1 / 2 ^ 24 : ℝ) ^ k ≤ 1 + 65 / 64 * (k / 2 ^ 24) := by
  induction k with
  | zero => simp
  | succ k ih =>
    have h := ih (by omega)
    have hk' : (k : ℝ) ≤ 2 ^ 16 := by exact_mod_cast (by omega : k ≤ 2 ^ 16)
    rw [pow_succ]
    push_cast
    have : (1 + 1 / 2 ^ 24 : ℝ) ^ k * (1 + 1 / 2 ^ 24) ≤ (1 + 65 / 64 * (k / 2 ^ 24)) * (1 + 1 / 2 ^ 24) :=
      mul_le_mul_of_nonneg_right h (by norm_num)
    nlinarith

theorem sum_close {α : Type} (l : List α) (f g h : α → ℝ) (k : ℝ) (hk : ∀ a ∈ l, |f a - g a| ≤ k * h a) :
    |(l.map f).sum - (l.map g).sum| ≤ k * (l.map h).sum := by
  induction l with
  | nil => simp
  | cons a l ih =>
    simp only [List.map_cons, List.sum_cons]
    have h1 := hk a (by simp)
    have h2 := ih fun b hb => hk b (by simp [hb])
    have : f a + (l.map f).sum - (g a + (l.map g).sum) = (f a - g a) + ((l.map f).sum - (l.map g).sum) := by ring
    rw [this]
    have := abs_add_le (f a - g a) ((l.map f).sum - (l.map g).sum)
    linarith

/-- A sum of rounded terms. -/
theorem added_rounded {α : Type} (l : List α) (f : α → ℝ) (s : ℝ) (hl : l.length ≤ 2 ^ 16)
    (h : Added (l.map fun a => single (f a)) s) :
    |s - (l.map f).sum| ≤ 65 / 64 * (l.length / 2 ^ 24) * (l.map fun a => |f a|).sum := by
  rcases l.eq_nil_or_concat with rfl | hne
  · have := added_error_pow h
    simpa using this
  have hpos : 1 ≤ l.length := by
    obtain ⟨a, b, rfl⟩ := hne
    simp
  have e1 := added_error_pow h
  rw [List.length_map, List.map_map] at e1
  have e2 := sum_close l (fun a => single (f a)) f (fun a => |f a|) (1 / 2 ^ 24) fun a _ => single_err (f a)
  have e3 := sum_close l (fun a => |single (f a)|) (fun a => |f a|) (fun a => |f a|) (1 / 2 ^ 24) fun a _ =>
    (abs_abs_sub_abs_le _ _).trans (single_err (f a))
  have hp := pow_linear l.length hl
  have hn := sum_abs_nonneg l f
  have hone : (1 : ℝ) ≤ (1 + 1 / 2 ^ 24) ^ (l.length - 1) := one_le_pow₀ (by norm_num)
  have hsucc : (1 + 1 / 2 ^ 24 : ℝ) ^ l.length = (1 + 1 / 2 ^ 24) ^ (l.length - 1) * (1 + 1 / 2 ^ 24) := by
    rw [← pow_succ]
    congr 1
    omega
  change |s - _| ≤ _ * (l.map fun a => |single (f a)|).sum at e1
  rw [hsucc] at hp
  generalize (1 + 1 / 2 ^ 24 : ℝ) ^ (l.length - 1) = p at *
  generalize (l.map fun a => |single (f a)|).sum = A' at *
  generalize (l.map fun a => |f a|).sum = A at *
  generalize (l.map fun a => single (f a)).sum = S' at *
  generalize (l.map f).sum = S at *
  have h3 := (abs_le.1 e3).2
  have hs : |s - S| ≤ |s - S'| + |S' - S| := by
    have := abs_add_le (s - S') (S' - S)
    rwa [sub_add_sub_cancel] at this
  have m1 : (p - 1) * A' ≤ (p - 1) * (A + 1 / 2 ^ 24 * A) := mul_le_mul_of_nonneg_left (by linarith) (by linarith)
  have m2 : (p * (1 + 1 / 2 ^ 24)) * A ≤ (1 + 65 / 64 * (l.length / 2 ^ 24)) * A := mul_le_mul_of_nonneg_right hp hn
  linarith

/-! ## Lengths -/

theorem vecLen_pos (x : List ℝ) : 0 < vecLen x := lt_of_lt_of_le (by norm_num) (le_max_right _ _)

theorem vecLen_sq (x : List ℝ) : vecLen x ^ 2 = max (x.map fun a => a ^ 2).sum (1 / 10 ^ 12) := by
  have h0 : 0 ≤ (x.map fun a => a ^ 2).sum :=
    List.sum_nonneg (by intro y hy; obtain ⟨a, _, rfl⟩ := List.mem_map.1 hy; positivity)
  unfold vecLen
  rcases le_total (Real.sqrt (x.map fun a => a ^ 2).sum) (1 / 10 ^ 6) with h | h
  · rw [max_eq_right h, max_eq_right]
    · norm_num
    · have := (Real.sqrt_le_left (by norm_num)).1 h
      norm_num at this ⊢
      exact this
  · rw [max_eq_left h, Real.sq_sqrt h0, max_eq_left]
    have := (Real.le_sqrt (by norm_num) h0).1 h
    norm_num at this ⊢
    exact this

/-- The error of the numbers of a normalised vector. -/
noncomputable def normError (n : ℕ) : ℝ := 9 / 16 * ((n + 1) / 2 ^ 24) + 11 / 2 / 2 ^ 24

theorem normalised_error {x x' : List ℝ} (hl : x.length ≤ 2 ^ 16) (h : Normalised Rsqrt x x') :
    ∃ f : ℝ → ℝ, x' = x.map f ∧ ∀ a, |f a * vecLen x - a| ≤ normError x.length * |a| := by
  obtain ⟨s, r, hs, hr, rfl⟩ := h
  refine ⟨fun a => single (a * r), rfl, ?_⟩
  have hsq : (fun a : ℝ => |a * a|) = fun a => a ^ 2 := by
    funext a
    rw [abs_of_nonneg (mul_self_nonneg a), sq]
  have hsq' : (fun a : ℝ => a * a) = fun a => a ^ 2 := by
    funext a
    rw [sq]
  have e1 := added_rounded x (fun a => a * a) s hl hs
  rw [hsq, hsq'] at e1
  have hn0 : (0 : ℝ) ≤ x.length := Nat.cast_nonneg _
  have hn1 : (x.length : ℝ) ≤ 2 ^ 16 := by exact_mod_cast hl
  have hN := vecLen_pos x
  have hN2 := vecLen_sq x
  have hS0 : 0 ≤ (x.map fun a => a ^ 2).sum :=
    List.sum_nonneg (by intro y hy; obtain ⟨a, _, rfl⟩ := List.mem_map.1 hy; positivity)
  unfold normError
  unfold Rsqrt at hr
  generalize vecLen x = N at *
  generalize (x.map fun a => a ^ 2).sum = S at *
  generalize (x.length : ℝ) = n at *
  have e2 := single_err (1 / 10 ^ 12 : ℝ)
  rw [abs_of_pos (show (0 : ℝ) < 1 / 10 ^ 12 by norm_num)] at e2
  have hc : |max s (single (1 / 10 ^ 12)) - N ^ 2| ≤ 65 / 64 * ((n + 1) / 2 ^ 24) * N ^ 2 := by
    have hm := abs_max_sub_max_le_max s (single (1 / 10 ^ 12)) S (1 / 10 ^ 12)
    rw [← hN2] at hm
    refine hm.trans (max_le (e1.trans ?_) (e2.trans ?_))
    · have : S ≤ N ^ 2 := by rw [hN2]; exact le_max_left _ _
      have h0 : (0 : ℝ) ≤ 65 / 64 * (n / 2 ^ 24) := by positivity
      have h1 : 65 / 64 * (n / 2 ^ 24) ≤ 65 / 64 * ((n + 1) / 2 ^ 24 : ℝ) := by gcongr; linarith
      exact mul_le_mul h1 this hS0 (h0.trans h1)
    · have : 1 / 10 ^ 12 ≤ N ^ 2 := by rw [hN2]; exact le_max_right _ _
      have h1 : (1 / 2 ^ 24 : ℝ) ≤ 65 / 64 * ((n + 1) / 2 ^ 24) := by
        have : (1 / 2 ^ 24 : ℝ) ≤ (n + 1) / 2 ^ 24 := by gcongr; linarith
        linarith
      exact mul_le_mul h1 this (by positivity) (by positivity)
  generalize max s (single (1 / 10 ^ 12)) = M at *
  have hB0 : (1 / 2 ^ 24 : ℝ) ≤ (n + 1) / 2 ^ 24 := by gcongr; linarith
  have hB1 : (n + 1) / 2 ^ 24 ≤ (1 / 250 : ℝ) := by
    rw [div_le_div_iff₀ (by positivity) (by norm_num)]
    nlinarith
  generalize (n + 1) / 2 ^ 24 = B at *
  have hN2p : 0 < N ^ 2 := by positivity
  obtain ⟨c1, c2⟩ := abs_le.1 hc
  have hM : 0 ≤ M := by nlinarith
  have r1 : (1 - 17 / 32 * B) * N ≤ √M := by
    apply Real.le_sqrt_of_sq_le
    have : (1 - 17 / 32 * B) ^ 2 ≤ 1 - 65 / 64 * B := by nlinarith
    have := mul_le_mul_of_nonneg_right this hN2p.le
    rw [mul_pow]
    linarith
  have r2 : √M ≤ (1 + 17 / 32 * B) * N := by
    rw [Real.sqrt_le_left (by positivity)]
    have : 1 + 65 / 64 * B ≤ (1 + 17 / 32 * B) ^ 2 := by nlinarith
    have := mul_le_mul_of_nonneg_right this hN2p.le
    rw [mul_pow]
    linarith
  have hsM : 0 < √M := lt_of_lt_of_le (mul_pos (by linarith) hN) r1
  obtain ⟨q1, q2⟩ := abs_le.1 hr
  have hrp : 0 < r := by
    by_contra hneg
    have : r * √M ≤ 0 := mul_nonpos_of_nonpos_of_nonneg (not_lt.1 hneg) hsM.le
    have h4 : (4 / 2 ^ 24 : ℝ) < 1 := by norm_num
    linarith
  -- the product of the reciprocal root and the length
  have hrN : |r * N - 1| ≤ 35 / 64 * B + 9 / 2 ^ 24 / 2 := by
    have t0 : 0 < r * N := mul_pos hrp hN
    have t1 : (1 - 17 / 32 * B) * (r * N) ≤ r * √M := by nlinarith
    have t2 : r * √M ≤ (1 + 17 / 32 * B) * (r * N) := by nlinarith
    generalize r * N = w at *
    generalize r * √M = z at *
    rw [abs_le]
    have hu : (4 / 2 ^ 24 : ℝ) ≤ 1 / 1000 := by norm_num
    have hu' : (9 / 2 ^ 24 / 2 : ℝ) = 9 / 8 * (4 / 2 ^ 24) := by norm_num
    rw [hu']
    generalize (4 / 2 ^ 24 : ℝ) = u at *
    have hu0 : 0 ≤ u := by linarith
    constructor
    · by_contra hw
      rw [not_le] at hw
      nlinarith
    · by_contra hw
      rw [not_le] at hw
      nlinarith
  intro a
  have e3 := single_err (a * r)
  have s1 : |single (a * r) * N - a| ≤ |single (a * r) - a * r| * N + |r * N - 1| * |a| := by
    have e : single (a * r) * N - a = (single (a * r) - a * r) * N + (r * N - 1) * a := by ring
    rw [e]
    refine (abs_add_le _ _).trans ?_
    rw [abs_mul, abs_mul, abs_of_pos hN]
  rw [abs_mul, abs_of_pos hrp] at e3
  have ha := abs_nonneg a
  have w2 : r * N ≤ 1 + (35 / 64 * B + 9 / 2 ^ 24 / 2) := by linarith [(abs_le.1 hrN).2]
  have s2 : |single (a * r) - a * r| * N ≤ 1 / 2 ^ 24 * (1 + (35 / 64 * B + 9 / 2 ^ 24 / 2)) * |a| := by
    calc |single (a * r) - a * r| * N ≤ 1 / 2 ^ 24 * (|a| * r) * N := mul_le_mul_of_nonneg_right e3 hN.le
      _ = 1 / 2 ^ 24 * |a| * (r * N) := by ring
      _ ≤ 1 / 2 ^ 24 * |a| * (1 + (35 / 64 * B + 9 / 2 ^ 24 / 2)) := mul_le_mul_of_nonneg_left w2 (by positivity)
      _ = _ := by ring
  have s3 := mul_le_mul_of_nonneg_right hrN ha
  have s4 : 1 / 2 ^ 24 * (1 + (35 / 64 * B + 9 / 2 ^ 24 / 2)) + (35 / 64 * B + 9 / 2 ^ 24 / 2) ≤
      9 / 16 * B + 11 / 2 / 2 ^ 24 := by
    have : (1 / 2 ^ 24 : ℝ) * (35 / 64 * B) ≤ 1 / 2 ^ 24 * B := by nlinarith
    nlinarith
  have s5 := mul_le_mul_of_nonneg_right s4 ha
  linarith

/-! ## Scores -/

theorem lens (l : List (ℝ × ℝ)) (f : ℝ × ℝ → ℝ) : √(l.map fun p => f p ^ 2).sum ≤ vecLen (l.map f) := by
  refine le_trans (le_of_eq ?_) (le_max_left _ _)
  rw [List.map_map]
  rfl

theorem dot_close (l : List (ℝ × ℝ)) (f g : ℝ → ℝ) (d : ℝ) (hl : l.length ≤ 2 ^ 16)
    (hf : ∀ a, |f a * vecLen (l.map (·.1)) - a| ≤ normError l.length * |a|)
    (hg : ∀ a, |g a * vecLen (l.map (·.2)) - a| ≤ normError l.length * |a|)
    (hd : Added (l.map fun p => single (f p.1 * g p.2)) d) :
    |d - (l.map fun p => p.1 * p.2).sum / (vecLen (l.map (·.1)) * vecLen (l.map (·.2)))| ≤ scoreError l.length ∧
    |(l.map fun p => p.1 * p.2).sum| ≤ vecLen (l.map (·.1)) * vecLen (l.map (·.2)) := by
  have hA := vecLen_pos (l.map (·.1))
  have hB := vecLen_pos (l.map (·.2))
  have hc : (l.map fun p => |p.1 * p.2|).sum ≤ vecLen (l.map (·.1)) * vecLen (l.map (·.2)) :=
    (pairs_cauchy l).trans (mul_le_mul (lens l (·.1)) (lens l (·.2)) (Real.sqrt_nonneg _) hA.le)
  have hT0 := sum_abs_nonneg l fun p : ℝ × ℝ => p.1 * p.2
  have hd' := added_rounded l (fun p => f p.1 * g p.2) d hl hd
  have hn0 : (0 : ℝ) ≤ l.length := Nat.cast_nonneg _
  have hn1 : (l.length : ℝ) ≤ 2 ^ 16 := by exact_mod_cast hl
  have hg0 : 0 ≤ normError l.length := by unfold normError; positivity
  have hg1 : normError l.length ≤ 1 / 400 := by
    unfold normError
    nlinarith
  refine ⟨?_, (abs_sum_le l _).trans hc⟩
  generalize vecLen (l.map (·.1)) = A at *
  generalize vecLen (l.map (·.2)) = B at *
  have hAB : 0 < A * B := mul_pos hA hB
  -- one product
  have one : ∀ p ∈ l, |f p.1 * g p.2 - p.1 * p.2 / (A * B)| ≤
      (2 * normError l.length + normError l.length ^ 2) * (|p.1 * p.2| / (A * B)) := by
    intro p _
    have h1 := hf p.1
    have h2 := hg p.2
    have e : (f p.1 * g p.2 - p.1 * p.2 / (A * B)) * (A * B) =
        (f p.1 * A - p.1) * (g p.2 * B - p.2) + (f p.1 * A - p.1) * p.2 + p.1 * (g p.2 * B - p.2) := by
      field_simp
      ring
    have e' : |f p.1 * g p.2 - p.1 * p.2 / (A * B)| * (A * B) ≤
        (2 * normError l.length + normError l.length ^ 2) * |p.1 * p.2| := by
      rw [← abs_of_pos hAB, ← abs_mul, abs_of_pos hAB, e]
      refine (abs_add_le _ _).trans ?_
      have t1 := abs_add_le ((f p.1 * A - p.1) * (g p.2 * B - p.2)) ((f p.1 * A - p.1) * p.2)
      rw [abs_mul, abs_mul] at t1
      rw [abs_mul p.1, abs_mul p.1]
      have t2 : |f p.1 * A - p.1| * |g p.2 * B - p.2| ≤ (normError l.length * |p.1|) * (normError l.length * |p.2|) :=
        mul_le_mul h1 h2 (abs_nonneg _) (by positivity)
      have t3 := mul_le_mul_of_nonneg_right h1 (abs_nonneg p.2)
      have t4 := mul_le_mul_of_nonneg_left h2 (abs_nonneg p.1)
      nlinarith
    rw [← mul_div_assoc, le_div_iff₀ hAB]
    exact e'
  have s1 := sum_close l (fun p => f p.1 * g p.2) (fun p => p.1 * p.2 / (A * B)) (fun p => |p.1 * p.2| / (A * B)) _ one
  have s2 := sum_close l (fun p => |f p.1 * g p.2|) (fun p => |p.1 * p.2| / (A * B)) (fun p => |p.1 * p.2| / (A * B)) _
    (fun p hp => by
      have := abs_abs_sub_abs_le (f p.1 * g p.2) (p.1 * p.2 / (A * B))
      rw [abs_div, abs_of_pos hAB] at this
      exact this.trans (one p hp))
  have d1 : (l.map fun p => p.1 * p.2 / (A * B)).sum = (l.map fun p => p.1 * p.2).sum / (A * B) := by
    rw [div_eq_mul_inv, ← List.sum_map_mul_right]
    rfl
  have d2 : (l.map fun p => |p.1 * p.2| / (A * B)).sum = (l.map fun p => |p.1 * p.2|).sum / (A * B) := by
    rw [div_eq_mul_inv, ← List.sum_map_mul_right]
    rfl
  rw [d2] at s1 s2
  rw [d1] at s1
  have hq0 : 0 ≤ (l.map fun p => |p.1 * p.2|).sum / (A * B) := div_nonneg hT0 hAB.le
  have hq1 : (l.map fun p => |p.1 * p.2|).sum / (A * B) ≤ 1 := (div_le_one hAB).2 hc
  generalize (l.map fun p => |p.1 * p.2|).sum / (A * B) = T at *
  generalize (l.map fun p => p.1 * p.2).sum / (A * B) = C at *
  generalize (l.map fun p => |f p.1 * g p.2|).sum = D' at *
  generalize (l.map fun p => f p.1 * g p.2).sum = D at *
  have hs : |d - C| ≤ |d - D| + |D - C| := by
    have := abs_add_le (d - D) (D - C)
    rwa [sub_add_sub_cancel] at this
  have hgdef : normError l.length = 9 / 16 * ((l.length + 1) / 2 ^ 24) + 11 / 2 / 2 ^ 24 := rfl
  unfold scoreError
  generalize normError l.length = e at *
  have q1 : 2 * e + e ^ 2 ≤ 33 / 16 * e := by nlinarith
  have q0 : 0 ≤ 2 * e + e ^ 2 := by positivity
  have k1 : |D - C| ≤ 33 / 16 * e := s1.trans (by nlinarith)
  have k2 : D' ≤ 1 + 33 / 16 * e := by
    have := (abs_le.1 s2).2
    nlinarith
  have k3 : 65 / 64 * (l.length / 2 ^ 24) * D' ≤ 65 / 64 * ((l.length : ℝ) / 2 ^ 24) * (1 + 33 / 16 * e) :=
    mul_le_mul_of_nonneg_left k2 (by positivity)
  have k4 : ((l.length : ℝ) / 2 ^ 24) * e ≤ (l.length : ℝ) / 2 ^ 24 * (1 / 400) := mul_le_mul_of_nonneg_left hg1 (by positivity)
  rw [hgdef] at k1
  generalize (l.length : ℝ) = n at *
  have g1 : n / 2 ^ 24 = n * (1 / 2 ^ 24) := by ring
  rw [g1] at k3 k4 hd'
  linarith

/-! ## Sums and scores exist -/

theorem added_exists (l : List ℝ) : ∃ s, Added l s := by
  induction l with
  | nil => exact ⟨_, .nil⟩
  | cons x l ih =>
    rcases l with _ | ⟨y, l⟩
    · exact ⟨_, .one x⟩
    · obtain ⟨s, hs⟩ := ih
      exact ⟨_, Added.add (by simp) (by simp) (.one x) hs⟩

theorem single_pos {x : ℝ} (h : 0 < x) : 0 < single x := by
  have := (abs_le.1 (single_err x)).1
  rw [abs_of_pos h] at this
  norm_num at this
  linarith

theorem best_rsqrt {s r : ℝ} (hs : 0 < s) (h : RsqrtBest s r) : Rsqrt s r := by
  have hp := Real.sqrt_pos.2 hs
  have e := single_err (1 / √s)
  rw [abs_of_pos (one_div_pos.2 hp)] at e
  rw [RsqrtBest] at h
  rw [← h] at e
  unfold Rsqrt
  have : r * √s - 1 = (r - 1 / √s) * √s := by field_simp
  rw [this, abs_mul, abs_of_pos hp]
  calc |r - 1 / √s| * √s ≤ 1 / 2 ^ 24 * (1 / √s) * √s := mul_le_mul_of_nonneg_right e hp.le
    _ = 1 / 2 ^ 24 := by field_simp
    _ ≤ 4 / 2 ^ 24 := by norm_num

theorem normalised_best {x y : List ℝ} (h : Normalised RsqrtBest x y) : Normalised Rsqrt x y := by
  obtain ⟨s, r, h1, h2, h3⟩ := h
  exact ⟨s, r, h1, best_rsqrt (lt_of_lt_of_le (single_pos (by norm_num)) (le_max_right _ _)) h2, h3⟩

theorem scored_best {x y : List ℝ} {v : ℝ} (h : Scored RsqrtBest x y v) : Scored Rsqrt x y v := by
  obtain ⟨x', y', d, h1, h2, h3⟩ := h
  exact ⟨x', y', d, normalised_best h1, normalised_best h2, h3⟩

theorem scored_exists (x y : List ℝ) : ∃ v, Scored RsqrtBest x y v := by
  obtain ⟨s, hs⟩ := added_exists (x.map fun a => single (a * a))
  obtain ⟨t, ht⟩ := added_exists (y.map fun a => single (a * a))
  obtain ⟨d, hd⟩ := added_exists (List.zipWith (fun a b => single (a * b))
    (x.map fun a => single (a * single (1 / √(max s (single (1 / 10 ^ 12))))))
    (y.map fun a => single (a * single (1 / √(max t (single (1 / 10 ^ 12)))))))
  exact ⟨_, _, _, d, ⟨s, _, hs, rfl, rfl⟩, ⟨t, _, ht, rfl, rfl⟩, hd, rfl⟩

/-! ## Rational numbers -/

theorem roundHalfEven_cast (x : ℚ) : roundHalfEven (x : ℝ) = roundHalfEven x := by
  have h1 : ((x : ℝ) - ⌊x⌋ < 1 / 2) ↔ x - ⌊x⌋ < 1 / 2 := by
    rw [← Rat.cast_lt (K := ℝ)]
    push_cast
    rfl
  have h2 : ((1 : ℝ) / 2 < (x : ℝ) - ⌊x⌋) ↔ 1 / 2 < x - ⌊x⌋ := by
    rw [← Rat.cast_lt (K := ℝ)]
    push_cast
    rfl
  unfold roundHalfEven
  rw [Rat.floor_cast]
  simp only [h1, h2]

theorem natFloor_cast' (x : ℚ) : ⌊(x : ℝ)⌋₊ = ⌊x⌋₊ := by
  rw [← Int.floor_toNat, ← Int.floor_toNat, Rat.floor_cast]

theorem natCeil_cast' (x : ℚ) : ⌈(x : ℝ)⌉₊ = ⌈x⌉₊ := by
  rw [← Int.ceil_toNat, ← Int.ceil_toNat, Rat.ceil_cast]

theorem log_cast (x : ℚ) : Int.log 2 (x : ℝ) = Int.log 2 x := by
  have h1 : ((1 : ℝ) ≤ x) ↔ 1 ≤ x := by exact_mod_cast Iff.rfl
  unfold Int.log
  rw [natFloor_cast', ← Rat.cast_inv, natCeil_cast']
  simp only [h1]

theorem roundTo_cast (q : ℕ) (x : ℚ) : roundTo q (x : ℝ) = ((roundTo q x : ℚ) : ℝ) := by
  have h : lastDigit q (x : ℝ) = lastDigit q x := by
    unfold lastDigit
    rw [← Rat.cast_abs, log_cast]
  unfold roundTo
  rw [h]
  have e : (x : ℝ) / 2 ^ lastDigit q x = ((x / 2 ^ lastDigit q x : ℚ) : ℝ) := by push_cast; rfl
  rw [e, roundHalfEven_cast]
  push_cast
  rfl

theorem single_cast (x : ℚ) : single (x : ℝ) = ((single x : ℚ) : ℝ) := roundTo_cast 23 x

theorem toFloat_cast (x : ℚ) : toFloat (x : ℝ) = ((toFloat x : ℚ) : ℝ) := roundTo_cast 52 x

theorem rescaleSingle_cast (lo hi v : ℚ) : rescaleSingle (lo : ℝ) hi v = ((rescaleSingle lo hi v : ℚ) : ℝ) := by
  unfold rescaleSingle
  rw [← Rat.cast_sub, toFloat_cast, single_cast, single_cast, ← Rat.cast_mul, single_cast, ← Rat.cast_add, single_cast]

end DRec.Dm
