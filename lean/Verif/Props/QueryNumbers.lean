import Verif.Lemmas.Text

/-!
# C02: which texts are numbers
-/

namespace DRec

theorem pySplit_join (sep : Char) (s : List Char) : [sep].intercalate (pySplit sep s) = s := by
  induction s with
  | nil => rfl
  | cons c s ih =>
    unfold pySplit
    have hne := pySplit_ne_nil sep s
    rcases e : pySplit sep s with _ | ⟨p, ps⟩
    · exact absurd e hne
    · rw [e] at ih
      split
      · rename_i h
        subst h
        simpa [List.intercalate] using ih
      · cases ps with
        | nil => simpa [List.intercalate] using ih
        | cons p' ps => simpa [List.intercalate] using ih

theorem isDigits_iff (s : List Char) : isDigits s = true ↔ s ≠ [] ∧ ∀ c ∈ s, c.isDigit = true := by
  cases s <;> simp [isDigits]

theorem no_point {s : List Char} (h : ∀ c ∈ s, c.isDigit = true) : '.' ∉ s := fun hm => absurd (h _ hm) (by decide)

theorem pyDecimal_iff (s : List Char) (q : ℚ) : pyDecimal s = some q ↔ ∃ a b : List Char, (∀ c ∈ a ++ b, c.isDigit = true) ∧ a ++ b ≠ [] ∧
    (s = a ∧ b = [] ∨ s = a ++ '.' :: b) ∧ q = (Nat.ofDigitChars 10 a 0 : ℚ) + (Nat.ofDigitChars 10 b 0 : ℚ) / 10 ^ b.length := by
  constructor
  · intro h
    have hj := pySplit_join '.' s
    unfold pyDecimal at h
    split at h
    · rename_i a e
      rw [e] at hj
      split at h
      · rename_i hd
        obtain ⟨h1, h2⟩ := (isDigits_iff a).1 hd
        refine ⟨a, [], by simpa using h2, by simpa using h1, .inl ⟨by simpa using hj.symm, rfl⟩, ?_⟩
        simpa [digitsVal, Nat.ofDigitChars] using (Option.some.inj h).symm
      · exact absurd h (by simp)
    · rename_i a b e
      rw [e] at hj
      split at h
      · rename_i hd
        simp only [Bool.and_eq_true, Bool.or_eq_true, isDigits_iff, List.isEmpty_iff, Bool.not_eq_true', Bool.and_eq_false_iff] at hd
        obtain ⟨⟨ha, hb⟩, hn⟩ := hd
        refine ⟨a, b, ?_, ?_, .inr (by simpa [List.intercalate] using hj.symm), ?_⟩
        · intro c hc
          rcases List.mem_append.1 hc with hc | hc
          · rcases ha with ha | rfl
            · exact ha.2 c hc
            · simp at hc
          · rcases hb with hb | rfl
            · exact hb.2 c hc
            · simp at hc
        · intro e
          obtain ⟨rfl, rfl⟩ := List.append_eq_nil_iff.1 e
          simp at hn
        · have := (Option.some.inj h).symm
          rw [this]
          push_cast
          rfl
      · exact absurd h (by simp)
    · exact absurd h (by simp)
  · rintro ⟨a, b, hd, hn, h, rfl⟩
    have ha : ∀ c ∈ a, c.isDigit = true := fun c hc => hd c (by simp [hc])
    have hb : ∀ c ∈ b, c.isDigit = true := fun c hc => hd c (by simp [hc])
    rcases h with ⟨rfl, rfl⟩ | rfl
    · unfold pyDecimal
      rw [pySplit_none _ _ (no_point ha)]
      simp only
      rw [if_pos ((isDigits_iff _).2 ⟨by simpa using hn, ha⟩)]
      simp [digitsVal, Nat.ofDigitChars]
    · unfold pyDecimal
      rw [pySplit_append _ _ _ (no_point ha), pySplit_none _ _ (no_point hb)]
      simp only
      rw [if_pos]
      · congr 1
        push_cast
        rfl
      · simp only [Bool.and_eq_true, Bool.or_eq_true, isDigits_iff, List.isEmpty_iff, Bool.not_eq_true', Bool.and_eq_false_iff]
        refine ⟨⟨?_, ?_⟩, ?_⟩
        · by_cases h : a = []
          · exact .inr h
          · exact .inl ⟨h, ha⟩
        · by_cases h : b = []
          · exact .inr h
          · exact .inl ⟨h, hb⟩
        · rcases a with _ | ⟨c, a⟩
          · right
            rcases b with _ | ⟨c, b⟩
            · exact absurd rfl hn
            · rfl
          · left; rfl

/-- The number texts of a query are exactly: a sign or none, digits, a point or none, digits; with at least one digit.  The value is the usual
one. -/
theorem C02_numbers (s : List Char) (q : ℚ) : pyFloat s = some q ↔ ∃ sign a b : List Char, sign ∈ [[], ['-'], ['+']] ∧ (∀ c ∈ a ++ b, c.isDigit = true) ∧
    a ++ b ≠ [] ∧ (s = sign ++ a ∧ b = [] ∨ s = sign ++ a ++ '.' :: b) ∧
    q = (if sign = ['-'] then -1 else 1) * ((Nat.ofDigitChars 10 a 0 : ℚ) + (Nat.ofDigitChars 10 b 0 : ℚ) / 10 ^ b.length) := by
  have digit_sign : ∀ {a b t : List Char}, (∀ c ∈ a ++ b, c.isDigit = true) → a ++ b ≠ [] → (t = a ∧ b = [] ∨ t = a ++ '.' :: b) →
      signOf t = (false, t) := by
    intro a b t hd hn h
    rcases a with _ | ⟨c, a⟩
    · rcases h with ⟨rfl, rfl⟩ | rfl
      · exact absurd rfl hn
      · rfl
    · have hc : c.isDigit = true := hd c (by simp)
      have h1 : c ≠ '-' := by rintro rfl; exact absurd hc (by decide)
      have h2 : c ≠ '+' := by rintro rfl; exact absurd hc (by decide)
      rcases h with ⟨rfl, rfl⟩ | rfl <;> simp [signOf, h1, h2]
  unfold pyFloat
  constructor
  · intro h
    simp only [Option.map_eq_some_iff] at h
    obtain ⟨r, hr, hq⟩ := h
    obtain ⟨a, b, hd, hn, h, rfl⟩ := (pyDecimal_iff _ _).1 hr
    unfold signOf at h hq
    split at h
    · refine ⟨['-'], a, b, by simp, hd, hn, by simpa using h, ?_⟩
      simp at hq
      rw [← hq]
      simp
    · refine ⟨['+'], a, b, by simp, hd, hn, by simpa using h, ?_⟩
      simp at hq
      rw [← hq]
      simp
    · rename_i t h1 h2
      refine ⟨[], a, b, by simp, hd, hn, by simpa using h, ?_⟩
      have := digit_sign hd hn h
      simp at hq
      rw [← hq]
      simp
  · rintro ⟨sign, a, b, hs, hd, hn, h, rfl⟩
    simp only [List.mem_cons, List.not_mem_nil, or_false] at hs
    rcases hs with rfl | rfl | rfl
    · have h' : s = a ∧ b = [] ∨ s = a ++ '.' :: b := by simpa using h
      rw [digit_sign hd hn h']
      simp only [(pyDecimal_iff s _).2 ⟨a, b, hd, hn, h', rfl⟩]
      simp
    all_goals
      obtain ⟨t, rfl, h'⟩ : ∃ t, s = _ :: t ∧ (t = a ∧ b = [] ∨ t = a ++ '.' :: b) := by
        rcases h with ⟨h, hb⟩ | h
        · exact ⟨a, h, .inl ⟨rfl, hb⟩⟩
        · exact ⟨a ++ '.' :: b, h, .inr rfl⟩
      simp only [signOf, (pyDecimal_iff t _).2 ⟨a, b, hd, hn, h', rfl⟩]
      simp

/-- `-2.50` is a number, `2.5.0` and `.` are not. -/
example : pyFloat "-2.50".toList = some (-5 / 2) ∧ pyFloat "2.5.0".toList = none ∧ pyFloat ".".toList = none := by
  refine ⟨(C02_numbers _ _).2 ⟨['-'], ['2'], ['5', '0'], by simp, by decide, by decide, .inr rfl, ?_⟩, rfl, rfl⟩
  have h1 : Nat.ofDigitChars 10 ['2'] 0 = 2 := rfl
  have h2 : Nat.ofDigitChars 10 ['5', '0'] 0 = 50 := rfl
  rw [h1, h2]
  norm_num

end DRec
