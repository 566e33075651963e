import Verif.Spec.Sql
import Verif.Lemmas.Text
import Verif.Props.TableNames
import Mathlib.Data.List.Induction
import Mathlib.Tactic.Ring
import Mathlib.Tactic.FieldSimp
import Mathlib.Tactic.NormNum

/-! # Lemmas about reading SQL texts: words -/

namespace DRec

open DRec.Spec

/-! ## The number of steps -/

theorem lexQuoted_length {s : List Char} {p : List Char × List Char} (h : lexQuoted s = some p) :
    p.2.length ≤ s.length := by
  fun_induction lexQuoted s generalizing p with
  | case1 => cases h
  | case2 r ih =>
    cases hr : lexQuoted r with
    | none => rw [hr] at h; cases h
    | some q =>
      rw [hr] at h
      cases h
      have := ih hr
      simp only [List.length_cons]
      omega
  | case3 r _ => cases h; simp
  | case4 c r _ _ ih =>
    cases hr : lexQuoted r with
    | none => rw [hr] at h; cases h
    | some q =>
      rw [hr] at h
      cases h
      have := ih hr
      simp only [List.length_cons]
      omega

theorem dropWhile_length {A : Type} (p : A → Bool) (s : List A) : (s.dropWhile p).length ≤ s.length :=
  (List.dropWhile_sublist p).length_le

theorem signOf_length (s : List Char) : (signOf s).2.length ≤ s.length := by
  unfold signOf
  split <;> simp

theorem lexExponent_length {s : List Char} {p : Int × List Char} (h : lexExponent s = some p) :
    p.2.length ≤ s.length := by
  unfold lexExponent at h
  split at h
  all_goals first
    | (dsimp only at h
       split at h
       · cases h
       · cases h
         rename_i r _
         have h1 := signOf_length r
         have h2 := dropWhile_length Char.isDigit (signOf r).2
         simp only [List.length_cons]
         omega)
    | (cases h; exact le_rfl)

theorem lexFrac_length (s : List Char) : (lexFrac s).2.length ≤ s.length := by
  unfold lexFrac
  split
  · rename_i r
    have := dropWhile_length Char.isDigit r
    simp only [List.length_cons]
    omega
  · exact le_rfl

theorem lexNum_length {c : Char} {s : List Char} (hc : c.isDigit = true) {p : ℚ × List Char}
    (h : lexNum (c :: s) = some p) : p.2.length ≤ s.length := by
  unfold lexNum at h
  dsimp only at h
  have hd : ((c :: s).dropWhile Char.isDigit).length ≤ s.length := by
    rw [List.dropWhile_cons_of_pos hc]
    exact dropWhile_length _ _
  split at h
  · cases h
  · rename_i e rest he
    split at h
    · cases h
    · cases h
      exact (lexExponent_length he).trans ((lexFrac_length _).trans hd)

theorem lexSym_length {c : Char} {s : List Char} {p : Tok × List Char} (h : lexSym (c :: s) = some p) :
    p.2.length ≤ s.length := by
  unfold lexSym at h
  split at h
  all_goals first
    | (rename_i heq; cases heq; cases h; simp)
    | cases h

theorem lexSteps_enough (n : Nat) : ∀ (s : List Char) (f g : Nat), s.length ≤ n → s.length ≤ f → s.length ≤ g →
    lexSteps f s = lexSteps g s := by
  induction n with
  | zero =>
    intro s f g hn _ _
    obtain rfl : s = [] := List.length_eq_zero_iff.1 (by omega)
    cases f <;> cases g <;> rfl
  | succ n ih =>
    intro s f g hn hf hg
    cases s with
    | nil => cases f <;> cases g <;> rfl
    | cons c cs =>
      simp only [List.length_cons] at hn hf hg
      obtain ⟨f, rfl⟩ : ∃ f', f = f' + 1 := ⟨f - 1, by omega⟩
      obtain ⟨g, rfl⟩ : ∃ g', g = g' + 1 := ⟨g - 1, by omega⟩
      have step : ∀ t : List Char, t.length ≤ cs.length → lexSteps f t = lexSteps g t :=
        fun t ht => ih t f g (by omega) (by omega) (by omega)
      simp only [lexSteps]
      split
      · exact step cs le_rfl
      · split
        · exact step _ (dropWhile_length _ _)
        · split
          · cases hq : lexQuoted cs with
            | none => rfl
            | some p => dsimp only; rw [step _ (lexQuoted_length hq)]
          · split
            · rw [step _ (dropWhile_length _ _)]
            · split
              · rename_i hd
                cases hq : lexNum (c :: cs) with
                | none => rfl
                | some p => dsimp only; rw [step _ (lexNum_length hd hq)]
              · cases hq : lexSym (c :: cs) with
                | none => rfl
                | some p => dsimp only; rw [step _ (lexSym_length hq)]

theorem lexSteps_eq {s : List Char} {f : Nat} (h : s.length ≤ f) : lexSteps f s = sqlLex s :=
  lexSteps_enough s.length s f s.length le_rfl h le_rfl

/-! ## Single words -/

/-- What may follow a word. -/
def Stops (rest : List Char) : Prop := ∀ c, rest.head? = some c → c = ' ' ∨ c = ',' ∨ c = ')' ∨ c = '('

theorem stops_nil : Stops [] := by intro c h; cases h

theorem stops_cons {c : Char} {s : List Char} (h : c = ' ' ∨ c = ',' ∨ c = ')' ∨ c = '(') : Stops (c :: s) := by
  intro d hd
  cases hd
  exact h

theorem takeWhile_stops {p : Char → Bool} (w rest : List Char) (hw : ∀ c ∈ w, p c = true)
    (hp : ∀ c, rest.head? = some c → p c = false) :
    (w ++ rest).takeWhile p = w ∧ (w ++ rest).dropWhile p = rest := by
  induction w with
  | nil =>
    cases rest with
    | nil => exact ⟨rfl, rfl⟩
    | cons c cs =>
      have := hp c rfl
      exact ⟨by simp [this], by simp [this]⟩
  | cons c w ih =>
    have h1 := hw c (by simp)
    obtain ⟨a, b⟩ := ih fun d hd => hw d (by simp [hd])
    rw [List.cons_append, List.takeWhile_cons_of_pos h1, List.dropWhile_cons_of_pos h1, a, b]
    exact ⟨rfl, rfl⟩

theorem stops_name {rest : List Char} (h : Stops rest) (c : Char) (hc : rest.head? = some c) : sqlNameChar c = false := by
  rcases h c hc with rfl | rfl | rfl | rfl <;> decide

theorem stops_digit {rest : List Char} (h : Stops rest) (c : Char) (hc : rest.head? = some c) : c.isDigit = false := by
  rcases h c hc with rfl | rfl | rfl | rfl <;> decide

theorem lex_space (s : List Char) : sqlLex (' ' :: s) = sqlLex s := by
  rw [sqlLex, List.length_cons, lexSteps]
  rw [if_pos (by decide)]
  rfl

theorem lex_lpar (s : List Char) : sqlLex ('(' :: s) = (sqlLex s).map (Tok.lpar :: ·) := by
  rw [sqlLex, List.length_cons, lexSteps]
  rw [if_neg (by decide), if_neg (by simp), if_neg (by decide), if_neg (by decide), if_neg (by decide)]
  rfl

theorem lex_rpar (s : List Char) : sqlLex (')' :: s) = (sqlLex s).map (Tok.rpar :: ·) := by
  rw [sqlLex, List.length_cons, lexSteps]
  rw [if_neg (by decide), if_neg (by simp), if_neg (by decide), if_neg (by decide), if_neg (by decide)]
  rfl

theorem lex_comma (s : List Char) : sqlLex (',' :: s) = (sqlLex s).map (Tok.comma :: ·) := by
  rw [sqlLex, List.length_cons, lexSteps]
  rw [if_neg (by decide), if_neg (by simp), if_neg (by decide), if_neg (by decide), if_neg (by decide)]
  rfl

theorem lexSym_op (op : Op) (s : List Char) : lexSym (op.sql ++ ' ' :: s) = some (.cmp op, ' ' :: s) := by
  cases op <;> rfl

theorem lex_op (op : Op) (s : List Char) : sqlLex (op.sql ++ ' ' :: s) = (sqlLex s).map (Tok.cmp op :: ·) := by
  rw [← lex_space s]
  have h := lexSym_op op s
  obtain ⟨c, w, e, h1, h2, h3, h4, h5⟩ : ∃ c w, op.sql = c :: w ∧ c.isWhitespace = false ∧ c ≠ '-' ∧ c ≠ '"' ∧
      (c.isAlpha || c = '_') = false ∧ c.isDigit = false := by
    cases op <;> exact ⟨_, _, rfl, by decide, by decide, by decide, by decide, by decide⟩
  rw [e, List.cons_append] at h ⊢
  rw [sqlLex, List.length_cons, lexSteps]
  rw [if_neg (by simp [h1]), if_neg (by simp [h2]), if_neg h3, if_neg (by simp [h4]), if_neg (by simp [h5]), h]
  dsimp only
  rw [lexSteps_eq (by simp)]

theorem alpha_facts {c : Char} (h : c.isAlpha = true ∨ c = '_') :
    c.isWhitespace = false ∧ c ≠ '-' ∧ c ≠ '"' ∧ (c.isAlpha || c = '_') = true := by
  rcases h with h | rfl
  · simp only [Char.isAlpha, Char.isUpper, Char.isLower, Bool.or_eq_true, Bool.and_eq_true, decide_eq_true_eq] at h
    have hn : 65 ≤ c.toNat ∧ c.toNat ≤ 90 ∨ 97 ≤ c.toNat ∧ c.toNat ≤ 122 := by
      rcases h with h | h
      · exact .inl ⟨h.1, h.2⟩
      · exact .inr ⟨h.1, h.2⟩
    have key : ∀ d : Char, d.toNat < 65 → c ≠ d := by
      intro d hd e
      subst e
      omega
    have h1 := key ' ' (by decide)
    have h2 := key '\t' (by decide)
    have h3 := key '\r' (by decide)
    have h4 := key '\n' (by decide)
    refine ⟨by simp [Char.isWhitespace, h1, h2, h3, h4], key _ (by decide), key _ (by decide), ?_⟩
    have : c.isAlpha = true := by
      simp only [Char.isAlpha, Char.isUpper, Char.isLower, Bool.or_eq_true, Bool.and_eq_true, decide_eq_true_eq]
      exact h
    simp [this]
  · decide

theorem lex_word {c : Char} {w rest : List Char} (hc : c.isAlpha = true ∨ c = '_') (hw : ∀ d ∈ w, sqlNameChar d = true)
    (hr : Stops rest) : sqlLex (c :: w ++ rest) = (sqlLex rest).map (wordTok (c :: w) :: ·) := by
  obtain ⟨h1, h2, h3, h4⟩ := alpha_facts hc
  obtain ⟨t1, t2⟩ := takeWhile_stops (p := sqlNameChar) w rest hw (stops_name hr)
  rw [List.cons_append, sqlLex, List.length_cons, lexSteps]
  rw [if_neg (by simp [h1]), if_neg (by simp [h2]), if_neg h3, if_pos h4, t1, t2, lexSteps_eq (by simp)]

theorem lexQuoted_cons {c : Char} (h : c ≠ '"') (r : List Char) :
    lexQuoted (c :: r) = (lexQuoted r).map fun p => (c :: p.1, p.2) := by
  rw [lexQuoted]
  · intro r' h'
    exact absurd h' h
  · exact h

theorem lexQuoted_end (rest : List Char) (hr : rest.head? ≠ some '"') : lexQuoted ('"' :: rest) = some ([], rest) := by
  rw [lexQuoted]
  rintro r rfl
  exact hr rfl

theorem lexQuoted_plain (s rest : List Char) (hs : '"' ∉ s) (hr : rest.head? ≠ some '"') :
    lexQuoted (s ++ '"' :: rest) = some (s, rest) := by
  induction s with
  | nil => exact lexQuoted_end rest hr
  | cons c s ih =>
    rw [List.mem_cons, not_or] at hs
    rw [List.cons_append, lexQuoted_cons (fun e => hs.1 e.symm), ih hs.2]
    rfl

theorem lex_quoted {s : String} {rest : List Char} (hs : '"' ∉ s.toList) (hr : Stops rest) :
    sqlLex (quoteText s ++ rest) = (sqlLex rest).map (Tok.quoted s :: ·) := by
  have e : quoteText s ++ rest = '"' :: (s.toList ++ '"' :: rest) := by simp [quoteText]
  rw [e, sqlLex, List.length_cons, lexSteps]
  rw [if_neg (by decide), if_neg (by simp), if_pos rfl, lexQuoted_plain _ _ hs (by
    intro h
    rcases hr _ h with h | h | h | h <;> cases h)]
  simp only [String.ofList_toList]
  rw [lexSteps_eq (by simp; omega)]

/-! ## Numbers -/

theorem isDigits_append {a b : List Char} (ha : isDigits a = true) (hb : ∀ c ∈ b, c.isDigit = true) :
    isDigits (a ++ b) = true := by
  obtain ⟨h1, h2⟩ := digits_clean ha
  cases a with
  | nil => exact absurd rfl h1
  | cons c cs =>
    simp only [isDigits, List.cons_append, List.isEmpty_cons, Bool.not_false, Bool.true_and, List.all_eq_true, List.mem_cons,
      List.mem_append]
    rintro d (rfl | hd | hd)
    · exact h2 _ (by simp)
    · exact h2 _ (by simp [hd])
    · exact hb _ hd

theorem lexExponent_none {rest : List Char} (h : ∀ c, rest.head? = some c → c ≠ 'e' ∧ c ≠ 'E') :
    lexExponent rest = some (0, rest) := by
  unfold lexExponent
  split
  · exact absurd rfl (h 'e' rfl).1
  · exact absurd rfl (h 'E' rfl).2
  · rfl

theorem stops_e {rest : List Char} (hr : Stops rest) (c : Char) (h : rest.head? = some c) : c ≠ 'e' ∧ c ≠ 'E' := by
  rcases hr c h with rfl | rfl | rfl | rfl <;> decide

theorem stops_dot {rest : List Char} (hr : Stops rest) : rest.head? ≠ some '.' := by
  intro h
  rcases hr _ h with h | h | h | h <;> cases h

theorem exponentText_eq (e : Int) : ∃ ds : List Char, isDigits ds = true ∧ digitsVal ds = e.natAbs ∧
    exponentText e = (if e < 0 then '-' else '+') :: ds := by
  unfold exponentText
  by_cases h : e.natAbs < 10
  · refine ⟨'0' :: natText e.natAbs, isDigits_append (a := ['0']) (by decide) (digits_clean (isDigits_natText _)).2, ?_, ?_⟩
    · rw [digitsVal, Nat.ofDigitChars_cons]
      exact digitsVal_natText _
    · rw [if_pos h]; rfl
  · refine ⟨natText e.natAbs, isDigits_natText _, digitsVal_natText _, ?_⟩
    rw [if_neg h]; rfl

theorem lexExponent_some (e : Int) {rest : List Char} (hr : Stops rest) :
    lexExponent ('e' :: exponentText e ++ rest) = some (e, rest) := by
  obtain ⟨ds, h1, h2, h3⟩ := exponentText_eq e
  obtain ⟨hn, hd⟩ := digits_clean h1
  obtain ⟨t1, t2⟩ := takeWhile_stops ds rest hd (stops_digit hr)
  have hemp : ds.isEmpty = false := by cases ds <;> simp_all
  rw [h3]
  by_cases he : e < 0
  · rw [if_pos he]
    simp only [List.cons_append, lexExponent, signOf, t1, t2, hemp, h2, Bool.false_eq_true, if_false, if_true]
    congr 2; omega
  · rw [if_neg he]
    simp only [List.cons_append, lexExponent, signOf, t1, t2, hemp, h2, Bool.false_eq_true, if_false]
    congr 2; omega

/-- Digits, perhaps with a point and digits, and an exponent or nothing. -/
theorem lexNum_gen {a b F X rest : List Char} {e : Int} (ha : isDigits a = true) (hb : ∀ c ∈ b, c.isDigit = true)
    (hF : F = [] ∧ b = [] ∧ X.head? ≠ some '.' ∨ F = '.' :: b) (hX : ∀ c, X.head? = some c → c.isDigit = false)
    (hE : lexExponent X = some (e, rest)) (hr : Stops rest) :
    lexNum (a ++ F ++ X) = some (((digitsVal a : ℚ) + (digitsVal b : ℚ) / 10 ^ b.length) * 10 ^ e, rest) := by
  obtain ⟨_, hd⟩ := digits_clean ha
  have hrest : ((rest.head?.map sqlNameChar).getD false) = false := by
    cases hh : rest.head? with
    | none => rfl
    | some c => exact stops_name hr c hh
  unfold lexNum
  rcases hF with ⟨rfl, rfl, hX'⟩ | rfl
  · obtain ⟨t1, t2⟩ := takeWhile_stops a X hd hX
    rw [List.append_nil, t1, t2]
    have : lexFrac X = ([], X) := by
      rw [lexFrac]
      rintro r rfl
      exact hX' rfl
    simp only [this, hE, hrest, Bool.false_eq_true, if_false]
  · obtain ⟨t1, t2⟩ := takeWhile_stops a ('.' :: b ++ X) hd (by intro c hc; cases hc; decide)
    obtain ⟨u1, u2⟩ := takeWhile_stops b X hb hX
    rw [List.append_assoc, t1, t2]
    simp only [List.cons_append, lexFrac, u1, u2, hE, hrest, Bool.false_eq_true, if_false]

theorem lex_num {s rest : List Char} {q : ℚ} (hs : ∃ c w, s = c :: w ∧ c.isDigit = true) (h : lexNum (s ++ rest) = some (q, rest)) :
    sqlLex (s ++ rest) = (sqlLex rest).map (Tok.num q :: ·) := by
  obtain ⟨c, w, rfl, hc⟩ := hs
  have hb := isDigit_not_blank hc
  have ha : (c.isAlpha || c = '_') = false := by
    simp only [Char.isDigit, Bool.and_eq_true, decide_eq_true_eq, UInt32.le_iff_toNat_le] at hc
    have hn : 48 ≤ c.toNat ∧ c.toNat ≤ 57 := ⟨hc.1, hc.2⟩
    have key : ∀ d : Char, (d.toNat < 48 ∨ 57 < d.toNat) → c ≠ d := by
      intro d hd e; subst e; omega
    have h_ := key '_' (by decide)
    have h1 : c.isAlpha = false := by
      rw [Bool.eq_false_iff]
      intro h
      simp only [Char.isAlpha, Char.isUpper, Char.isLower, Bool.or_eq_true, Bool.and_eq_true, decide_eq_true_eq] at h
      have : 65 ≤ c.toNat ∧ c.toNat ≤ 90 ∨ 97 ≤ c.toNat ∧ c.toNat ≤ 122 := by
        rcases h with h | h
        · exact .inl ⟨h.1, h.2⟩
        · exact .inr ⟨h.1, h.2⟩
      omega
    simp [h1, h_]
  rw [List.cons_append] at h ⊢
  rw [sqlLex, List.length_cons, lexSteps]
  rw [if_neg (by simp [hb.1]), if_neg (by simp [hb.2.2.2.1]), if_neg hb.2.2.2.2.2.2.1, if_neg (by simp [ha]), if_pos hc, h]
  dsimp only
  rw [lexSteps_eq (by simp)]

theorem digits_head {s : List Char} (h : isDigits s = true) (t : List Char) : ∃ c w, s ++ t = c :: w ∧ c.isDigit = true := by
  obtain ⟨h1, h2⟩ := digits_clean h
  cases s with
  | nil => exact absurd rfl h1
  | cons c w => exact ⟨c, w ++ t, rfl, h2 c (by simp)⟩

theorem lex_nat (n : Nat) {rest : List Char} (hr : Stops rest) :
    sqlLex ((toString n).toList ++ rest) = (sqlLex rest).map (Tok.num (n : ℚ) :: ·) := by
  have e : (toString n).toList = natText n := by
    rw [natText]
    exact Nat.toList_repr
  rw [e]
  refine lex_num (by simpa using digits_head (isDigits_natText n) []) ?_
  have := lexNum_gen (a := natText n) (b := []) (F := []) (X := rest) (e := 0) (rest := rest) (isDigits_natText n) (by simp)
    (.inl ⟨rfl, rfl, stops_dot hr⟩) (stops_digit hr) (lexExponent_none (stops_e hr)) hr
  have e0 : digitsVal [] = 0 := rfl
  simpa [digitsVal_natText, e0] using this

theorem lex_minus {s : List Char} (h : ∃ c w, s = c :: w ∧ c.isDigit = true) :
    sqlLex ('-' :: s) = (sqlLex s).map (Tok.minus :: ·) := by
  obtain ⟨c, w, rfl, hc⟩ := h
  have hb := isDigit_not_blank hc
  rw [sqlLex, List.length_cons, lexSteps]
  rw [if_neg (by decide), if_neg (by simpa using hb.2.2.2.1), if_neg (by decide), if_neg (by decide), if_neg (by decide)]
  rfl

/-! ## Floats -/

theorem digitsVal_append (a b : List Char) : digitsVal (a ++ b) = digitsVal a * 10 ^ b.length + digitsVal b := by
  induction b using List.reverseRecOn with
  | nil => simp [digitsVal, Nat.ofDigitChars]
  | append_singleton b c ih =>
    simp only [digitsVal, Nat.ofDigitChars] at ih ⊢
    rw [← List.append_assoc, List.foldl_append, ih, List.foldl_append]
    simp only [List.foldl_cons, List.foldl_nil, List.length_append, List.length_singleton, pow_succ]
    ring

theorem digitsVal_digitText (ds : List Nat) (h : ∀ x ∈ ds, x < 10) : digitsVal (digitText ds) = ofDigits ds := by
  induction ds using List.reverseRecOn with
  | nil => rfl
  | append_singleton l x ih =>
    have hx := digitChar_val x (h x (by simp))
    have := ih fun y hy => h y (by simp [hy])
    simp only [digitText, List.map_append, List.map_cons, List.map_nil] at this ⊢
    rw [digitsVal_append, this, ofDigits, ofDigits, List.foldl_append]
    simp only [List.foldl_cons, List.foldl_nil, List.length_singleton, digitsVal, Nat.ofDigitChars_cons, hx, Nat.ofDigitChars_nil]
    ring

theorem digitsVal_zeros (k : Nat) : digitsVal (List.replicate k '0') = 0 := by
  induction k with
  | zero => rfl
  | succ k ih =>
    rw [List.replicate_succ, digitsVal, Nat.ofDigitChars_cons]
    exact ih

theorem digitText_digits {ds : List Nat} (h : ∀ x ∈ ds, x < 10) : ∀ c ∈ digitText ds, c.isDigit = true := by
  intro c hc
  obtain ⟨x, hx, rfl⟩ := List.mem_map.1 hc
  exact digitChar_isDigit x (h x hx)

theorem zeros_digits (k : Nat) : ∀ c ∈ List.replicate k '0', c.isDigit = true := by
  intro c hc
  rw [(List.mem_replicate.1 hc).2]
  decide

/-- A float is read as the number it stands for. -/
theorem lex_float (d : Decimal) (h1 : d.digits ≠ []) (h2 : ∀ x ∈ d.digits, x < 10) :
    (∃ c w, floatText d = c :: w ∧ c.isDigit = true) ∧ ∀ rest, Stops rest →
      sqlLex (floatText d ++ rest) = (sqlLex rest).map (Tok.num (Decimal.value d) :: ·) := by
  have h10 : (10 : ℚ) ≠ 0 := by norm_num
  have htake : ∀ k, 0 < k → isDigits (digitText (d.digits.take k)) = true := fun k hk =>
    isDigits_frac _ (by simp [h1]; omega) fun x hx => h2 x (List.mem_of_mem_take hx)
  have hdrop : ∀ k, ∀ c ∈ digitText (d.digits.drop k), c.isDigit = true := fun k =>
    digitText_digits fun x hx => h2 x (List.mem_of_mem_drop hx)
  have hsplit : ∀ k, (ofDigits d.digits : ℚ) = digitsVal (digitText (d.digits.take k)) * 10 ^ (d.digits.drop k).length +
      digitsVal (digitText (d.digits.drop k)) := by
    intro k
    have : digitText d.digits = digitText (d.digits.take k) ++ digitText (d.digits.drop k) := by
      rw [digitText, digitText, digitText, ← List.map_append, List.take_append_drop]
    rw [← digitsVal_digitText _ h2, this, digitsVal_append]
    simp [digitText]
  -- the value after moving the point
  have hval : ∀ (k : Nat) (e : Int), k ≤ d.digits.length → d.point = k + e →
      ((digitsVal (digitText (d.digits.take k)) : ℚ) + digitsVal (digitText (d.digits.drop k)) / 10 ^ (digitText (d.digits.drop k)).length) * 10 ^ e =
        Decimal.value d := by
    intro k e hk he
    have hl : (digitText (d.digits.drop k)).length = d.digits.length - k := by simp [digitText]
    have hl' : (d.digits.drop k).length = d.digits.length - k := by simp
    rw [Decimal.value, hsplit k, hl, hl', he]
    have : (10 : ℚ) ^ ((k : Int) + e - d.digits.length) = 10 ^ e / 10 ^ (d.digits.length - k) := by
      rw [show (k : Int) + e - d.digits.length = e - ((d.digits.length - k : Nat) : Int) by omega, zpow_sub₀ h10, zpow_natCast]
    rw [this]
    field_simp
  unfold floatText
  by_cases hs : d.point ≤ -4 ∨ 16 < d.point
  · rw [if_pos hs]
    have hpos : 0 < d.digits.length := List.length_pos_iff.2 h1
    refine ⟨by rw [List.append_assoc]; exact digits_head (htake 1 one_pos) _, fun rest hr => ?_⟩
    refine lex_num (by rw [List.append_assoc]; exact digits_head (htake 1 one_pos) _) ?_
    have hv := hval 1 (d.point - 1) (by omega) (by push_cast; ring)
    rw [← hv, List.append_assoc]
    refine lexNum_gen (htake 1 one_pos) (hdrop 1) ?_ (by intro c hc; cases hc; decide) (lexExponent_some _ hr) hr
    by_cases hl : d.digits.length ≤ 1
    · rw [if_pos hl]
      left
      refine ⟨rfl, ?_, by simp⟩
      rw [List.drop_eq_nil_of_le hl]; rfl
    · rw [if_neg hl]; exact .inr rfl
  · rw [if_neg hs]
    by_cases hz : d.point ≤ 0
    · rw [if_pos hz]
      refine ⟨⟨'0', _, rfl, by decide⟩, fun rest hr => ?_⟩
      refine lex_num ⟨'0', _, rfl, by decide⟩ ?_
      have := lexNum_gen (a := ['0']) (b := List.replicate d.point.natAbs '0' ++ digitText d.digits) (X := rest) (e := 0)
        (F := '.' :: (List.replicate d.point.natAbs '0' ++ digitText d.digits)) (rest := rest) (by decide) (by
          intro c hc
          rcases List.mem_append.1 hc with hc | hc
          · exact zeros_digits _ c hc
          · exact digitText_digits h2 c hc) (.inr rfl) (stops_digit hr) (lexExponent_none (stops_e hr)) hr
      have e : (['0'] ++ '.' :: (List.replicate d.point.natAbs '0' ++ digitText d.digits) ++ rest : List Char) =
        '0' :: '.' :: (List.replicate d.point.natAbs '0' ++ digitText d.digits) ++ rest := by simp
      rw [e] at this
      rw [this]
      congr 2
      rw [digitsVal_append, digitsVal_zeros, digitsVal_digitText _ h2, Decimal.value]
      have e0 : digitsVal ['0'] = 0 := by decide
      have el : (List.replicate d.point.natAbs '0' ++ digitText d.digits).length = d.point.natAbs + d.digits.length := by simp [digitText]
      have ez : (10 : ℚ) ^ (d.point - d.digits.length) = 1 / 10 ^ (d.point.natAbs + d.digits.length) := by
        rw [show d.point - d.digits.length = -((d.point.natAbs + d.digits.length : Nat) : Int) by omega, zpow_neg,
          zpow_natCast, one_div]
      rw [e0, el, ez]
      simp [div_eq_mul_inv]
    · rw [if_neg hz]
      by_cases hl : d.digits.length ≤ d.point.natAbs
      · rw [if_pos hl]
        have hd : isDigits (digitText d.digits ++ List.replicate (d.point.natAbs - d.digits.length) '0') = true :=
          isDigits_append (isDigits_frac _ h1 h2) (zeros_digits _)
        refine ⟨digits_head hd _, fun rest hr => ?_⟩
        refine lex_num (digits_head hd _) ?_
        rw [lexNum_gen (b := ['0']) hd (by decide) (.inr rfl) (stops_digit hr) (lexExponent_none (stops_e hr)) hr]
        congr 2
        rw [digitsVal_append, digitsVal_zeros, digitsVal_digitText _ h2, Decimal.value]
        have e0 : digitsVal ['0'] = 0 := by decide
        have ez : (10 : ℚ) ^ (d.point - d.digits.length) = 10 ^ (d.point.natAbs - d.digits.length) := by
          rw [show d.point - d.digits.length = ((d.point.natAbs - d.digits.length : Nat) : Int) by omega, zpow_natCast]
        rw [e0, ez]
        simp
      · rw [if_neg hl]
        have hp : 0 < d.point.natAbs := by omega
        refine ⟨digits_head (htake _ hp) _, fun rest hr => ?_⟩
        refine lex_num (digits_head (htake _ hp) _) ?_
        rw [lexNum_gen (htake _ hp) (hdrop _) (.inr rfl) (stops_digit hr) (lexExponent_none (stops_e hr)) hr,
          hval d.point.natAbs 0 (by omega) (by omega)]

end DRec
