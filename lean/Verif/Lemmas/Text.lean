import Verif.Model.QueryText
import Verif.Spec.Query
import Mathlib.Tactic.FieldSimp
import Mathlib.Tactic.Ring

/-! # Lemmas about splitting, stripping and number texts -/

namespace DRec

open Spec

theorem pySplit_ne_nil (sep : Char) (s : List Char) : pySplit sep s ≠ [] := by
  cases s with
  | nil => simp [pySplit]
  | cons c cs =>
    unfold pySplit
    split
    · simp
    · split <;> simp

theorem pySplit_none (sep : Char) (s : List Char) (h : sep ∉ s) : pySplit sep s = [s] := by
  induction s with
  | nil => rfl
  | cons c cs ih =>
    simp only [List.mem_cons, not_or] at h
    simp [pySplit, ih h.2, Ne.symm h.1]

theorem pySplit_append (sep : Char) (a b : List Char) (h : sep ∉ a) :
    pySplit sep (a ++ sep :: b) = a :: pySplit sep b := by
  induction a with
  | nil => simp [pySplit]
  | cons c cs ih =>
    simp only [List.mem_cons, not_or] at h
    simp [pySplit, ih h.2, Ne.symm h.1]

theorem dropWhile_blank_append (a b : List Char) (h : ∀ x ∈ a, x.isWhitespace = true) :
    (a ++ b).dropWhile Char.isWhitespace = b.dropWhile Char.isWhitespace := by
  induction a with
  | nil => rfl
  | cons c cs ih =>
    have hc : c.isWhitespace = true := h c (by simp)
    simp only [List.cons_append, List.dropWhile_cons, hc, if_true]
    exact ih fun x hx => h x (by simp [hx])

theorem dropWhile_head (b : List Char) (h : ∀ x, b.head? = some x → x.isWhitespace = false) :
    b.dropWhile Char.isWhitespace = b := by
  cases b with
  | nil => rfl
  | cons c cs => simp [h c rfl]

/-- Stripping removes exactly the blank padding. -/
theorem strip_pad (a s b : List Char) (ha : Blank a) (hb : Blank b)
    (hh : ∀ x, s.head? = some x → x.isWhitespace = false)
    (hl : ∀ x, s.getLast? = some x → x.isWhitespace = false) :
    strip (a ++ s ++ b) = s := by
  unfold strip
  rw [List.append_assoc, dropWhile_blank_append a _ ha]
  by_cases hs : s = []
  · subst hs
    have : (([] : List Char) ++ b).dropWhile Char.isWhitespace = [] := by
      have := dropWhile_blank_append b [] hb
      simpa using this
    rw [this]; rfl
  · have h1 : (s ++ b).dropWhile Char.isWhitespace = s ++ b := by
      apply dropWhile_head
      intro x hx
      apply hh
      cases s with
      | nil => exact absurd rfl hs
      | cons c cs => simpa using hx
    rw [h1, List.reverse_append, dropWhile_blank_append b.reverse _ (by
      intro x hx; exact hb x (by simpa using hx)), dropWhile_head, List.reverse_reverse]
    intro x hx
    apply hl
    simpa using hx

/-! ## Digits -/

theorem isDigits_natText (n : Nat) : isDigits (natText n) = true := by
  unfold isDigits natText
  have h1 : Nat.toDigits 10 n ≠ [] := by
    intro h
    have := Nat.length_toDigits_pos (b := 10) (n := n)
    simp [h] at this
  have h2 : (Nat.toDigits 10 n).all Char.isDigit = true := by
    rw [List.all_eq_true]
    intro c hc
    exact Nat.isDigit_of_mem_toDigits (by decide) (by decide) hc
  cases h : Nat.toDigits 10 n with
  | nil => exact absurd h h1
  | cons a l => rw [h] at h2; simpa using h2

theorem digitsVal_natText (n : Nat) : digitsVal (natText n) = n :=
  Nat.ofDigitChars_toDigits (by decide) (by decide)

theorem isDigit_not_blank {c : Char} (h : c.isDigit = true) :
    c.isWhitespace = false ∧ c ≠ ',' ∧ c ≠ '.' ∧ c ≠ '-' ∧ c ≠ '+' ∧ c ≠ '\'' ∧ c ≠ '"' ∧ c ≠ ' ' := by
  simp only [Char.isDigit, Bool.and_eq_true, decide_eq_true_eq, UInt32.le_iff_toNat_le] at h
  have hn : 48 ≤ c.toNat ∧ c.toNat ≤ 57 := ⟨h.1, h.2⟩
  have key : ∀ d : Char, (d.toNat < 48 ∨ 57 < d.toNat) → c ≠ d := by
    intro d hd e; subst e; omega
  refine ⟨?_, key _ (by decide), key _ (by decide), key _ (by decide), key _ (by decide),
    key _ (by decide), key _ (by decide), key _ (by decide)⟩
  have := key ' ' (by decide)
  have := key '\t' (by decide)
  have := key '\r' (by decide)
  have := key '\n' (by decide)
  simp_all [Char.isWhitespace]

theorem digits_clean {s : List Char} (h : isDigits s = true) :
    s ≠ [] ∧ ∀ c ∈ s, c.isDigit = true := by
  simp only [isDigits, Bool.and_eq_true, Bool.not_eq_true', List.isEmpty_eq_false_iff,
    List.all_eq_true] at h
  exact h

theorem signOf_digits {s : List Char} (h : isDigits s = true) : signOf s = (false, s) := by
  obtain ⟨h1, h2⟩ := digits_clean h
  cases s with
  | nil => exact absurd rfl h1
  | cons c cs =>
    have hc := isDigit_not_blank (h2 c (by simp))
    unfold signOf
    split
    · next heq => simp only [List.cons.injEq] at heq; exact absurd heq.1 hc.2.2.2.1
    · next heq => simp only [List.cons.injEq] at heq; exact absurd heq.1 hc.2.2.2.2.1
    · rfl

/-- `int` of the text of an integer is that integer. -/
theorem pyInt_text (n : Int) : pyInt (SLit.int n).text = some n := by
  unfold SLit.text
  by_cases h : n < 0
  · simp only [h, if_true, pyInt, signOf, isDigits_natText, digitsVal_natText]
    congr 1; omega
  · simp only [h, if_false, pyInt, signOf_digits (isDigits_natText _), isDigits_natText,
      digitsVal_natText, if_true]
    simp only [Bool.false_eq_true, if_false]
    congr 1; omega

theorem natText_no_dot (n : Nat) : '.' ∉ natText n := by
  intro h
  exact (isDigit_not_blank ((digits_clean (isDigits_natText n)).2 _ h)).2.2.1 rfl

theorem digitChar_isDigit (d : Nat) (h : d < 10) : (Nat.digitChar d).isDigit = true := by
  have : ∀ d : Fin 10, (Nat.digitChar d.1).isDigit = true := by decide
  exact this ⟨d, h⟩

theorem digitChar_val (d : Nat) (h : d < 10) : (Nat.digitChar d).toNat - '0'.toNat = d := by
  have : ∀ d : Fin 10, (Nat.digitChar d.1).toNat - '0'.toNat = d.1 := by decide
  exact this ⟨d, h⟩

theorem isDigits_frac (f : List Nat) (h1 : f ≠ []) (h2 : ∀ d ∈ f, d < 10) :
    isDigits (f.map Nat.digitChar) = true := by
  unfold isDigits
  cases f with
  | nil => exact absurd rfl h1
  | cons a l =>
    simp only [List.map_cons, List.isEmpty_cons, Bool.not_false, Bool.true_and, List.all_cons,
      Bool.and_eq_true, List.all_map, List.all_eq_true]
    exact ⟨digitChar_isDigit a (h2 a (by simp)),
      fun x hx => digitChar_isDigit x (h2 x (by simp [hx]))⟩

theorem ofDigitChars_frac (f : List Nat) (h2 : ∀ d ∈ f, d < 10) (acc : Nat) :
    (Nat.ofDigitChars 10 (f.map Nat.digitChar) acc : ℚ) / (10 ^ f.length : ℕ) = acc + fracVal f := by
  induction f generalizing acc with
  | nil => simp [fracVal, Nat.ofDigitChars]
  | cons d ds ih =>
    have hd : d < 10 := h2 d (by simp)
    have h := ih (fun x hx => h2 x (by simp [hx])) (10 * acc + d)
    simp only [List.map_cons, Nat.ofDigitChars_cons, digitChar_val d hd, List.length_cons]
    rw [pow_succ, Nat.cast_mul, ← div_div, h]
    simp only [fracVal]
    push_cast
    ring

theorem digitsVal_frac (f : List Nat) (h2 : ∀ d ∈ f, d < 10) :
    (digitsVal (f.map Nat.digitChar) : ℚ) / (10 ^ (f.map Nat.digitChar).length : ℕ) = fracVal f := by
  have := ofDigitChars_frac f h2 0
  simpa [digitsVal] using this

theorem pyDecimal_nat (n : Nat) : pyDecimal (natText n) = some (n : ℚ) := by
  unfold pyDecimal
  rw [pySplit_none _ _ (natText_no_dot n)]
  simp [isDigits_natText, digitsVal_natText]

theorem frac_no_dot (f : List Nat) (h2 : ∀ d ∈ f, d < 10) : '.' ∉ f.map Nat.digitChar := by
  intro h
  simp only [List.mem_map] at h
  obtain ⟨d, hd, he⟩ := h
  have := (isDigit_not_blank (digitChar_isDigit d (h2 d hd))).2.2.1
  exact this he

theorem pyDecimal_dec (w : Nat) (f : List Nat) (h1 : f ≠ []) (h2 : ∀ d ∈ f, d < 10) :
    pyDecimal (natText w ++ '.' :: f.map Nat.digitChar) = some ((w : ℚ) + fracVal f) := by
  unfold pyDecimal
  rw [pySplit_append _ _ _ (natText_no_dot w), pySplit_none _ _ (frac_no_dot f h2)]
  have ha := isDigits_natText w
  have hb := isDigits_frac f h1 h2
  have hae : (natText w).isEmpty = false := by simpa using (digits_clean ha).1
  simp only [ha, hb, hae, digitsVal_natText, digitsVal_frac f h2]
  simp

theorem signOf_natText_append (w : Nat) (t : List Char) :
    signOf (natText w ++ t) = (false, natText w ++ t) := by
  obtain ⟨h1, h2⟩ := digits_clean (isDigits_natText w)
  cases h : natText w with
  | nil => exact absurd h h1
  | cons c cs =>
    have hc := isDigit_not_blank (h2 c (by simp [h]))
    simp only [List.cons_append]
    unfold signOf
    split
    · next heq => simp only [List.cons.injEq] at heq; exact absurd heq.1 hc.2.2.2.1
    · next heq => simp only [List.cons.injEq] at heq; exact absurd heq.1 hc.2.2.2.2.1
    · rfl

/-- The number meant by a numeric literal. -/
def numOf : SLit → Option ℚ
  | .int n => some n
  | .dec neg w f => some (if neg then -((w : ℚ) + fracVal f) else (w : ℚ) + fracVal f)
  | .str _ => none

/-- `float` of the text of a numeric literal is its value. -/
theorem pyFloat_text (l : SLit) (hw : l.Writable) (q : ℚ) (hq : numOf l = some q) :
    pyFloat l.text = some q := by
  cases l with
  | str s => simp [numOf] at hq
  | int n =>
    simp only [numOf, Option.some.injEq] at hq
    subst hq
    unfold SLit.text
    by_cases h : n < 0
    · simp only [h, if_true, pyFloat, signOf, pyDecimal_nat, Option.map_some]
      congr 1
      rw [← Int.cast_natCast, ← Int.cast_neg]
      congr 1; omega
    · simp only [h, if_false, pyFloat, signOf_digits (isDigits_natText _), pyDecimal_nat,
        Option.map_some, Bool.false_eq_true]
      congr 1
      rw [← Int.cast_natCast]
      congr 1; omega
  | dec neg w f =>
    simp only [numOf, Option.some.injEq] at hq
    subst hq
    obtain ⟨h1, h2⟩ := hw
    unfold SLit.text pyFloat
    cases neg
    · simp only [Bool.false_eq_true, if_false, List.nil_append, signOf_natText_append,
        pyDecimal_dec w f h1 h2, Option.map_some]
    · simp only [if_true, List.cons_append, List.nil_append, signOf, pyDecimal_dec w f h1 h2,
        Option.map_some]

/-- Literals as Python objects. -/
def litOf : SLit → Lit
  | .int n => .int n
  | .dec neg w f => .flt (if neg then -((w : ℚ) + fracVal f) else (w : ℚ) + fracVal f)
  | .str s => .str s

theorem litOf_toVal (l : SLit) : (litOf l).toVal = l.value := by
  cases l <;> rfl

theorem natText_lead (n : Nat) :
    ((natText n).head? = some '0' && !((natText n).all (· = '0'))) = false := by
  by_cases h0 : n = 0
  · subst h0; decide
  · have : (natText n).head? ≠ some '0' := by
      intro h
      have hlen : ∀ m, 0 < m → (Nat.toDigits 10 m).head? ≠ some '0' := by
        intro m
        induction m using Nat.strongRecOn with
        | _ m ih =>
          intro hm
          by_cases hlt : m < 10
          · have h10 : ∀ m : Fin 10, 0 < m.1 → (Nat.toDigits 10 m.1).head? ≠ some '0' := by decide
            exact h10 ⟨m, hlt⟩ hm
          · rw [Nat.toDigits_of_base_le (by decide) (by omega)]
            have := ih (m / 10) (by omega) (by omega)
            intro hh
            apply this
            cases hd : Nat.toDigits 10 (m / 10) with
            | nil =>
              have := Nat.length_toDigits_pos (b := 10) (n := m / 10)
              simp [hd] at this
            | cons a l => rw [hd] at hh; simpa using hh
      exact hlen n (by omega) h
    simp [this]

theorem cons_digits_ne {d : List Char} (h : isDigits d = true) (q : Char) (hq : q = '\'' ∨ q = '"')
    (t rest : List Char) : d ++ t ≠ q :: rest := by
  obtain ⟨h1, h2⟩ := digits_clean h
  cases d with
  | nil => exact absurd rfl h1
  | cons c cs =>
    intro he
    simp only [List.cons_append, List.cons.injEq] at he
    have hc := isDigit_not_blank (h2 c (by simp))
    rcases hq with rfl | rfl
    · exact hc.2.2.2.2.2.1 he.1
    · exact hc.2.2.2.2.2.2.1 he.1

/-- `eval` of the text of a literal is that literal. -/
theorem pyEval_text (l : SLit) (hw : l.Writable) : pyEval l.text = some (litOf l) := by
  cases l with
  | str s =>
    unfold SLit.text pyEval
    simp only [List.cons_append, List.reverse_append, List.reverse_cons, List.reverse_nil,
      List.nil_append]
    have : plainBody '\'' s.toList.reverse = true := by
      unfold plainBody
      rw [List.all_eq_true]
      intro c hc
      have := hw c (by simpa using hc)
      simp [this.1, this.2.1]
    simp [this, litOf]
  | int n =>
    have key : ∀ neg, signOf ((if neg then ['-'] else []) ++ natText n.natAbs)
        = (neg, natText n.natAbs) := by
      intro neg; cases neg
      · simpa using signOf_digits (isDigits_natText n.natAbs)
      · rfl
    unfold SLit.text
    by_cases h : n < 0
    · simp only [h, if_true]
      unfold pyEval
      have hk := key true
      simp only [if_true, List.cons_append, List.nil_append] at hk
      split
      · next heq => simp at heq
      · next heq => simp at heq
      · simp only [hk, isDigits_natText, natText_lead, if_true, digitsVal_natText, litOf,
          Bool.false_eq_true, if_false]
        congr 2; omega
    · simp only [h, if_false]
      unfold pyEval
      have hk := key false
      simp only [Bool.false_eq_true, if_false, List.nil_append] at hk
      split
      · next heq =>
          rw [← List.append_nil (natText _)] at heq
          exact absurd heq (cons_digits_ne (isDigits_natText n.natAbs) '\'' (Or.inl rfl) [] _)
      · next heq =>
          rw [← List.append_nil (natText _)] at heq
          exact absurd heq (cons_digits_ne (isDigits_natText n.natAbs) '"' (Or.inr rfl) [] _)
      · simp only [hk, isDigits_natText, natText_lead, if_true, digitsVal_natText, litOf,
          Bool.false_eq_true, if_false]
        congr 2; omega
  | dec neg w f =>
    have hfl := pyFloat_text (.dec neg w f) hw _ rfl
    obtain ⟨h1, h2⟩ := hw
    have hnd : isDigits (natText w ++ '.' :: f.map Nat.digitChar) = false := by
      by_contra hc
      have := (digits_clean (by simpa using hc)).2 '.' (by simp)
      simp at this
    unfold SLit.text at hfl ⊢
    cases neg
    · simp only [Bool.false_eq_true, if_false, List.nil_append] at hfl ⊢
      unfold pyEval
      split
      · next heq => exact absurd heq (cons_digits_ne (isDigits_natText w) '\'' (Or.inl rfl) _ _)
      · next heq => exact absurd heq (cons_digits_ne (isDigits_natText w) '"' (Or.inr rfl) _ _)
      · simp only [signOf_natText_append, hnd, Bool.false_eq_true, if_false, hfl, Option.map_some,
          litOf]
    · simp only [if_true, List.cons_append, List.nil_append] at hfl ⊢
      unfold pyEval
      split
      · next heq => simp at heq
      · next heq => simp at heq
      · simp only [signOf, hnd, Bool.false_eq_true, if_false, hfl, Option.map_some, litOf, if_true]

/-! ## Whole queries -/

theorem natText_chars (n : Nat) : ∀ c ∈ natText n, c ≠ ',' ∧ c.isWhitespace = false := by
  intro c hc
  have := isDigit_not_blank ((digits_clean (isDigits_natText n)).2 c hc)
  exact ⟨this.2.1, this.1⟩

/-- A writable literal has no comma and no whitespace and is not empty. -/
theorem lit_text_clean (l : SLit) (hw : l.Writable) :
    l.text ≠ [] ∧ ∀ c ∈ l.text, c ≠ ',' ∧ c.isWhitespace = false := by
  cases l with
  | int n =>
    have h1 := (digits_clean (isDigits_natText n.natAbs)).1
    by_cases hneg : n < 0 <;> simp only [SLit.text, hneg, if_true, if_false]
    · refine ⟨by simp, ?_⟩
      intro c hc
      simp only [List.mem_cons] at hc
      rcases hc with rfl | hc
      · decide
      · exact natText_chars _ c hc
    · exact ⟨h1, natText_chars _⟩
  | dec neg w f =>
    unfold SLit.text
    obtain ⟨h1, h2⟩ := hw
    refine ⟨by simp, ?_⟩
    intro c hc
    simp only [List.mem_append, List.mem_cons, List.mem_map] at hc
    rcases hc with (hc | hc) | hc | ⟨d, hd, rfl⟩
    · cases neg <;> simp at hc
      subst hc; decide
    · exact natText_chars _ c hc
    · subst hc; decide
    · have := isDigit_not_blank (digitChar_isDigit d (h2 d hd))
      exact ⟨this.2.1, this.1⟩
  | str s =>
    unfold SLit.text
    refine ⟨by simp, ?_⟩
    intro c hc
    simp only [List.cons_append, List.mem_cons, List.mem_append, List.not_mem_nil, or_false] at hc
    rcases hc with rfl | hc | rfl
    · decide
    · have := hw c hc
      exact ⟨this.2.2.1, this.2.2.2⟩
    · decide

theorem op_text_clean (op : Op) :
    op.text.toList ≠ [] ∧ ∀ c ∈ op.text.toList, c ≠ ',' ∧ c.isWhitespace = false := by
  cases op <;> decide

theorem op_ofText (op : Op) : Op.ofText op.text = some op := by cases op <;> decide

theorem blank_ne {c : Char} (h : c.isWhitespace = false) : ' ' ≠ c := by
  rintro rfl; revert h; decide

/-- The raw condition a written condition should parse to. -/
def rawOf (c : SCond) : RawCond := ⟨c.col, c.op.text, c.lit.text⟩

theorem parseSegment_text (c : SCond) (a b : List Char) (ha : Blank a) (hb : Blank b)
    (hn : NameOk c.col) (hw : c.lit.Writable) :
    parseSegment (a ++ c.text ++ b) = .ok (rawOf c) := by
  obtain ⟨hn1, hn2⟩ := hn
  obtain ⟨ho1, ho2⟩ := op_text_clean c.op
  obtain ⟨hl1, hl2⟩ := lit_text_clean c.lit hw
  unfold parseSegment
  rw [strip_pad a c.text b ha hb]
  · have e : c.text = c.col.toList ++ ' ' :: (c.op.text.toList ++ ' ' :: c.lit.text) := by
      simp [SCond.text]
    rw [e, pySplit_append, pySplit_append, pySplit_none]
    · simp [rawOf]
    · intro h; exact blank_ne (hl2 _ h).2 rfl
    · intro h; exact blank_ne (ho2 _ h).2 rfl
    · intro h; exact blank_ne (hn2 _ h).2 rfl
  · intro x hx
    cases h : c.col.toList with
    | nil => exact absurd h hn1
    | cons y ys =>
      simp only [SCond.text, h, List.cons_append, List.head?_cons, Option.some.injEq] at hx
      subst hx
      exact (hn2 y (by simp [h])).2
  · intro x hx
    have : c.lit.text.getLast? = some x := by
      simp only [SCond.text] at hx
      rw [List.getLast?_append] at hx
      cases hg : c.lit.text with
      | nil => exact absurd hg hl1
      | cons y ys =>
        rw [hg] at hx
        rw [List.getLast?_cons_cons] at hx
        cases hgl : (y :: ys).getLast? with
        | none => simp at hgl
        | some z => rw [hgl] at hx; simpa using hx
    exact (hl2 x (List.mem_of_getLast? this)).2

/-- Segments of a written query. -/
def segsOf (ws : List (List Char × SCond × List Char)) : List (List Char) :=
  ws.map fun w => w.1 ++ w.2.1.text ++ w.2.2

theorem seg_no_comma (w : List Char × SCond × List Char)
    (h : Blank w.1 ∧ Blank w.2.2 ∧ NameOk w.2.1.col ∧ w.2.1.lit.Writable) :
    ',' ∉ w.1 ++ w.2.1.text ++ w.2.2 := by
  obtain ⟨ha, hb, hn, hw⟩ := h
  intro hm
  simp only [SCond.text, List.mem_append, List.mem_cons] at hm
  have hcomma : Char.isWhitespace ',' = false := by decide
  rcases hm with (hm | (hm | hm | hm) | hm | hm) | hm
  · have := ha _ hm; simp [hcomma] at this
  · exact (hn.2 _ hm).1 rfl
  · revert hm; decide
  · exact ((op_text_clean w.2.1.op).2 _ hm).1 rfl
  · revert hm; decide
  · exact ((lit_text_clean _ hw).2 _ hm).1 rfl
  · have := hb _ hm; simp [hcomma] at this

theorem pySplit_queryText (ws : List (List Char × SCond × List Char)) (h : WellWritten ws) :
    pySplit ',' (queryText ws) = segsOf ws := by
  obtain ⟨hne, hall⟩ := h
  induction ws with
  | nil => exact absurd rfl hne
  | cons w rest ih =>
    cases rest with
    | nil =>
      obtain ⟨a, c, b⟩ := w
      have := seg_no_comma (a, c, b) (hall _ (by simp))
      simp only [queryText, segsOf, List.map_cons, List.map_nil]
      exact pySplit_none _ _ this
    | cons w2 rest2 =>
      obtain ⟨a, c, b⟩ := w
      have h1 := seg_no_comma (a, c, b) (hall _ (by simp))
      have h2 := ih (by simp) fun w hw => hall w (by simp [hw])
      rw [queryText, pySplit_append _ _ _ h1, h2]
      · rfl
      · simp

end DRec
