import Verif.Model.Encoding
import Mathlib.Tactic.Linarith
import Mathlib.Algebra.Order.BigOperators.Group.List

/-!
# C95: texts survive being stored
-/

namespace DRec

/-- Only characters below 128. -/
def Ascii (t : List Char) : Prop := ∀ c ∈ t, c.val.toNat < 128

theorem decode_utf8 (t : List Char) : Enc.utf8.decode (writeText t) = some t := by
  simp [Enc.decode, writeText, List.utf8Decode?_utf8Encode]

theorem latin1_append (a b : ByteArray) : latin1Decode (a ++ b) = latin1Decode a ++ latin1Decode b := by
  simp [latin1Decode]

theorem write_cons (c : Char) (t : List Char) : writeText (c :: t) = writeText [c] ++ writeText t := by
  unfold writeText
  exact List.utf8Encode_cons

theorem size_one {c : Char} : c.utf8Size = 1 ↔ c.val.toNat < 128 := by
  have h : c.val ≤ 0x7f ↔ c.val.toNat < 128 := by
    rw [UInt32.le_iff_toNat_le]
    show c.val.toNat ≤ 127 ↔ _
    omega
  rw [← h]
  unfold Char.utf8Size
  by_cases h1 : c.val ≤ 0x7f
  · simp [h1]
  · by_cases h2 : c.val ≤ 0x7ff
    · simp [h1, h2]
    · by_cases h3 : c.val ≤ 0xffff <;> simp [h1, h2, h3]

theorem latin1_length (c : Char) : (latin1Decode (writeText [c])).length = c.utf8Size := by
  unfold latin1Decode writeText
  rw [List.utf8Encode_singleton]
  simp

theorem latin1_len (t : List Char) :
    t.length ≤ (latin1Decode (writeText t)).length ∧
    ((latin1Decode (writeText t)).length = t.length → Ascii t) := by
  induction t with
  | nil => exact ⟨Nat.zero_le _, fun _ c h => by cases h⟩
  | cons c t ih =>
    rw [write_cons, latin1_append, List.length_append, latin1_length, List.length_cons]
    have := Char.utf8Size_pos c
    refine ⟨by omega, fun h => ?_⟩
    have h1 : c.utf8Size = 1 := by omega
    intro x hx
    rcases List.mem_cons.1 hx with rfl | hx
    · exact size_one.1 h1
    · exact ih.2 (by omega) x hx

theorem latin1_ascii (t : List Char) (h : Ascii t) : latin1Decode (writeText t) = t := by
  induction t with
  | nil => rfl
  | cons c t ih =>
    rw [write_cons, latin1_append, ih fun x hx => h x (by simp [hx])]
    have hc := h c (by simp)
    have h1 := size_one.2 hc
    unfold latin1Decode writeText
    rw [List.utf8Encode_singleton, String.utf8EncodeChar_eq_singleton h1]
    simp only [List.data_toByteArray, List.map_cons, List.map_nil, List.cons_append,
      List.nil_append, List.cons.injEq, and_true]
    have e : (UInt32.toUInt8 c.val).toNat = c.val.toNat := by
      rw [UInt32.toNat_toUInt8]
      omega
    rw [e]
    exact Char.ofNat_toNat c

/-- **C95.** A text stored by the library and read back with encoding UTF-8 is unchanged, in both
backends. -/
theorem C95_utf8 (inMemory : Bool) (t : List Char) : readFile inMemory .utf8 (writeText t) = some t := by
  cases inMemory
  · simp [readFile, readDb, decode_utf8]
  · simp [readFile, readMem, decode_utf8]

/-- **C95 fails** for a dataset configured with encoding Latin-1: a stored text is read back unchanged
exactly when it is plain ASCII (both backends). -/
theorem C95_latin1_iff (inMemory : Bool) (t : List Char) :
    readFile inMemory .latin1 (writeText t) = some t ↔ Ascii t := by
  have hr : readFile inMemory .latin1 (writeText t) = some (latin1Decode (writeText t)) := by
    cases inMemory
    · show readDb .latin1 (writeText t) = _
      unfold readDb
      rw [decode_utf8]
      rfl
    · rfl
  rw [hr, Option.some.injEq]
  constructor
  · intro h
    exact (latin1_len t).2 (by rw [h])
  · exact latin1_ascii t

/-- **C95** (partial: UTF-8 configurations, or plain ASCII train records; the full property is for every
configuration and content and fails, see `C95_fails_repeat`).  A later call of `get_train_dataset`
returns what the first one returned. -/
theorem C95_repeat_partial (e : Enc) (inMemory : Bool) (part : List Char → List Char) (data : ByteArray)
    (t : List Char) (file : ByteArray) (h : firstTrain e inMemory part data = some (t, file))
    (ha : e = .utf8 ∨ Ascii t) : laterTrain e inMemory file = some t := by
  unfold firstTrain at h
  cases hg : getFull e inMemory data with
  | none => rw [hg] at h; cases h
  | some full =>
    rw [hg] at h
    simp only [Option.map_some, Option.some.injEq, Prod.mk.injEq] at h
    obtain ⟨rfl, rfl⟩ := h
    unfold laterTrain
    rcases ha with rfl | ha
    · exact C95_utf8 inMemory _
    · cases e
      · exact C95_utf8 inMemory _
      · exact (C95_latin1_iff inMemory _).2 ha

/-- **C95 fails**: with encoding Latin-1 (the Book-Crossing configuration), whenever a train record has
a character outside ASCII, a later call returns other records than the first one. -/
theorem C95_fails_repeat (inMemory : Bool) (part : List Char → List Char) (data : ByteArray)
    (t : List Char) (file : ByteArray) (h : firstTrain .latin1 inMemory part data = some (t, file))
    (ha : ¬ Ascii t) : laterTrain .latin1 inMemory file ≠ some t := by
  unfold firstTrain at h
  cases hg : getFull .latin1 inMemory data with
  | none => rw [hg] at h; cases h
  | some full =>
    rw [hg] at h
    simp only [Option.map_some, Option.some.injEq, Prod.mk.injEq] at h
    obtain ⟨rfl, rfl⟩ := h
    exact fun e => ha ((C95_latin1_iff inMemory _).1 e)

/-- **C95 fails** already for the full dataset: what is read after a download is the published text
exactly when that is plain ASCII. -/
theorem C95_download_iff (inMemory : Bool) (data : ByteArray) :
    getFull .latin1 inMemory data = some (latin1Decode data) ↔ Ascii (latin1Decode data) := by
  have : getFull .latin1 inMemory data = readFile inMemory .latin1 (writeText (latin1Decode data)) := rfl
  rw [this]
  exact C95_latin1_iff inMemory _

/-- **C95.** The database backend reads a file in the given encoding if the file happens to be valid
UTF-8 as well, and otherwise raises, while the in-memory backend reads it. -/
theorem C95_db_needs_utf8 (e : Enc) (b : ByteArray) :
    (b.IsValidUTF8 → readDb e b = readMem e b) ∧
    (¬ b.IsValidUTF8 → readDb e b = none ∧ ∃ t, readMem .latin1 b = some t) := by
  constructor
  · rintro ⟨m, rfl⟩
    unfold readDb readMem
    have := decode_utf8 m
    unfold writeText at this
    rw [this]
  · intro h
    refine ⟨?_, _, rfl⟩
    unfold readDb
    have : Enc.utf8.decode b = none := by
      unfold Enc.decode
      rw [Option.map_eq_none_iff]
      cases hd : b.utf8Decode? with
      | none => rfl
      | some a =>
        exfalso
        apply h
        refine ⟨a.toList, ?_⟩
        have := ByteArray.utf8Encode_get_utf8Decode? (b := b) (h := by simp [hd])
        simp only [hd, Option.get_some] at this
        exact this.symm
    rw [this]

/-! ## Examples -/

example : ¬ Ascii ['é'] ∧ Ascii "user,item".toList := by
  refine ⟨fun h => absurd (h 'é' (by simp)) (by decide), by unfold Ascii; decide⟩

/-- The byte of `é` in Latin-1 is not valid UTF-8. -/
example : (firstTrain .latin1 true id ⟨#[0xE9]⟩).map (·.1) = some ['Ã', '©'] := by decide +kernel

end DRec
