import Verif.Py.Basic

/-! # Facts about `takeLine` / `dropLine` and about `rdropWhile`, `split1` -/

namespace Warcio

theorem takeLine_append_dropLine (b : Bytes) : takeLine b ++ dropLine b = b := by
  induction b with
  | nil => rfl
  | cons x xs ih =>
    simp only [takeLine, dropLine]
    split
    · simp
    · simp [ih]

theorem takeLine_length_le (b : Bytes) : (takeLine b).length ≤ b.length := by
  have := congrArg List.length (takeLine_append_dropLine b)
  simp at this; omega

theorem drop_takeLine_length (b : Bytes) : b.drop (takeLine b).length = dropLine b := by
  have h := takeLine_append_dropLine b
  calc b.drop (takeLine b).length = (takeLine b ++ dropLine b).drop (takeLine b).length := by rw [h]
    _ = dropLine b := by simp

theorem take_takeLine_length (b : Bytes) : b.take (takeLine b).length = takeLine b := by
  have h := takeLine_append_dropLine b
  calc b.take (takeLine b).length = (takeLine b ++ dropLine b).take (takeLine b).length := by rw [h]
    _ = takeLine b := by simp

theorem takeLine_ne_nil {b : Bytes} (h : b ≠ []) : takeLine b ≠ [] := by
  cases b with
  | nil => exact absurd rfl h
  | cons x xs => simp only [takeLine]; split <;> simp

theorem takeLine_eq_nil {b : Bytes} : takeLine b = [] ↔ b = [] := by
  constructor
  · intro h; by_cases hb : b = []
    · exact hb
    · exact absurd h (takeLine_ne_nil hb)
  · rintro rfl; rfl

/-- A line that has no newline is the whole rest. -/
theorem takeLine_of_no_nl {b : Bytes} (h : (10 : UInt8) ∉ b) : takeLine b = b := by
  induction b with
  | nil => rfl
  | cons x xs ih =>
    simp only [List.mem_cons, not_or] at h
    simp only [takeLine]
    rw [if_neg (fun hx => h.1 hx.symm), ih h.2]

theorem dropLine_of_no_nl {b : Bytes} (h : (10 : UInt8) ∉ b) : dropLine b = [] := by
  induction b with
  | nil => rfl
  | cons x xs ih =>
    simp only [List.mem_cons, not_or] at h
    simp only [dropLine]
    rw [if_neg (fun hx => h.1 hx.symm), ih h.2]

/-- A newline-free part followed by a newline is a line. -/
theorem takeLine_append_nl {a : Bytes} (h : (10 : UInt8) ∉ a) (b : Bytes) :
    takeLine (a ++ 10 :: b) = a ++ [10] := by
  induction a with
  | nil => simp [takeLine]
  | cons x xs ih =>
    simp only [List.mem_cons, not_or] at h
    simp only [List.cons_append, takeLine]
    rw [if_neg (fun hx => h.1 hx.symm), ih h.2]

theorem dropLine_append_nl {a : Bytes} (h : (10 : UInt8) ∉ a) (b : Bytes) :
    dropLine (a ++ 10 :: b) = b := by
  induction a with
  | nil => simp [dropLine]
  | cons x xs ih =>
    simp only [List.mem_cons, not_or] at h
    simp only [List.cons_append, dropLine]
    rw [if_neg (fun hx => h.1 hx.symm), ih h.2]

/-- The line of a concatenation: either the first part has a full line, or the line goes on. -/
theorem takeLine_append (a b : Bytes) :
    takeLine (a ++ b) = if (10 : UInt8) ∈ a then takeLine a else a ++ takeLine b := by
  induction a with
  | nil => simp
  | cons x xs ih =>
    simp only [List.cons_append, takeLine, List.mem_cons]
    by_cases hx : x = 10
    · simp [hx]
    · have hx' : ¬ (10 : UInt8) = x := fun h => hx h.symm
      simp only [hx, hx', if_false, ih, false_or]
      split <;> rfl

theorem mem_nl_takeLine {b : Bytes} : (10 : UInt8) ∈ takeLine b ↔ (10 : UInt8) ∈ b := by
  induction b with
  | nil => simp [takeLine]
  | cons x xs ih =>
    simp only [takeLine]
    by_cases hx : x = 10
    · simp [hx]
    · have hx' : ¬ (10 : UInt8) = x := fun h => hx h.symm
      simp [hx, hx', ih]

theorem endsWith_nl_takeLine {b : Bytes} : endsWith [10] (takeLine b) = decide ((10 : UInt8) ∈ b) := by
  induction b with
  | nil => rfl
  | cons x xs ih =>
    simp only [takeLine]
    by_cases hx : x = 10
    · simp [hx, endsWith]
    · have hx' : ¬ (10 : UInt8) = x := fun h => hx h.symm
      simp only [hx, if_false, List.mem_cons, hx', false_or]
      rw [← ih]
      cases h : takeLine xs with
      | nil =>
        rw [Bool.eq_iff_iff]; simp only [endsWith, List.isSuffixOf_iff_suffix]
        constructor
        · intro h
          rcases h with ⟨t, ht⟩
          cases t with
          | nil => simp at ht; exact absurd ht.symm hx
          | cons y ys => simp at ht
        · intro h; rcases h with ⟨t, ht⟩; simp at ht
      | cons y ys =>
        rw [Bool.eq_iff_iff]; simp only [endsWith, List.isSuffixOf_iff_suffix]
        constructor
        · rintro ⟨t, ht⟩
          cases t with
          | nil => simp at ht
          | cons z zs => simp at ht; exact ⟨zs, by simpa using ht.2⟩
        · rintro ⟨t, ht⟩; exact ⟨x :: t, by simp at ht ⊢; exact ht⟩

/-- A prefix of a line that ends in a newline is the line. -/
theorem endsWith_nl_of_mem {a : Bytes} : endsWith [10] a = true → (10 : UInt8) ∈ a := by
  simp only [endsWith, List.isSuffixOf_iff_suffix]
  rintro ⟨t, rfl⟩; simp

end Warcio
