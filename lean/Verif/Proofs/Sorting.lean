import Verif.Proofs.TimeUtils
import Verif.Spec.Sorting

/-!
# Texts of fixed width sort like numbers

Lemmas for C92.
-/

namespace Warcio

open DateTime

set_option linter.unusedSectionVars false
variable [PyUni]

theorem textBefore_append : ∀ {x y : Str} {s t : Str}, x.length = y.length → (TextBefore (x ++ s) (y ++ t) ↔ TextBefore x y ∨ (x = y ∧ TextBefore s t))
  | [], [], s, t, _ => by
    constructor
    · intro h; exact .inr ⟨rfl, h⟩
    · rintro (h | ⟨-, h⟩)
      · cases h
      · exact h
  | a :: x, b :: y, s, t, h => by
    have ih := textBefore_append (x := x) (y := y) (s := s) (t := t) (by simpa using h)
    constructor
    · intro h
      cases h with
      | differ _ _ _ _ h => exact .inl (.differ _ _ _ _ h)
      | same _ _ _ h =>
        rcases ih.1 h with h1 | ⟨h1, h2⟩
        · exact .inl (.same _ _ _ h1)
        · exact .inr ⟨by rw [h1], h2⟩
    · rintro (h | ⟨h, h'⟩)
      · cases h with
        | differ _ _ _ _ h => exact .differ _ _ _ _ h
        | same _ _ _ h => exact .same _ _ _ (ih.2 (.inl h))
      · cases h
        exact .same _ _ _ (ih.2 (.inr ⟨rfl, h'⟩))

theorem textBefore_char (a b : Char) (s t : Str) : TextBefore (a :: s) (b :: t) ↔ a.toNat < b.toNat ∨ (a = b ∧ TextBefore s t) := by
  constructor
  · intro h
    cases h with
    | differ _ _ _ _ h => exact .inl h
    | same _ _ _ h => exact .inr ⟨rfl, h⟩
  · rintro (h | ⟨rfl, h⟩)
    · exact .differ _ _ _ _ h
    · exact .same _ _ _ h

theorem textBefore_cons (a : Char) (s t : Str) : TextBefore (a :: s) (a :: t) ↔ TextBefore s t := by
  rw [textBefore_char]
  constructor
  · rintro (h | ⟨-, h⟩)
    · omega
    · exact h
  · exact fun h => .inr ⟨rfl, h⟩

theorem not_textBefore_self : ∀ (s : Str), ¬ TextBefore s s
  | [], h => by cases h
  | a :: s, h => not_textBefore_self s ((textBefore_cons a s s).1 h)

theorem day_lt_100 {d : DateTime} (h : IsDate d) : d.day < 100 := by
  have h1 := h.day_le
  have h2 := monthLength_le d.year d.month
  omega

theorem digitChar_toNat {n : Nat} (h : n < 10) : (Nat.digitChar n).toNat = 48 + n := by
  have : ∀ n < 10, (Nat.digitChar n).toNat = 48 + n := by decide
  exact this n h

theorem digit_before {m n : Nat} (hm : m < 10) (hn : n < 10) : TextBefore [Nat.digitChar m] [Nat.digitChar n] ↔ m < n := by
  rw [textBefore_char, digitChar_toNat hm, digitChar_toNat hn]
  constructor
  · rintro (h | ⟨-, h⟩)
    · omega
    · cases h
  · exact fun h => .inl (by omega)

theorem pad_step {w n : Nat} (hw : 1 ≤ w) : pad (w + 1) n = pad w (n / 10) ++ [Nat.digitChar (n % 10)] := by
  unfold pad
  by_cases h : n < 10
  · rw [natToStr_small h, Nat.div_eq_of_lt h, Nat.mod_eq_of_lt h, natToStr_small (by decide : 0 < 10)]
    obtain ⟨k, rfl⟩ : ∃ k, w = k + 1 := ⟨w - 1, by omega⟩
    simp only [List.length_singleton, Nat.add_sub_cancel, List.replicate_succ']
    rfl
  · rw [natToStr_step (by omega), List.length_append, List.length_singleton, Nat.add_sub_add_right, List.append_assoc]

/-- Numbers of the same width sort as they should. -/
theorem pad_before : ∀ {w m n : Nat}, 1 ≤ w → m < 10 ^ w → n < 10 ^ w → (TextBefore (pad w m) (pad w n) ↔ m < n)
  | 0, _, _, h, _, _ => by omega
  | 1, m, n, _, hm, hn => by
    have e : ∀ k, k < 10 → pad 1 k = [Nat.digitChar k] := by
      intro k hk
      unfold pad
      rw [natToStr_small hk]
      rfl
    rw [e m (by simpa using hm), e n (by simpa using hn)]
    exact digit_before (by simpa using hm) (by simpa using hn)
  | w + 2, m, n, _, hm, hn => by
    have e : 10 ^ (w + 2) = 10 ^ (w + 1) * 10 := Nat.pow_succ _ _
    have hm' : m / 10 < 10 ^ (w + 1) := by rw [e] at hm; omega
    have hn' : n / 10 < 10 ^ (w + 1) := by rw [e] at hn; omega
    rw [pad_step (w := w + 1) (n := m) (by omega), pad_step (w := w + 1) (n := n) (by omega), textBefore_append (by rw [pad_length (by omega) hm', pad_length (by omega) hn']),
      pad_before (by omega) hm' hn', digit_before (Nat.mod_lt _ (by decide)) (Nat.mod_lt _ (by decide))]
    constructor
    · rintro (h | ⟨h, h'⟩)
      · omega
      · have := pad_inj h; omega
    · intro h
      by_cases he : m / 10 = n / 10
      · exact .inr ⟨by rw [he], by omega⟩
      · exact .inl (by omega)

theorem pad_append_before {w m n : Nat} (hw : 1 ≤ w) (hm : m < 10 ^ w) (hn : n < 10 ^ w) (s t : Str) :
    TextBefore (pad w m ++ s) (pad w n ++ t) ↔ m < n ∨ (m = n ∧ TextBefore s t) := by
  rw [textBefore_append (by rw [pad_length hw hm, pad_length hw hn]), pad_before hw hm hn]
  constructor
  · rintro (h | ⟨h, h'⟩)
    · exact .inl h
    · exact .inr ⟨pad_inj h, h'⟩
  · rintro (h | ⟨rfl, h'⟩)
    · exact .inl h
    · exact .inr ⟨rfl, h'⟩

end Warcio
