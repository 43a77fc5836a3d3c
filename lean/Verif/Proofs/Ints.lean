import Verif.Spec.Ints
import Verif.Proofs.Strings

/-! # `parseInt` is `int()` -/

namespace Warcio

variable [PyUni]

/-- The digit loop of `int(s)`. -/
abbrev decLoop (prev : Bool) (acc : Nat) (s : Str) : Option Nat := digitsLoop PyUni.decimal (· == '_') 10 prev acc s

theorem decLoop_nil (prev : Bool) (acc : Nat) : decLoop prev acc [] = if prev then some acc else none := by
  unfold decLoop; rw [digitsLoop.eq_def]

theorem decLoop_digit {c : Char} {d : Nat} (h : PyUni.decimal c = some d) (prev : Bool) (acc : Nat) (s : Str) :
    decLoop prev acc (c :: s) = decLoop true (acc * 10 + d) s := by
  unfold decLoop; rw [digitsLoop.eq_def]; simp only [h]

theorem decimal_under : PyUni.decimal '_' = none := by
  rw [PyUni.decimal_ascii '_' (by decide)]; rfl

theorem decLoop_under {c : Char} {d : Nat} (h : PyUni.decimal c = some d) (acc : Nat) (s : Str) :
    decLoop true acc ('_' :: c :: s) = decLoop true (acc * 10 + d) s := by
  unfold decLoop; rw [digitsLoop.eq_def]; simp [h, decimal_under]

theorem digitStr_loop {t : Str} {n : Nat} (h : DigitStr t n) (prev : Bool) (s : Str) :
    decLoop prev 0 (t ++ s) = decLoop true n s := by
  induction h generalizing s with
  | one h => rw [List.singleton_append, decLoop_digit h]; simp
  | snoc _ h ih => rw [List.append_assoc, ih, List.singleton_append, decLoop_digit h, Nat.mul_comm]
  | under _ h ih => rw [List.append_assoc, ih, List.cons_append, List.singleton_append, decLoop_under h, Nat.mul_comm]

theorem loop_digitStr_aux : ∀ (k : Nat) (s : Str), s.length ≤ k → ∀ (t : Str) (m n : Nat), DigitStr t m →
    decLoop true m s = some n → DigitStr (t ++ s) n := by
  intro k
  induction k with
  | zero =>
    intro s hk t m n ht h
    have : s = [] := List.length_eq_zero_iff.1 (by omega)
    subst this
    rw [decLoop_nil] at h
    simp only [if_true, Option.some.injEq] at h
    subst h; simpa using ht
  | succ k ih =>
    intro s hk t m n ht h
    cases s with
    | nil =>
      rw [decLoop_nil] at h
      simp only [if_true, Option.some.injEq] at h
      subst h; simpa using ht
    | cons c s =>
      simp only [List.length_cons] at hk
      cases hd : PyUni.decimal c with
      | some d =>
        rw [decLoop_digit hd, Nat.mul_comm] at h
        have := ih s (by omega) _ _ n (ht.snoc hd) h
        simpa using this
      | none =>
        unfold decLoop at h
        rw [digitsLoop.eq_def] at h
        simp only [hd, Bool.and_true] at h
        split at h
        · rename_i hu
          have hu' : c = '_' := by simpa using hu
          subst hu'
          cases s with
          | nil => cases h
          | cons c' s =>
            simp only [List.length_cons] at hk
            simp only at h
            cases hd' : PyUni.decimal c' with
            | none => rw [hd'] at h; cases h
            | some d =>
              rw [hd'] at h
              simp only at h
              rw [Nat.mul_comm] at h
              have := ih s (by omega) _ _ n (ht.under hd') h
              simpa using this
        · cases h

theorem loop_digitStr {s : Str} {n : Nat} (h : decLoop false 0 s = some n) : DigitStr s n := by
  cases s with
  | nil => rw [decLoop_nil] at h; cases h
  | cons c s =>
    cases hd : PyUni.decimal c with
    | some d =>
      rw [decLoop_digit hd] at h
      have := loop_digitStr_aux _ s (Nat.le_refl _) [c] d n (.one hd) (by simpa using h)
      simpa using this
    | none =>
      unfold decLoop at h
      rw [digitsLoop.eq_def] at h
      simp [hd] at h

theorem digitStr_eval {t : Str} {n : Nat} (h : DigitStr t n) : decLoop false 0 t = some n := by
  have := digitStr_loop h false []
  rw [List.append_nil] at this
  rw [this, decLoop_nil]; rfl

theorem digitStr_ends {t : Str} {n : Nat} (h : DigitStr t n) :
    (∃ c r d, t = c :: r ∧ PyUni.decimal c = some d) ∧ (∃ r c d, t = r ++ [c] ∧ PyUni.decimal c = some d) := by
  induction h with
  | one h => exact ⟨⟨_, [], _, rfl, h⟩, ⟨[], _, _, rfl, h⟩⟩
  | @snoc s n c d h hd ih =>
    obtain ⟨⟨c', r, d', rfl, h'⟩, _⟩ := ih
    exact ⟨⟨c', _, _, rfl, h'⟩, ⟨_, c, d, rfl, hd⟩⟩
  | @under s n c d h hd ih =>
    obtain ⟨⟨c', r, d', rfl, h'⟩, _⟩ := ih
    exact ⟨⟨c', _, _, rfl, h'⟩, ⟨(c' :: r) ++ ['_'], c, d, by simp, hd⟩⟩

theorem intSpace_isSpace {c : Char} (h : intSpace c = true) : isSpace c = true := by
  simp only [intSpace, Bool.or_eq_true, Bool.and_eq_true, decide_eq_true_eq, beq_iff_eq] at h
  rcases h with (h | h) | h
  · simp [isSpace]; omega
  · simp [isSpace]; omega
  · exact h.2

theorem decimal_not_space {c : Char} {d : Nat} (h : PyUni.decimal c = some d) : intSpace c = false := by
  cases hs : intSpace c with
  | false => rfl
  | true =>
    have := PyUni.decimal_space c d h
    rw [intSpace_isSpace hs] at this; cases this

/-- The middle part of a string between whitespace. -/
theorem strip_middle {a m b : Str} (ha : ∀ c ∈ a, intSpace c = true) (hb : ∀ c ∈ b, intSpace c = true)
    (h1 : ∃ c r, m = c :: r ∧ intSpace c = false) (h2 : ∃ r c, m = r ++ [c] ∧ intSpace c = false) :
    rdropWhile intSpace ((a ++ m ++ b).dropWhile intSpace) = m := by
  obtain ⟨c, r, rfl, hc⟩ := h1
  rw [List.append_assoc, List.dropWhile_append_of_pos ha, List.cons_append, List.dropWhile_cons, if_neg (by rw [hc]; simp)]
  rw [← List.cons_append, rdropWhile_append_all _ hb]
  obtain ⟨r', c', h, hc'⟩ := h2
  rw [h]
  exact rdropWhile_concat _ hc'

theorem strip_middle_inv (s : Str) : ∃ a b, s = a ++ rdropWhile intSpace (s.dropWhile intSpace) ++ b ∧
    (∀ c ∈ a, intSpace c = true) ∧ (∀ c ∈ b, intSpace c = true) := by
  obtain ⟨b, h1, h2⟩ := rdropWhile_spec intSpace (s.dropWhile intSpace)
  refine ⟨s.takeWhile intSpace, b, ?_, fun c hc => mem_takeWhile _ hc, h2⟩
  rw [List.append_assoc, ← h1, List.takeWhile_append_dropWhile]

theorem decimal_minus : PyUni.decimal '-' = none := by rw [PyUni.decimal_ascii '-' (by decide)]; rfl
theorem decimal_plus : PyUni.decimal '+' = none := by rw [PyUni.decimal_ascii '+' (by decide)]; rfl

/-- `parseInt` accepts exactly what `int()` is specified to accept. -/
theorem parseInt_iff (s : Str) (z : Int) : parseInt s = some z ↔ PyInt s z := by
  constructor
  · intro h
    obtain ⟨a, b, h1, h2, h3⟩ := strip_middle_inv s
    unfold parseInt at h
    simp only at h
    generalize rdropWhile intSpace (s.dropWhile intSpace) = m at *
    subst h1
    split at h
    · rename_i t
      rw [Option.map_eq_some_iff] at h
      obtain ⟨n, hn, rfl⟩ := h
      exact .minus h2 h3 (loop_digitStr hn)
    · rename_i t
      rw [Option.map_eq_some_iff] at h
      obtain ⟨n, hn, rfl⟩ := h
      exact .plus h2 h3 (loop_digitStr hn)
    · rw [Option.map_eq_some_iff] at h
      obtain ⟨n, hn, rfl⟩ := h
      exact .pos h2 h3 (loop_digitStr hn)
  · intro h
    cases h with
    | @pos a b t n ha hb ht =>
      obtain ⟨⟨c, r, d, e1, hd⟩, ⟨r', c', d', e2, hd'⟩⟩ := digitStr_ends ht
      unfold parseInt
      simp only
      rw [strip_middle ha hb ⟨c, r, e1, decimal_not_space hd⟩ ⟨r', c', e2, decimal_not_space hd'⟩]
      have hm : c ≠ '-' := by rintro rfl; rw [decimal_minus] at hd; cases hd
      have hp : c ≠ '+' := by rintro rfl; rw [decimal_plus] at hd; cases hd
      subst e1
      split
      · rename_i h; cases h; exact absurd rfl hm
      · rename_i h; cases h; exact absurd rfl hp
      · rw [Option.map_eq_some_iff]; exact ⟨n, digitStr_eval ht, rfl⟩
    | @plus a b t n ha hb ht =>
      obtain ⟨_, ⟨r', c', d', e2, hd'⟩⟩ := digitStr_ends ht
      unfold parseInt
      simp only
      rw [strip_middle (m := '+' :: t) ha hb ⟨'+', t, rfl, by decide⟩ ⟨'+' :: r', c', by rw [e2]; rfl, decimal_not_space hd'⟩]
      simp only
      rw [Option.map_eq_some_iff]; exact ⟨n, digitStr_eval ht, rfl⟩
    | @minus a b t n ha hb ht =>
      obtain ⟨_, ⟨r', c', d', e2, hd'⟩⟩ := digitStr_ends ht
      unfold parseInt
      simp only
      rw [strip_middle (m := '-' :: t) ha hb ⟨'-', t, rfl, by decide⟩ ⟨'-' :: r', c', by rw [e2]; rfl, decimal_not_space hd'⟩]
      simp only
      rw [Option.map_eq_some_iff]; exact ⟨n, digitStr_eval ht, rfl⟩

theorem decimal_digitChar {d : Nat} (h : d < 10) : PyUni.decimal (Nat.digitChar d) = some d := by
  rw [PyUni.decimal_ascii _ (by revert h; revert d; decide)]
  revert h; revert d; decide

theorem digitStr_natToStr (n : Nat) : DigitStr (natToStr n) n := by
  unfold natToStr
  induction n using Nat.strongRecOn with
  | _ n ih =>
    rw [Nat.toDigits_eq_if (by decide)]
    split
    · rename_i h; exact .one (decimal_digitChar h)
    · rename_i h
      have := (ih (n / 10) (by omega)).snoc (decimal_digitChar (Nat.mod_lt n (by decide : 0 < 10)))
      have e : 10 * (n / 10) + n % 10 = n := Nat.div_add_mod n 10
      rwa [e] at this

/-- `int(str(n)) == n`. -/
theorem parseInt_intToStr (z : Int) : parseInt (intToStr z) = some z := by
  rw [parseInt_iff]
  cases z with
  | ofNat n =>
    have := PyInt.pos (a := []) (b := []) (by simp) (by simp) (digitStr_natToStr n)
    simpa [intToStr] using this
  | negSucc n =>
    have := PyInt.minus (a := []) (b := []) (by simp) (by simp) (digitStr_natToStr (n + 1))
    have e : -((n + 1 : Nat) : Int) = Int.negSucc n := rfl
    rw [e] at this
    simpa [intToStr] using this

theorem parseInt_natToStr (n : Nat) : parseInt (natToStr n) = some (n : Int) := parseInt_intToStr (.ofNat n)

end Warcio
