import Verif.Spec.Json
import Verif.Model.Tools

/-! # JSON lines decode to what was encoded -/

namespace Warcio
namespace Json

open Indexer

theorem hexVal_digit : ∀ n < 16, hexVal (hexDigit n) = some n := by decide

theorem hexDigit_ascii : ∀ n < 16, 32 ≤ (hexDigit n).toNat := by decide

theorem hex4_u {n : Nat} (hn : n < 65536) (t : Str) :
    hex4 (hexDigit (n / 4096 % 16) :: hexDigit (n / 256 % 16) :: hexDigit (n / 16 % 16) :: hexDigit (n % 16) :: t) = some (n, t) := by
  unfold hex4
  dsimp only
  rw [hexVal_digit _ (by omega), hexVal_digit _ (by omega), hexVal_digit _ (by omega), hexVal_digit _ (by omega)]
  dsimp only
  congr 2
  omega

theorem unicode_one {n : Nat} (hn : n < 65536) (h : n < 0xD800 ∨ 0xE000 ≤ n) (t : Str) :
    unicodeEscape (hexDigit (n / 4096 % 16) :: hexDigit (n / 256 % 16) :: hexDigit (n / 16 % 16) :: hexDigit (n % 16) :: t) = some (Char.ofNat n, t) := by
  unfold unicodeEscape
  rw [hex4_u hn]
  dsimp only
  rw [if_pos h]

theorem unicode_two {n l : Nat} (h1 : 0xD800 ≤ n) (h2 : n < 0xDC00) (h3 : 0xDC00 ≤ l) (h4 : l < 0xE000) (t : Str) :
    unicodeEscape (hexDigit (n / 4096 % 16) :: hexDigit (n / 256 % 16) :: hexDigit (n / 16 % 16) :: hexDigit (n % 16) :: (jsonU l ++ t)) =
      some (Char.ofNat (0x10000 + (n - 0xD800) * 1024 + (l - 0xDC00)), t) := by
  unfold unicodeEscape
  rw [hex4_u (by omega)]
  dsimp only
  rw [if_neg (by omega), if_pos h2]
  simp only [jsonU, List.cons_append, List.nil_append]
  rw [if_pos (by decide), hex4_u (by omega)]
  dsimp only
  rw [if_pos ⟨h3, h4⟩]

theorem char_range (c : Char) : c.toNat < 0xD800 ∨ (0xE000 ≤ c.toNat ∧ c.toNat < 0x110000) := by
  rcases c.valid with h | h
  · left; exact h
  · right
    obtain ⟨a, b⟩ := h
    constructor
    · show 0xE000 ≤ c.val.toNat
      omega
    · exact b

theorem char_eq {c d : Char} (h : c.toNat = d.toNat) : c = d := by
  rw [← Char.ofNat_toNat c, ← Char.ofNat_toNat d, h]

/-- One character. -/
theorem character_json (c : Char) (t : Str) : character (jsonChar c ++ t) = some (c, t) ∧ (jsonChar c ++ t).head? ≠ some '"' := by
  have esc : ∀ (e : Char), e ≠ 'u' → simpleEscape e = some c → character ('\\' :: e :: t) = some (c, t) ∧ ('\\' :: e :: t).head? ≠ some '"' := by
    intro e h1 h2
    refine ⟨?_, by simp⟩
    unfold character
    dsimp only
    rw [if_neg (by decide), if_pos rfl, if_neg h1, h2]
    rfl
  have uni : ∀ (s : Str), unicodeEscape s = some (c, t) → character ('\\' :: 'u' :: s) = some (c, t) ∧ ('\\' :: 'u' :: s).head? ≠ some '"' := by
    intro s hs
    refine ⟨?_, by simp⟩
    unfold character
    dsimp only
    rw [if_neg (by decide), if_pos rfl, if_pos rfl, hs]
  unfold jsonChar
  split
  · rename_i h; exact esc '"' (by decide) (by rw [h]; rfl)
  split
  · rename_i h; exact esc '\\' (by decide) (by rw [h]; rfl)
  split
  · rename_i h; exact esc 'n' (by decide) (by rw [h]; rfl)
  split
  · rename_i h; exact esc 'r' (by decide) (by rw [h]; rfl)
  split
  · rename_i h; exact esc 't' (by decide) (by rw [h]; rfl)
  split
  · rename_i h; exact esc 'f' (by decide) (by rw [← Char.ofNat_toNat c, h]; rfl)
  split
  · rename_i h; exact esc 'b' (by decide) (by rw [← Char.ofNat_toNat c, h]; rfl)
  split
  · rename_i h1 h2 _ _ _ _ _ h
    refine ⟨?_, by simpa using h1⟩
    show character (c :: t) = _
    unfold character
    dsimp only
    rw [if_neg (by rintro (h0 | h0); omega; exact h1 h0), if_neg h2]
  have hr := char_range c
  split
  · rename_i h
    refine uni _ ?_
    have := unicode_one (n := c.toNat) h (by omega) t
    rw [Char.ofNat_toNat] at this
    exact this
  · rename_i h
    have := unicode_two (n := 55296 + (c.toNat - 65536) / 1024) (l := 56320 + (c.toNat - 65536) % 1024) (by omega) (by omega) (by omega) (by omega) t
    have e1 : 0x10000 + (55296 + (c.toNat - 65536) / 1024 - 0xD800) * 1024 + (56320 + (c.toNat - 65536) % 1024 - 0xDC00) = c.toNat := by omega
    rw [e1, Char.ofNat_toNat] at this
    rw [List.append_assoc]
    exact uni _ this

theorem jsonChar_pos (c : Char) : 0 < (jsonChar c).length := by
  have := (character_json c []).1
  rw [List.append_nil] at this
  cases h : jsonChar c with
  | nil => rw [h] at this; cases this
  | cons _ _ => simp

theorem characters_json : ∀ (s t : Str) (k : Nat), s.length < k → characters k (s.flatMap jsonChar ++ '"' :: t) = some (s, t)
  | _, _, 0, h => by omega
  | [], t, k + 1, _ => by unfold characters; rfl
  | c :: s, t, k + 1, h => by
    obtain ⟨h1, h2⟩ := character_json c (s.flatMap jsonChar ++ '"' :: t)
    rw [List.flatMap_cons, List.append_assoc]
    unfold characters
    rw [if_neg h2, h1]
    dsimp only
    rw [characters_json s t k (by simp at h; omega)]
    rfl

theorem flatMap_length (s : Str) : s.length ≤ (s.flatMap jsonChar).length := by
  induction s with
  | nil => simp
  | cons c s ih => have := jsonChar_pos c; simp only [List.flatMap_cons, List.length_append, List.length_cons]; omega

theorem text_json (s t : Str) : text (jsonStr s ++ t) = some (s, t) := by
  have : jsonStr s ++ t = '"' :: (s.flatMap jsonChar ++ '"' :: t) := by simp [jsonStr]
  rw [this]
  show characters (s.flatMap jsonChar ++ '"' :: t).length (s.flatMap jsonChar ++ '"' :: t) = _
  refine characters_json s t _ ?_
  have := flatMap_length s
  simp only [List.length_append, List.length_cons]
  omega

theorem text_json' (s t : Str) : text (' ' :: (jsonStr s ++ t)) = some (s, t) := text_json s t

theorem members_json : ∀ (xs : List (Str × Str)) (t : Str) (k : Nat), xs ≠ [] → xs.length ≤ k → ∀ pre, (pre = [] ∨ pre = [' ']) → members k (pre ++ (jsonItems xs ++ '}' :: t)) = some (xs, t)
  | [], _, _, h, _, _, _ => absurd rfl h
  | _ :: _, _, 0, _, h, _, _ => by simp at h
  | [(a, b)], t, k + 1, _, _, pre, hp => by
    have e1 : pre ++ (jsonItems [(a, b)] ++ '}' :: t) = pre ++ (jsonStr a ++ (':' :: ' ' :: (jsonStr b ++ '}' :: t))) := by
      rw [jsonItems, List.append_assoc, List.append_assoc]; rfl
    rw [e1]
    have e2 : text (pre ++ (jsonStr a ++ (':' :: ' ' :: (jsonStr b ++ '}' :: t)))) = some (a, ':' :: ' ' :: (jsonStr b ++ '}' :: t)) := by
      rcases hp with rfl | rfl
      · exact text_json _ _
      · exact text_json' _ _
    unfold members
    rw [e2]
    show (text (' ' :: (jsonStr b ++ '}' :: t))).bind _ = _
    rw [text_json']
    rfl
  | (a, b) :: y :: xs, t, k + 1, _, h, pre, hp => by
    have e1 : pre ++ (jsonItems ((a, b) :: y :: xs) ++ '}' :: t) = pre ++ (jsonStr a ++ (':' :: ' ' :: (jsonStr b ++ ',' :: (' ' :: (jsonItems (y :: xs) ++ '}' :: t))))) := by
      rw [jsonItems, List.append_assoc, List.append_assoc, List.append_assoc, List.append_assoc]
      · rfl
      · simp
    rw [e1]
    have e2 : text (pre ++ (jsonStr a ++ (':' :: ' ' :: (jsonStr b ++ ',' :: (' ' :: (jsonItems (y :: xs) ++ '}' :: t)))))) = some (a, ':' :: ' ' :: (jsonStr b ++ ',' :: (' ' :: (jsonItems (y :: xs) ++ '}' :: t)))) := by
      rcases hp with rfl | rfl
      · exact text_json _ _
      · exact text_json' _ _
    unfold members
    rw [e2]
    show (text (' ' :: (jsonStr b ++ ',' :: (' ' :: (jsonItems (y :: xs) ++ '}' :: t))))).bind _ = _
    rw [text_json']
    show ((members k ([' '] ++ (jsonItems (y :: xs) ++ '}' :: t))).map _) = _
    rw [members_json (y :: xs) t k (by simp) (by simp at h ⊢; omega) [' '] (.inr rfl)]
    rfl

theorem items_length : ∀ xs : List (Str × Str), xs.length ≤ (jsonItems xs).length
  | [] => by simp
  | [(a, b)] => by simp [jsonItems, jsonStr]
  | (a, b) :: y :: xs => by
    have := items_length (y :: xs)
    rw [jsonItems]
    · simp only [List.length_append, List.length_cons] at this ⊢
      simp [jsonStr]
      omega
    · simp

theorem items_head (x : Str × Str) (xs : List (Str × Str)) (t : Str) : (jsonItems (x :: xs) ++ t).head? = some '"' := by
  cases xs with
  | nil => simp [jsonItems, jsonStr]
  | cons y ys =>
    rw [jsonItems]
    · simp [jsonStr]
    · simp

/-- A line decodes to its entry. -/
theorem object_line (xs : List (Str × Str)) : ∃ line, jsonLine xs = line ++ ['\n'] ∧ object line = some (xs, []) := by
  refine ⟨'{' :: (jsonItems xs ++ ['}']), ?_, ?_⟩
  · have : lit "}\n" = ['}'] ++ ['\n'] := rfl
    rw [jsonLine, this]; simp
  · show (if (skip (jsonItems xs ++ ['}'])).head? = some '}' then _ else _) = _
    cases xs with
    | nil => rfl
    | cons x xs =>
      have h0 := items_head x xs ['}']
      have h1 : skip (jsonItems (x :: xs) ++ ['}']) = jsonItems (x :: xs) ++ ['}'] := by
        generalize jsonItems (x :: xs) ++ ['}'] = s at h0
        cases s with
        | nil => rfl
        | cons c s => cases h0; rfl
      rw [h1, h0, if_neg (by decide)]
      have := members_json (x :: xs) [] (jsonItems (x :: xs) ++ ['}']).length (by simp) (by have := items_length (x :: xs); simp only [List.length_append]; omega) [] (.inl rfl)
      exact this

theorem hexDigit_line {n : Nat} (h : n < 16) : '\n' ≠ hexDigit n := by
  have := hexDigit_ascii n h
  intro hc
  rw [← hc] at this
  revert this; decide

theorem jsonU_line (n : Nat) : '\n' ∉ jsonU n := by
  simp only [jsonU, List.mem_cons, List.not_mem_nil, or_false, not_or]
  exact ⟨by decide, by decide, hexDigit_line (by omega), hexDigit_line (by omega), hexDigit_line (by omega), hexDigit_line (by omega)⟩

theorem jsonChar_line (c : Char) : '\n' ∉ jsonChar c := by
  unfold jsonChar
  split; · decide
  split; · decide
  split; · decide
  split; · decide
  split; · decide
  split; · decide
  split; · decide
  split
  · rename_i h _ _ _ _ _
    simp only [List.mem_singleton]
    exact fun h' => h h'.symm
  split
  · exact jsonU_line _
  · rw [List.mem_append, not_or]; exact ⟨jsonU_line _, jsonU_line _⟩

theorem jsonStr_line (s : Str) : '\n' ∉ jsonStr s := by
  simp only [jsonStr, List.cons_append, List.mem_cons, List.mem_append, List.mem_flatMap, List.not_mem_nil, or_false, not_or]
  refine ⟨by decide, ?_, by decide⟩
  rintro ⟨c, _, h⟩
  exact jsonChar_line c h

theorem jsonItems_line : ∀ xs : List (Str × Str), '\n' ∉ jsonItems xs
  | [] => by simp [jsonItems]
  | [(a, b)] => by
    have h : '\n' ∉ lit ": " := by decide
    simp only [jsonItems, List.mem_append, not_or]
    exact ⟨⟨jsonStr_line a, h⟩, jsonStr_line b⟩
  | (a, b) :: y :: xs => by
    have h : '\n' ∉ lit ": " := by decide
    have h2 : '\n' ∉ lit ", " := by decide
    rw [jsonItems]
    · simp only [List.mem_append, not_or]
      exact ⟨⟨⟨⟨jsonStr_line a, h⟩, jsonStr_line b⟩, h2⟩, jsonItems_line (y :: xs)⟩
    · simp

/-- There is one line feed in a line, at its end. -/
theorem line_one (xs : List (Str × Str)) {line : Str} (h : jsonLine xs = line ++ ['\n']) : '\n' ∉ line := by
  have e : lit "}\n" = ['}'] ++ ['\n'] := rfl
  rw [jsonLine, e, ← List.append_assoc] at h
  have := List.append_cancel_right h
  rw [← this]
  simp only [List.cons_append, List.mem_cons, List.mem_append, not_or]
  exact ⟨by decide, jsonItems_line xs, by decide, by simp⟩

end Json
end Warcio
