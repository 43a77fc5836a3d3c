import Verif.Py.Base64
import Verif.Spec.Rfc4648
import Verif.Proofs.Utf8

/-! # The model's base encodings against RFC 4648 -/

namespace Warcio

open Rfc4648

set_option linter.unusedSimpArgs false

theorem groups_fuel (al : Str) (k nb nc : Nat) (hnb : 0 < nb) : ∀ (f1 f2 : Nat) (d : Bytes), d.length ≤ f1 → d.length ≤ f2 →
    groups al k nb nc f1 d = groups al k nb nc f2 d := by
  intro f1
  induction f1 with
  | zero =>
    intro f2 d h _
    have : d = [] := List.length_eq_zero_iff.1 (by omega)
    subst this; cases f2 <;> rfl
  | succ f1 ih =>
    intro f2 d h1 h2
    cases d with
    | nil => cases f2 <;> rfl
    | cons a t =>
      cases f2 with
      | zero => simp at h2
      | succ f2 =>
        simp only [groups]
        rw [ih f2]
        · simp only [List.length_drop, List.length_cons] at h1 ⊢; omega
        · simp only [List.length_drop, List.length_cons] at h2 ⊢; omega

/-! ## base32 -/

theorem b32_alphabet : ∀ i < 32, ((lit "ABCDEFGHIJKLMNOPQRSTUVWXYZ234567")[i]?).getD '?' = b32Char i := by decide +kernel

theorem b32Char_inj : ∀ i < 32, ∀ j < 32, b32Char i = b32Char j → i = j := by decide +kernel

theorem b32Char_ne : ∀ i < 32, b32Char i ≠ '=' := by decide +kernel

theorem base32_cons (a b c d e : UInt8) (t : Bytes) :
    base32 (a :: b :: c :: d :: e :: t) = b32Group (b32Num a b c d e) ++ base32 t := by
  have h : ∀ n, ((lit "ABCDEFGHIJKLMNOPQRSTUVWXYZ234567")[n % 32]?).getD '?' = b32Char (n % 32) :=
    fun n => b32_alphabet _ (Nat.mod_lt _ (by decide))
  unfold base32
  simp only [List.length_cons, groups, List.take_succ_cons, List.take_zero, List.drop_succ_cons, List.drop_zero]
  rw [groups_fuel _ 5 5 8 (by decide) (t.length + 1 + 1 + 1 + 1) t.length t (by omega) (Nat.le_refl _)]
  congr 1
  simp [group, List.range, List.range.loop, beNum, b32Group, b32Num, h]

theorem base32_four (a b c d : UInt8) : base32 [a, b, c, d] = b32encode [a, b, c, d] := by
  have h : ∀ n, ((lit "ABCDEFGHIJKLMNOPQRSTUVWXYZ234567")[n % 32]?).getD '?' = b32Char (n % 32) :=
    fun n => b32_alphabet _ (Nat.mod_lt _ (by decide))
  simp [base32, groups, b32encode, group, List.range, List.range.loop, beNum, b32Group, b32Num, h]

theorem base32_three (a b c : UInt8) : base32 [a, b, c] = b32encode [a, b, c] := by
  have h : ∀ n, ((lit "ABCDEFGHIJKLMNOPQRSTUVWXYZ234567")[n % 32]?).getD '?' = b32Char (n % 32) :=
    fun n => b32_alphabet _ (Nat.mod_lt _ (by decide))
  simp [base32, groups, b32encode, group, List.range, List.range.loop, beNum, b32Group, b32Num, h]

theorem base32_two (a b : UInt8) : base32 [a, b] = b32encode [a, b] := by
  have h : ∀ n, ((lit "ABCDEFGHIJKLMNOPQRSTUVWXYZ234567")[n % 32]?).getD '?' = b32Char (n % 32) :=
    fun n => b32_alphabet _ (Nat.mod_lt _ (by decide))
  simp [base32, groups, b32encode, group, List.range, List.range.loop, beNum, b32Group, b32Num, h]

theorem base32_one (a : UInt8) : base32 [a] = b32encode [a] := by
  have h : ∀ n, ((lit "ABCDEFGHIJKLMNOPQRSTUVWXYZ234567")[n % 32]?).getD '?' = b32Char (n % 32) :=
    fun n => b32_alphabet _ (Nat.mod_lt _ (by decide))
  simp [base32, groups, b32encode, group, List.range, List.range.loop, beNum, b32Group, b32Num, h]

theorem b32encode_eq (d : Bytes) : b32encode d = base32 d := by
  induction d using b32encode.induct with
  | case1 a b c d e t ih => rw [b32encode, base32_cons, ih]
  | case2 a b c d => exact (base32_four a b c d).symm
  | case3 a b c => exact (base32_three a b c).symm
  | case4 a b => exact (base32_two a b).symm
  | case5 a => exact (base32_one a).symm
  | case6 => rfl

theorem b32Char_mod_inj {n m : Nat} (h : b32Char (n % 32) = b32Char (m % 32)) : n % 32 = m % 32 :=
  b32Char_inj _ (Nat.mod_lt _ (by decide)) _ (Nat.mod_lt _ (by decide)) h

theorem b32Char_mod_ne (n : Nat) : b32Char (n % 32) ≠ '=' := b32Char_ne _ (Nat.mod_lt _ (by decide))

theorem b32Num_lt (a b c d e : UInt8) : b32Num a b c d e < 1099511627776 := by
  have := a.toNat_lt; have := b.toNat_lt; have := c.toNat_lt; have := d.toNat_lt; have := e.toNat_lt
  unfold b32Num; omega

theorem b32Num_inj {a b c d e a' b' c' d' e' : UInt8} (h : b32Num a b c d e = b32Num a' b' c' d' e') :
    a = a' ∧ b = b' ∧ c = c' ∧ d = d' ∧ e = e' := by
  have := a.toNat_lt; have := b.toNat_lt; have := c.toNat_lt; have := d.toNat_lt; have := e.toNat_lt
  have := a'.toNat_lt; have := b'.toNat_lt; have := c'.toNat_lt; have := d'.toNat_lt; have := e'.toNat_lt
  unfold b32Num at h
  refine ⟨?_, ?_, ?_, ?_, ?_⟩ <;> apply UInt8.toNat_inj.1 <;> omega

/-- The top `j` base32 digits determine a 40-bit number up to its lowest bits. -/
theorem b32Group_inj8 {n m : Nat} (hn : n < 1099511627776) (hm : m < 1099511627776) (h : b32Group n = b32Group m) : n = m := by
  simp only [b32Group, List.cons.injEq, and_true] at h
  obtain ⟨h1, h2, h3, h4, h5, h6, h7, h8⟩ := h
  replace h1 := b32Char_mod_inj h1; replace h2 := b32Char_mod_inj h2; replace h3 := b32Char_mod_inj h3; replace h4 := b32Char_mod_inj h4
  replace h5 := b32Char_mod_inj h5; replace h6 := b32Char_mod_inj h6; replace h7 := b32Char_mod_inj h7; replace h8 := b32Char_mod_inj h8
  omega

theorem b32encode_inj : ∀ (d d' : Bytes), b32encode d = b32encode d' → d = d' := by
  intro d
  induction d using b32encode.induct with
  | case1 a b c d e t ih =>
    intro d' h
    match d' with
    | a' :: b' :: c' :: d' :: e' :: t' =>
      rw [b32encode, b32encode] at h
      have hl : (b32Group (b32Num a b c d e)).length = (b32Group (b32Num a' b' c' d' e')).length := by simp [b32Group]
      obtain ⟨h1, h2⟩ := List.append_inj h hl
      obtain ⟨rfl, rfl, rfl, rfl, rfl⟩ := b32Num_inj (b32Group_inj8 (b32Num_lt ..) (b32Num_lt ..) h1)
      rw [ih _ h2]
    | [_, _, _, _] | [_, _, _] | [_, _] | [_] =>
      simp [b32encode, b32Group, b32Char_mod_ne, (b32Char_mod_ne _).symm] at h
    | [] => simp [b32encode, b32Group] at h
  | case2 a b c d =>
    intro d' h
    match d' with
    | [a', b', c', d'] =>
      simp only [b32encode] at h
      have h1 := List.append_cancel_right h
      simp only [b32Group, List.take_succ_cons, List.take_zero, List.cons.injEq, and_true] at h1
      obtain ⟨h1, h2, h3, h4, h5, h6, h7⟩ := h1
      replace h1 := b32Char_mod_inj h1; replace h2 := b32Char_mod_inj h2; replace h3 := b32Char_mod_inj h3; replace h4 := b32Char_mod_inj h4
      replace h5 := b32Char_mod_inj h5; replace h6 := b32Char_mod_inj h6; replace h7 := b32Char_mod_inj h7
      have e : b32Num a b c d 0 = b32Num a' b' c' d' 0 := by
        have l1 := b32Num_lt a b c d 0
        have l2 := b32Num_lt a' b' c' d' 0
        have z1 : b32Num a b c d 0 % 32 = 0 := by simp [b32Num]; omega
        have z2 : b32Num a' b' c' d' 0 % 32 = 0 := by simp [b32Num]; omega
        omega
      obtain ⟨rfl, rfl, rfl, rfl, _⟩ := b32Num_inj e
      rfl
    | a' :: b' :: c' :: d' :: e' :: t' => simp [b32encode, b32Group, b32Char_mod_ne, (b32Char_mod_ne _).symm] at h
    | [_, _, _] | [_, _] | [_] => simp [b32encode, b32Group, b32Char_mod_ne, (b32Char_mod_ne _).symm] at h
    | [] => simp [b32encode, b32Group] at h
  | case3 a b c =>
    intro d' h
    match d' with
    | [a', b', c'] =>
      simp only [b32encode] at h
      have h1 := List.append_cancel_right h
      simp only [b32Group, List.take_succ_cons, List.take_zero, List.cons.injEq, and_true] at h1
      obtain ⟨h1, h2, h3, h4, h5⟩ := h1
      replace h1 := b32Char_mod_inj h1; replace h2 := b32Char_mod_inj h2; replace h3 := b32Char_mod_inj h3; replace h4 := b32Char_mod_inj h4
      replace h5 := b32Char_mod_inj h5
      have e : b32Num a b c 0 0 = b32Num a' b' c' 0 0 := by
        have l1 := b32Num_lt a b c 0 0
        have l2 := b32Num_lt a' b' c' 0 0
        have z1 : b32Num a b c 0 0 % 65536 = 0 := by simp [b32Num]; omega
        have z2 : b32Num a' b' c' 0 0 % 65536 = 0 := by simp [b32Num]; omega
        omega
      obtain ⟨rfl, rfl, rfl, _⟩ := b32Num_inj e
      rfl
    | a' :: b' :: c' :: d' :: e' :: t' => simp [b32encode, b32Group, b32Char_mod_ne, (b32Char_mod_ne _).symm] at h
    | [_, _, _, _] | [_, _] | [_] => simp [b32encode, b32Group, b32Char_mod_ne, (b32Char_mod_ne _).symm] at h
    | [] => simp [b32encode, b32Group] at h
  | case4 a b =>
    intro d' h
    match d' with
    | [a', b'] =>
      simp only [b32encode] at h
      have h1 := List.append_cancel_right h
      simp only [b32Group, List.take_succ_cons, List.take_zero, List.cons.injEq, and_true] at h1
      obtain ⟨h1, h2, h3, h4⟩ := h1
      replace h1 := b32Char_mod_inj h1; replace h2 := b32Char_mod_inj h2; replace h3 := b32Char_mod_inj h3; replace h4 := b32Char_mod_inj h4
      have e : b32Num a b 0 0 0 = b32Num a' b' 0 0 0 := by
        have l1 := b32Num_lt a b 0 0 0
        have l2 := b32Num_lt a' b' 0 0 0
        have z1 : b32Num a b 0 0 0 % 16777216 = 0 := by simp [b32Num]; omega
        have z2 : b32Num a' b' 0 0 0 % 16777216 = 0 := by simp [b32Num]; omega
        omega
      obtain ⟨rfl, rfl, _⟩ := b32Num_inj e
      rfl
    | a' :: b' :: c' :: d' :: e' :: t' => simp [b32encode, b32Group, b32Char_mod_ne, (b32Char_mod_ne _).symm] at h
    | [_, _, _, _] | [_, _, _] | [_] => simp [b32encode, b32Group, b32Char_mod_ne, (b32Char_mod_ne _).symm] at h
    | [] => simp [b32encode, b32Group] at h
  | case5 a =>
    intro d' h
    match d' with
    | [a'] =>
      simp only [b32encode] at h
      have h1 := List.append_cancel_right h
      simp only [b32Group, List.take_succ_cons, List.take_zero, List.cons.injEq, and_true] at h1
      obtain ⟨h1, h2⟩ := h1
      replace h1 := b32Char_mod_inj h1; replace h2 := b32Char_mod_inj h2
      have e : b32Num a 0 0 0 0 = b32Num a' 0 0 0 0 := by
        have l1 := b32Num_lt a 0 0 0 0
        have l2 := b32Num_lt a' 0 0 0 0
        have z1 : b32Num a 0 0 0 0 % 4294967296 = 0 := by simp [b32Num]; omega
        have z2 : b32Num a' 0 0 0 0 % 4294967296 = 0 := by simp [b32Num]; omega
        omega
      obtain ⟨rfl, _⟩ := b32Num_inj e
      rfl
    | a' :: b' :: c' :: d' :: e' :: t' => simp [b32encode, b32Group, b32Char_mod_ne, (b32Char_mod_ne _).symm] at h
    | [_, _, _, _] | [_, _, _] | [_, _] => simp [b32encode, b32Group, b32Char_mod_ne, (b32Char_mod_ne _).symm] at h
    | [] => simp [b32encode, b32Group] at h
  | case6 =>
    intro d' h
    match d' with
    | a' :: b' :: c' :: d' :: e' :: t' => simp [b32encode, b32Group] at h
    | [_, _, _, _] | [_, _, _] | [_, _] | [_] => simp [b32encode, b32Group] at h
    | [] => rfl

theorem b32encode_length (d : Bytes) : (b32encode d).length = 8 * ((d.length + 4) / 5) := by
  induction d using b32encode.induct with
  | case1 a b c d e t ih =>
    rw [b32encode, List.length_append, ih]
    simp only [b32Group, List.length_cons, List.length_nil]; omega
  | case2 | case3 | case4 | case5 | case6 => simp [b32encode, b32Group]

/-! ## base16 -/

theorem toUpper_toNat (c : Char) : c.toUpper.toNat = if 97 ≤ c.toNat ∧ c.toNat ≤ 122 then c.toNat - 32 else c.toNat := by
  unfold Char.toUpper
  have hv : c.toNat = c.val.toNat := rfl
  split
  · rename_i h
    have h1 : 97 ≤ c.toNat ∧ c.toNat ≤ 122 := ⟨by simpa using UInt32.le_iff_toNat_le.1 h.1, by simpa using UInt32.le_iff_toNat_le.1 h.2⟩
    rw [if_pos h1]
    show (c.val + ('A'.val - 'a'.val)).toNat = _
    rw [UInt32.toNat_add]
    have : ('A'.val - 'a'.val : UInt32).toNat = 4294967264 := by decide
    rw [this]; omega
  · rename_i h
    rw [if_neg]
    intro h1
    exact h ⟨UInt32.le_iff_toNat_le.2 (by simpa using h1.1), UInt32.le_iff_toNat_le.2 (by simpa using h1.2)⟩

theorem b16Val_upper (c : Char) : b16Val c.toUpper = b16Val c := by
  unfold b16Val
  rw [toUpper_toNat]
  simp only
  repeat' split
  all_goals first | rfl | (congr 1; omega) | omega

/-- A base16 digit. -/
def b16a (i : Nat) : Char := ((lit "0123456789ABCDEF")[i]?).getD '?'

theorem b16Val_a : ∀ i < 16, b16Val (b16a i) = some i := by decide +kernel

theorem b16Val_eq (n : Nat) (h : n < 128) : ∀ i, b16Val (Char.ofNat n) = some i →
    i < 16 ∧ (Char.ofNat n).toUpper = b16a i := by
  have key : ∀ n < 128, (match b16Val (Char.ofNat n) with
    | some i => decide (i < 16 ∧ (Char.ofNat n).toUpper = b16a i)
    | none => true) = true := by decide +kernel
  intro i hi
  have := key n h
  rw [hi] at this
  simpa using this

theorem b16Val_ascii {c : Char} {i : Nat} (h : b16Val c = some i) : c.toNat < 128 := by
  unfold b16Val at h
  simp only at h
  repeat' split at h
  all_goals simp at h
  all_goals omega

theorem b16a_of_val {c : Char} {i : Nat} (h : b16Val c = some i) : i < 16 ∧ c.toUpper = b16a i := by
  have h1 := b16Val_ascii h
  have h2 : Char.ofNat c.toNat = c := Char.ofNat_toNat c
  have h3 := b16Val_eq c.toNat h1 i (by rw [h2]; exact h)
  rwa [h2] at h3

theorem groups16_cons (al : Str) (a : UInt8) (t : Bytes) : groups al 4 1 2 (a :: t).length (a :: t) =
    (al[a.toNat / 16 % 16]?).getD '?' :: (al[a.toNat % 16]?).getD '?' :: groups al 4 1 2 t.length t := by
  simp only [List.length_cons, groups, List.take_succ_cons, List.take_zero, List.drop_succ_cons, List.drop_zero]
  simp [group, List.range, List.range.loop, beNum]

theorem base16_cons (a : UInt8) (t : Bytes) : base16 (a :: t) = b16a (a.toNat / 16 % 16) :: b16a (a.toNat % 16) :: base16 t :=
  groups16_cons _ a t

theorem base16_length (d : Bytes) : (base16 d).length = 2 * d.length := by
  induction d with
  | nil => rfl
  | cons a t ih => rw [base16_cons]; simp [ih]; omega

/-- Induction two characters at a time. -/
theorem pairs_induct {P : Str → Prop} (h0 : P []) (h1 : ∀ c, P [c]) (h2 : ∀ x y t, P t → P (x :: y :: t)) : ∀ v, P v
  | [] => h0
  | [c] => h1 c
  | x :: y :: t => h2 x y t (pairs_induct h0 h1 h2 t)

/-- `b16decode` accepts exactly the base16 encodings in either case. -/
theorem b16Pairs_iff : ∀ (v : Str) (d : Bytes), b16Pairs v = some d ↔ v.map Char.toUpper = base16 d := by
  intro v
  induction v using pairs_induct with
  | h0 =>
    intro d
    cases d with
    | nil => simp [b16Pairs, base16, groups]
    | cons a t => simp [b16Pairs, base16_cons]
  | h1 c =>
    intro d
    cases d with
    | nil => simp [b16Pairs, base16, groups]
    | cons a t => simp [b16Pairs, base16_cons]
  | h2 x y t ih =>
    intro d
    cases d with
    | nil =>
      simp only [b16Pairs, base16, groups, List.map_cons]
      constructor
      · intro h; repeat' split at h
        all_goals simp at h
      · intro h; simp [groups] at h
    | cons a r =>
      rw [base16_cons, List.map_cons, List.map_cons, List.cons.injEq, List.cons.injEq, ← ih r]
      have hx := b16Val_upper x
      have hy := b16Val_upper y
      have ha := a.toNat_lt
      constructor
      · intro h
        simp only [b16Pairs] at h
        split at h
        · rename_i p q l h1 h2 h3
          simp only [Option.some.injEq, List.cons.injEq] at h
          obtain ⟨e1, e2⟩ := h
          obtain ⟨k1, k2⟩ := b16a_of_val h1
          obtain ⟨k3, k4⟩ := b16a_of_val h2
          have : a.toNat = p * 16 + q := by rw [← e1, ofNat_toNat _ (by omega)]
          refine ⟨?_, ?_, by rw [h3, e2]⟩
          · rw [k2]; congr 1; omega
          · rw [k4]; congr 1; omega
        · cases h
      · rintro ⟨h1, h2, h3⟩
        rw [h1, b16Val_a _ (by omega)] at hx
        rw [h2, b16Val_a _ (by omega)] at hy
        simp only [b16Pairs, ← hx, ← hy, h3, Option.some.injEq, List.cons.injEq, and_true]
        have : a.toNat / 16 % 16 * 16 + a.toNat % 16 = a.toNat := by omega
        rw [this]; exact uint8_toNat_inj (ofNat_toNat _ (by omega))

theorem base16_ascii {v : Str} {d : Bytes} (h : b16Pairs v = some d) : isAscii v = true := by
  induction v using pairs_induct generalizing d with
  | h0 => rfl
  | h1 c => simp [b16Pairs] at h
  | h2 x y t ih =>
    simp only [b16Pairs] at h
    split at h
    · rename_i p q l h1 h2 h3
      have := ih h3
      simp only [isAscii, List.all_cons, Bool.and_eq_true, decide_eq_true_eq] at this ⊢
      exact ⟨b16Val_ascii h1, b16Val_ascii h2, this⟩
    · cases h

theorem b16decode_iff (v : Str) (d : Bytes) : b16decode v = .ok d ↔ v.map Char.toUpper = base16 d := by
  rw [← b16Pairs_iff]
  unfold b16decode
  constructor
  · intro h
    split at h
    · split at h
      · rename_i h2; cases h; exact h2
      · cases h
    · cases h
  · intro h
    rw [if_pos (base16_ascii h), h]

/-! ## base64 -/

/-- A base64 digit. -/
def b64a (i : Nat) : Char := ((lit "ABCDEFGHIJKLMNOPQRSTUVWXYZabcdefghijklmnopqrstuvwxyz0123456789+/")[i]?).getD '?'

/-- A URL-safe base64 digit. -/
def b64u (i : Nat) : Char := ((lit "ABCDEFGHIJKLMNOPQRSTUVWXYZabcdefghijklmnopqrstuvwxyz0123456789-_")[i]?).getD '?'

theorem b64Val_a : ∀ i < 64, b64Val (b64a i) = some i ∧ b64a i ≠ '=' ∧ b64a i ≠ '-' ∧ b64a i ≠ '_' ∧ (b64a i).toNat < 128 ∧
    urlSafe (b64u i) = b64a i := by decide +kernel

/-- base64 with an alphabet given as a function. -/
def b64With (f : Nat → Char) : Bytes → Str
  | a :: b :: c :: t =>
    f (a.toNat / 4) :: f (a.toNat % 4 * 16 + b.toNat / 16) :: f (b.toNat % 16 * 4 + c.toNat / 64) :: f (c.toNat % 64) :: b64With f t
  | [a, b] => [f (a.toNat / 4), f (a.toNat % 4 * 16 + b.toNat / 16), f (b.toNat % 16 * 4), '=']
  | [a] => [f (a.toNat / 4), f (a.toNat % 4 * 16), '=', '=']
  | [] => []

theorem groups64_cons (al : Str) (a b c : UInt8) (t : Bytes) :
    groups al 6 3 4 (a :: b :: c :: t).length (a :: b :: c :: t) =
      group al 6 3 4 [a, b, c] ++ groups al 6 3 4 t.length t := by
  simp only [List.length_cons, groups, List.take_succ_cons, List.take_zero, List.drop_succ_cons, List.drop_zero]
  rw [groups_fuel _ 6 3 4 (by decide) (t.length + 1 + 1) t.length t (by omega) (Nat.le_refl _)]

theorem groups64_eq (al : Str) (d : Bytes) :
    groups al 6 3 4 d.length d = b64With (fun i => (al[i]?).getD '?') d := by
  induction d using b64With.induct with
  | case1 a b c t ih =>
    rw [groups64_cons, ih, b64With]
    have := a.toNat_lt; have := b.toNat_lt; have := c.toNat_lt
    have e1 : ((a.toNat * 256 + b.toNat) * 256 + c.toNat) / 262144 % 64 = a.toNat / 4 := by omega
    have e2 : ((a.toNat * 256 + b.toNat) * 256 + c.toNat) / 4096 % 64 = a.toNat % 4 * 16 + b.toNat / 16 := by omega
    have e3 : ((a.toNat * 256 + b.toNat) * 256 + c.toNat) / 64 % 64 = b.toNat % 16 * 4 + c.toNat / 64 := by omega
    have e4 : ((a.toNat * 256 + b.toNat) * 256 + c.toNat) % 64 = c.toNat % 64 := by omega
    simp [group, List.range, List.range.loop, beNum, e1, e2, e3, e4]
  | case2 a b =>
    have := a.toNat_lt; have := b.toNat_lt
    have e1 : (a.toNat * 256 + b.toNat) * 256 / 262144 % 64 = a.toNat / 4 := by omega
    have e2 : (a.toNat * 256 + b.toNat) * 256 / 4096 % 64 = a.toNat % 4 * 16 + b.toNat / 16 := by omega
    have e3 : (a.toNat * 256 + b.toNat) * 256 / 64 % 64 = b.toNat % 16 * 4 := by omega
    simp [groups, group, List.range, List.range.loop, beNum, b64With, e1, e2, e3]
  | case3 a =>
    have := a.toNat_lt
    have e1 : a.toNat * 256 * 256 / 262144 % 64 = a.toNat / 4 := by omega
    have e2 : a.toNat * 256 * 256 / 4096 % 64 = a.toNat % 4 * 16 := by omega
    simp [groups, group, List.range, List.range.loop, beNum, b64With, e1, e2]
  | case4 => rfl

theorem base64_eq (d : Bytes) : base64 d = b64With b64a d := groups64_eq _ d
theorem base64url_eq (d : Bytes) : base64url d = b64With b64u d := groups64_eq _ d

theorem b64With_length (f : Nat → Char) (d : Bytes) : (b64With f d).length = 4 * ((d.length + 2) / 3) := by
  induction d using b64With.induct with
  | case1 a b c t ih => rw [b64With]; simp only [List.length_cons, ih]; omega
  | case2 | case3 | case4 => simp [b64With]

theorem b64Loop_with (d : Bytes) : b64Loop 0 0 0 (b64With b64a d) = .ok d := by
  induction d using b64With.induct with
  | case1 a b c t ih =>
    have := a.toNat_lt; have := b.toNat_lt; have := c.toNat_lt
    obtain ⟨v1, n1, _⟩ := b64Val_a (a.toNat / 4) (by omega)
    obtain ⟨v2, n2, _⟩ := b64Val_a (a.toNat % 4 * 16 + b.toNat / 16) (by omega)
    obtain ⟨v3, n3, _⟩ := b64Val_a (b.toNat % 16 * 4 + c.toNat / 64) (by omega)
    obtain ⟨v4, n4, _⟩ := b64Val_a (c.toNat % 64) (by omega)
    simp only [b64With, b64Loop, v1, n1, v2, n2, v3, n3, v4, n4, if_false, ih, Except.map]
    have e1 : a.toNat / 4 * 4 + (a.toNat % 4 * 16 + b.toNat / 16) / 16 = a.toNat := by omega
    have e2 : (a.toNat % 4 * 16 + b.toNat / 16) % 16 * 16 + (b.toNat % 16 * 4 + c.toNat / 64) / 4 = b.toNat := by omega
    have e3 : (b.toNat % 16 * 4 + c.toNat / 64) % 4 * 64 + c.toNat % 64 = c.toNat := by omega
    rw [e1, e2, e3, uint8_toNat_inj (ofNat_toNat _ (by omega)), uint8_toNat_inj (ofNat_toNat _ (by omega)), uint8_toNat_inj (ofNat_toNat _ (by omega))]
  | case2 a b =>
    have := a.toNat_lt; have := b.toNat_lt
    obtain ⟨v1, n1, _⟩ := b64Val_a (a.toNat / 4) (by omega)
    obtain ⟨v2, n2, _⟩ := b64Val_a (a.toNat % 4 * 16 + b.toNat / 16) (by omega)
    obtain ⟨v3, n3, _⟩ := b64Val_a (b.toNat % 16 * 4) (by omega)
    simp only [b64With, b64Loop, v1, n1, v2, n2, v3, n3, if_false, if_true, Except.map]
    have e1 : a.toNat / 4 * 4 + (a.toNat % 4 * 16 + b.toNat / 16) / 16 = a.toNat := by omega
    have e2 : (a.toNat % 4 * 16 + b.toNat / 16) % 16 * 16 + b.toNat % 16 * 4 / 4 = b.toNat := by omega
    rw [e1, e2, uint8_toNat_inj (ofNat_toNat _ (by omega)), uint8_toNat_inj (ofNat_toNat _ (by omega))]
    simp
  | case3 a =>
    have := a.toNat_lt
    obtain ⟨v1, n1, _⟩ := b64Val_a (a.toNat / 4) (by omega)
    obtain ⟨v2, n2, _⟩ := b64Val_a (a.toNat % 4 * 16) (by omega)
    simp only [b64With, b64Loop, v1, n1, v2, n2, if_false, if_true, Except.map]
    have e1 : a.toNat / 4 * 4 + a.toNat % 4 * 16 / 16 = a.toNat := by omega
    rw [e1, uint8_toNat_inj (ofNat_toNat _ (by omega))]
    simp
  | case4 => rfl

theorem b64With_all (f : Nat → Char) (P : Char → Prop) (hP : ∀ i < 64, P (f i)) (he : P '=') (d : Bytes) : ∀ c ∈ b64With f d, P c := by
  induction d using b64With.induct with
  | case1 a b c t ih =>
    have := a.toNat_lt; have := b.toNat_lt; have := c.toNat_lt
    intro x hx
    simp only [b64With, List.mem_cons] at hx
    rcases hx with rfl | rfl | rfl | rfl | hx
    · exact hP _ (by omega)
    · exact hP _ (by omega)
    · exact hP _ (by omega)
    · exact hP _ (by omega)
    · exact ih x hx
  | case2 a b =>
    have := a.toNat_lt; have := b.toNat_lt
    intro x hx
    simp only [b64With, List.mem_cons, List.not_mem_nil, or_false] at hx
    rcases hx with rfl | rfl | rfl | rfl
    · exact hP _ (by omega)
    · exact hP _ (by omega)
    · exact hP _ (by omega)
    · exact he
  | case3 a =>
    have := a.toNat_lt
    intro x hx
    simp only [b64With, List.mem_cons, List.not_mem_nil, or_false] at hx
    rcases hx with rfl | rfl | rfl | rfl
    · exact hP _ (by omega)
    · exact hP _ (by omega)
    · exact he
    · exact he
  | case4 => intro x hx; cases hx

theorem b64decode_base64 (d : Bytes) : b64decode (base64 d) = .ok d := by
  unfold b64decode
  rw [base64_eq, if_pos, b64Loop_with]
  rw [isAscii, List.all_eq_true]
  intro c hc
  simp only [decide_eq_true_eq]
  exact b64With_all b64a (fun c => c.toNat < 128) (fun i hi => (b64Val_a i hi).2.2.2.2.1) (by decide) d c hc

theorem b64Wrapper_base64 (d : Bytes) : b64Wrapper (base64 d) = .ok d := by
  unfold b64Wrapper
  have h1 : (base64 d).contains '-' = false := by
    rw [← Bool.not_eq_true, List.contains_iff_mem]
    intro h
    rw [base64_eq] at h
    exact b64With_all b64a (fun c => c ≠ '-') (fun i hi => (b64Val_a i hi).2.2.1) (by decide) d _ h rfl
  have h2 : (base64 d).contains '_' = false := by
    rw [← Bool.not_eq_true, List.contains_iff_mem]
    intro h
    rw [base64_eq] at h
    exact b64With_all b64a (fun c => c ≠ '_') (fun i hi => (b64Val_a i hi).2.2.2.1) (by decide) d _ h rfl
  rw [h1, h2]
  exact b64decode_base64 d

theorem map_urlSafe (d : Bytes) : (b64With b64u d).map urlSafe = b64With b64a d := by
  induction d using b64With.induct with
  | case1 a b c t ih =>
    have := a.toNat_lt; have := b.toNat_lt; have := c.toNat_lt
    simp only [b64With, List.map_cons, ih]
    rw [(b64Val_a (a.toNat / 4) (by omega)).2.2.2.2.2, (b64Val_a (a.toNat % 4 * 16 + b.toNat / 16) (by omega)).2.2.2.2.2,
      (b64Val_a (b.toNat % 16 * 4 + c.toNat / 64) (by omega)).2.2.2.2.2, (b64Val_a (c.toNat % 64) (by omega)).2.2.2.2.2]
  | case2 a b =>
    have := a.toNat_lt; have := b.toNat_lt
    simp only [b64With, List.map_cons, List.map_nil]
    rw [(b64Val_a (a.toNat / 4) (by omega)).2.2.2.2.2, (b64Val_a (a.toNat % 4 * 16 + b.toNat / 16) (by omega)).2.2.2.2.2,
      (b64Val_a (b.toNat % 16 * 4) (by omega)).2.2.2.2.2]
    rfl
  | case3 a =>
    have := a.toNat_lt
    simp only [b64With, List.map_cons, List.map_nil]
    rw [(b64Val_a (a.toNat / 4) (by omega)).2.2.2.2.2, (b64Val_a (a.toNat % 4 * 16) (by omega)).2.2.2.2.2]
    rfl
  | case4 => rfl

theorem b64Wrapper_base64url (d : Bytes) : b64Wrapper (base64url d) = .ok d := by
  unfold b64Wrapper
  have e : (base64url d).map urlSafe = base64 d := by rw [base64url_eq, base64_eq, map_urlSafe]
  cases h : ((base64url d).contains '-' || (base64url d).contains '_') with
  | true => rw [if_pos rfl, e]; exact b64decode_base64 d
  | false =>
    rw [if_neg (by simp)]
    have : (base64url d).map urlSafe = base64url d := by
      rw [List.map_congr_left (g := id)]
      · simp
      · intro c hc
        simp only [Bool.or_eq_false_iff] at h
        have h1 : c ≠ '-' := by
          rintro rfl
          exact absurd (List.contains_iff_mem.2 hc) (by simp only [h.1]; simp)
        have h2 : c ≠ '_' := by
          rintro rfl
          exact absurd (List.contains_iff_mem.2 hc) (by simp only [h.2]; simp)
        simp [urlSafe, h1, h2]
    rw [← this, e]; exact b64decode_base64 d

end Warcio
