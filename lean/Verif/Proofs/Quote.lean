import Verif.Model.StatusAndHeaders
import Verif.Spec.Percent
import Verif.Proofs.Utf8
import Verif.Proofs.Strings

/-! # Percent-encoding -/

namespace Warcio

theorem hexUpper_val {n : Nat} (h : n < 16) : hexCharVal (hexUpper n) = some n ∧ (hexUpper n).toNat < 128 := by
  revert h; revert n; decide

theorem quoteSafe_lt {b : UInt8} (h : quoteSafe b = true) : b.toNat < 128 ∧ b.toNat ≠ 37 := by
  simp only [quoteSafe, Bool.or_eq_true, Bool.and_eq_true, decide_eq_true_eq, beq_iff_eq] at h
  omega

theorem isAscii_append (a b : Str) : isAscii (a ++ b) = (isAscii a && isAscii b) := by simp [isAscii]

theorem isAscii_cons (c : Char) (t : Str) : isAscii (c :: t) = (decide (c.toNat < 128) && isAscii t) := by simp [isAscii]

theorem quoteByte_ascii (b : UInt8) : isAscii (quoteByte b) = true := by
  have hb := b.toNat_lt
  unfold quoteByte
  split
  · rename_i h
    have := quoteSafe_lt h
    simp [isAscii, toNat_charOfNat (n := b.toNat) (by omega), this.1]
  · have h1 := (hexUpper_val (n := b.toNat / 16) (by omega)).2
    have h2 := (hexUpper_val (n := b.toNat % 16) (by omega)).2
    simp only [isAscii, List.all_cons, List.all_nil, Bool.and_true, Bool.and_eq_true, decide_eq_true_eq]
    exact ⟨by decide, h1, h2⟩

theorem quote_ascii (s : Str) : isAscii (quote s) = true := by
  unfold quote
  generalize utf8Encode s = b
  induction b with
  | nil => rfl
  | cons x xs ih => rw [List.flatMap_cons, isAscii_append, quoteByte_ascii, ih]; rfl

theorem percentDecode_quoteByte (b : UInt8) (t : Str) : percentDecode (quoteByte b ++ t) = (percentDecode t).map (b :: ·) := by
  have hb := b.toNat_lt
  unfold quoteByte
  split
  · rename_i h
    obtain ⟨h1, h2⟩ := quoteSafe_lt h
    have hc := toNat_charOfNat (n := b.toNat) (by omega)
    rw [List.singleton_append, percentDecode.eq_def]
    simp only
    rw [if_neg (by intro e; apply h2; rw [← hc, e]; rfl), hc, if_pos h1, UInt8.ofNat_toNat]
  · simp only [List.cons_append, List.nil_append]
    rw [percentDecode.eq_def]
    simp only [if_true, (hexUpper_val (n := b.toNat / 16) (by omega)).1, (hexUpper_val (n := b.toNat % 16) (by omega)).1]
    have : 16 * (b.toNat / 16) + b.toNat % 16 = b.toNat := by omega
    rw [this, UInt8.ofNat_toNat]

theorem percentDecode_quote (s : Str) : percentDecode (quote s) = some (utf8Encode s) := by
  unfold quote
  generalize utf8Encode s = b
  induction b with
  | nil => rfl
  | cons x xs ih => rw [List.flatMap_cons, percentDecode_quoteByte, ih]; rfl

end Warcio
