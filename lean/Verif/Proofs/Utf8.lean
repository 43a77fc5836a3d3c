import Verif.Py.Utf8

/-! # UTF-8 round trips -/

namespace Warcio

theorem ofNat_toNat (n : Nat) (h : n < 256) : (UInt8.ofNat n).toNat = n := by
  simp [UInt8.toNat_ofNat']; omega

theorem charOfNat (c : Char) {n : Nat} (h : n = c.toNat) : Char.ofNat n = c := by
  subst h; exact Char.ofNat_toNat c

theorem char_valid (c : Char) : c.toNat < 0xD800 ∨ (0xDFFF < c.toNat ∧ c.toNat < 0x110000) := c.valid

theorem utf8Decode_char (c : Char) (t : Bytes) : utf8Decode (utf8Char c ++ t) = (utf8Decode t).map (c :: ·) := by
  have hv := char_valid c
  unfold utf8Char
  simp only
  generalize hn : c.toNat = n at *
  split
  · rename_i h
    rw [List.singleton_append, utf8Decode.eq_def]
    simp only [ofNat_toNat n (by omega), h, if_true]
    rw [charOfNat c hn.symm]
  · split
    · rename_i h1 h2
      rw [List.cons_append, List.singleton_append, utf8Decode.eq_def]
      have e1 := ofNat_toNat (0xC0 + n / 64) (by omega)
      have e2 := ofNat_toNat (0x80 + n % 64) (by omega)
      have e3 : isCont (UInt8.ofNat (0x80 + n % 64)) = true := by
        simp only [isCont, e2, Bool.and_eq_true, decide_eq_true_eq]; omega
      simp only [e1, e2, e3]
      rw [if_neg (by omega), if_neg (by simp), if_neg (by omega), if_pos (by omega)]
      rw [charOfNat c (by omega)]
    · split
      · rename_i h1 h2 h3
        simp only [List.cons_append, List.nil_append]
        rw [utf8Decode.eq_def]
        have e1 := ofNat_toNat (0xE0 + n / 4096) (by omega)
        have e2 := ofNat_toNat (0x80 + n / 64 % 64) (by omega)
        have e3 := ofNat_toNat (0x80 + n % 64) (by omega)
        have f2 : isCont (UInt8.ofNat (0x80 + n / 64 % 64)) = true := by
          simp only [isCont, e2, Bool.and_eq_true, decide_eq_true_eq]; omega
        have f3 : isCont (UInt8.ofNat (0x80 + n % 64)) = true := by
          simp only [isCont, e3, Bool.and_eq_true, decide_eq_true_eq]; omega
        simp only [e1, e2, e3, f2, f3]
        have hval : (0xE0 + n / 4096 - 0xE0) * 4096 + (0x80 + n / 64 % 64 - 0x80) * 64 + (0x80 + n % 64 - 0x80) = n := by omega
        rw [if_neg (by omega), if_neg (by simp), if_neg (by omega), if_neg (by omega), if_neg (by simp), if_pos (by omega), hval]
        rw [if_neg (by simp; omega), charOfNat c hn.symm]
      · rename_i h1 h2 h3
        simp only [List.cons_append, List.nil_append]
        rw [utf8Decode.eq_def]
        have e1 := ofNat_toNat (0xF0 + n / 262144) (by omega)
        have e2 := ofNat_toNat (0x80 + n / 4096 % 64) (by omega)
        have e3 := ofNat_toNat (0x80 + n / 64 % 64) (by omega)
        have e4 := ofNat_toNat (0x80 + n % 64) (by omega)
        have f2 : isCont (UInt8.ofNat (0x80 + n / 4096 % 64)) = true := by
          simp only [isCont, e2, Bool.and_eq_true, decide_eq_true_eq]; omega
        have f3 : isCont (UInt8.ofNat (0x80 + n / 64 % 64)) = true := by
          simp only [isCont, e3, Bool.and_eq_true, decide_eq_true_eq]; omega
        have f4 : isCont (UInt8.ofNat (0x80 + n % 64)) = true := by
          simp only [isCont, e4, Bool.and_eq_true, decide_eq_true_eq]; omega
        simp only [e1, e2, e3, e4, f2, f3, f4]
        have hval : (0xF0 + n / 262144 - 0xF0) * 262144 + (0x80 + n / 4096 % 64 - 0x80) * 4096 + (0x80 + n / 64 % 64 - 0x80) * 64 + (0x80 + n % 64 - 0x80) = n := by omega
        rw [if_neg (by omega), if_neg (by simp), if_neg (by omega), if_neg (by omega), if_neg (by simp), if_neg (by omega), if_neg (by simp), hval]
        rw [if_pos (by simp; omega), charOfNat c hn.symm]

theorem utf8Decode_append (s : Str) (t : Bytes) : utf8Decode (utf8Encode s ++ t) = (utf8Decode t).map (s ++ ·) := by
  induction s with
  | nil => simp [utf8Encode]
  | cons c s ih =>
    have : utf8Encode (c :: s) = utf8Char c ++ utf8Encode s := rfl
    rw [this, List.append_assoc, utf8Decode_char, ih]
    cases utf8Decode t <;> simp

theorem utf8Decode_encode (s : Str) : utf8Decode (utf8Encode s) = some s := by
  have := utf8Decode_append s []
  simpa [utf8Decode] using this

theorem decodeHeader_encode (s : Str) : decodeHeader (utf8Encode s) = s := by
  unfold decodeHeader; rw [utf8Decode_encode]

theorem utf8Encode_append (s t : Str) : utf8Encode (s ++ t) = utf8Encode s ++ utf8Encode t := by
  simp [utf8Encode]

theorem utf8Encode_cons (c : Char) (t : Str) : utf8Encode (c :: t) = utf8Char c ++ utf8Encode t := rfl

theorem utf8Encode_crlf : utf8Encode crlfStr = crlf := rfl

theorem char_toNat_inj {a b : Char} (h : a.toNat = b.toNat) : a = b := by
  rw [← Char.ofNat_toNat a, h, Char.ofNat_toNat]

theorem uint8_toNat_inj {a b : UInt8} (h : a.toNat = b.toNat) : a = b := UInt8.toNat_inj.1 h

/-- An ASCII byte in the encoding of a character is that character. -/
theorem mem_utf8Char {c : Char} {b : UInt8} (hb : b.toNat < 128) : b ∈ utf8Char c ↔ c.toNat = b.toNat := by
  have hv := char_valid c
  unfold utf8Char
  simp only
  generalize hn : c.toNat = n at *
  have key : ∀ m, m < 256 → (b = UInt8.ofNat m ↔ b.toNat = m) := by
    intro m hm
    constructor
    · rintro rfl; exact ofNat_toNat m hm
    · intro h; apply uint8_toNat_inj; rw [ofNat_toNat m hm, h]
  split
  · simp only [List.mem_singleton]; rw [key n (by omega)]; exact eq_comm
  · split
    · simp only [List.mem_cons, List.not_mem_nil, or_false]
      rw [key _ (by omega), key _ (by omega)]; omega
    · split
      · simp only [List.mem_cons, List.not_mem_nil, or_false]
        rw [key _ (by omega), key _ (by omega), key _ (by omega)]; omega
      · simp only [List.mem_cons, List.not_mem_nil, or_false]
        rw [key _ (by omega), key _ (by omega), key _ (by omega), key _ (by omega)]; omega

theorem nl_mem_encode {s : Str} : (10 : UInt8) ∈ utf8Encode s ↔ '\n' ∈ s := by
  unfold utf8Encode
  rw [List.mem_flatMap]
  constructor
  · rintro ⟨c, h1, h2⟩
    have := (mem_utf8Char (by decide)).1 h2
    have : c = '\n' := char_toNat_inj this
    exact this ▸ h1
  · intro h
    exact ⟨'\n', h, by decide⟩

theorem toNat_charOfNat {n : Nat} (h : n < 0xD800 ∨ (0xDFFF < n ∧ n < 0x110000)) : (Char.ofNat n).toNat = n := by
  unfold Char.ofNat
  rw [dif_pos (show n.isValidChar from h)]
  rfl

theorem isCont_iff {b : UInt8} : (!isCont b) = true ↔ ¬ (128 ≤ b.toNat ∧ b.toNat < 192) := by
  simp [isCont]; omega

/-- What decodes is the encoding of its decoding. -/
theorem utf8Encode_decode_aux : ∀ (k : Nat) (b : Bytes), b.length ≤ k → ∀ (s : Str), utf8Decode b = some s → utf8Encode s = b := by
  intro k
  induction k with
  | zero =>
    intro b hk s h
    have : b = [] := List.length_eq_zero_iff.1 (by omega)
    subst this
    simp [utf8Decode] at h; subst h; rfl
  | succ k ih =>
    intro b hk s h
    cases b with
    | nil => simp [utf8Decode] at h; subst h; rfl
    | cons a t =>
      simp only [List.length_cons] at hk
      rw [utf8Decode.eq_def] at h
      simp only at h
      have ha : a.toNat < 256 := a.toNat_lt
      have fin : ∀ (c : Char) (t' p : Bytes), t'.length ≤ k → a :: t = p ++ t' → utf8Char c = p →
          (utf8Decode t').map (c :: ·) = some s → utf8Encode s = a :: t := by
        intro c t' p hl hp hc hm
        cases ht : utf8Decode t' with
        | none => rw [ht] at hm; cases hm
        | some s' =>
          rw [ht] at hm
          simp only [Option.map_some, Option.some.injEq] at hm
          subst hm
          rw [utf8Encode_cons, ih t' hl s' ht, hc, hp]
      have enc : ∀ (x : UInt8) (m : Nat), m = x.toNat → UInt8.ofNat m = x := by
        rintro x m rfl; exact UInt8.ofNat_toNat
      split at h
      · rename_i h1
        refine fin _ t [a] (by omega) rfl ?_ h
        unfold utf8Char
        simp only [toNat_charOfNat (n := a.toNat) (by omega), h1, if_true]
        rw [enc a _ rfl]
      · rename_i h1
        cases t with
        | nil => cases h
        | cons b t2 =>
          simp only [List.length_cons] at hk
          simp only at h
          split at h
          · cases h
          rename_i hb
          rw [isCont_iff, Classical.not_not] at hb
          split at h
          · cases h
          rename_i h2
          split at h
          · rename_i h3
            refine fin _ t2 [a, b] (by omega) rfl ?_ h
            have hv := toNat_charOfNat (n := (a.toNat - 0xC0) * 64 + (b.toNat - 0x80)) (by omega)
            unfold utf8Char
            simp only [hv]
            rw [if_neg (by omega), if_pos (by omega)]
            rw [enc a _ (by omega), enc b _ (by omega)]
          · rename_i h3
            cases t2 with
            | nil => cases h
            | cons c t3 =>
              simp only [List.length_cons] at hk
              simp only at h
              split at h
              · cases h
              rename_i hc
              rw [isCont_iff, Classical.not_not] at hc
              split at h
              · rename_i h4
                split at h
                · cases h
                rename_i h5
                simp only [Bool.or_eq_true, Bool.and_eq_true, decide_eq_true_eq, not_or, not_and, Nat.not_lt] at h5
                refine fin _ t3 [a, b, c] (by omega) rfl ?_ h
                have hv := toNat_charOfNat (n := (a.toNat - 0xE0) * 4096 + (b.toNat - 0x80) * 64 + (c.toNat - 0x80)) (by omega)
                unfold utf8Char
                simp only [hv]
                rw [if_neg (by omega), if_neg (by omega), if_pos (by omega)]
                rw [enc a _ (by omega), enc b _ (by omega), enc c _ (by omega)]
              · rename_i h4
                cases t3 with
                | nil => cases h
                | cons d t4 =>
                  simp only [List.length_cons] at hk
                  simp only at h
                  split at h
                  · cases h
                  rename_i hd
                  rw [isCont_iff, Classical.not_not] at hd
                  split at h
                  · rename_i h5
                    simp only [Bool.and_eq_true, decide_eq_true_eq] at h5
                    refine fin _ t4 [a, b, c, d] (by omega) rfl ?_ h
                    have hv := toNat_charOfNat (n := (a.toNat - 0xF0) * 262144 + (b.toNat - 0x80) * 4096 + (c.toNat - 0x80) * 64 + (d.toNat - 0x80)) (by omega)
                    unfold utf8Char
                    simp only [hv]
                    rw [if_neg (by omega), if_neg (by omega), if_neg (by omega)]
                    rw [enc a _ (by omega), enc b _ (by omega), enc c _ (by omega), enc d _ (by omega)]
                  · cases h

theorem utf8Encode_decode {b : Bytes} {s : Str} (h : utf8Decode b = some s) : utf8Encode s = b :=
  utf8Encode_decode_aux _ b (Nat.le_refl _) s h

theorem decodeHeader_eq_nil {b : Bytes} : decodeHeader b = [] ↔ b = [] := by
  constructor
  · unfold decodeHeader
    cases h : utf8Decode b with
    | some s => intro hs; simp only at hs; subst hs; exact (utf8Encode_decode h).symm
    | none => intro hs; simpa [latin1Decode] using hs
  · rintro rfl; rfl

theorem nl_mem_decodeHeader {b : Bytes} : '\n' ∈ decodeHeader b ↔ (10 : UInt8) ∈ b := by
  unfold decodeHeader
  cases h : utf8Decode b with
  | some s =>
    simp only
    rw [← nl_mem_encode, utf8Encode_decode h]
  | none =>
    simp only [latin1Decode, List.mem_map]
    constructor
    · rintro ⟨x, h1, h2⟩
      have := congrArg Char.toNat h2
      rw [toNat_charOfNat (by have := x.toNat_lt; omega)] at this
      have : x = 10 := uint8_toNat_inj this
      exact this ▸ h1
    · intro h1; exact ⟨10, h1, by decide⟩

end Warcio
