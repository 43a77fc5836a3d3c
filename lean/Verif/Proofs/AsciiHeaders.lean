import Verif.Proofs.Quote
import Verif.Proofs.HeaderRound

/-! # When headers can be written as ASCII -/

namespace Warcio.StatusAndHeaders

theorem takeWhile_all {α : Type} (p : α → Bool) {a b : List α} (ha : ∀ x ∈ a, p x = true)
    (hb : b = [] ∨ ∃ y t, b = y :: t ∧ p y = false) : (a ++ b).takeWhile p = a ∧ (a ++ b).dropWhile p = b := by
  induction a with
  | nil =>
    rcases hb with rfl | ⟨y, t, rfl, hy⟩
    · simp
    · simp [hy]
  | cons x xs ih =>
    have hx := ha x List.mem_cons_self
    have := ih (fun z hz => ha z (List.mem_cons_of_mem _ hz))
    simp [hx, this.1, this.2]

theorem rxVal_of {c : Char} (h1 : c ≠ ';') (h2 : c ≠ '"') : rxVal c = true := by
  simp [rxVal, h1, h2]

theorem rxGroup_plain {c : Char} {g rest : Str} (h : ∀ x ∈ c :: g, rxVal x = true) (hr : rest = [] ∨ ∃ t, rest = ';' :: t) :
    rxGroup (c :: g ++ rest) = some (c :: g, rest) := by
  have hr' : rest = [] ∨ ∃ y t, rest = y :: t ∧ rxVal y = false := by
    rcases hr with rfl | ⟨t, rfl⟩
    · exact Or.inl rfl
    · exact Or.inr ⟨';', t, rfl, by decide⟩
  obtain ⟨h1, h2⟩ := takeWhile_all rxVal h hr'
  unfold rxGroup
  rw [h1, h2]
  simp only
  rcases hr with rfl | ⟨t, rfl⟩ <;> rfl

theorem rxGroup_quoted {c : Char} {g rest : Str} (h : ∀ x ∈ c :: g, rxVal x = true) :
    rxGroup (c :: g ++ '"' :: rest) = some (c :: g, rest) := by
  obtain ⟨h1, h2⟩ := takeWhile_all rxVal h (b := '"' :: rest) (Or.inr ⟨'"', rest, rfl, by decide⟩)
  unfold rxGroup
  rw [h1, h2]
  rfl

theorem rxSub_ascii {v : Str} (h : ParamValue v) : ∀ fuel, v.length ≤ fuel → isAscii (rxSub fuel v) = true := by
  induction h with
  | nil => intro fuel _; cases fuel <;> rfl
  | @char c t h1 h2 _ ih =>
    intro fuel hf
    cases fuel with
    | zero => simp at hf
    | succ fuel =>
      unfold rxSub
      rw [if_neg h2, isAscii_cons, ih fuel (by simpa using hf)]
      simp [h1]
  | @plain c g rest h1 h2 h3 h4 h5 _ ih =>
    intro fuel hf
    cases fuel with
    | zero => simp at hf
    | succ fuel =>
      have hg : ∀ x ∈ c :: g, rxVal x = true := by
        intro x hx
        rcases List.mem_cons.1 hx with rfl | hx
        · exact rxVal_of h3 h1
        · exact rxVal_of (h4 x hx).1 (h4 x hx).2
      have hm : rxMatch (c :: g ++ rest) = some (c :: g, rest) := by
        unfold rxMatch
        simp only [List.cons_append]
        rw [if_neg (by simp [rxQuote, h1, h2])]
        exact rxGroup_plain hg h5
      rw [List.cons_append, List.cons_append]
      unfold rxSub
      rw [if_pos rfl]
      have hm' : rxMatch (c :: (g ++ rest)) = some (c :: g, rest) := hm
      simp only [hm']
      rw [isAscii_append, isAscii_append, quote_ascii, ih fuel (by simp at hf; omega)]
      rfl
  | @quoted c g rest h1 h3 h4 _ ih =>
    intro fuel hf
    cases fuel with
    | zero => simp at hf
    | succ fuel =>
      have hg : ∀ x ∈ c :: g, rxVal x = true := by
        intro x hx
        rcases List.mem_cons.1 hx with rfl | hx
        · exact rxVal_of h3 h1
        · exact rxVal_of (h4 x hx).1 (h4 x hx).2
      have hm : rxMatch ('"' :: (c :: g ++ '"' :: rest)) = some (c :: g, rest) := by
        unfold rxMatch
        simp only
        rw [if_pos (by decide), rxGroup_quoted hg]
      simp only [List.cons_append] at hm ⊢
      unfold rxSub
      rw [if_pos rfl]
      simp only [hm]
      rw [isAscii_append, isAscii_append, quote_ascii, ih fuel (by simp at hf; omega)]
      rfl

/-- The values `to_ascii_bytes` can handle. -/
def EncodableValue (v : Str) : Prop := isAscii v = true ∨ ';' ∉ v ∨ ParamValue v

theorem percentEncodeValue_ascii {v : Str} (h : EncodableValue v) : isAscii (percentEncodeValue v) = true := by
  unfold percentEncodeValue
  split
  · assumption
  · rename_i h0
    split
    · rename_i h1
      rcases h with h | h | h
      · exact absurd h h0
      · exact absurd (by simpa using h1) h
      · simp only
        split
        · exact quote_ascii v
        · exact rxSub_ascii h _ (Nat.le_refl _)
    · exact quote_ascii v

theorem isAscii_headerLines {hs : List Header} (h : ∀ x ∈ hs, isAscii x.1 = true ∧ isAscii x.2 = true) :
    isAscii (headerLines some hs) = true := by
  induction hs with
  | nil => rfl
  | cons a t ih =>
    obtain ⟨h1, h2⟩ := h a List.mem_cons_self
    simp only [headerLines, isAscii_append, h1, h2, ih (fun x hx => h x (List.mem_cons_of_mem _ hx))]
    rfl

theorem isAscii_firstLine {s : StatusAndHeaders} (h1 : isAscii s.protocol = true) (h2 : isAscii s.statusline = true) :
    isAscii s.firstLine = true := by
  by_cases h0 : s.firstText = []
  · rw [s.firstLine_nil h0]; rfl
  · rw [s.firstLine_eq h0, isAscii_append]
    unfold firstText
    split
    · rw [h1]; rfl
    · split
      · rw [h2]; rfl
      · rw [isAscii_append, isAscii_cons, h1, h2]; rfl

theorem encodeAscii_of {s : Str} (h : isAscii s = true) : encodeAscii s = .ok (utf8Encode s) := by
  unfold encodeAscii
  rw [if_pos h]
  congr 1
  induction s with
  | nil => rfl
  | cons c t ih =>
    rw [isAscii_cons, Bool.and_eq_true, decide_eq_true_eq] at h
    rw [List.map_cons, ih h.2, utf8Encode_cons]
    unfold utf8Char
    simp [h.1]

theorem utf8Encode_ascii {s : Str} (h : isAscii s = true) : ∀ b ∈ utf8Encode s, b.toNat < 128 := by
  intro b hb
  have e := encodeAscii_of h
  unfold encodeAscii at e
  rw [if_pos h] at e
  simp only [Except.ok.injEq] at e
  rw [← e, List.mem_map] at hb
  obtain ⟨c, hc, rfl⟩ := hb
  have := List.all_eq_true.1 h c hc
  simp only [decide_eq_true_eq] at this
  rw [ofNat_toNat _ (by omega)]; exact this

end Warcio.StatusAndHeaders
