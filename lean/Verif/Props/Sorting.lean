import Verif.Model.Timestamps
import Verif.Proofs.Sorting

/-!
# Property C92: timestamps and ISO dates sort as the dates do

Specification: `TextBefore`, `EarlierMoment` in `Verif/Spec/Sorting.lean`, `Earlier` in `Verif/Spec/Calendar.lean`.
-/

namespace Warcio.Props

open Warcio DateTime

set_option linter.unusedSectionVars false

section
variable [PyUni]

/-- C92: timestamps of 14 digits sort as the seconds that they denote. -/
theorem C92_timestamp_partial {a b : DateTime} (ha : IsDate a) (hb : IsDate b) (h1 : 1000 ≤ a.year) (h2 : 1000 ≤ b.year) :
    TextBefore (datetimeToTimestamp a) (datetimeToTimestamp b) ↔ Earlier a b := by
  have a1 := ha.year_le; have a2 := ha.month_le; have a3 := day_lt_100 ha; have a4 := ha.hour_lt; have a5 := ha.minute_lt; have a6 := ha.second_lt
  have b1 := hb.year_le; have b2 := hb.month_le; have b3 := day_lt_100 hb; have b4 := hb.hour_lt; have b5 := hb.minute_lt; have b6 := hb.second_lt
  unfold datetimeToTimestamp strftime14 Earlier
  rw [pad4_eq h1 (by omega), pad4_eq h2 (by omega)]
  simp only [List.append_assoc]
  rw [pad_append_before (by decide) (by omega) (by omega), pad_append_before (by decide) (by omega) (by omega), pad_append_before (by decide) (by omega) (by omega),
    pad_append_before (by decide) (by omega) (by omega), pad_append_before (by decide) (by omega) (by omega), pad_before (by decide) (by omega) (by omega)]

/-- C92: ISO dates without microseconds sort as the seconds that they denote. -/
theorem C92_iso_partial {a b : DateTime} (ha : IsDate a) (hb : IsDate b) (h1 : 1000 ≤ a.year) (h2 : 1000 ≤ b.year) :
    TextBefore (datetimeToIsoDate a) (datetimeToIsoDate b) ↔ Earlier a b := by
  have a1 := ha.year_le; have a2 := ha.month_le; have a3 := day_lt_100 ha; have a4 := ha.hour_lt; have a5 := ha.minute_lt; have a6 := ha.second_lt
  have b1 := hb.year_le; have b2 := hb.month_le; have b3 := day_lt_100 hb; have b4 := hb.hour_lt; have b5 := hb.minute_lt; have b6 := hb.second_lt
  unfold datetimeToIsoDate Earlier
  rw [if_neg (by decide), if_neg (by decide)]
  unfold strftimeIso
  rw [pad4_eq h1 (by omega), pad4_eq h2 (by omega)]
  simp only [List.append_assoc, List.cons_append]
  rw [pad_append_before (by decide) (by omega) (by omega), textBefore_cons, pad_append_before (by decide) (by omega) (by omega), textBefore_cons, pad_append_before (by decide) (by omega) (by omega), textBefore_cons,
    pad_append_before (by decide) (by omega) (by omega), textBefore_cons, pad_append_before (by decide) (by omega) (by omega), textBefore_cons, pad_append_before (by decide) (by omega) (by omega)]
  have : ¬ TextBefore ['Z'] ['Z'] := not_textBefore_self _
  simp only [this, and_false, or_false]

/-- C92: timestamps of 20 digits sort as the moments that they denote. -/
theorem C92_timestamp20_partial {a b : DateTime} (ha : IsDate a) (hb : IsDate b) (h1 : 1000 ≤ a.year) (h2 : 1000 ≤ b.year) :
    TextBefore (timestamp20Now a) (timestamp20Now b) ↔ EarlierMoment a b := by
  have a1 := ha.year_le; have a2 := ha.month_le; have a3 := day_lt_100 ha; have a4 := ha.hour_lt; have a5 := ha.minute_lt; have a6 := ha.second_lt; have a7 := ha.micro_lt
  have b1 := hb.year_le; have b2 := hb.month_le; have b3 := day_lt_100 hb; have b4 := hb.hour_lt; have b5 := hb.minute_lt; have b6 := hb.second_lt; have b7 := hb.micro_lt
  unfold timestamp20Now strftime14 EarlierMoment Earlier
  rw [pad4_eq h1 (by omega), pad4_eq h2 (by omega)]
  simp only [List.append_assoc]
  rw [pad_append_before (by decide) (by omega) (by omega), pad_append_before (by decide) (by omega) (by omega), pad_append_before (by decide) (by omega) (by omega),
    pad_append_before (by decide) (by omega) (by omega), pad_append_before (by decide) (by omega) (by omega), pad_append_before (by decide) (by omega) (by omega), pad_before (by decide) (by omega) (by omega)]
  omega

/-- All timestamps of a clock have 14 and 20 digits. -/
theorem C92_length {d : DateTime} (hd : IsDate d) (h1 : 1000 ≤ d.year) : (timestampNow d).length = 14 ∧ (timestamp20Now d).length = 20 ∧ ∀ c ∈ timestamp20Now d, '0'.toNat ≤ c.toNat ∧ c.toNat ≤ '9'.toNat := by
  have a1 := hd.year_le; have a2 := hd.month_le; have a3 := day_lt_100 hd; have a4 := hd.hour_lt; have a5 := hd.minute_lt; have a6 := hd.second_lt; have a7 := hd.micro_lt
  unfold timestamp20Now timestampNow datetimeToTimestamp strftime14
  rw [pad4_eq h1 (by omega)]
  simp only [List.length_append, pad4_length (show d.year < 10000 by omega), pad2_length (show d.month < 100 by omega), pad2_length a3, pad2_length (show d.hour < 100 by omega), pad2_length (show d.minute < 100 by omega),
    pad2_length (show d.second < 100 by omega), pad6_length a7]
  refine ⟨trivial, trivial, ?_⟩
  intro c hc
  simp only [List.mem_append] at hc
  have key : ∀ w n, c ∈ pad w n → '0'.toNat ≤ c.toNat ∧ c.toNat ≤ '9'.toNat := fun w n h => by
    obtain ⟨k, hk, rfl⟩ := pad_isDig w n c h
    rw [digitChar_toNat hk]
    show 48 ≤ 48 + k ∧ 48 + k ≤ 57
    omega
  rcases hc with (((((h | h) | h) | h) | h) | h) | h <;> exact key _ _ h

/-- The texts of a date up to the second, with the separators of ISO dates. -/
theorem isoformat_before {a b : DateTime} (ha : IsDate a) (hb : IsDate b) (s t : Str) :
    TextBefore (pad 4 a.year ++ '-' :: (pad 2 a.month ++ '-' :: (pad 2 a.day ++ 'T' :: (pad 2 a.hour ++ ':' :: (pad 2 a.minute ++ ':' :: (pad 2 a.second ++ s))))))
      (pad 4 b.year ++ '-' :: (pad 2 b.month ++ '-' :: (pad 2 b.day ++ 'T' :: (pad 2 b.hour ++ ':' :: (pad 2 b.minute ++ ':' :: (pad 2 b.second ++ t)))))) ↔
    Earlier a b ∨ (a.year = b.year ∧ a.month = b.month ∧ a.day = b.day ∧ a.hour = b.hour ∧ a.minute = b.minute ∧ a.second = b.second ∧ TextBefore s t) := by
  have a1 := ha.year_le; have a2 := ha.month_le; have a3 := day_lt_100 ha; have a4 := ha.hour_lt; have a5 := ha.minute_lt; have a6 := ha.second_lt
  have b1 := hb.year_le; have b2 := hb.month_le; have b3 := day_lt_100 hb; have b4 := hb.hour_lt; have b5 := hb.minute_lt; have b6 := hb.second_lt
  rw [pad_append_before (by decide) (by omega) (by omega), textBefore_cons, pad_append_before (by decide) (by omega) (by omega), textBefore_cons, pad_append_before (by decide) (by omega) (by omega), textBefore_cons,
    pad_append_before (by decide) (by omega) (by omega), textBefore_cons, pad_append_before (by decide) (by omega) (by omega), textBefore_cons, pad_append_before (by decide) (by omega) (by omega)]
  unfold Earlier
  by_cases h : TextBefore s t <;> simp only [h, and_true, and_false, or_false] <;> omega

theorem isoformat_eq (d : DateTime) : datetimeToIsoDate d true = pad 4 d.year ++ '-' :: (pad 2 d.month ++ '-' :: (pad 2 d.day ++ 'T' :: (pad 2 d.hour ++ ':' :: (pad 2 d.minute ++ ':' :: (pad 2 d.second ++
    ((if d.micro = 0 then [] else '.' :: pad 6 d.micro) ++ ((if d.aware then lit "+00:00" else []) ++ ['Z']))))))) := by
  unfold datetimeToIsoDate isoformat
  rw [if_pos rfl]
  simp only [List.append_assoc, List.cons_append]

/-- C92: ISO dates with microseconds sort as the moments that they denote, if neither or both are
whole seconds, or if both have a time zone. -/
theorem C92_micros_partial {a b : DateTime} (ha : IsDate a) (hb : IsDate b) (hz : a.aware = b.aware) (hm : (a.micro = 0 ↔ b.micro = 0) ∨ a.aware = true) :
    TextBefore (datetimeToIsoDate a true) (datetimeToIsoDate b true) ↔ EarlierMoment a b := by
  have a7 := ha.micro_lt
  have b7 := hb.micro_lt
  rw [isoformat_eq, isoformat_eq, isoformat_before ha hb, ← hz]
  unfold EarlierMoment
  generalize hu : (if a.aware then lit "+00:00" else []) ++ ['Z'] = u
  have key : TextBefore ((if a.micro = 0 then [] else '.' :: pad 6 a.micro) ++ u) ((if b.micro = 0 then [] else '.' :: pad 6 b.micro) ++ u) ↔ a.micro < b.micro := by
    by_cases h0 : a.micro = 0 <;> by_cases h1 : b.micro = 0
    · rw [if_pos h0, if_pos h1]
      constructor
      · intro h; exact absurd h (not_textBefore_self _)
      · omega
    · rw [if_pos h0, if_neg h1]
      rcases hm with hm | hm
      · exact absurd (hm.1 h0) h1
      · rw [hm] at hu
        subst hu
        constructor
        · omega
        · intro _
          exact .differ '+' '.' _ _ (by decide)
    · rw [if_neg h0, if_pos h1]
      rcases hm with hm | hm
      · exact absurd (hm.2 h1) h0
      · rw [hm] at hu
        subst hu
        constructor
        · intro h
          cases h with
          | differ _ _ _ _ h => exact absurd h (by decide)
        · omega
    · rw [if_neg h0, if_neg h1]
      simp only [List.cons_append]
      rw [textBefore_cons, pad_append_before (by decide) (by omega) (by omega)]
      constructor
      · rintro (h | ⟨-, h⟩)
        · exact h
        · exact absurd h (not_textBefore_self _)
      · exact .inl
  rw [key]

/-- C92 fails for ISO dates with microseconds: every whole second sorts behind the moments within it. -/
theorem C92_whole_second {a b : DateTime} (ha : IsDate a) (hb : IsDate b) (hs : a.year = b.year ∧ a.month = b.month ∧ a.day = b.day ∧ a.hour = b.hour ∧ a.minute = b.minute ∧ a.second = b.second) (h0 : a.micro = 0) (h1 : b.micro ≠ 0)
    (hz : a.aware = false) : EarlierMoment a b ∧ TextBefore (datetimeToIsoDate b true) (datetimeToIsoDate a true) := by
  obtain ⟨s1, s2, s3, s4, s5, s6⟩ := hs
  refine ⟨.inr ⟨s1, s2, s3, s4, s5, s6, by omega⟩, ?_⟩
  rw [isoformat_eq, isoformat_eq, isoformat_before hb ha]
  refine .inr ⟨s1.symm, s2.symm, s3.symm, s4.symm, s5.symm, s6.symm, ?_⟩
  rw [if_neg h1, if_pos h0, hz]
  exact .differ '.' 'Z' _ _ (by decide)

end

/-- C92 fails for the years before 1000, which are not padded. -/
theorem C92_early_years : ∃ a b : DateTime, IsDate a ∧ IsDate b ∧ Earlier a b ∧ TextBefore (datetimeToTimestamp b) (datetimeToTimestamp a) ∧ TextBefore (datetimeToIsoDate b) (datetimeToIsoDate a) := by
  refine ⟨{ year := 999, month := 1, day := 1, hour := 0, minute := 0, second := 0 }, { year := 1000, month := 1, day := 1, hour := 0, minute := 0, second := 0 }, by constructor <;> decide, by constructor <;> decide, .inl (by decide),
    .differ '1' '9' _ _ (by decide), .differ '1' '9' _ _ (by decide)⟩

/-- Dates for which the hypotheses hold. -/
example : IsDate { year := 2020, month := 2, day := 29, hour := 23, minute := 59, second := 59, micro := 999999 } ∧ IsDate { year := 2020, month := 3, day := 1, hour := 0, minute := 0, second := 0 } ∧
    EarlierMoment { year := 2020, month := 2, day := 29, hour := 23, minute := 59, second := 59, micro := 999999 } { year := 2020, month := 3, day := 1, hour := 0, minute := 0, second := 0 } :=
  ⟨by constructor <;> decide, by constructor <;> decide, .inl (.inr ⟨rfl, .inl (by decide)⟩)⟩

example : datetimeToIsoDate { year := 2020, month := 3, day := 1, hour := 0, minute := 0, second := 0 } true = lit "2020-03-01T00:00:00Z" ∧
    datetimeToIsoDate { year := 2020, month := 3, day := 1, hour := 0, minute := 0, second := 0, micro := 5 } true = lit "2020-03-01T00:00:00.000005Z" ∧
    timestamp20Now { year := 2020, month := 3, day := 1, hour := 0, minute := 0, second := 0, micro := 5 } = lit "20200301000000000005" := by decide

end Warcio.Props
