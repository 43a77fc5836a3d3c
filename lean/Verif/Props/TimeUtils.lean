import Verif.Proofs.TimeUtils
import Verif.Toy

/-!
# Properties C51–C56 and C63: dates and timestamps

Dates are compared with the calendar of `Verif/Spec/Calendar.lean`.
-/

set_option linter.unusedSectionVars false

namespace Warcio
section
variable [PyUni]

/-! ## C51: `timestamp_to_datetime` is total and clamps -/

/-- For every string there is a result, and it is a date of the years 1900 to 2999. -/
theorem C51_total (s : Str) (aware : Bool) : ∃ d, timestampToDatetime s aware = .ok d ∧ IsDate d ∧
    1900 ≤ d.year ∧ d.year ≤ 2999 ∧ d.micro = 0 ∧ d.aware = aware := by
  obtain ⟨h1, h2, h3, h4⟩ := timestampFields_isDate s aware
  exact ⟨_, timestampToDatetime_eq s aware, h1, h2, h3, h4, rfl⟩

/-- Fourteen digits, whatever follows them, give the date whose parts are the given numbers,
each moved into its range; the range of the day is that of the resulting month. -/
theorem C51_clamps (y mo d h mi s : Nat) (rest : Str) (aware : Bool)
    (hy : y < 10000) (hmo : mo < 100) (hd : d < 100) (hh : h < 100) (hmi : mi < 100) (hs : s < 100) :
    ∃ r, timestampToDatetime (DateTime.pad 4 y ++ DateTime.pad 2 mo ++ DateTime.pad 2 d ++ DateTime.pad 2 h ++
      DateTime.pad 2 mi ++ DateTime.pad 2 s ++ rest) aware = .ok r ∧
      r.year = max 1900 (min y 2999) ∧ r.month = max 1 (min mo 12) ∧
      r.day = max 1 (min d (monthLength r.year r.month)) ∧
      r.hour = min h 23 ∧ r.minute = min mi 59 ∧ r.second = min s 59 := by
  refine ⟨_, timestampToDatetime_eq _ _, ?_⟩
  simp only [List.append_assoc]
  rw [timestampFields_full hy hmo hd hh hmi hs]
  refine ⟨rfl, rfl, ?_, by simp, by simp, by simp⟩
  simp only
  rw [daysInMonth_monthLength (by omega) (by omega)]

/-! ## C52: timestamps round-trip -/

/-- A date of 1900 to 2999 is read back from its timestamp, without its microseconds. -/
theorem C52_timestamp (d : DateTime) (aware : Bool) (hd : IsDate d) (h1 : 1900 ≤ d.year) (h2 : d.year ≤ 2999) :
    timestampToDatetime (datetimeToTimestamp d) aware = .ok { d with micro := 0, aware := aware } := by
  rw [timestampToDatetime_eq, datetimeToTimestamp, timestampFields_strftime hd h1 h2]

/-- Converting between timestamps and ISO dates is the same as going through the date. -/
theorem C52_iso (d : DateTime) (hd : IsDate d) (h1 : 1900 ≤ d.year) (h2 : d.year ≤ 2999) :
    isoDateToTimestamp (datetimeToIsoDate d) = .ok (datetimeToTimestamp d) ∧
    timestampToIsoDate (datetimeToTimestamp d) = .ok (datetimeToIsoDate d) := by
  constructor
  · unfold isoDateToTimestamp datetimeToIsoDate
    rw [if_neg (by simp), isoDate_strftime hd]
    rfl
  · unfold timestampToIsoDate
    rw [C52_timestamp d false hd h1 h2]
    rfl

/-! ## C53: ISO dates round-trip -/

/-- A date without time zone is read back from its ISO date; without microseconds if these
were not written.  (Full claim: every date.  Dates with a time zone are missing, see
`C53_aware`.) -/
theorem C53_roundtrip_partial (d : DateTime) (hd : IsDate d) (hn : d.aware = false) :
    isoDateToDatetime (datetimeToIsoDate d true) = .ok d ∧
    isoDateToDatetime (datetimeToIsoDate d) = .ok (toSecond d) := by
  constructor
  · unfold datetimeToIsoDate
    rw [if_pos rfl]
    unfold DateTime.isoformat
    rw [hn]
    have e : ({ d with aware := false } : DateTime) = d := by cases d; simp at hn; simp [hn]
    by_cases hm : d.micro = 0
    · rw [if_pos hm]
      have := isoDate_plain hd hm 4 false
      rw [e] at this
      simpa using this
    · rw [if_neg hm]
      have := isoDate_micros hd false
      rw [e] at this
      simpa using this
  · unfold datetimeToIsoDate
    rw [if_neg (by simp), isoDate_strftime hd]
    unfold toSecond
    rw [← hn]

/-- Without microseconds, dates with time zone round-trip as well. -/
theorem C53_seconds (d : DateTime) (hd : IsDate d) :
    isoDateToDatetime (datetimeToIsoDate d) d.aware = .ok (toSecond d) := by
  unfold datetimeToIsoDate
  rw [if_neg (by simp), isoDate_strftime hd]
  rfl

/-- The ISO date with microseconds of a date with time zone can never be read back: it ends
in `+00:00Z`. -/
theorem C53_aware (d : DateTime) (aware : Bool) (ha : d.aware = true) :
    isoDateToDatetime (datetimeToIsoDate d true) aware = .error .typeError := by
  have h00 : ∀ c ∈ ['0', '0'], IsDig c := by
    intro c hc
    have : c = '0' := by simpa using hc
    subst this; exact ⟨0, by decide, by decide⟩
  have p00 : parseInt ['0', '0'] = some 0 := by
    have e : (['0', '0'] : Str) = DateTime.pad 2 0 := by decide
    rw [e, parseInt_pad]; rfl
  have hz : lit "+00:00" = '+' :: (['0', '0'] ++ ':' :: ['0', '0']) := by decide
  unfold datetimeToIsoDate
  rw [if_pos rfl]
  unfold DateTime.isoformat
  rw [ha, if_pos rfl, hz]
  by_cases hm : d.micro = 0
  · rw [if_pos hm]
    unfold isoDateToDatetime
    have e1 := dateSplit_iso (DateTime.pad 4 d.year) (DateTime.pad 2 d.month) (DateTime.pad 2 d.day) (DateTime.pad 2 d.hour)
      (DateTime.pad 2 d.minute) (DateTime.pad 2 d.second) (pad_isDig _ _) (pad_isDig _ _) (pad_isDig _ _) (pad_isDig _ _)
      (pad_isDig _ _) (pad_isDig _ _) dec_plus (['0', '0'] ++ ':' :: (['0', '0'] ++ ['Z']))
    rw [dateSplit_word h00 dec_colon, dateSplit_word h00 dec_Z, dateSplit_nil] at e1
    simp only [List.append_assoc, List.cons_append, List.nil_append] at e1 ⊢
    rw [e1]
    simp only [dropLastEmpty, List.getLast?_cons_cons, List.getLast?_singleton, if_true, List.dropLast_cons₂, List.dropLast_singleton,
      padMicros, intAll, parseInt_pad, p00, DateTime.ofArgs]
  · rw [if_neg hm]
    unfold isoDateToDatetime
    have e1 := dateSplit_iso (DateTime.pad 4 d.year) (DateTime.pad 2 d.month) (DateTime.pad 2 d.day) (DateTime.pad 2 d.hour)
      (DateTime.pad 2 d.minute) (DateTime.pad 2 d.second) (pad_isDig _ _) (pad_isDig _ _) (pad_isDig _ _) (pad_isDig _ _)
      (pad_isDig _ _) (pad_isDig _ _) dec_dot (DateTime.pad 6 d.micro ++ '+' :: (['0', '0'] ++ ':' :: (['0', '0'] ++ ['Z'])))
    rw [dateSplit_word (pad_isDig _ _) dec_plus, dateSplit_word h00 dec_colon, dateSplit_word h00 dec_Z, dateSplit_nil] at e1
    simp only [List.append_assoc, List.cons_append, List.nil_append] at e1 ⊢
    rw [e1]
    simp only [dropLastEmpty, List.getLast?_cons_cons, List.getLast?_singleton, if_true, List.dropLast_cons₂, List.dropLast_singleton,
      padMicros, intAll, parseInt_pad, p00, DateTime.ofArgs]

/-! ## C54: short timestamps stand for the end of their period -/

/-- The first 4, 6, 8, 10, 12 or 14 digits of a timestamp are read as the last second whose
timestamp starts with these digits. -/
theorem C54_end_of_period (d : DateTime) (n : Nat) (hd : IsDate d) (h1 : 1900 ≤ d.year) (h2 : d.year ≤ 2999) (hn : n ≤ 5) :
    ∃ r, timestampToDatetime ((datetimeToTimestamp d).take (4 + 2 * n)) = .ok r ∧ IsDate r ∧
      (datetimeToTimestamp d).take (4 + 2 * n) <+: datetimeToTimestamp r ∧
      ∀ d', IsDate d' → 1900 ≤ d'.year → d'.year ≤ 2999 →
        (datetimeToTimestamp d).take (4 + 2 * n) <+: datetimeToTimestamp d' → ¬ Earlier r d' := by
  have hc := cutStamp_take hd h1 h2 n hn
  obtain ⟨hl, hl1, hl2⟩ := lastOf_isDate hd h1 h2 n
  refine ⟨lastOf d n, ?_, hl, ?_, ?_⟩
  · rw [timestampToDatetime_eq, ← hc, timestampFields_cut hd h1 h2]
  · have := cutStamp_take hl hl1 hl2 n hn
    rw [cutStamp_lastOf, hc] at this
    rw [this]
    exact List.take_prefix _ _
  · intro d' hd' h1' h2' hp
    have hlen : ((datetimeToTimestamp d).take (4 + 2 * n)).length = 4 + 2 * n := by
      rw [List.length_take]
      have a2 := hd.month_le; have a4 := hd.day_le
      have a5 := monthLength_le d.year d.month
      have a6 := hd.hour_lt; have a7 := hd.minute_lt; have a8 := hd.second_lt
      unfold datetimeToTimestamp
      rw [strftime14_eq (by omega) (by omega)]
      simp only [List.length_append, pad4_length (n := d.year) (by omega), pad2_length (n := d.month) (by omega),
        pad2_length (n := d.day) (by omega), pad2_length (n := d.hour) (by omega), pad2_length (n := d.minute) (by omega),
        pad2_length (n := d.second) (by omega), List.length_nil]
      omega
    have e : cutStamp d' n = cutStamp d n := by
      rw [hc, cutStamp_take hd' h1' h2' n hn]
      rw [List.prefix_iff_eq_take, hlen] at hp
      exact hp.symm
    have := cutStamp_inj hd' hd h1' h2' h1 h2 e
    rw [← this]
    exact lastOf_not_earlier hd' n

/-! ## C55: timestamps and epoch seconds -/

/-- A timestamp is recovered from its seconds. -/
theorem C55_inverse (d : DateTime) (hd : IsDate d) (h1 : 1900 ≤ d.year) (h2 : d.year ≤ 2999) :
    ∃ n, timestampToSec (datetimeToTimestamp d) = .ok n ∧ secToTimestamp n = .ok (datetimeToTimestamp d) := by
  refine ⟨d.timegm, ?_, ?_⟩
  · unfold timestampToSec; rw [C52_timestamp d true hd h1 h2]; rfl
  · unfold secToTimestamp
    rw [fromTimestamp_timegm hd]
    rfl

/-- The seconds count from 1970: the epoch is 0 and the next second is one more. -/
theorem C55_counts :
    timestampToSec (datetimeToTimestamp { year := 1970, month := 1, day := 1, hour := 0, minute := 0, second := 0 }) = .ok 0 ∧
    ∀ d, IsDate d → 1900 ≤ d.year → (nextSecond d).year ≤ 2999 → ∃ n, timestampToSec (datetimeToTimestamp d) = .ok n ∧
        timestampToSec (datetimeToTimestamp (nextSecond d)) = .ok (n + 1) := by
  constructor
  · unfold timestampToSec
    rw [C52_timestamp _ true ⟨by decide, by decide, by decide, by decide, by decide, by decide, by decide, by decide, by decide, by decide⟩ (by decide) (by decide)]
    rfl
  · intro d hd h1 h2
    have hd' := hd.nextSecond (by omega)
    have h3 : d.year ≤ 2999 := by have := nextSecond_year d; omega
    refine ⟨d.timegm, ?_, ?_⟩
    · unfold timestampToSec; rw [C52_timestamp d true hd h1 h3]; rfl
    · have hy := nextSecond_year d
      unfold timestampToSec
      rw [C52_timestamp _ true hd' (by omega) h2]
      show Except.ok (nextSecond d).timegm = _
      rw [timegm_nextSecond hd]

/-- A later second has a larger number. -/
theorem C55_increasing (a b : DateTime) (ha : IsDate a) (hb : IsDate b) (ha1 : 1900 ≤ a.year) (ha2 : a.year ≤ 2999)
    (hb1 : 1900 ≤ b.year) (hb2 : b.year ≤ 2999) (h : Earlier a b) :
    ∃ m n, timestampToSec (datetimeToTimestamp a) = .ok m ∧ timestampToSec (datetimeToTimestamp b) = .ok n ∧ m < n := by
  refine ⟨a.timegm, b.timegm, ?_, ?_, timegm_lt ha hb h⟩
  · unfold timestampToSec; rw [C52_timestamp a true ha ha1 ha2]; rfl
  · unfold timestampToSec; rw [C52_timestamp b true hb hb1 hb2]; rfl

/-! ## C56: HTTP dates round-trip -/

/-- A date of the years 100 to 9999 is read back from its HTTP date, without its
microseconds.  (Full claim: every date.  The years before 100 are missing, see
`C56_early_years`.) -/
theorem C56_roundtrip_partial (d : DateTime) (hd : IsDate d) (hy : 100 ≤ d.year) :
    ∃ s, datetimeToHttpDate d = .ok s ∧ httpDateToDatetime s d.aware = .ok (toSecond d) := by
  obtain ⟨w, mon, h1, h2, h3⟩ := formatDate_eq hd
  refine ⟨_, h3, ?_⟩
  have hg : lit " GMT" = ' ' :: lit "GMT" := by decide
  have hm : d.month - 1 < 12 := by have := hd.month_le; have := hd.month_pos; omega
  have hm' : d.month - 1 + 1 = d.month := by have := hd.month_pos; omega
  unfold httpDateToDatetime
  rw [hg, parseDate_format h1 hm h2 _ _ _ _ _ (by decide) (by decide), hm']
  have hf : yearFix d.year = d.year := by unfold yearFix; rw [if_neg (by omega)]
  rw [hf]
  have h0 : IsDate (toSecond d) := ⟨hd.year_pos, hd.year_le, hd.month_pos, hd.month_le, hd.day_pos, hd.day_le,
    hd.hour_lt, hd.minute_lt, hd.second_lt, by simp [toSecond]⟩
  exact make_eq h0 d.aware

/-- A date of the years 1 to 99 comes back in the 20th or 21st century. -/
theorem C56_early_years (d : DateTime) (hd : IsDate d) (hy : d.year < 100) :
    ∃ s r, datetimeToHttpDate d = .ok s ∧ httpDateToDatetime s = .ok r ∧
      r.year = (if 68 < d.year then d.year + 1900 else d.year + 2000) := by
  obtain ⟨w, mon, h1, h2, h3⟩ := formatDate_eq hd
  refine ⟨_, { d with year := yearFix d.year, micro := 0, aware := false }, h3, ?_, ?_⟩
  · have hg : lit " GMT" = ' ' :: lit "GMT" := by decide
    have hm : d.month - 1 < 12 := by have := hd.month_le; have := hd.month_pos; omega
    have hm' : d.month - 1 + 1 = d.month := by have := hd.month_pos; omega
    unfold httpDateToDatetime
    rw [hg, parseDate_format h1 hm h2 _ _ _ _ _ (by decide) (by decide), hm']
    have hpos := hd.year_pos
    have hl : Leap (yearFix d.year) ↔ Leap d.year := by
      unfold Leap yearFix
      rw [if_pos hy]
      split <;> omega
    have hlen : monthLength (yearFix d.year) d.month = monthLength d.year d.month := by
      unfold monthLength
      by_cases h : Leap d.year
      · simp [h, hl.2 h]
      · have : ¬ Leap (yearFix d.year) := fun h' => h (hl.1 h')
        simp [h, this]
    have hb : 1 ≤ yearFix d.year ∧ yearFix d.year ≤ 9999 := by
      unfold yearFix; rw [if_pos hy]; split <;> omega
    have h0 : IsDate { d with year := yearFix d.year, micro := 0, aware := false } :=
      ⟨hb.1, hb.2, hd.month_pos, hd.month_le, hd.day_pos, by simpa only [hlen] using hd.day_le,
        hd.hour_lt, hd.minute_lt, hd.second_lt, by simp⟩
    exact make_eq h0 false
  · simp only [yearFix]; rw [if_pos hy]

/-! ## C63: zone offsets -/

/-- The zone of an HTTP date never matters: replacing `GMT` by any word gives the same date.
(Claim: the date that the text denotes is returned.  It holds for GMT, see C56.) -/
theorem C63_http_zone_ignored (d : DateTime) (hd : IsDate d) (z : Str) (hz : z ≠ [])
    (hzs : ∀ c ∈ z, isSpace c = false) (aware : Bool) :
    ∃ s, datetimeToHttpDate d = .ok (s ++ lit " GMT") ∧
      httpDateToDatetime (s ++ ' ' :: z) aware = httpDateToDatetime (s ++ lit " GMT") aware := by
  obtain ⟨w, mon, h1, h2, h3⟩ := formatDate_eq hd
  have hm : d.month - 1 < 12 := by have := hd.month_le; have := hd.month_pos; omega
  have hg : lit " GMT" = ' ' :: lit "GMT" := by decide
  refine ⟨w ++ ',' :: ' ' :: (DateTime.pad 2 d.day ++ ' ' :: (mon ++ ' ' :: (DateTime.pad 4 d.year ++ ' ' ::
    (DateTime.pad 2 d.hour ++ ':' :: (DateTime.pad 2 d.minute ++ ':' :: DateTime.pad 2 d.second))))), ?_, ?_⟩
  · unfold datetimeToHttpDate at *
    rw [h3]; simp only [List.append_assoc, List.cons_append]
  · have e1 := parseDate_format h1 hm h2 d.day d.year d.hour d.minute d.second hz hzs
    have e2 := parseDate_format h1 hm h2 d.day d.year d.hour d.minute d.second (z := lit "GMT") (by decide) (by decide)
    unfold httpDateToDatetime
    simp only [hg, List.append_assoc, List.cons_append] at e1 e2 ⊢
    rw [e1, e2]

end

/-! ## Concrete cases -/

section
open Toy

/-- The hypotheses of C52–C56 hold for 29 February 2000, 23:59:59.000007. -/
example : IsDate { year := 2000, month := 2, day := 29, hour := 23, minute := 59, second := 59, micro := 7 } := by
  constructor <;> decide

example : nextSecond { year := 2000, month := 2, day := 29, hour := 23, minute := 59, second := 59, micro := 7 } =
    { year := 2000, month := 3, day := 1, hour := 0, minute := 0, second := 0, micro := 7 } := by decide

example : IsDate { year := 2000, month := 3, day := 1, hour := 0, minute := 0, second := 0, micro := 7 } := by
  constructor <;> decide

example : Earlier { year := 1999, month := 12, day := 31, hour := 23, minute := 59, second := 59 }
    { year := 2000, month := 1, day := 1, hour := 0, minute := 0, second := 0 } := Or.inl (by decide)

/-- '201402' is the end of February 2014; '20131709005601' has no month 17. -/
example : timestampToDatetime (lit "201402") =
    .ok { year := 2014, month := 2, day := 28, hour := 23, minute := 59, second := 59 } := by decide +kernel

example : timestampToDatetime (lit "20131709005601") =
    .ok { year := 2013, month := 12, day := 9, hour := 0, minute := 56, second := 1 } := by decide +kernel

example : isoDateToDatetime (lit "2013-12-26T10:11:12.00001Z") =
    .ok { year := 2013, month := 12, day := 26, hour := 10, minute := 11, second := 12, micro := 10 } := by decide +kernel

example : datetimeToHttpDate { year := 2013, month := 12, day := 26, hour := 9, minute := 50, second := 10 } =
    .ok (lit "Thu, 26 Dec 2013 09:50:10 GMT") := by decide +kernel

/-- A date with time zone, for `C53_aware`. -/
example : datetimeToIsoDate { year := 2013, month := 12, day := 26, hour := 10, minute := 11, second := 12, aware := true } true =
    lit "2013-12-26T10:11:12+00:00Z" := by decide +kernel

/-- Five hours apart, but the same result, even when it is labelled as UTC. -/
theorem C63_http_offset_ignored :
    httpDateToDatetime (lit "Thu, 26 Dec 2013 09:50:10 -0500") true =
      httpDateToDatetime (lit "Thu, 26 Dec 2013 09:50:10 GMT") true ∧
    httpDateToDatetime (lit "Thu, 26 Dec 2013 09:50:10 -0500") true =
      .ok { year := 2013, month := 12, day := 26, hour := 9, minute := 50, second := 10, aware := true } := by
  decide +kernel

/-- A zone offset of an ISO date is read as a fraction of a second, or refused. -/
theorem C63_iso_offset_misread :
    isoDateToDatetime (lit "2013-12-26T10:11:12+01") true =
      .ok { year := 2013, month := 12, day := 26, hour := 10, minute := 11, second := 12, micro := 10000, aware := true } ∧
    isoDateToDatetime (lit "2013-12-26T10:11:12+01:00") true = .error .typeError := by
  decide +kernel

end
end Warcio
