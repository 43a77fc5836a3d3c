import Verif.Spec.Calendar

/-! # The calendar computations of CPython against the Gregorian calendar -/

namespace Warcio

theorem isLeap_iff (y : Nat) : isLeap y = true ↔ Leap y := by
  simp only [isLeap, Leap, Bool.and_eq_true, Bool.or_eq_true, beq_iff_eq, bne_iff_ne]
  constructor
  · rintro ⟨h1, h2⟩; exact ⟨h1, fun h => by omega⟩
  · rintro ⟨h1, h2⟩; exact ⟨h1, by by_cases h : y % 100 = 0; exact Or.inr (h2 h); exact Or.inl h⟩

/-- The length of a month of a leap or ordinary year. -/
def monthLen (leap : Bool) (m : Nat) : Nat := if m = 2 && leap then 29 else monthDays m

theorem daysInMonth_eq (y m : Nat) : daysInMonth y m = monthLen (isLeap y) m := rfl

theorem monthLen_table : ∀ leap : Bool, ∀ m < 13, 1 ≤ m →
    monthLen leap m = (if m = 2 then (if leap then 29 else 28)
      else if m = 4 ∨ m = 6 ∨ m = 9 ∨ m = 11 then 30 else 31) := by decide

theorem daysInMonth_monthLength {y m : Nat} (h1 : 1 ≤ m) (h2 : m ≤ 12) : daysInMonth y m = monthLength y m := by
  rw [daysInMonth_eq, monthLen_table _ m (by omega) h1]
  unfold monthLength
  cases h : isLeap y
  · have : ¬ Leap y := by rw [← isLeap_iff, h]; simp
    simp [this]
  · have : Leap y := by rw [← isLeap_iff, h]
    simp [this]

theorem valid_iff (d : DateTime) : d.valid = true ↔ IsDate d := by
  simp only [DateTime.valid, Bool.and_eq_true, decide_eq_true_eq]
  constructor
  · rintro ⟨⟨⟨⟨⟨⟨⟨⟨⟨h1, h2⟩, h3⟩, h4⟩, h5⟩, h6⟩, h7⟩, h8⟩, h9⟩, h10⟩
    exact ⟨h1, h2, h3, h4, h5, by rw [← daysInMonth_monthLength h3 h4]; exact h6, h7, h8, h9, h10⟩
  · rintro ⟨h1, h2, h3, h4, h5, h6, h7, h8, h9, h10⟩
    exact ⟨⟨⟨⟨⟨⟨⟨⟨⟨h1, h2⟩, h3⟩, h4⟩, h5⟩, by rw [daysInMonth_monthLength h3 h4]; exact h6⟩, h7⟩, h8⟩, h9⟩, h10⟩

/-- Days of the year before a month. -/
def before (leap : Bool) (m : Nat) : Nat := daysBefore m + (if 2 < m && leap then 1 else 0)

theorem daysBeforeMonth_eq (y m : Nat) : daysBeforeMonth y m = before (isLeap y) m := rfl

theorem monthOfDay_table : ∀ leap : Bool, ∀ m < 13, ∀ d < 32, (1 ≤ m ∧ 1 ≤ d ∧ d ≤ monthLen leap m) →
    monthOfDay leap (before leap m + d - 1) = (m, d) := by decide +kernel

theorem lastDay_table : ∀ leap : Bool, ∀ m < 13, ∀ d < 32, (1 ≤ m ∧ d ≤ monthLen leap m ∧ before leap m + d = 366) →
    m = 12 ∧ d = 31 := by decide +kernel

theorem before_le : ∀ leap : Bool, ∀ m < 13, 1 ≤ m →
    before leap m + monthLen leap m ≤ 365 + leap.toNat := by decide

theorem before_next : ∀ leap : Bool, ∀ m < 12, 1 ≤ m →
    before leap (m + 1) = before leap m + monthLen leap m := by decide

theorem before_dec : ∀ leap : Bool, before leap 12 + 31 = 365 + leap.toNat ∧ monthLen leap 12 = 31 ∧ before leap 1 = 0 := by
  decide

theorem before_mono : ∀ leap : Bool, ∀ m < 13, 1 ≤ m → ∀ m' < 13, m < m' →
    before leap m + monthLen leap m ≤ before leap m' := by decide

theorem monthLen_le : ∀ leap : Bool, ∀ m < 13, monthLen leap m < 32 := by decide

/-- A year is 400 a + 100 b + 4 c + e + 1. -/
theorem year_split {y : Nat} (h : 1 ≤ y) : ∃ a b c e, y = 400 * a + 100 * b + 4 * c + e + 1 ∧ b ≤ 3 ∧ c ≤ 24 ∧ e ≤ 3 ∧
    daysBeforeYear y = 146097 * a + 36524 * b + 1461 * c + 365 * e ∧
    (isLeap y = (decide (e = 3) && (c != 24 || b == 3))) := by
  refine ⟨(y - 1) / 400, (y - 1) % 400 / 100, (y - 1) % 100 / 4, (y - 1) % 4, by omega, by omega, by omega, by omega, ?_, ?_⟩
  · unfold daysBeforeYear
    generalize y - 1 = Y
    have h1 : Y = 400 * (Y / 400) + 100 * (Y % 400 / 100) + 4 * (Y % 100 / 4) + Y % 4 := by omega
    have h2 : Y / 4 = 100 * (Y / 400) + 25 * (Y % 400 / 100) + Y % 100 / 4 := by omega
    have h3 : Y / 100 = 4 * (Y / 400) + Y % 400 / 100 := by omega
    rw [h2, h3]
    generalize Y / 400 = a at *
    generalize Y % 400 / 100 = b at *
    generalize Y % 100 / 4 = c at *
    generalize Y % 4 = e at *
    clear h2 h3
    omega
  · rw [Bool.eq_iff_iff]
    simp only [isLeap, Bool.and_eq_true, Bool.or_eq_true, beq_iff_eq, bne_iff_ne, decide_eq_true_eq]
    omega

theorem toNat_leap {y : Nat} {a b c e : Nat} (h : y = 400 * a + 100 * b + 4 * c + e + 1)
    (hl : isLeap y = (decide (e = 3) && (c != 24 || b == 3))) (ht : (isLeap y).toNat = 1) : e = 3 ∧ (c ≠ 24 ∨ b = 3) := by
  cases hy : isLeap y
  · rw [hy] at ht; simp at ht
  · rw [hy] at hl
    simpa using hl.symm

theorem ordToYmd_ymdToOrd {y m d : Nat} (hy : 1 ≤ y) (hm : 1 ≤ m) (hm' : m ≤ 12) (hd : 1 ≤ d)
    (hd' : d ≤ monthLen (isLeap y) m) : ordToYmd (ymdToOrd y m d) = (y, m, d) := by
  obtain ⟨a, b, c, e, h1, h2, h3, h4, h5, h6⟩ := year_split hy
  have hb := before_le (isLeap y) m (by omega) hm
  have hmod := monthOfDay_table (isLeap y) m (by omega) d
    (by have := monthLen_le (isLeap y) m (by omega); omega) ⟨hm, hd, hd'⟩
  have hl := fun h => lastDay_table (isLeap y) m (by omega) d
    (by have := monthLen_le (isLeap y) m (by omega); omega) ⟨hm, hd', h⟩
  unfold ymdToOrd
  rw [daysBeforeMonth_eq, h5]
  generalize hk : before (isLeap y) m + d - 1 = k at hmod
  have hk1 : 146097 * a + 36524 * b + 1461 * c + 365 * e + before (isLeap y) m + d =
      146097 * a + 36524 * b + 1461 * c + 365 * e + k + 1 := by omega
  have hk2 : before (isLeap y) m + d = k + 1 := by omega
  rw [hk1]
  have hk3 : k ≤ 364 + (isLeap y).toNat := by omega
  have hlp := toNat_leap h1 h6
  have hlb : (isLeap y).toNat ≤ 1 := by cases isLeap y <;> simp
  unfold ordToYmd
  simp only [Nat.add_sub_cancel]
  by_cases h365 : k = 365
  · obtain ⟨h7, h8⟩ := hlp (by omega)
    obtain ⟨hm12, hd31⟩ := hl (by omega)
    by_cases hc : c = 24
    · have hb3 : b = 3 := by omega
      have e1 : (146097 * a + 36524 * b + 1461 * c + 365 * e + k) / 146097 = a := by omega
      have e2 : (146097 * a + 36524 * b + 1461 * c + 365 * e + k) % 146097 = 146096 := by omega
      rw [e1, e2]
      simp
      refine ⟨by omega, hm12.symm, hd31.symm⟩
    · have e1 : (146097 * a + 36524 * b + 1461 * c + 365 * e + k) / 146097 = a := by omega
      have e2 : (146097 * a + 36524 * b + 1461 * c + 365 * e + k) % 146097 = 36524 * b + 1461 * c + 1460 := by omega
      have e3 : (36524 * b + 1461 * c + 1460) / 36524 = b := by omega
      have e4 : (36524 * b + 1461 * c + 1460) % 36524 = 1461 * c + 1460 := by omega
      have e5 : (1461 * c + 1460) / 1461 = c := by omega
      have e6 : (1461 * c + 1460) % 1461 = 1460 := by omega
      rw [e1, e2, e3, e4, e5, e6]
      simp
      refine ⟨by omega, hm12.symm, hd31.symm⟩
  · have hk4 : k ≤ 364 := by omega
    have e1 : (146097 * a + 36524 * b + 1461 * c + 365 * e + k) / 146097 = a := by omega
    have e2 : (146097 * a + 36524 * b + 1461 * c + 365 * e + k) % 146097 = 36524 * b + 1461 * c + 365 * e + k := by omega
    have e3 : (36524 * b + 1461 * c + 365 * e + k) / 36524 = b := by omega
    have e4 : (36524 * b + 1461 * c + 365 * e + k) % 36524 = 1461 * c + 365 * e + k := by omega
    have e5 : (1461 * c + 365 * e + k) / 1461 = c := by omega
    have e6 : (1461 * c + 365 * e + k) % 1461 = 365 * e + k := by omega
    have e7 : (365 * e + k) / 365 = e := by omega
    have e8 : (365 * e + k) % 365 = k := by omega
    rw [e1, e2, e3, e4, e5, e6, e7, e8]
    have hne : ¬ ((decide (e = 4) || decide (b = 4)) = true) := by simp; omega
    rw [if_neg hne, ← h6, hmod]
    simp only [Prod.mk.injEq, and_true]
    omega

theorem ymdToOrd_bounds {y m d : Nat} (hy : 1 ≤ y) (hy' : y ≤ 9999) (hm : 1 ≤ m) (hm' : m ≤ 12) (hd : 1 ≤ d)
    (hd' : d ≤ monthLen (isLeap y) m) : 1 ≤ ymdToOrd y m d ∧ ymdToOrd y m d ≤ 3652059 := by
  have hb := before_le (isLeap y) m (by omega) hm
  unfold ymdToOrd
  rw [daysBeforeMonth_eq]
  refine ⟨by omega, ?_⟩
  by_cases h : y = 9999
  · subst h
    have : isLeap 9999 = false := by decide
    rw [this] at hb hd' ⊢
    have e : daysBeforeYear 9999 = 3651694 := by decide
    simp at hb
    omega
  · have : daysBeforeYear y ≤ 3651329 := by unfold daysBeforeYear; omega
    have : (isLeap y).toNat ≤ 1 := by cases isLeap y <;> simp
    omega

theorem ymdToOrd_day (y m d : Nat) (hd : 1 ≤ d) : (ymdToOrd y m 1 : Int) + d - 1 = ymdToOrd y m d := by
  unfold ymdToOrd; omega

theorem timegm_eq {d : DateTime} (hd : 1 ≤ d.day) : d.timegm =
    ((ymdToOrd d.year d.month d.day : Int) - 719163) * 86400 + (d.hour * 3600 + d.minute * 60 + d.second : Nat) := by
  have := ymdToOrd_day d.year d.month d.day hd
  unfold DateTime.timegm
  omega

theorem IsDate.len {d : DateTime} (h : IsDate d) : d.day ≤ monthLen (isLeap d.year) d.month := by
  have := h.day_le
  rwa [← daysInMonth_monthLength h.month_pos h.month_le, daysInMonth_eq] at this

theorem fromTimestamp_timegm {d : DateTime} (h : IsDate d) :
    DateTime.fromTimestamp d.timegm = .ok { d with micro := 0, aware := true } := by
  have hb := ymdToOrd_bounds h.year_pos h.year_le h.month_pos h.month_le h.day_pos h.len
  have ho := ordToYmd_ymdToOrd h.year_pos h.month_pos h.month_le h.day_pos h.len
  have h1 := h.hour_lt
  have h2 := h.minute_lt
  have h3 := h.second_lt
  unfold DateTime.fromTimestamp
  rw [timegm_eq h.day_pos]
  generalize hn : ymdToOrd d.year d.month d.day = n at *
  generalize hs : d.hour * 3600 + d.minute * 60 + d.second = s
  have hs' : s < 86400 := by omega
  have e1 : (((n : Int) - 719163) * 86400 + (s : Nat)) / 86400 + 719163 = n := by omega
  have e2 : ((((n : Int) - 719163) * 86400 + (s : Nat)) % 86400).toNat = s := by omega
  simp only [e1, e2]
  rw [if_pos (by omega), Int.toNat_natCast, ho]
  have e3 : s / 3600 = d.hour := by omega
  have e4 : s % 3600 / 60 = d.minute := by omega
  have e5 : s % 60 = d.second := by omega
  simp only [e3, e4, e5]

theorem yearStep (Y a b c a' b' c' l : Nat) (hge : b ≤ a) (hb : b' ≤ 1) (hl : l + b' = a' + c') :
    (Y + 1) * 365 + (a + a') - (b + b') + (c + c') = Y * 365 + a - b + c + 365 + l := by omega

theorem daysBeforeYear_succ {y : Nat} (h : 1 ≤ y) : daysBeforeYear (y + 1) = daysBeforeYear y + 365 + (isLeap y).toNat := by
  have q4 : y / 4 = (y - 1) / 4 + (if y % 4 = 0 then 1 else 0) := by split <;> omega
  have q100 : y / 100 = (y - 1) / 100 + (if y % 100 = 0 then 1 else 0) := by split <;> omega
  have q400 : y / 400 = (y - 1) / 400 + (if y % 400 = 0 then 1 else 0) := by split <;> omega
  have hge : (y - 1) / 100 ≤ (y - 1) / 4 := by omega
  have hl : (isLeap y).toNat + (if y % 100 = 0 then 1 else 0) =
      (if y % 4 = 0 then 1 else 0) + (if y % 400 = 0 then 1 else 0) := by
    cases hl : isLeap y
    · have : ¬ Leap y := by rw [← isLeap_iff, hl]; simp
      simp only [Leap] at this
      simp only [Bool.toNat_false]
      clear q4 q100 q400
      repeat' split
      all_goals omega
    · have : Leap y := by rw [← isLeap_iff, hl]
      simp only [Leap] at this
      simp only [Bool.toNat_true]
      clear q4 q100 q400
      repeat' split
      all_goals omega
  have hb : (if y % 100 = 0 then 1 else 0) ≤ 1 := by split <;> omega
  obtain ⟨Y, rfl⟩ : ∃ Y, y = Y + 1 := ⟨y - 1, by omega⟩
  unfold daysBeforeYear
  rw [Nat.add_sub_cancel, q4, q100, q400, Nat.add_sub_cancel]
  exact yearStep _ _ _ _ _ _ _ _ hge hb hl

theorem daysBeforeYear_mono {y y' : Nat} (h1 : 1 ≤ y) (h : y < y') : daysBeforeYear (y + 1) ≤ daysBeforeYear y' := by
  obtain ⟨k, rfl⟩ : ∃ k, y' = y + 1 + k := ⟨y' - (y + 1), by omega⟩
  clear h
  induction k with
  | zero => exact Nat.le_refl _
  | succ k ih =>
    have := daysBeforeYear_succ (y := y + 1 + k) (by omega)
    rw [← Nat.add_assoc, this]
    omega

/-- The day number grows with the date. -/
theorem ymdToOrd_lt {a b : DateTime} (ha : IsDate a) (hb : IsDate b)
    (h : a.year < b.year ∨ (a.year = b.year ∧ (a.month < b.month ∨ (a.month = b.month ∧ a.day < b.day)))) :
    ymdToOrd a.year a.month a.day < ymdToOrd b.year b.month b.day := by
  have h1 := ha.len
  have h2 := before_le (isLeap a.year) a.month (by have := ha.month_le; omega) ha.month_pos
  have h3 := hb.day_pos
  unfold ymdToOrd
  rw [daysBeforeMonth_eq, daysBeforeMonth_eq]
  rcases h with h | ⟨hy, h | ⟨hm, h⟩⟩
  · have e1 := daysBeforeYear_succ ha.year_pos
    have e2 := daysBeforeYear_mono ha.year_pos h
    omega
  · have := before_mono (isLeap a.year) a.month (by have := ha.month_le; omega) ha.month_pos b.month
      (by have := hb.month_le; omega) h
    rw [← hy]; omega
  · rw [← hy, ← hm]; omega

theorem timegm_lt {a b : DateTime} (ha : IsDate a) (hb : IsDate b) (h : Earlier a b) : a.timegm < b.timegm := by
  rw [timegm_eq ha.day_pos, timegm_eq hb.day_pos]
  have a1 := ha.hour_lt; have a2 := ha.minute_lt; have a3 := ha.second_lt
  have b1 := hb.hour_lt; have b2 := hb.minute_lt; have b3 := hb.second_lt
  rcases h with h | ⟨hy, h | ⟨hm, h | ⟨hd, h⟩⟩⟩
  · have := ymdToOrd_lt ha hb (Or.inl h); omega
  · have := ymdToOrd_lt ha hb (Or.inr ⟨hy, Or.inl h⟩); omega
  · have := ymdToOrd_lt ha hb (Or.inr ⟨hy, Or.inr ⟨hm, h⟩⟩); omega
  · rw [hy, hm, hd]; omega

/-- The next day has the next number. -/
theorem ymdToOrd_nextDay {d : DateTime} (h : IsDate d) :
    ymdToOrd (nextDay d).year (nextDay d).month (nextDay d).day = ymdToOrd d.year d.month d.day + 1 := by
  have hl := h.len
  have hd := h.day_le
  have hmm : monthLength d.year d.month = monthLen (isLeap d.year) d.month := by
    rw [← daysInMonth_monthLength h.month_pos h.month_le, daysInMonth_eq]
  unfold nextDay
  split
  · simp only [ymdToOrd]; omega
  · rename_i hlast
    have e : d.day = monthLen (isLeap d.year) d.month := by rw [hmm] at hlast hd; omega
    split
    · rename_i hm
      have := before_next (isLeap d.year) d.month hm h.month_pos
      simp only [ymdToOrd, daysBeforeMonth_eq]; omega
    · rename_i hm
      have hm12 : d.month = 12 := by have := h.month_le; omega
      obtain ⟨b1, b2, b3⟩ := before_dec (isLeap d.year)
      have := daysBeforeYear_succ h.year_pos
      rw [hm12] at e
      simp only [ymdToOrd, daysBeforeMonth_eq, hm12, this]
      have : before (isLeap (d.year + 1)) 1 = 0 := (before_dec _).2.2
      omega

theorem nextDay_day_pos {d : DateTime} (h : IsDate d) : 1 ≤ (nextDay d).day := by
  have := h.day_pos
  unfold nextDay
  split
  · simp
  · split <;> simp

theorem nextDay_time (d : DateTime) : (nextDay d).hour = d.hour ∧ (nextDay d).minute = d.minute ∧
    (nextDay d).second = d.second := by
  unfold nextDay
  split
  · exact ⟨rfl, rfl, rfl⟩
  · split <;> exact ⟨rfl, rfl, rfl⟩

theorem timegm_nextSecond {d : DateTime} (h : IsDate d) : (nextSecond d).timegm = d.timegm + 1 := by
  have h1 := h.hour_lt
  have h2 := h.minute_lt
  have h3 := h.second_lt
  rw [timegm_eq h.day_pos]
  unfold nextSecond
  split
  · rw [timegm_eq (by exact h.day_pos)]; simp only; omega
  · split
    · rw [timegm_eq (by exact h.day_pos)]; simp only; omega
    · split
      · rw [timegm_eq (by exact h.day_pos)]; simp only; omega
      · have h0 : IsDate { d with second := 0, minute := 0, hour := 0 } :=
          ⟨h.year_pos, h.year_le, h.month_pos, h.month_le, h.day_pos, h.day_le, by simp, by simp, by simp, h.micro_lt⟩
        have hn := ymdToOrd_nextDay h0
        have hp := nextDay_day_pos h0
        obtain ⟨t1, t2, t3⟩ := nextDay_time { d with second := 0, minute := 0, hour := 0 }
        rw [timegm_eq hp, hn, t1, t2, t3]
        simp only
        omega

theorem nextSecond_year (d : DateTime) : d.year ≤ (nextSecond d).year := by
  unfold nextSecond nextDay
  repeat' split
  all_goals simp only; omega

theorem monthLength_pos (y m : Nat) : 1 ≤ monthLength y m := by
  unfold monthLength
  repeat' split
  all_goals omega

theorem IsDate.nextSecond {d : DateTime} (h : IsDate d) (hy : (nextSecond d).year ≤ 9999) : IsDate (nextSecond d) := by
  obtain ⟨a1, a2, a3, a4, a5, a6, a7, a8, a9, a10⟩ := h
  have hl := monthLength_pos
  revert hy
  unfold Warcio.nextSecond nextDay
  repeat' split
  all_goals
    intro hy
    simp only at *
    constructor <;> simp only <;> first | omega | exact hl _ _

end Warcio
