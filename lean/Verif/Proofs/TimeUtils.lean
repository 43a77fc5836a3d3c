import Verif.Model.TimeUtils
import Verif.Proofs.Calendar
import Verif.Proofs.Ints
import Verif.Proofs.Strings

/-! # Lemmas about dates as text -/

set_option linter.unusedSectionVars false

namespace Warcio
variable [PyUni]

/-- A character written by `str(int)`. -/
def IsDig (c : Char) : Prop := ∃ k, k < 10 ∧ c = Nat.digitChar k

theorem IsDig.decimal {c : Char} (h : IsDig c) : ∃ k, k < 10 ∧ PyUni.decimal c = some k := by
  obtain ⟨k, hk, rfl⟩ := h; exact ⟨k, hk, decimal_digitChar hk⟩

theorem IsDig.range {c : Char} (h : IsDig c) : 48 ≤ c.toNat ∧ c.toNat ≤ 57 := by
  obtain ⟨k, hk, rfl⟩ := h
  revert hk; revert k; decide

theorem natToStr_step {n : Nat} (h : 10 ≤ n) : natToStr n = natToStr (n / 10) ++ [Nat.digitChar (n % 10)] := by
  unfold natToStr
  rw [Nat.toDigits_eq_if (by decide), if_neg (by omega)]

theorem natToStr_small {n : Nat} (h : n < 10) : natToStr n = [Nat.digitChar n] := by
  unfold natToStr
  rw [Nat.toDigits_eq_if (by decide), if_pos h]

theorem natToStr_isDig (n : Nat) : ∀ c ∈ natToStr n, IsDig c := by
  induction n using Nat.strongRecOn with
  | _ n ih =>
    by_cases h : n < 10
    · rw [natToStr_small h]
      intro c hc; rw [List.mem_singleton] at hc; subst hc; exact ⟨n, h, rfl⟩
    · rw [natToStr_step (by omega)]
      intro c hc
      rw [List.mem_append, List.mem_singleton] at hc
      rcases hc with hc | hc
      · exact ih _ (by omega) c hc
      · subst hc; exact ⟨n % 10, by omega, rfl⟩

theorem natToStr_length_le : ∀ (w n : Nat), 1 ≤ w → n < 10 ^ w → (natToStr n).length ≤ w := by
  intro w
  induction w with
  | zero => intro n h; omega
  | succ w ih =>
    intro n _ hn
    by_cases h : n < 10
    · rw [natToStr_small h]; simp
    · rw [natToStr_step (by omega), List.length_append]
      have hw : 1 ≤ w := by
        cases w with
        | zero => simp at hn; omega
        | succ w => omega
      have := ih (n / 10) hw (by rw [Nat.pow_succ] at hn; omega)
      simp; omega

theorem natToStr_length_pos (n : Nat) : 1 ≤ (natToStr n).length := by
  by_cases h : n < 10
  · rw [natToStr_small h]; simp
  · rw [natToStr_step (by omega)]; simp

theorem natToStr_ne (n : Nat) : natToStr n ≠ [] := by
  intro h
  have := natToStr_length_pos n
  rw [h] at this; simp at this

theorem natToStr_length_ge : ∀ (w n : Nat), 10 ^ w ≤ n → w + 1 ≤ (natToStr n).length := by
  intro w
  induction w with
  | zero => intro n _; have := natToStr_length_pos n; omega
  | succ w ih =>
    intro n hn
    have h10 : 10 ≤ n := by
      have : 1 ≤ 10 ^ w := Nat.one_le_pow _ _ (by decide)
      rw [Nat.pow_succ] at hn; omega
    rw [natToStr_step h10, List.length_append]
    have := ih (n / 10) (by rw [Nat.pow_succ] at hn; omega)
    simp; omega

theorem natToStr_length4 {n : Nat} (h1 : 1000 ≤ n) (h2 : n < 10000) : (natToStr n).length = 4 := by
  have := natToStr_length_le 4 n (by decide) h2
  have := natToStr_length_ge 3 n h1
  omega

open DateTime (pad)

theorem pad_isDig (w n : Nat) : ∀ c ∈ pad w n, IsDig c := by
  intro c hc
  unfold pad at hc
  rw [List.mem_append] at hc
  rcases hc with hc | hc
  · rw [List.mem_replicate] at hc
    exact ⟨0, by decide, by rw [hc.2]; decide⟩
  · exact natToStr_isDig n c hc

theorem pad_length {w n : Nat} (hw : 1 ≤ w) (h : n < 10 ^ w) : (pad w n).length = w := by
  have := natToStr_length_le w n hw h
  unfold pad
  rw [List.length_append, List.length_replicate]; omega

theorem pad2_length {n : Nat} (h : n < 100) : (pad 2 n).length = 2 := pad_length (by decide) h
theorem pad4_length {n : Nat} (h : n < 10000) : (pad 4 n).length = 4 := pad_length (by decide) h
theorem pad6_length {n : Nat} (h : n < 1000000) : (pad 6 n).length = 6 := pad_length (by decide) h

theorem pad_ne (w n : Nat) : pad w n ≠ [] := by
  unfold pad; simp [natToStr_ne]

theorem pad4_eq {n : Nat} (h1 : 1000 ≤ n) (h2 : n < 10000) : natToStr n = pad 4 n := by
  unfold pad; rw [natToStr_length4 h1 h2]; rfl

theorem digitStr_zeros {t : Str} {n : Nat} (k : Nat) (h : DigitStr t n) : DigitStr (List.replicate k '0' ++ t) n := by
  have h0 : PyUni.decimal '0' = some 0 := by rw [PyUni.decimal_ascii '0' (by decide)]; rfl
  induction h with
  | one hc =>
    rename_i c d
    have hz : ∀ k, 0 < k → DigitStr (List.replicate k '0') 0 := by
      intro k hk
      induction k with
      | zero => omega
      | succ k ih =>
        cases k with
        | zero => exact .one h0
        | succ k =>
          rw [List.replicate_succ']
          have := (ih (by omega)).snoc h0
          simpa using this
    cases k with
    | zero => exact .one hc
    | succ k => have := (hz (k + 1) (by omega)).snoc hc; simpa using this
  | snoc h hc ih => rw [← List.append_assoc]; exact ih.snoc hc
  | under h hc ih => rw [← List.append_assoc]; exact ih.under hc

theorem digitStr_pad (w n : Nat) : DigitStr (pad w n) n := digitStr_zeros _ (digitStr_natToStr n)

theorem parseInt_digitStr {t : Str} {n : Nat} (h : DigitStr t n) : parseInt t = some (n : Int) := by
  rw [parseInt_iff]
  have := PyInt.pos (a := []) (b := []) (by simp) (by simp) h
  simpa using this

theorem parseInt_pad (w n : Nat) : parseInt (pad w n) = some (n : Int) := parseInt_digitStr (digitStr_pad w n)

theorem pad_inj {w m n : Nat} (h : pad w m = pad w n) : m = n := by
  have h1 := parseInt_pad w m
  rw [h, parseInt_pad w n] at h1
  have := Option.some.inj h1
  omega

/-! ## ISO dates -/

/-- Splits off a run of digits. -/
theorem dateSplit_word {w : Str} (hw : ∀ c ∈ w, IsDig c) {sep : Char} (hs : PyUni.decimal sep = none) (t : Str) :
    dateSplit (w ++ sep :: t) = w :: dateSplit t := by
  induction w with
  | nil => simp only [List.nil_append, dateSplit, hs]; rfl
  | cons c w ih =>
    obtain ⟨k, _, hk⟩ := (hw c (by simp)).decimal
    rw [List.cons_append]
    simp only [dateSplit, hk, Option.isSome_some, if_true]
    rw [ih (fun x hx => hw x (by simp [hx]))]

theorem dateSplit_nil : dateSplit [] = [[]] := rfl

theorem dec_none {c : Char} (h : c.toNat < 128) (h' : ¬ (48 ≤ c.toNat ∧ c.toNat ≤ 57)) : PyUni.decimal c = none := by
  rw [PyUni.decimal_ascii c h, if_neg h']

theorem dec_dash : PyUni.decimal '-' = none := dec_none (by decide) (by decide)
theorem dec_T : PyUni.decimal 'T' = none := dec_none (by decide) (by decide)
theorem dec_Z : PyUni.decimal 'Z' = none := dec_none (by decide) (by decide)
theorem dec_colon : PyUni.decimal ':' = none := dec_none (by decide) (by decide)
theorem dec_dot : PyUni.decimal '.' = none := dec_none (by decide) (by decide)
theorem dec_plus : PyUni.decimal '+' = none := dec_none (by decide) (by decide)

theorem make_eq {d : DateTime} (h : IsDate d) (aware : Bool) :
    DateTime.make d.year d.month d.day d.hour d.minute d.second d.micro aware = .ok { d with aware := aware } := by
  unfold DateTime.make
  rw [if_pos (by omega)]
  simp only [Int.toNat_natCast]
  rw [if_pos]
  rw [valid_iff]
  exact ⟨h.year_pos, h.year_le, h.month_pos, h.month_le, h.day_pos, h.day_le, h.hour_lt, h.minute_lt, h.second_lt, h.micro_lt⟩

/-- The fields of an ISO date without fraction. -/
theorem dateSplit_iso (y mo d h mi s : Str) (hy : ∀ c ∈ y, IsDig c) (hmo : ∀ c ∈ mo, IsDig c) (hd : ∀ c ∈ d, IsDig c)
    (hh : ∀ c ∈ h, IsDig c) (hmi : ∀ c ∈ mi, IsDig c) (hs : ∀ c ∈ s, IsDig c) {sep : Char}
    (hsep : PyUni.decimal sep = none) (t : Str) :
    dateSplit (y ++ '-' :: (mo ++ '-' :: (d ++ 'T' :: (h ++ ':' :: (mi ++ ':' :: (s ++ sep :: t)))))) =
      y :: mo :: d :: h :: mi :: s :: dateSplit t := by
  rw [dateSplit_word hy dec_dash, dateSplit_word hmo dec_dash, dateSplit_word hd dec_T, dateSplit_word hh dec_colon,
    dateSplit_word hmi dec_colon, dateSplit_word hs hsep]

theorem isoDate_plain {d : DateTime} (hd : IsDate d) (hm : d.micro = 0) (w : Nat) (aware : Bool) :
    isoDateToDatetime (pad w d.year ++ '-' :: (pad 2 d.month ++ '-' :: (pad 2 d.day ++ 'T' :: (pad 2 d.hour ++ ':' ::
      (pad 2 d.minute ++ ':' :: (pad 2 d.second ++ ['Z'])))))) aware = .ok { d with aware := aware } := by
  unfold isoDateToDatetime
  rw [dateSplit_iso _ _ _ _ _ _ (pad_isDig _ _) (pad_isDig _ _) (pad_isDig _ _) (pad_isDig _ _) (pad_isDig _ _)
    (pad_isDig _ _) dec_Z, dateSplit_nil]
  have e : dropLastEmpty [pad w d.year, pad 2 d.month, pad 2 d.day, pad 2 d.hour, pad 2 d.minute, pad 2 d.second, []] =
      [pad w d.year, pad 2 d.month, pad 2 d.day, pad 2 d.hour, pad 2 d.minute, pad 2 d.second] := by
    simp [dropLastEmpty]
  rw [e]
  simp only [padMicros, intAll, parseInt_pad, DateTime.ofArgs]
  have := make_eq hd aware
  rw [hm] at this
  rw [hm]
  exact this

theorem isoDate_micros {d : DateTime} (hd : IsDate d) (aware : Bool) :
    isoDateToDatetime (pad 4 d.year ++ '-' :: (pad 2 d.month ++ '-' :: (pad 2 d.day ++ 'T' :: (pad 2 d.hour ++ ':' ::
      (pad 2 d.minute ++ ':' :: (pad 2 d.second ++ '.' :: (pad 6 d.micro ++ ['Z']))))))) aware = .ok { d with aware := aware } := by
  unfold isoDateToDatetime
  rw [dateSplit_iso _ _ _ _ _ _ (pad_isDig _ _) (pad_isDig _ _) (pad_isDig _ _) (pad_isDig _ _) (pad_isDig _ _)
    (pad_isDig _ _) dec_dot, dateSplit_word (pad_isDig _ _) dec_Z, dateSplit_nil]
  have e : dropLastEmpty [pad 4 d.year, pad 2 d.month, pad 2 d.day, pad 2 d.hour, pad 2 d.minute, pad 2 d.second,
      pad 6 d.micro, []] = [pad 4 d.year, pad 2 d.month, pad 2 d.day, pad 2 d.hour, pad 2 d.minute, pad 2 d.second,
      pad 6 d.micro] := by
    simp [dropLastEmpty]
  have hl := pad6_length hd.micro_lt
  have e2 : (pad 6 d.micro).take 6 ++ padMicro.drop ((pad 6 d.micro).take 6).length = pad 6 d.micro := by
    rw [List.take_of_length_le (by omega), hl]
    have : padMicro.drop 6 = [] := by decide
    rw [this, List.append_nil]
  rw [e]
  simp only [padMicros, e2, intAll, parseInt_pad, DateTime.ofArgs]
  exact make_eq hd aware

theorem strftimeIso_eq (d : DateTime) : d.strftimeIso = pad 0 d.year ++ '-' :: (pad 2 d.month ++ '-' :: (pad 2 d.day ++
    'T' :: (pad 2 d.hour ++ ':' :: (pad 2 d.minute ++ ':' :: (pad 2 d.second ++ ['Z']))))) := by
  have : pad 0 d.year = natToStr d.year := by unfold pad; simp
  rw [this]
  simp [DateTime.strftimeIso]

theorem isoDate_strftime {d : DateTime} (hd : IsDate d) (aware : Bool) :
    isoDateToDatetime d.strftimeIso aware = .ok { d with micro := 0, aware := aware } := by
  rw [strftimeIso_eq]
  have h0 : IsDate { d with micro := 0 } := ⟨hd.year_pos, hd.year_le, hd.month_pos, hd.month_le, hd.day_pos, hd.day_le,
    hd.hour_lt, hd.minute_lt, hd.second_lt, by simp⟩
  exact isoDate_plain h0 rfl 0 aware

/-! ## Timestamps -/

theorem extractInt_mid (a b c : Str) {start stop : Nat} (lo hi : Nat) (h1 : a.length = start) (h2 : a.length + b.length = stop) :
    extractInt (a ++ (b ++ c)) start stop lo hi = clampInt b lo hi := by
  unfold extractInt
  rw [if_pos (by simp; omega)]
  congr 1
  subst h1 h2
  rw [← List.append_assoc, ← List.length_append, List.take_left' rfl]
  rw [List.drop_left' rfl]

theorem extractInt_short {s : Str} {start stop lo hi : Nat} (h : s.length < stop) : extractInt s start stop lo hi = hi := by
  unfold extractInt; rw [if_neg (by omega)]

theorem clampInt_pad (w n lo hi : Nat) : clampInt (pad w n) lo hi = max lo (min n hi) := by
  unfold clampInt
  rw [parseInt_pad]
  simp only
  omega

theorem clampInt_range (s : Str) {lo hi : Nat} (h : lo ≤ hi) : lo ≤ clampInt s lo hi ∧ clampInt s lo hi ≤ hi := by
  unfold clampInt
  split
  · omega
  · omega

theorem extractInt_range (s : Str) (a b : Nat) {lo hi : Nat} (h : lo ≤ hi) :
    lo ≤ extractInt s a b lo hi ∧ extractInt s a b lo hi ≤ hi := by
  unfold extractInt
  split
  · exact clampInt_range _ h
  · omega

theorem timestampFields_isDate (s : Str) (aware : Bool) : IsDate (timestampFields s aware) ∧
    1900 ≤ (timestampFields s aware).year ∧ (timestampFields s aware).year ≤ 2999 ∧
    (timestampFields s aware).micro = 0 := by
  unfold timestampFields
  simp only
  generalize padTimestamp s pad6Up = t
  have hy := extractInt_range t 0 4 (lo := 1900) (hi := 2999) (by decide)
  have hm := extractInt_range t 4 6 (lo := 1) (hi := 12) (by decide)
  generalize extractInt t 0 4 1900 2999 = y at *
  generalize extractInt t 4 6 1 12 = m at *
  have hd := extractInt_range t 6 8 (lo := 1) (hi := daysInMonth y m)
    (by rw [daysInMonth_monthLength hm.1 hm.2]; exact monthLength_pos _ _)
  have hh := extractInt_range t 8 10 (lo := 0) (hi := 23) (by decide)
  have hmi := extractInt_range t 10 12 (lo := 0) (hi := 59) (by decide)
  have hs := extractInt_range t 12 14 (lo := 0) (hi := 59) (by decide)
  refine ⟨⟨?_, ?_, ?_, ?_, ?_, ?_, ?_, ?_, ?_, ?_⟩, hy.1, hy.2, trivial⟩
  · simp only; omega
  · simp only; omega
  · exact hm.1
  · exact hm.2
  · exact hd.1
  · have := hd.2; rw [daysInMonth_monthLength hm.1 hm.2] at this
    simpa only [daysInMonth_monthLength hm.1 hm.2] using this
  · simp only; omega
  · simp only; omega
  · simp only; omega
  · simp only; omega

theorem timestampToDatetime_eq (s : Str) (aware : Bool) :
    timestampToDatetime s aware = .ok (timestampFields s aware) := by
  obtain ⟨h, _, _, h0⟩ := timestampFields_isDate s aware
  unfold timestampToDatetime
  have := make_eq h aware
  have ha : (timestampFields s aware).aware = aware := rfl
  generalize timestampFields s aware = f at *
  cases f
  simp only at h0 ha this ⊢
  subst h0 ha
  exact this

theorem padTimestamp_long {s p : Str} (h : p.length ≤ s.length) : padTimestamp s p = s := by
  unfold padTimestamp; rw [if_neg (by omega)]

theorem pad6Up_length : pad6Up.length = 6 := by decide

/-- The fields of a timestamp with all of its parts. -/
theorem timestampFields_full {y mo d h mi s : Nat} (hy : y < 10000) (hmo : mo < 100) (hd : d < 100) (hh : h < 100)
    (hmi : mi < 100) (hs : s < 100) (rest : Str) (aware : Bool) :
    timestampFields (pad 4 y ++ (pad 2 mo ++ (pad 2 d ++ (pad 2 h ++ (pad 2 mi ++ (pad 2 s ++ rest)))))) aware =
      { year := max 1900 (min y 2999), month := max 1 (min mo 12),
        day := max 1 (min d (daysInMonth (max 1900 (min y 2999)) (max 1 (min mo 12)))),
        hour := max 0 (min h 23), minute := max 0 (min mi 59), second := max 0 (min s 59), aware := aware } := by
  have l1 := pad4_length hy
  have l2 := pad2_length hmo
  have l3 := pad2_length hd
  have l4 := pad2_length hh
  have l5 := pad2_length hmi
  have l6 := pad2_length hs
  unfold timestampFields
  rw [padTimestamp_long (by simp [l1, l2, pad6Up_length]; omega)]
  simp only
  have e1 : ∀ lo hi, extractInt (pad 4 y ++ (pad 2 mo ++ (pad 2 d ++ (pad 2 h ++ (pad 2 mi ++ (pad 2 s ++ rest)))))) 0 4 lo hi =
      clampInt (pad 4 y) lo hi := fun lo hi => by
    have := extractInt_mid [] (pad 4 y) (pad 2 mo ++ (pad 2 d ++ (pad 2 h ++ (pad 2 mi ++ (pad 2 s ++ rest)))))
      (start := 0) (stop := 4) lo hi rfl (by simp [l1])
    simpa using this
  have e2 : ∀ lo hi, extractInt (pad 4 y ++ (pad 2 mo ++ (pad 2 d ++ (pad 2 h ++ (pad 2 mi ++ (pad 2 s ++ rest)))))) 4 6 lo hi =
      clampInt (pad 2 mo) lo hi := fun lo hi =>
    extractInt_mid (pad 4 y) (pad 2 mo) _ lo hi l1 (by omega)
  have e3 : ∀ lo hi, extractInt (pad 4 y ++ (pad 2 mo ++ (pad 2 d ++ (pad 2 h ++ (pad 2 mi ++ (pad 2 s ++ rest)))))) 6 8 lo hi =
      clampInt (pad 2 d) lo hi := fun lo hi => by
    have := extractInt_mid (pad 4 y ++ pad 2 mo) (pad 2 d) (pad 2 h ++ (pad 2 mi ++ (pad 2 s ++ rest)))
      (start := 6) (stop := 8) lo hi (by simp [l1, l2]) (by simp [l1, l2, l3])
    simpa only [List.append_assoc] using this
  have e4 : ∀ lo hi, extractInt (pad 4 y ++ (pad 2 mo ++ (pad 2 d ++ (pad 2 h ++ (pad 2 mi ++ (pad 2 s ++ rest)))))) 8 10 lo hi =
      clampInt (pad 2 h) lo hi := fun lo hi => by
    have := extractInt_mid (pad 4 y ++ pad 2 mo ++ pad 2 d) (pad 2 h) (pad 2 mi ++ (pad 2 s ++ rest))
      (start := 8) (stop := 10) lo hi (by simp [l1, l2, l3]) (by simp [l1, l2, l3, l4])
    simpa only [List.append_assoc] using this
  have e5 : ∀ lo hi, extractInt (pad 4 y ++ (pad 2 mo ++ (pad 2 d ++ (pad 2 h ++ (pad 2 mi ++ (pad 2 s ++ rest)))))) 10 12 lo hi =
      clampInt (pad 2 mi) lo hi := fun lo hi => by
    have := extractInt_mid (pad 4 y ++ pad 2 mo ++ pad 2 d ++ pad 2 h) (pad 2 mi) (pad 2 s ++ rest)
      (start := 10) (stop := 12) lo hi (by simp [l1, l2, l3, l4]) (by simp [l1, l2, l3, l4, l5])
    simpa only [List.append_assoc] using this
  have e6 : ∀ lo hi, extractInt (pad 4 y ++ (pad 2 mo ++ (pad 2 d ++ (pad 2 h ++ (pad 2 mi ++ (pad 2 s ++ rest)))))) 12 14 lo hi =
      clampInt (pad 2 s) lo hi := fun lo hi => by
    have := extractInt_mid (pad 4 y ++ pad 2 mo ++ pad 2 d ++ pad 2 h ++ pad 2 mi) (pad 2 s) rest
      (start := 12) (stop := 14) lo hi (by simp [l1, l2, l3, l4, l5]) (by simp [l1, l2, l3, l4, l5, l6])
    simpa only [List.append_assoc] using this
  simp only [e1, e2, e3, e4, e5, e6, clampInt_pad]

theorem monthLength_le (y m : Nat) : monthLength y m ≤ 31 := by
  unfold monthLength
  split
  · split <;> omega
  · split <;> omega

theorem strftime14_eq {d : DateTime} (h1 : 1000 ≤ d.year) (h2 : d.year < 10000) :
    d.strftime14 = pad 4 d.year ++ (pad 2 d.month ++ (pad 2 d.day ++ (pad 2 d.hour ++ (pad 2 d.minute ++ (pad 2 d.second ++ []))))) := by
  unfold DateTime.strftime14
  rw [pad4_eq h1 h2]
  simp

theorem timestampFields_strftime {d : DateTime} (hd : IsDate d) (h1 : 1900 ≤ d.year) (h2 : d.year ≤ 2999) (aware : Bool) :
    timestampFields d.strftime14 aware = { d with micro := 0, aware := aware } := by
  have a1 := hd.month_pos; have a2 := hd.month_le; have a3 := hd.day_pos; have a4 := hd.day_le
  have a5 := monthLength_le d.year d.month
  have a6 := hd.hour_lt; have a7 := hd.minute_lt; have a8 := hd.second_lt
  rw [strftime14_eq (by omega) (by omega), timestampFields_full (by omega) (by omega) (by omega) (by omega) (by omega) (by omega)]
  have e1 : max 1900 (min d.year 2999) = d.year := by omega
  have e2 : max 1 (min d.month 12) = d.month := by omega
  have e4 : max 0 (min d.hour 23) = d.hour := by omega
  have e5 : max 0 (min d.minute 59) = d.minute := by omega
  have e6 : max 0 (min d.second 59) = d.second := by omega
  rw [e1, e2, e4, e5, e6, daysInMonth_monthLength a1 a2]
  have e3 : max 1 (min d.day (monthLength d.year d.month)) = d.day := by omega
  rw [e3]

theorem list2 {s : Str} (h : s.length = 2) : ∃ a b, s = [a, b] := by
  match s, h with
  | [a, b], _ => exact ⟨a, b, rfl⟩

theorem list4 {s : Str} (h : s.length = 4) : ∃ a b c d, s = [a, b, c, d] := by
  match s, h with
  | [a, b, c, d], _ => exact ⟨a, b, c, d, rfl⟩

/-- A timestamp cut after `n` of its parts. -/
def cutStamp (d : DateTime) : Nat → Str
  | 0 => pad 4 d.year
  | 1 => pad 4 d.year ++ pad 2 d.month
  | 2 => pad 4 d.year ++ pad 2 d.month ++ pad 2 d.day
  | 3 => pad 4 d.year ++ pad 2 d.month ++ pad 2 d.day ++ pad 2 d.hour
  | 4 => pad 4 d.year ++ pad 2 d.month ++ pad 2 d.day ++ pad 2 d.hour ++ pad 2 d.minute
  | _ => pad 4 d.year ++ pad 2 d.month ++ pad 2 d.day ++ pad 2 d.hour ++ pad 2 d.minute ++ pad 2 d.second

/-- The last second of a period that is given by the first parts of a date. -/
def lastOf (d : DateTime) : Nat → DateTime
  | 0 => { year := d.year, month := 12, day := 31, hour := 23, minute := 59, second := 59 }
  | 1 => { year := d.year, month := d.month, day := monthLength d.year d.month, hour := 23, minute := 59, second := 59 }
  | 2 => { year := d.year, month := d.month, day := d.day, hour := 23, minute := 59, second := 59 }
  | 3 => { year := d.year, month := d.month, day := d.day, hour := d.hour, minute := 59, second := 59 }
  | 4 => { year := d.year, month := d.month, day := d.day, hour := d.hour, minute := d.minute, second := 59 }
  | _ => { year := d.year, month := d.month, day := d.day, hour := d.hour, minute := d.minute, second := d.second }

theorem pad6Up_eq : pad6Up = ['2', '9', '9', '9', '1', '2'] := by decide

theorem clamp12 (lo hi : Nat) : clampInt ['1', '2'] lo hi = max lo (min 12 hi) := by
  have : ['1', '2'] = pad 2 12 := by decide
  rw [this, clampInt_pad]

theorem timestampFields_cut {d : DateTime} (hd : IsDate d) (h1 : 1900 ≤ d.year) (h2 : d.year ≤ 2999) (n : Nat) :
    timestampFields (cutStamp d n) false = lastOf d n := by
  have a1 := hd.month_pos; have a2 := hd.month_le; have a3 := hd.day_pos; have a4 := hd.day_le
  have a5 := monthLength_le d.year d.month
  have a6 := hd.hour_lt; have a7 := hd.minute_lt; have a8 := hd.second_lt
  have c1 := clampInt_pad 4 d.year
  have c2 := clampInt_pad 2 d.month
  have c3 := clampInt_pad 2 d.day
  have c4 := clampInt_pad 2 d.hour
  have c5 := clampInt_pad 2 d.minute
  have c6 := clampInt_pad 2 d.second
  obtain ⟨y1, y2, y3, y4, hy⟩ := list4 (pad4_length (n := d.year) (by omega))
  obtain ⟨m1, m2, hm⟩ := list2 (pad2_length (n := d.month) (by omega))
  obtain ⟨d1, d2, hdd⟩ := list2 (pad2_length (n := d.day) (by omega))
  obtain ⟨k1, k2, hh⟩ := list2 (pad2_length (n := d.hour) (by omega))
  obtain ⟨i1, i2, hi⟩ := list2 (pad2_length (n := d.minute) (by omega))
  obtain ⟨s1, s2, hs⟩ := list2 (pad2_length (n := d.second) (by omega))
  have e1 : max 1900 (min d.year 2999) = d.year := by omega
  have e2 : max 1 (min d.month 12) = d.month := by omega
  have e4 : max 0 (min d.hour 23) = d.hour := by omega
  have e5 : max 0 (min d.minute 59) = d.minute := by omega
  have e6 : max 0 (min d.second 59) = d.second := by omega
  have e3 : max 1 (min d.day (monthLength d.year d.month)) = d.day := by omega
  have hdm := daysInMonth_monthLength (y := d.year) a1 a2
  have h12 : daysInMonth d.year 12 = 31 := by
    rw [daysInMonth_monthLength (by decide) (by decide)]; simp [monthLength]
  rw [hy] at c1; rw [hm] at c2; rw [hdd] at c3; rw [hh] at c4; rw [hi] at c5; rw [hs] at c6
  match n with
  | 0 =>
    simp only [cutStamp, lastOf, hy]
    simp [timestampFields, padTimestamp, pad6Up_eq, extractInt, c1, clamp12, e1, h12]
  | 1 =>
    simp only [cutStamp, lastOf, hy, hm]
    simp [timestampFields, padTimestamp, pad6Up_eq, extractInt, c1, c2, e1, e2, hdm]
  | 2 =>
    simp only [cutStamp, lastOf, hy, hm, hdd]
    simp [timestampFields, padTimestamp, pad6Up_eq, extractInt, c1, c2, c3, e1, e2, e3, hdm]
  | 3 =>
    simp only [cutStamp, lastOf, hy, hm, hdd, hh]
    simp [timestampFields, padTimestamp, pad6Up_eq, extractInt, c1, c2, c3, c4, e1, e2, e3, hdm]
    omega
  | 4 =>
    simp only [cutStamp, lastOf, hy, hm, hdd, hh, hi]
    simp [timestampFields, padTimestamp, pad6Up_eq, extractInt, c1, c2, c3, c4, c5, e1, e2, e3, hdm]
    omega
  | n + 5 =>
    simp only [cutStamp, lastOf, hy, hm, hdd, hh, hi, hs]
    simp [timestampFields, padTimestamp, pad6Up_eq, extractInt, c1, c2, c3, c4, c5, c6, e1, e2, e3, hdm]
    omega

theorem cutStamp_take {d : DateTime} (hd : IsDate d) (h1 : 1900 ≤ d.year) (h2 : d.year ≤ 2999) :
    ∀ n ≤ 5, cutStamp d n = (datetimeToTimestamp d).take (4 + 2 * n) := by
  have a2 := hd.month_le; have a4 := hd.day_le
  have a5 := monthLength_le d.year d.month
  have a6 := hd.hour_lt; have a7 := hd.minute_lt; have a8 := hd.second_lt
  obtain ⟨y1, y2, y3, y4, hy⟩ := list4 (pad4_length (n := d.year) (by omega))
  obtain ⟨m1, m2, hm⟩ := list2 (pad2_length (n := d.month) (by omega))
  obtain ⟨d1, d2, hdd⟩ := list2 (pad2_length (n := d.day) (by omega))
  obtain ⟨k1, k2, hh⟩ := list2 (pad2_length (n := d.hour) (by omega))
  obtain ⟨i1, i2, hi⟩ := list2 (pad2_length (n := d.minute) (by omega))
  obtain ⟨s1, s2, hs⟩ := list2 (pad2_length (n := d.second) (by omega))
  intro n hn
  unfold datetimeToTimestamp
  rw [strftime14_eq (by omega) (by omega)]
  match n, hn with
  | 0, _ => simp [cutStamp, hy]
  | 1, _ => simp [cutStamp, hy, hm]
  | 2, _ => simp [cutStamp, hy, hm, hdd]
  | 3, _ => simp [cutStamp, hy, hm, hdd, hh]
  | 4, _ => simp [cutStamp, hy, hm, hdd, hh, hi]
  | 5, _ => simp [cutStamp, hy, hm, hdd, hh, hi, hs]

/-- Two dates of the same period agree in the parts that name the period. -/
theorem cutStamp_inj {d d' : DateTime} (hd : IsDate d) (hd' : IsDate d') (h1 : 1900 ≤ d.year) (h2 : d.year ≤ 2999)
    (h1' : 1900 ≤ d'.year) (h2' : d'.year ≤ 2999) {n : Nat} (h : cutStamp d n = cutStamp d' n) :
    lastOf d n = lastOf d' n := by
  have := timestampFields_cut hd h1 h2 n
  rw [h, timestampFields_cut hd' h1' h2' n] at this
  exact this.symm

theorem lastOf_isDate {d : DateTime} (hd : IsDate d) (h1 : 1900 ≤ d.year) (h2 : d.year ≤ 2999) (n : Nat) :
    IsDate (lastOf d n) ∧ 1900 ≤ (lastOf d n).year ∧ (lastOf d n).year ≤ 2999 := by
  have := timestampFields_isDate (cutStamp d n) false
  rw [timestampFields_cut hd h1 h2 n] at this
  exact ⟨this.1, this.2.1, this.2.2.1⟩

theorem lastOf_not_earlier {d : DateTime} (hd : IsDate d) (n : Nat) : ¬ Earlier (lastOf d n) d := by
  have a2 := hd.month_le; have a4 := hd.day_le
  have a5 := monthLength_le d.year d.month
  have a6 := hd.hour_lt; have a7 := hd.minute_lt; have a8 := hd.second_lt
  unfold Earlier
  match n with
  | 0 => simp only [lastOf]; omega
  | 1 => simp only [lastOf]; omega
  | 2 => simp only [lastOf]; omega
  | 3 => simp only [lastOf]; omega
  | 4 => simp only [lastOf]; omega
  | n + 5 => simp only [lastOf]; omega

theorem cutStamp_lastOf {d : DateTime} (n : Nat) : cutStamp (lastOf d n) n = cutStamp d n := by
  match n with
  | 0 | 1 | 2 | 3 | 4 => rfl
  | n + 5 => rfl

/-! ## HTTP dates -/

theorem pyWords_word {w : Str} (hne : w ≠ []) (hw : ∀ c ∈ w, isSpace c = false) (t : Str) :
    pyWords (w ++ ' ' :: t) = w :: pyWords t := by
  induction w with
  | nil => exact absurd rfl hne
  | cons c w ih =>
    have hc := hw c (by simp)
    cases w with
    | nil =>
      simp only [List.cons_append, List.nil_append]
      have hb : isSpace ' ' = true := by decide
      have h1 : pyWords (' ' :: t) = pyWords t := by rw [pyWords.eq_def]; simp only [hb, if_true]
      rw [← h1, pyWords.eq_def]
      simp only [hc, hb, if_true]
      rfl
    | cons c' w' =>
      have := ih (by simp) (fun x hx => hw x (by simp [hx]))
      simp only [List.cons_append] at this ⊢
      rw [pyWords]
      have hc' := hw c' (by simp)
      simp only [hc, hc', this]
      rfl

theorem pyWords_last {w : Str} (hne : w ≠ []) (hw : ∀ c ∈ w, isSpace c = false) : pyWords w = [w] := by
  induction w with
  | nil => exact absurd rfl hne
  | cons c w ih =>
    have hc := hw c (by simp)
    cases w with
    | nil => rw [pyWords]; simp [hc]
    | cons c' w' =>
      have := ih (by simp) (fun x hx => hw x (by simp [hx]))
      rw [pyWords]
      have hc' := hw c' (by simp)
      simp only [hc, hc', this]
      rfl

theorem IsDig.notSpace {c : Char} (h : IsDig c) : isSpace c = false := by
  obtain ⟨k, _, hk⟩ := h.decimal
  exact PyUni.decimal_space c k hk

theorem IsDig.ne {c x : Char} (h : IsDig c) (hx : ¬ (48 ≤ x.toNat ∧ x.toNat ≤ 57)) : c ≠ x := by
  rintro rfl; exact hx h.range

theorem findIdx_none {c : Char} {s : Str} (h : c ∉ s) : findIdx c s = none := by
  induction s with
  | nil => rfl
  | cons x xs ih =>
    simp only [findIdx]
    rw [if_neg (by rintro rfl; simp at h), ih (by intro h'; exact h (by simp [h']))]
    rfl

theorem splitAll_word {c : Char} {w : Str} (hw : c ∉ w) (t : Str) : splitAll c (w ++ c :: t) = w :: splitAll c t := by
  induction w with
  | nil => simp [splitAll]
  | cons x xs ih =>
    rw [List.cons_append, splitAll, if_neg (by rintro rfl; simp at hw), ih (by intro h; exact hw (by simp [h]))]

theorem splitAll_last {c : Char} {w : Str} (hw : c ∉ w) : splitAll c w = [w] := by
  induction w with
  | nil => rfl
  | cons x xs ih =>
    rw [splitAll, if_neg (by rintro rfl; simp at hw), ih (by intro h; exact hw (by simp [h]))]

theorem pad_not_mem {w n : Nat} {x : Char} (hx : ¬ (48 ≤ x.toNat ∧ x.toNat ≤ 57)) : x ∉ pad w n := by
  intro h; exact (pad_isDig w n x h).ne hx rfl

theorem pad_last (w n : Nat) (h : (pad w n).getLast? = some ',') : False := by
  have : ',' ∈ pad w n := List.mem_of_getLast? h
  exact pad_not_mem (x := ',') (by decide) this

theorem dropComma_pad (w n : Nat) : dropComma (pad w n) = pad w n := by
  unfold dropComma; rw [if_neg]; exact fun h => pad_last w n h

theorem month_table : ∀ m < 12, ∃ w, monthNames[m]? = some w ∧ isAscii w = true ∧
    monthNamesLower.contains (w.map Char.toLower) = true ∧ monthIndex (w.map Char.toLower) = some (m + 1) ∧
    w ≠ [] ∧ w.all (fun c => !isSpace c) = true := by
  intro m hm
  refine ⟨(monthNames[m]?).getD [], ?_⟩
  revert m
  decide +kernel

theorem day_table : ∀ m < 7, ∃ w, dayNames[m]? = some w ∧ w.all (fun c => !isSpace c) = true := by
  intro m hm
  refine ⟨(dayNames[m]?).getD [], ?_⟩
  revert m
  decide +kernel

/-- The year that `parsedate` makes of a written year. -/
def yearFix (y : Nat) : Nat := if y < 100 then (if 68 < y then y + 1900 else y + 2000) else y

theorem parseDate_format {w mon : Str} (hw : ∀ c ∈ w, isSpace c = false) {m : Nat} (hm : m < 12)
    (hmon : monthNames[m]? = some mon) (d y h mi s : Nat)
    {z : Str} (hz : z ≠ []) (hzs : ∀ c ∈ z, isSpace c = false) :
    parseDate (w ++ ',' :: ' ' :: (pad 2 d ++ ' ' :: (mon ++ ' ' :: (pad 4 y ++ ' ' :: (pad 2 h ++ ':' ::
      (pad 2 mi ++ ':' :: (pad 2 s ++ ' ' :: z))))))) = some (((yearFix y : Nat) : Int), ((m + 1 : Nat) : Int), (d : Int), (h : Int), (mi : Int), (s : Int)) := by
  obtain ⟨mon', t1, t2, t3, t4, t5, t6⟩ := month_table m hm
  rw [hmon] at t1
  cases t1
  have hsp : ∀ k n, ∀ c ∈ pad k n, isSpace c = false := fun k n c hc => (pad_isDig k n c hc).notSpace
  have hmsp : ∀ c ∈ mon, isSpace c = false := by
    intro c hc
    rw [List.all_eq_true] at t6
    simpa using t6 c hc
  have hcol : isSpace ':' = false := by decide
  have hcom : isSpace ',' = false := by decide
  have e1 : w ++ ',' :: ' ' :: (pad 2 d ++ ' ' :: (mon ++ ' ' :: (pad 4 y ++ ' ' :: (pad 2 h ++ ':' ::
      (pad 2 mi ++ ':' :: (pad 2 s ++ ' ' :: z)))))) = (w ++ [',']) ++ ' ' :: (pad 2 d ++ ' ' :: (mon ++ ' ' ::
      (pad 4 y ++ ' ' :: ((pad 2 h ++ ':' :: (pad 2 mi ++ ':' :: pad 2 s)) ++ ' ' :: z)))) := by
    simp
  have htm : ∀ c ∈ pad 2 h ++ ':' :: (pad 2 mi ++ ':' :: pad 2 s), isSpace c = false := by
    intro c hc
    simp only [List.mem_append, List.mem_cons] at hc
    rcases hc with hc | rfl | hc | rfl | hc
    · exact hsp _ _ c hc
    · exact hcol
    · exact hsp _ _ c hc
    · exact hcol
    · exact hsp _ _ c hc
  have hwords : pyWords ((w ++ [',']) ++ ' ' :: (pad 2 d ++ ' ' :: (mon ++ ' ' ::
      (pad 4 y ++ ' ' :: ((pad 2 h ++ ':' :: (pad 2 mi ++ ':' :: pad 2 s)) ++ ' ' :: z))))) =
      [w ++ [','], pad 2 d, mon, pad 4 y, pad 2 h ++ ':' :: (pad 2 mi ++ ':' :: pad 2 s), z] := by
    rw [pyWords_word (by simp) (by
        intro c hc
        rw [List.mem_append, List.mem_singleton] at hc
        rcases hc with hc | rfl
        · exact hw c hc
        · exact hcom),
      pyWords_word (pad_ne _ _) (hsp _ _), pyWords_word t5 hmsp, pyWords_word (pad_ne _ _) (hsp _ _),
      pyWords_word (by simp) htm, pyWords_last hz hzs]
  have hskip : skipDayName [w ++ [','], pad 2 d, mon, pad 4 y, pad 2 h ++ ':' :: (pad 2 mi ++ ':' :: pad 2 s), z] =
      [pad 2 d, mon, pad 4 y, pad 2 h ++ ':' :: (pad 2 mi ++ ':' :: pad 2 s), z] := by
    simp [skipDayName]
  have hdw : dateWords [pad 2 d, mon, pad 4 y, pad 2 h ++ ':' :: (pad 2 mi ++ ':' :: pad 2 s), z] =
      some (pad 2 d, mon, pad 4 y, pad 2 h ++ ':' :: (pad 2 mi ++ ':' :: pad 2 s), z) := rfl
  have hlow : PyUni.lower mon = mon.map Char.toLower := PyUni.lower_ascii mon t2
  obtain ⟨y0, ys, hy⟩ : ∃ a b, pad 4 y = a :: b := by
    cases hp : pad 4 y with
    | nil => exact absurd hp (pad_ne 4 y)
    | cons a b => exact ⟨a, b, rfl⟩
  have hy0 : PyUni.isDigit y0 = true := by
    obtain ⟨k, _, hk⟩ := (pad_isDig 4 y y0 (by rw [hy]; simp)).decimal
    exact PyUni.digit_decimal y0 k hk
  have htmc : dropComma (pad 2 h ++ ':' :: (pad 2 mi ++ ':' :: pad 2 s)) = pad 2 h ++ ':' :: (pad 2 mi ++ ':' :: pad 2 s) := by
    unfold dropComma
    rw [if_neg]
    intro hl
    have hmem : ',' ∈ pad 2 h ++ ':' :: (pad 2 mi ++ ':' :: pad 2 s) := List.mem_of_getLast? hl
    simp only [List.mem_append, List.mem_cons] at hmem
    rcases hmem with hc | hc | hc | hc | hc
    · exact pad_not_mem (x := ',') (by decide) hc
    · exact absurd hc (by decide)
    · exact pad_not_mem (x := ',') (by decide) hc
    · exact absurd hc (by decide)
    · exact pad_not_mem (x := ',') (by decide) hc
  have htw : timeWords (pad 2 h ++ ':' :: (pad 2 mi ++ ':' :: pad 2 s)) = some (pad 2 h, pad 2 mi, pad 2 s) := by
    unfold timeWords
    rw [splitAll_word (pad_not_mem (by decide)), splitAll_word (pad_not_mem (by decide)), splitAll_last (pad_not_mem (by decide))]
  have hfy : findIdx ':' (y0 :: ys) = none := by
    rw [← hy]; exact findIdx_none (pad_not_mem (by decide))
  have hcy : dropComma (y0 :: ys) = y0 :: ys := by rw [← hy]; exact dropComma_pad _ _
  have hpy : parseInt (y0 :: ys) = some (y : Int) := by rw [← hy]; exact parseInt_pad _ _
  rw [e1]
  unfold parseDate
  rw [hwords, hskip, hdw]
  have hemp : ((pad 2 d).isEmpty || mon.isEmpty || (pad 4 y).isEmpty) = false := by
    simp [pad_ne, t5]
  simp only [hemp]
  rw [hy]
  simp only [hlow, t3, if_true, t4, hfy, hcy, dropComma_pad, htmc, htw, hy0, hpy, parseInt_pad, Bool.false_eq_true, if_false]
  unfold yearFix
  by_cases h100 : y < 100
  · have h100' : (y : Int) < 100 := by omega
    by_cases h68 : 68 < y
    · have h68' : (68 : Int) < y := by omega
      simp only [h100, h100', h68, h68', if_true]; rfl
    · have h68' : ¬ (68 : Int) < y := by omega
      simp only [h100, h100', h68, h68', if_true, if_false]; rfl
  · have h100' : ¬ (y : Int) < 100 := by omega
    simp only [h100, h100', if_false]

theorem formatDate_eq {d : DateTime} (hd : IsDate d) : ∃ w mon, (∀ c ∈ w, isSpace c = false) ∧
    monthNames[d.month - 1]? = some mon ∧ datetimeToHttpDate d = .ok (w ++ ',' :: ' ' :: (pad 2 d.day ++ ' ' ::
      (mon ++ ' ' :: (pad 4 d.year ++ ' ' :: (pad 2 d.hour ++ ':' ::
      (pad 2 d.minute ++ ':' :: (pad 2 d.second ++ lit " GMT"))))))) := by
  obtain ⟨w, h1, h2⟩ := day_table (weekday d.year d.month d.day) (Nat.mod_lt _ (by decide))
  obtain ⟨mon, t1, _⟩ := month_table (d.month - 1) (by have := hd.month_le; have := hd.month_pos; omega)
  refine ⟨w, mon, ?_, t1, ?_⟩
  · intro c hc
    rw [List.all_eq_true] at h2
    simpa using h2 c hc
  · unfold datetimeToHttpDate formatDate
    rw [fromTimestamp_timegm hd]
    simp only [h1, t1, Option.getD_some]
    simp

end Warcio
