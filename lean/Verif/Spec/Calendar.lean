import Verif.Py.DateTime

/-!
# The Gregorian calendar

What a date is, the order of dates, and the second after a given one.  Nothing here uses the
computations of the model, only its record of date fields.
-/

namespace Warcio

/-- A leap year. -/
def Leap (y : Nat) : Prop := y % 4 = 0 ∧ (y % 100 = 0 → y % 400 = 0)

instance (y : Nat) : Decidable (Leap y) := inferInstanceAs (Decidable (_ ∧ _))

/-- The number of days of a month. -/
def monthLength (y m : Nat) : Nat :=
  if m = 2 then (if Leap y then 29 else 28)
  else if m = 4 ∨ m = 6 ∨ m = 9 ∨ m = 11 then 30
  else 31

/-- A date and time of day of the years 1 to 9999. -/
structure IsDate (d : DateTime) : Prop where
  year_pos : 1 ≤ d.year
  year_le : d.year ≤ 9999
  month_pos : 1 ≤ d.month
  month_le : d.month ≤ 12
  day_pos : 1 ≤ d.day
  day_le : d.day ≤ monthLength d.year d.month
  hour_lt : d.hour < 24
  minute_lt : d.minute < 60
  second_lt : d.second < 60
  micro_lt : d.micro < 1000000

/-- `a` is an earlier second than `b`. -/
def Earlier (a b : DateTime) : Prop :=
  a.year < b.year ∨ (a.year = b.year ∧ (a.month < b.month ∨ (a.month = b.month ∧
    (a.day < b.day ∨ (a.day = b.day ∧ (a.hour < b.hour ∨ (a.hour = b.hour ∧
      (a.minute < b.minute ∨ (a.minute = b.minute ∧ a.second < b.second)))))))))

/-- The next day, at the same time. -/
def nextDay (d : DateTime) : DateTime :=
  if d.day < monthLength d.year d.month then { d with day := d.day + 1 }
  else if d.month < 12 then { d with day := 1, month := d.month + 1 }
  else { d with day := 1, month := 1, year := d.year + 1 }

/-- The next second. -/
def nextSecond (d : DateTime) : DateTime :=
  if d.second < 59 then { d with second := d.second + 1 }
  else if d.minute < 59 then { d with second := 0, minute := d.minute + 1 }
  else if d.hour < 23 then { d with second := 0, minute := 0, hour := d.hour + 1 }
  else nextDay { d with second := 0, minute := 0, hour := 0 }

/-- The date without its microseconds. -/
def toSecond (d : DateTime) : DateTime := { d with micro := 0 }

end Warcio
