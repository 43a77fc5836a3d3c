import Verif.Py.Basic

/-!
# The parts of Python's `datetime` and `calendar` that timeutils.py uses

`datetime` objects without time zone or with `timezone.utc`; the proleptic Gregorian calendar
as CPython computes it (`Modules/_datetimemodule.c`, `Lib/datetime.py:50-140`).
-/

namespace Warcio

/-- A `datetime` (timeutils.py:10).  `aware` tells whether `tzinfo` is `timezone.utc` rather
than `None`. -/
structure DateTime where
  year : Nat
  month : Nat
  day : Nat
  hour : Nat
  minute : Nat
  second : Nat
  micro : Nat := 0
  aware : Bool := false
  deriving DecidableEq, Repr

/-- `calendar.isleap` (used by `calendar.monthrange`, timeutils.py:339). -/
def isLeap (y : Nat) : Bool := y % 4 == 0 && (y % 100 != 0 || y % 400 == 0)

/-- The table `_DAYS_IN_MONTH` and `mdays` (used at timeutils.py:339). -/
def monthDays : Nat → Nat
  | 1 => 31 | 2 => 28 | 3 => 31 | 4 => 30 | 5 => 31 | 6 => 30
  | 7 => 31 | 8 => 31 | 9 => 30 | 10 => 31 | 11 => 30 | 12 => 31
  | _ => 0

/-- `calendar.monthrange(y, m)[1]` (timeutils.py:339). -/
def daysInMonth (y m : Nat) : Nat := if m = 2 && isLeap y then 29 else monthDays m

/-- The table `_DAYS_BEFORE_MONTH` (behind timeutils.py:99,370,382). -/
def daysBefore : Nat → Nat
  | 1 => 0 | 2 => 31 | 3 => 59 | 4 => 90 | 5 => 120 | 6 => 151
  | 7 => 181 | 8 => 212 | 9 => 243 | 10 => 273 | 11 => 304 | 12 => 334
  | _ => 0

/-- `_days_before_month(y, m)` (in `date.toordinal`, used by `calendar.timegm`,
timeutils.py:99,370). -/
def daysBeforeMonth (y m : Nat) : Nat := daysBefore m + (if 2 < m && isLeap y then 1 else 0)

/-- `_days_before_year(y)` (in `date.toordinal`) (behind timeutils.py:99,370,382). -/
def daysBeforeYear (y : Nat) : Nat := (y - 1) * 365 + (y - 1) / 4 - (y - 1) / 100 + (y - 1) / 400

/-- `date(y, m, d).toordinal()` (behind timeutils.py:99,370,382). -/
def ymdToOrd (y m d : Nat) : Nat := daysBeforeYear y + daysBeforeMonth y m + d

/-- The month for day `n` of a year (from 0), in `_ord2ymd`: an estimate, corrected by one (behind timeutils.py:99,370,382). -/
def monthOfDay (leap : Bool) (n : Nat) : Nat × Nat :=
  let month := (n + 50) / 32
  let preceding := daysBefore month + (if 2 < month && leap then 1 else 0)
  if n < preceding then
    let month := month - 1
    (month, n - (preceding - (if month = 2 && leap then 29 else monthDays month)) + 1)
  else (month, n - preceding + 1)

/-- `date.fromordinal(n)` (`_ord2ymd`), for `n ≥ 1` (used by `datetime.fromtimestamp`,
timeutils.py:382 and in `email.utils.formatdate`). -/
def ordToYmd (n : Nat) : Nat × Nat × Nat :=
  let n := n - 1
  let n400 := n / 146097
  let n := n % 146097
  let n100 := n / 36524
  let n := n % 36524
  let n4 := n / 1461
  let n := n % 1461
  let n1 := n / 365
  let n := n % 365
  let year := n400 * 400 + 1 + n100 * 100 + n4 * 4 + n1
  if n1 = 4 || n100 = 4 then (year - 1, 12, 31)
  else
    let r := monthOfDay (n1 = 3 && (n4 != 24 || n100 == 3)) n
    (year, r.1, r.2)

/-- `date.weekday()`: 0 is Monday (in `timetuple`, used by `email.utils.formatdate`) (behind timeutils.py:99,370,382). -/
def weekday (y m d : Nat) : Nat := (ymdToOrd y m d + 6) % 7

namespace DateTime

/-- The arguments `datetime()` accepts (behind timeutils.py:99,370,382). -/
def valid (d : DateTime) : Bool :=
  1 ≤ d.year && d.year ≤ 9999 && 1 ≤ d.month && d.month ≤ 12 &&
  1 ≤ d.day && d.day ≤ daysInMonth d.year d.month &&
  d.hour < 24 && d.minute < 60 && d.second < 60 && d.micro < 1000000

/-- `datetime(y, m, d, h, mi, s, us, tzinfo=...)` of integers (timeutils.py:70,86,348). -/
def make (y m d h mi s us : Int) (aware : Bool) : Except PyErr DateTime :=
  if 0 ≤ y ∧ 0 ≤ m ∧ 0 ≤ d ∧ 0 ≤ h ∧ 0 ≤ mi ∧ 0 ≤ s ∧ 0 ≤ us then
    let r : DateTime := { year := y.toNat, month := m.toNat, day := d.toNat, hour := h.toNat,
                          minute := mi.toNat, second := s.toNat, micro := us.toNat, aware := aware }
    if r.valid then .ok r else .error .valueError
  else .error .valueError

/-- `datetime(*nums, tzinfo=...)` (timeutils.py:70): three to seven positional arguments; an
eighth one would be `tzinfo` given twice. -/
def ofArgs (nums : List Int) (aware : Bool) : Except PyErr DateTime :=
  match nums with
  | [y, m, d] => make y m d 0 0 0 0 aware
  | [y, m, d, h] => make y m d h 0 0 0 aware
  | [y, m, d, h, mi] => make y m d h mi 0 0 aware
  | [y, m, d, h, mi, s] => make y m d h mi s 0 aware
  | [y, m, d, h, mi, s, us] => make y m d h mi s us aware
  | _ => .error .typeError

/-- Zero-padded decimal number of at least `w` digits (`%02d`, `%04d`, `%06d`) (behind timeutils.py:99,370,382). -/
def pad (w n : Nat) : Str := List.replicate (w - (natToStr n).length) '0' ++ natToStr n

/-- `strftime('%Y-%m-%dT%H:%M:%SZ')` (timeutils.py:20,125).  `%Y` is not padded (glibc). -/
def strftimeIso (d : DateTime) : Str :=
  natToStr d.year ++ '-' :: pad 2 d.month ++ '-' :: pad 2 d.day ++ 'T' :: pad 2 d.hour ++ ':' ::
    pad 2 d.minute ++ ':' :: pad 2 d.second ++ ['Z']

/-- `strftime('%Y%m%d%H%M%S')` (timeutils.py:19,136). -/
def strftime14 (d : DateTime) : Str :=
  natToStr d.year ++ pad 2 d.month ++ pad 2 d.day ++ pad 2 d.hour ++ pad 2 d.minute ++ pad 2 d.second

/-- `isoformat()` (timeutils.py:127). -/
def isoformat (d : DateTime) : Str :=
  pad 4 d.year ++ '-' :: pad 2 d.month ++ '-' :: pad 2 d.day ++ 'T' :: pad 2 d.hour ++ ':' ::
    pad 2 d.minute ++ ':' :: pad 2 d.second ++
    (if d.micro = 0 then [] else '.' :: pad 6 d.micro) ++
    (if d.aware then lit "+00:00" else [])

/-- `calendar.timegm(d.utctimetuple())` (timeutils.py:99,370): `EPOCH` is 1970 and its
ordinal 719163. -/
def timegm (d : DateTime) : Int :=
  (((((ymdToOrd d.year d.month 1 : Int) - 719163 + d.day - 1) * 24 + d.hour) * 60 + d.minute) * 60 + d.second)

/-- `datetime.fromtimestamp(secs, timezone.utc)` of an integer (timeutils.py:382 and in
`email.utils.formatdate`, timeutils.py:100): `ValueError` outside the years 1 to 9999. -/
def fromTimestamp (secs : Int) : Except PyErr DateTime :=
  let days := secs / 86400 + 719163
  let rem := (secs % 86400).toNat
  if 1 ≤ days ∧ days ≤ 3652059 then
    let r := ordToYmd days.toNat
    .ok { year := r.1, month := r.2.1, day := r.2.2, hour := rem / 3600, minute := rem % 3600 / 60,
          second := rem % 60, aware := true }
  else .error .valueError

end DateTime
end Warcio
