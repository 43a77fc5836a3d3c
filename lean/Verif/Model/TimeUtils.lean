import Verif.Py.EmailDate

/-! # Model of /repo/warcio/timeutils.py -/

namespace Warcio

/-- `PAD_14_UP` (timeutils.py:23). -/
def pad14Up : Str := lit "29991231235959"

/-- `PAD_6_UP` (timeutils.py:24). -/
def pad6Up : Str := lit "299912"

/-- `PAD_MICRO` (timeutils.py:25). -/
def padMicro : Str := lit "000000"

section
variable [PyUni]

/-- `DATE_TIMESPLIT.split(string)` (timeutils.py:17,58): split at every character that is not
a decimal digit. -/
def dateSplit : Str → List Str
  | [] => [[]]
  | c :: cs =>
    if (PyUni.decimal c).isSome then
      match dateSplit cs with
      | [] => [[c]]
      | w :: ws => (c :: w) :: ws
    else [] :: dateSplit cs

omit [PyUni] in
/-- The last, empty item is dropped (timeutils.py:59-60). -/
def dropLastEmpty (nums : List Str) : List Str :=
  if nums.getLast? = some [] then nums.dropLast else nums

omit [PyUni] in
/-- The seventh number is brought to six digits (timeutils.py:62-64). -/
def padMicros (nums : List Str) : List Str :=
  match nums with
  | [y, m, d, h, mi, s, us] => [y, m, d, h, mi, s, us.take 6 ++ padMicro.drop (us.take 6).length]
  | _ => nums

/-- `int(num) for num in nums` (timeutils.py:70). -/
def intAll : List Str → Except PyErr (List Int)
  | [] => .ok []
  | w :: ws =>
    match parseInt w with
    | none => .error .valueError
    | some n =>
      match intAll ws with
      | .ok ns => .ok (n :: ns)
      | .error e => .error e

/-- `iso_date_to_datetime(string, tz_aware)` (timeutils.py:28-71). -/
def isoDateToDatetime (s : Str) (aware : Bool := false) : Except PyErr DateTime :=
  match intAll (padMicros (dropLastEmpty (dateSplit s))) with
  | .ok ns => DateTime.ofArgs ns aware
  | .error e => .error e

/-- `http_date_to_datetime(string, tz_aware)` (timeutils.py:74-86); `None[:6]` is a
`TypeError`. -/
def httpDateToDatetime (s : Str) (aware : Bool := false) : Except PyErr DateTime :=
  match parseDate s with
  | some (y, m, d, h, mi, sec) => DateTime.make y m d h mi sec 0 aware
  | none => .error .typeError

omit [PyUni] in
/-- `datetime_to_http_date(the_datetime)` (timeutils.py:89-102). -/
def datetimeToHttpDate (d : DateTime) : Except PyErr Str := formatDate d.timegm

omit [PyUni] in
/-- `datetime_to_iso_date(the_datetime, use_micros)` (timeutils.py:105-127). -/
def datetimeToIsoDate (d : DateTime) (useMicros : Bool := false) : Str :=
  if useMicros then d.isoformat ++ ['Z'] else d.strftimeIso

omit [PyUni] in
/-- `datetime_to_timestamp(the_datetime)` (timeutils.py:130-136). -/
def datetimeToTimestamp (d : DateTime) : Str := d.strftime14

/-- `iso_date_to_timestamp(string)` (timeutils.py:163-172). -/
def isoDateToTimestamp (s : Str) : Except PyErr Str :=
  match isoDateToDatetime s with
  | .ok d => .ok (datetimeToTimestamp d)
  | .error e => .error e

omit [PyUni] in
/-- `pad_timestamp(string, pad_str)` (timeutils.py:199-220). -/
def padTimestamp (s padStr : Str) : Str :=
  if s.length < padStr.length then s ++ padStr.drop s.length else s

/-- `clamp` (timeutils.py:322-328). -/
def clampInt (val : Str) (lo hi : Nat) : Nat :=
  match parseInt val with
  | some n => (max (lo : Int) (min n hi)).toNat
  | none => hi

/-- `extract` (timeutils.py:330-334). -/
def extractInt (s : Str) (start stop lo hi : Nat) : Nat :=
  if stop ≤ s.length then clampInt ((s.take stop).drop start) lo hi else hi

/-- The arguments of `datetime` in `timestamp_to_datetime` (timeutils.py:320-342). -/
def timestampFields (s : Str) (aware : Bool) : DateTime :=
  let s := padTimestamp s pad6Up
  let year := extractInt s 0 4 1900 2999
  let month := extractInt s 4 6 1 12
  { year := year, month := month, day := extractInt s 6 8 1 (daysInMonth year month),
    hour := extractInt s 8 10 0 23, minute := extractInt s 10 12 0 59,
    second := extractInt s 12 14 0 59, aware := aware }

/-- `timestamp_to_datetime(string, tz_aware)` (timeutils.py:223-354). -/
def timestampToDatetime (s : Str) (aware : Bool := false) : Except PyErr DateTime :=
  let f := timestampFields s aware
  DateTime.make f.year f.month f.day f.hour f.minute f.second 0 aware

/-- `timestamp_to_iso_date(string)` (timeutils.py:174-184). -/
def timestampToIsoDate (s : Str) : Except PyErr Str :=
  match timestampToDatetime s with
  | .ok d => .ok (datetimeToIsoDate d)
  | .error e => .error e

/-- `http_date_to_timestamp(string)` (timeutils.py:187-195). -/
def httpDateToTimestamp (s : Str) : Except PyErr Str :=
  match httpDateToDatetime s with
  | .ok d => .ok (datetimeToTimestamp d)
  | .error e => .error e

/-- `timestamp_to_sec(string)` (timeutils.py:359-370). -/
def timestampToSec (s : Str) : Except PyErr Int :=
  match timestampToDatetime s true with
  | .ok d => .ok d.timegm
  | .error e => .error e

omit [PyUni] in
/-- `sec_to_timestamp(secs)` (timeutils.py:373-382). -/
def secToTimestamp (secs : Int) : Except PyErr Str :=
  match DateTime.fromTimestamp secs with
  | .ok d => .ok (datetimeToTimestamp d)
  | .error e => .error e

/-- `timestamp_to_http_date(string)` (timeutils.py:385-393). -/
def timestampToHttpDate (s : Str) : Except PyErr Str :=
  match timestampToDatetime s with
  | .ok d => datetimeToHttpDate d
  | .error e => .error e

end
end Warcio
