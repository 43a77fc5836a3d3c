import Verif.Py.DateTime

/-!
# `email.utils.formatdate` and `parsedate`

From CPython's `Lib/email/utils.py` and `Lib/email/_parseaddr.py:46-178`, as used by
timeutils.py:86,100.
-/

namespace Warcio

/-- `s.split(c)` (timeutils.py:86). -/
def splitAll {α} [DecidableEq α] (c : α) : List α → List (List α)
  | [] => [[]]
  | x :: xs =>
    if x = c then [] :: splitAll c xs
    else
      match splitAll c xs with
      | [] => [[x]]
      | w :: ws => (x :: w) :: ws

/-- `s.split()`: the words between whitespace (timeutils.py:86). -/
def pyWords : Str → List Str
  | [] => []
  | c :: cs =>
    if isSpace c then pyWords cs
    else
      match cs with
      | [] => [[c]]
      | c' :: _ =>
        if isSpace c' then [c] :: pyWords cs
        else
          match pyWords cs with
          | [] => [[c]]
          | w :: ws => (c :: w) :: ws

/-- `s.find(c)` (timeutils.py:86). -/
def findIdx {α} [DecidableEq α] (c : α) : List α → Option Nat
  | [] => none
  | x :: xs => if x = c then some 0 else (findIdx c xs).map (fun (n : Nat) => n + 1)

/-- Abbreviated names of the days, Monday first (`_format_timetuple_and_zone`) (timeutils.py:100). -/
def dayNames : List Str :=
  [lit "Mon", lit "Tue", lit "Wed", lit "Thu", lit "Fri", lit "Sat", lit "Sun"]

/-- Abbreviated names of the months (`_format_timetuple_and_zone`) (timeutils.py:100). -/
def monthNames : List Str :=
  [lit "Jan", lit "Feb", lit "Mar", lit "Apr", lit "May", lit "Jun",
   lit "Jul", lit "Aug", lit "Sep", lit "Oct", lit "Nov", lit "Dec"]

/-- `formatdate(timeval, localtime=False, usegmt=True)` (timeutils.py:100-102). -/
def formatDate (timeval : Int) : Except PyErr Str :=
  match DateTime.fromTimestamp timeval with
  | .error e => .error e
  | .ok d =>
    .ok ((dayNames[weekday d.year d.month d.day]?).getD [] ++ ',' :: ' ' :: DateTime.pad 2 d.day ++
      ' ' :: (monthNames[d.month - 1]?).getD [] ++ ' ' :: DateTime.pad 4 d.year ++
      ' ' :: DateTime.pad 2 d.hour ++ ':' :: DateTime.pad 2 d.minute ++ ':' :: DateTime.pad 2 d.second ++
      lit " GMT")

/-- `_monthnames` (timeutils.py:86). -/
def monthNamesLower : List Str :=
  [lit "jan", lit "feb", lit "mar", lit "apr", lit "may", lit "jun",
   lit "jul", lit "aug", lit "sep", lit "oct", lit "nov", lit "dec",
   lit "january", lit "february", lit "march", lit "april", lit "may", lit "june",
   lit "july", lit "august", lit "september", lit "october", lit "november", lit "december"]

/-- `_daynames` (timeutils.py:86). -/
def dayNamesLower : List Str :=
  [lit "mon", lit "tue", lit "wed", lit "thu", lit "fri", lit "sat", lit "sun"]

/-- `s[:-1]` if `s` ends with a comma (`dd`, `yy`, `tm` in `_parsedate_tz`).  None of them is
empty where this is used (timeutils.py:86). -/
def dropComma (s : Str) : Str := if s.getLast? = some ',' then s.dropLast else s

/-- `_monthnames.index(mm) + 1`, minus 12 beyond December (timeutils.py:86). -/
def monthIndex (mm : Str) : Option Nat :=
  (findIdx mm monthNamesLower).map (fun (n : Nat) => if 12 < n + 1 then n + 1 - 12 else n + 1)

variable [PyUni]

/-- The day name at the front is skipped (`_parsedate_tz`) (timeutils.py:86). -/
def skipDayName (data : List Str) : List Str :=
  match data with
  | [] => []
  | w :: ws =>
    if w.getLast? = some ',' || dayNamesLower.contains (PyUni.lower w) then ws
    else
      match rsplit1 ',' w with
      | some (_, post) => post :: ws
      | none => w :: ws

omit [PyUni] in
/-- The words are brought to the form day, month, year, time, zone (`_parsedate_tz`) (timeutils.py:86). -/
def dateWords (data : List Str) : Option (Str × Str × Str × Str × Str) :=
  let data :=
    match data with
    | [a, b, c] =>
      match splitAll '-' a with
      | [x, y, z] => [x, y, z, b, c]
      | _ => data
    | _ => data
  let data :=
    match data with
    | [a, b, c, s] =>
      match (match findIdx '+' s with | some i => some i | none => findIdx '-' s) with
      | some (i + 1) => [a, b, c, s.take (i + 1), s.drop (i + 1)]
      | _ => [a, b, c, s, []]
    | _ => data
  match data with
  | a :: b :: c :: d :: e :: _ => some (a, b, c, d, e)
  | _ => none

omit [PyUni] in
/-- Hours, minutes, seconds as texts (`_parsedate_tz`) (timeutils.py:86). -/
def timeWords (tm : Str) : Option (Str × Str × Str) :=
  match splitAll ':' tm with
  | [h, m] => some (h, m, lit "0")
  | [h, m, s] => some (h, m, s)
  | [t] =>
    if t.contains '.' then
      match splitAll '.' t with
      | [h, m] => some (h, m, lit "0")
      | [h, m, s] => some (h, m, s)
      | _ => none
    else none
  | _ => none

/-- `parsedate(data)[:6]` (timeutils.py:86); `none` is `None`. -/
def parseDate (data : Str) : Option (Int × Int × Int × Int × Int × Int) :=
  match dateWords (skipDayName (pyWords data)) with
  | none => none
  | some (dd, mm, yy, tm, tz) =>
    if dd.isEmpty || mm.isEmpty || yy.isEmpty then none
    else
      let mml := PyUni.lower mm
      let (dd, mm) := if monthNamesLower.contains mml then (dd, mml) else (mml, PyUni.lower dd)
      match monthIndex mm with
      | none => none
      | some month =>
        let dd := dropComma dd
        let (yy, tm) :=
          match findIdx ':' yy with
          | some (_ + 1) => (tm, yy)
          | _ => (yy, tm)
        let yy := dropComma yy
        match yy with
        | [] => none
        | y0 :: _ =>
          let yy := if PyUni.isDigit y0 then yy else tz
          match timeWords (dropComma tm) with
          | none => none
          | some (h, m, s) =>
            match parseInt yy, parseInt dd, parseInt h, parseInt m, parseInt s with
            | some y, some d, some h, some m, some s =>
              let y := if y < 100 then (if 68 < y then y + 1900 else y + 2000) else y
              some (y, month, d, h, m, s)
            | _, _, _, _, _ => none

end Warcio
