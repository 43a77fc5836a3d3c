import Verif.Model.TimeUtils

/-! # Model of the timestamps of the current time (timeutils.py:139-160)

The clock is a parameter: `now` is what `datetime.now(timezone.utc)` returns. -/

namespace Warcio

/-- `timestamp_now()` (timeutils.py:139-144). -/
def timestampNow (now : DateTime) : Str := datetimeToTimestamp now

/-- `timestamp20_now()` (timeutils.py:147-160): `strftime('%Y%m%d%H%M%S%f')`. -/
def timestamp20Now (now : DateTime) : Str := now.strftime14 ++ DateTime.pad 6 now.micro

end Warcio
