import Verif.Model.Sort
/-!
# Sort values of dates and times: `tablite/sort_utils.py:22-132`

A time is its microseconds since midnight, a date its days and a datetime its microseconds since the start of year 1, a timedelta its microseconds.
`fl` is the rounding of a float operation.  Not modelled: time zones.
-/

namespace Tablite

/-- a date or time in a column, or None -/
inductive DVal
  | time (u : Int)
  | date (d : Int)
  | datetime (m : Int)
  | timedelta (m : Int)
  | none
  deriving DecidableEq

/-- `_excel_time`, `_unix_time`, sort_utils.py:38-39, 101-102; the sum of hours, minutes and seconds is exact -/
def timeVC (fl : Rat → Rat) (u : Int) : Rat := fl (fl ((u / 1000000 : Int) + fl ((u % 1000000 : Int) / 1000000)) / 86400)

/-- `dt.days + (dt.seconds / (24 * 60 * 60))`, sort_utils.py:44, 49, 53, 107, 112, 116; `s` are the whole seconds of `dt` -/
def daysVC (fl : Rat → Rat) (s : Int) : Rat := fl ((s / 86400 : Int) + fl ((s % 86400 : Int) / 86400))

/-- `_excel_date_epoc`, `_excel_datetime_epoc`, sort_utils.py:22-23: days from 1 January 1 to 1 January 1900 -/
def excelEpoch : Int := 693595

/-- `_unix_date_epoc`, `_unix_datetime_epoc`, sort_utils.py:85-86: days from 1 January 1 to 1 January 1970 -/
def unixEpoch : Int := 719162

/-- the value with its sort value (`_excel_value_function`, `_unix_value_function`, sort_utils.py:60-70, 123-132): the microseconds of datetimes and timedeltas are dropped there -/
def DVal.sval (fl : Rat → Rat) (epoch : Int) : DVal → SVal
  | .time u => .num .time (timeVC fl u) u
  | .date d => .num .date (daysVC fl ((d - epoch) * 86400)) d
  | .datetime m => .num .datetime (daysVC fl (m / 1000000 - epoch * 86400)) m
  | .timedelta m => .num .timedelta (daysVC fl (m / 1000000)) m
  | .none => .none

end Tablite
