import Verif.Spec.PySlice
/-!
# Ranges of dates: `date_range`, `tablite/utils.py:401-409`

A `datetime` without time zone is the number of microseconds since year 1, a `timedelta` is its number of microseconds.
-/

namespace Tablite

/-- the microseconds of `datetime.max` -/
def datetimeMax : Int := 3652059 * 86400000000 - 1

/-- `datetime + timedelta`: OverflowError outside the years 1 to 9999 -/
def datetimeAdd (t d : Int) : Except Err Int := if 0 ≤ t + d ∧ t + d ≤ datetimeMax then .ok (t + d) else .error .overflow

/-- `date_range(start, stop, step)`, utils.py:401-409; `none` is an argument of another type.  `//` of timedeltas rounds down. -/
def dateRange (start stop step : Option Int) : Except Err (List Int) :=
  match start, stop, step with
  | some a, some b, some k =>
    if k = 0 then .error .zeroDivision
    else (List.range ((b - a).fdiv k).toNat).mapM fun i => datetimeAdd a (k * (i : Nat))
  | _, _, _ => .error .type

end Tablite
