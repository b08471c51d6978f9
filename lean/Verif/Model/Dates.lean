import Mathlib.Data.Rat.Floor
import Mathlib.Algebra.Order.Ring.Rat
/-!
# Calendar arithmetic: `nimlite/dateutils.nim`, `nimlite/utils.nim`

Nim's 64 bit `int` is modelled by `Int`, without overflow but for `toTimedelta64`.
-/

namespace Tablite

/-- 64 bit wrap-around -/
def wrap64 (v : Int) : Int := (v + 2 ^ 63) % 2 ^ 64 - 2 ^ 63

/-- `divmod`, utils.nim:38-42: `x / y` converts both integers to doubles and divides these; `fl` is the rounding to a double -/
def divmodF (fl : Rat → Rat) (x y : Int) : Int × Int :=
  let z := Rat.floor (fl (fl x / fl y))
  (z, x - y * z)

/-- `divmod` with exact quotients -/
def divmod (x y : Int) : Int × Int :=
  let z := x / y
  (z, x - y * z)

/-- `toTimedelta`, dateutils.nim:18-55, over any `divmod` -/
def toTimedelta (dm : Int → Int → Int × Int) (weeks days hours minutes seconds milliseconds microseconds : Int) : Int × Int × Int :=
  let vdays := days + weeks * 7
  let vseconds := seconds + (minutes * 60 + hours * 3600)
  let vmicro := microseconds + milliseconds * 1000
  let d := vdays
  let (vdays, vseconds) := dm vseconds (24 * 3600)
  let d := d + vdays
  let s := vseconds
  let (vseconds, vmicro) := dm vmicro 1000000
  let (vdays, vseconds) := dm vseconds (24 * 3600)
  let d := d + vdays
  let s := s + vseconds
  let (vseconds, us) := dm vmicro 1000000
  let s := s + vseconds
  let (vdays, s) := dm s (24 * 3600)
  let d := d + vdays
  (d, s, us)

/-- `toTimedelta`, dateutils.nim:18-55, as compiled with `-d:danger` (build_nim.sh:25): sums and products wrap -/
def toTimedelta64 (fl : Rat → Rat) (weeks days hours minutes seconds milliseconds microseconds : Int) : Int × Int × Int :=
  let r := toTimedelta (divmodF fl) 0 (wrap64 (days + weeks * 7)) 0 0 (wrap64 (seconds + (minutes * 60 + hours * 3600))) 0 (wrap64 (microseconds + milliseconds * 1000))
  (wrap64 r.1, r.2.1, r.2.2)

/-- `isLeapYear`, dateutils.nim:15; Nim's `mod` truncates, but it is only compared with 0 -/
def isLeapYear (year : Int) : Bool := year.tmod 4 == 0 && (year.tmod 100 != 0 || year.tmod 400 == 0)

/-- `extractUnit`, dateutils.nim:57-64 -/
def extractUnit (d unit : Int) : Int × Int :=
  let (idiv, imod) := divmod d unit
  if imod < 0 then (idiv - 1, imod + unit) else (idiv, imod)

/-- `days2YearsDays`, dateutils.nim:66-87.  `int (a / b)` truncates a floating point quotient of numbers below 146097, which is the integer quotient. -/
def days2YearsDays (days : Int) : Int × Int :=
  let daysPer400 := 400 * 365 + 100 - 4 + 1
  let tdays := days - (365 * 30 + 7)
  let (year, tdays) := extractUnit tdays daysPer400
  let year := 400 * year
  if tdays ≥ 366 then
    let year := year + 100 * (tdays - 1).tdiv (100 * 365 + 25 - 1)
    let tdays := (tdays - 1).tmod (100 * 365 + 25 - 1)
    if tdays ≥ 365 then
      let year := year + 4 * (tdays + 1).tdiv (4 * 365 + 1)
      let tdays := (tdays + 1).tmod (4 * 365 + 1)
      if tdays ≥ 366 then
        let year := year + (tdays - 1).tdiv 365
        let tdays := (tdays - 1).tmod 365
        (year + 2000, tdays)
      else (year + 2000, tdays)
    else (year + 2000, tdays)
  else (year + 2000, tdays)

/-- `DAYS_PER_MONTH_TABLE`, dateutils.nim:7-10 -/
def monthTable (leap : Bool) : List Int :=
  if leap then [31, 29, 31, 30, 31, 30, 31, 31, 30, 31, 30, 31] else [31, 28, 31, 30, 31, 30, 31, 31, 30, 31, 30, 31]

/-- the month loop of `days2Components`, dateutils.nim:93-101; `none` is the IndexDefect -/
def monthLoop : List Int → Int → Int → Option (Int × Int)
  | [], _, _ => none
  | len :: rest, i, idays => if idays < len then some (i + 1, idays + 1) else monthLoop rest (i + 1) (idays - len)

/-- `days2Components`, dateutils.nim:89-101: (year, month, day) -/
def days2Components (days : Int) : Option (Int × Int × Int) :=
  let (year, idays) := days2YearsDays days
  (monthLoop (monthTable (isLeapYear year)) 0 idays).map fun md => (year, md.1, md.2)

end Tablite
