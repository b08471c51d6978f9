import Verif.Model.Infer
import Verif.Model.Npy
import Verif.Model.Select
import Verif.Model.DateText
/-!
# Conversion of single values: `nimlite/funcs/column_selector/casters.nim`

Texts are lists of characters.  A float is its exact value; NaN and the infinities are left out, and so is the range of 64 bit integers.  A `DateTime`
is the number of microseconds since 1970-01-01 (Nim keeps nanoseconds; every value here is a whole number of microseconds), whose calendar is
`days2Components` in one direction and `toEpochDay` in the other.  A time is a duration in microseconds.  `Err.value` is Nim's ValueError, which
`makePage` turns into a reject reason; any other error ends the selection.
-/

namespace Tablite

/-- a value of a page: `PY_ObjectND`, pyobjs.nim; date and datetime are both `DateTime` in Nim -/
inductive NV
  | none
  | bool (b : Bool)
  | int (v : Int)
  | float (q : Rat)
  | str (s : List Char)
  | date (us : Int)
  | time (us : Int)
  | datetime (us : Int)
  deriving DecidableEq

/-- `kind`, pyobjs.nim -/
def NV.kind : NV → SelKind
  | .none => .none
  | .bool _ => .bool
  | .int _ => .int
  | .float _ => .float
  | .str _ => .str
  | .date _ => .date
  | .time _ => .time
  | .datetime _ => .datetime

/-- what is not modelled: `fl` rounds to double, `pf` is `parseFloat`, `showF` is `$` of a float -/
structure CastRt where
  fl : Rat → Rat
  pf : List Char → Option Rat
  showF : Rat → List Char

/-! ## numbers, durations and dates -/

/-- `int v` of a float: towards zero -/
def truncRat (q : Rat) : Int := q.num.tdiv q.den

/-- `seconds2Duration`, dateutils.nim:130-133; `splitDecimal` gives whole part and fraction with the sign of the number -/
def secondsUs (fl : Rat → Rat) (q : Rat) : Int :=
  let secs := truncRat q
  let frac := q - secs
  secs * 1000000 + truncRat (fl (frac * 1000000))

/-- `dateTime(year, month, day, zone = utc())` -/
def ymdUs (x : Int × Int × Int) : Int := toEpochDay x.1 x.2.1 x.2.2 * dayUs

/-- `delta2Date(seconds = v)`, dateutils.nim:108-117, with `days2Date`, dateutils.nim:103-106 -/
def deltaUs (fl : Rat → Rat) (v : Int) : Except Err Int :=
  let dsu := toTimedelta (divmodF fl) 0 0 0 0 v 0 0
  match days2Components dsu.1 with
  | some x => .ok (ymdUs x + (dsu.2.1 * 1000000 + dsu.2.2))
  | none => .error .index

/-- `datetime2Date`, dateutils.nim:139 -/
def midnight (us : Int) : Except Err Int :=
  match days2Components (us / dayUs) with
  | some x => .ok (ymdUs x)
  | none => .error .index

/-- `inSeconds` of a duration: towards zero -/
def inSeconds (us : Int) : Int := us.tdiv 1000000

/-- `duration2Seconds`, dateutils.nim:135 -/
def durSeconds (fl : Rat → Rat) (us : Int) : Rat := fl ((us : Rat) / 1000000)

/-! ## text -/

/-- the last `k` decimal digits -/
def padDigits : Nat → Nat → List Char
  | 0, _ => []
  | k + 1, n => padDigits k (n / 10) ++ [Char.ofNat (48 + n % 10)]

/-- `$v` -/
def nimIntText (v : Int) : List Char := (if v < 0 then ['-'] else []) ++ Nat.toDigits 10 v.natAbs

/-- `fmtDate`, pyobjs.nim:8, for years 1 to 9999 -/
def fmtDate (us : Int) : Except Err (List Char) :=
  match days2Components (us / dayUs) with
  | some (y, m, d) =>
    if 1 ≤ y ∧ y ≤ 9999 then .ok (padDigits 4 y.toNat ++ '-' :: (padDigits 2 m.toNat ++ '-' :: padDigits 2 d.toNat)) else .error .other
  | none => .error .index

/-- `fmtTime`, pyobjs.nim:10, of the `DateTime` that many microseconds after the epoch -/
def fmtTime (us : Int) : List Char :=
  let s := (us / 1000000 % 86400).toNat
  padDigits 2 (s / 3600) ++ ':' :: (padDigits 2 (s % 3600 / 60) ++ ':' :: padDigits 2 (s % 60))

/-- `fmtDateTime`, pyobjs.nim:9 -/
def fmtDateTime (us : Int) : Except Err (List Char) := (fmtDate us).bind fun d => .ok (d ++ ' ' :: fmtTime us)

/-- the first of several attempts that does not end in a ValueError -/
def orElseValue {β : Type} (x : Except Err β) (y : Unit → Except Err β) : Except Err β :=
  match x with
  | .error .value => y ()
  | r => r

/-- `except: discard`: everything but writing behind the end of an array is caught -/
def orElseAny {β : Type} (x : Except Err β) (y : Unit → Except Err β) : Except Err β :=
  match x with
  | .ok b => .ok b
  | .error .index => .error .index
  | .error _ => y ()

/-- `inferFloat(str)`, infertypes.nim:176-187 -/
def inferFloatAny (pf : List Char → Option Rat) (s : List Char) : Except Err Rat :=
  orElseValue (inferFloat pf true false s) fun _ => orElseValue (inferFloat pf false false s) fun _ => inferFloat pf false true s

/-- `inferDate(str)`, infertypes.nim:352-363 -/
def inferDateAny (s : List Char) : Except Err (Int × Int × Int) :=
  orElseAny (inferDate false false s) fun _ => orElseAny (inferDate false true s) fun _ => inferDate true false s

/-- hours, minutes and seconds are `uint8`, microseconds `uint32`, infertypes.nim:407; `time2NimDuration`, dateutils.nim:125 -/
def hmsUs (hms : List Int) (us : Int) : Int :=
  (hms.getD 0 0 % 256 * 3600 + hms.getD 1 0 % 256 * 60 + hms.getD 2 0 % 256) * 1000000 + us % 2 ^ 32

/-- the time zone, infertypes.nim:458-463, as the duration of pytypes.nim:34 -/
def zoneUs (neg : Bool) (hms : List Int) (us : Int) : Int :=
  let sign : Int := if neg then -1 else 1
  let r := toTimedelta divmod 0 0 (sign * (hms.getD 0 0 % 256)) (sign * (hms.getD 1 0 % 256)) (sign * (hms.getD 2 0 % 256)) 0 (sign * (us % 2 ^ 32))
  (r.1 * 86400 + r.2.1) * 1000000 + r.2.2

/-- `newPyTime`, pytypes.nim:33-45 -/
def timeUs (t : List Int × Int × Option (Bool × List Int × Int)) : Int :=
  match t.2.2 with
  | none => hmsUs t.1 t.2.1
  | some (neg, hms, us) => hmsUs t.1 t.2.1 - zoneUs neg hms us

/-- `inferDatetime(str)`, infertypes.nim:498-504, with `newPyDateTime`, pytypes.nim:22 -/
def inferDatetimeAny (s : List Char) : Except Err Int :=
  (orElseValue (inferDatetime false s) fun _ => inferDatetime true s).bind fun x => .ok (ymdUs x.1 + timeUs x.2)

/-! ## casters -/

/-- casters.nim:122-130 -/
def castBool (rt : CastRt) (v : Bool) : SelKind → Except Err NV
  | .bool => .ok (.bool v)
  | .int => .ok (.int v.toNat)
  | .float => .ok (.float v.toNat)
  | .str => .ok (.str (if v then "True".toList else "False".toList))
  | .date => ((deltaUs rt.fl v.toNat).bind midnight).map .date
  | .datetime => (deltaUs rt.fl v.toNat).map .datetime
  | .time => .ok (.time (secondsUs rt.fl v.toNat))
  | .none => .error .value

/-- casters.nim:132-140 -/
def castInt (rt : CastRt) (v : Int) : SelKind → Except Err NV
  | .bool => .ok (.bool (decide (1 ≤ v)))
  | .int => .ok (.int v)
  | .float => .ok (.float (rt.fl v))
  | .str => .ok (.str (nimIntText v))
  | .date => ((deltaUs rt.fl v).bind midnight).map .date
  | .datetime => (deltaUs rt.fl v).map .datetime
  | .time => .ok (.time (secondsUs rt.fl (rt.fl v)))
  | .none => .error .value

/-- casters.nim:142-150 -/
def castFloat (rt : CastRt) (q : Rat) : SelKind → Except Err NV
  | .bool => .ok (.bool (decide (1 ≤ q)))
  | .int => .ok (.int (truncRat q))
  | .float => .ok (.float q)
  | .str => .ok (.str (rt.showF q))
  | .date => ((deltaUs rt.fl (truncRat q)).bind midnight).map .date
  | .datetime => .ok (.datetime (secondsUs rt.fl q))
  | .time => .ok (.time (secondsUs rt.fl q))
  | .none => .error .value

/-- casters.nim:152-160 -/
def castDate (rt : CastRt) (us : Int) : SelKind → Except Err NV
  | .bool => .ok (.bool (decide (1 ≤ inSeconds us)))
  | .int => .ok (.int (inSeconds us))
  | .float => .ok (.float (rt.fl (inSeconds us)))
  | .str => (fmtDate us).map .str
  | .date => .ok (.date us)
  | .datetime => .ok (.datetime us)
  | .time => .error .value
  | .none => .error .value

/-- casters.nim:162-170 -/
def castTime (rt : CastRt) (us : Int) : SelKind → Except Err NV
  | .bool => .ok (.bool (decide (1 ≤ inSeconds us)))
  | .int => .ok (.int (inSeconds us))
  | .float => .ok (.float (durSeconds rt.fl us))
  | .str => .ok (.str (fmtTime us))
  | .date => .error .value
  | .datetime => .error .value
  | .time => .ok (.time us)
  | .none => .error .value

/-- casters.nim:172-180; a time of a datetime is the duration since 1970, pytypes.nim:48 -/
def castDatetime (rt : CastRt) (us : Int) : SelKind → Except Err NV
  | .bool => .ok (.bool (decide (1 ≤ inSeconds us)))
  | .int => .ok (.int (inSeconds us))
  | .float => .ok (.float (durSeconds rt.fl us))
  | .str => (fmtDateTime us).map .str
  | .date => (midnight us).map .date
  | .datetime => .ok (.datetime us)
  | .time => .ok (.time us)
  | .none => .error .value

/-- the boolean of `inferBool` -/
def boolOf : InfVal → NV
  | .bool b => .bool b
  | _ => .none

/-- casters.nim:182-200; a date taken from the text of a datetime keeps its time -/
def castStr (rt : CastRt) (s : List Char) : SelKind → Except Err NV
  | .bool => (inferBool s).map boolOf
  | .int => (inferFloatAny rt.pf s).map fun q => .int (truncRat q)
  | .float => (inferFloatAny rt.pf s).map .float
  | .str => .ok (.str s)
  | .date => (orElseValue ((inferDateAny s).map ymdUs) fun _ => inferDatetimeAny s).map .date
  | .datetime => (orElseValue (inferDatetimeAny s) fun _ => (inferDateAny s).map ymdUs).map .datetime
  | .time => (inferTime s).map fun t => .time (timeUs t)
  | .none => .error .value

/-- `fnCast`, casters.nim:122-243; `obj2prim`, casters.nim:202-211, picks the caster of the value's own kind -/
def castVal (rt : CastRt) (k : SelKind) : NV → Except Err NV
  | .none => .error .value
  | .bool b => castBool rt b k
  | .int v => castInt rt v k
  | .float q => castFloat rt q k
  | .str s => castStr rt s k
  | .date us => castDate rt us k
  | .time us => castTime rt us k
  | .datetime us => castDatetime rt us k

/-! ## what is stored -/

/-- the day number written to a page of dates: `inDays`, towards zero, numpy.nim:956, 980 -/
def storedDay (us : Int) : Int := us.tdiv dayUs

/-- the day of a date stored as an object: year, month and day of the `DateTime`, pytypes.nim:58-60 -/
def objectDay (us : Int) : Int := us / dayUs

/-- hour, minute, second and microsecond of a time, pytypes.nim:67-84; the conversions to `HourRange` … are not checked, a number out of range is
an error here -/
def timeFields (us : Int) : Except Err (Nat × Nat × Nat × Nat) :=
  let h := (us.tdiv 3600000000).tmod 24
  let m := us.tdiv 60000000 - us.tdiv 3600000000 * 60
  let s := us.tdiv 1000000 - us.tdiv 60000000 * 60
  let u := us - us.tdiv 1000000 * 1000000
  if 0 ≤ h ∧ 0 ≤ m ∧ 0 ≤ s ∧ 0 ≤ u then .ok (h.toNat, m.toNat, s.toNat, u.toNat) else .error .other

end Tablite
