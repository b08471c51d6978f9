import Verif.Model.Stats
import Mathlib.Data.Rat.Floor
/-!
# Summary statistics of values that are not numbers: `tablite/utils.py:170-398`

Floating point numbers are rationals; `fl` rounds where the code converts times to seconds and back, the summary itself is computed exactly
(`Model/Stats.lean`).  The standard deviation is given by its square.
-/

namespace Tablite

/-- types as keys of `summary_methods`, utils.py:388-398 -/
inductive SKind
  | bool | int | float | str | date | datetime | time | timedelta | none | other
  deriving DecidableEq

/-- values: text as a list of characters, dates as days, datetimes, times and time deltas in microseconds -/
inductive StVal
  | bool (b : Bool) | int (n : Int) | float (q : Rat) | str (s : List Char) | date (d : Int) | datetime (us : Int) | time (us : Nat) | timedelta (us : Int) | none | other (n : Nat)
  deriving DecidableEq

def StVal.kind : StVal → SKind
  | .bool _ => .bool
  | .int _ => .int
  | .float _ => .float
  | .str _ => .str
  | .date _ => .date
  | .datetime _ => .datetime
  | .time _ => .time
  | .timedelta _ => .timedelta
  | .none => .none
  | .other _ => .other

/-- numbers in the result: the standard deviation is a square root -/
inductive SNum
  | rat (q : Rat) | sqrt (q : Rat) | pyNone
  deriving DecidableEq

/-- entries of the result: numbers, values, or a number with a unit as text -/
inductive SOut
  | num (x : SNum) | val (v : StVal) | text (x : SNum) (unit : String) | na
  deriving DecidableEq

/-- the ten entries the methods compute -/
structure Sum10 (α : Type) where
  min : α
  max : α
  mean : α
  median : α
  stdev : α
  mode : α
  iqrLow : α
  iqrHigh : α
  iqr : α
  sum : α
  deriving DecidableEq

def optNum : Option Rat → SNum
  | some q => .rat q
  | none => .pyNone

/-- utils.py:286-297; `iqr_high - iqr_low` -/
def sum10 (s : Summary) : Sum10 SNum where
  min := .rat s.min
  max := .rat s.max
  mean := .rat s.mean
  median := optNum s.median
  stdev := .sqrt s.var
  mode := optNum s.mode
  iqrLow := optNum s.iqrLow
  iqrHigh := optNum s.iqrHigh
  iqr := match s.iqrHigh, s.iqrLow with | some a, some b => .rat (a - b) | _, _ => .pyNone
  sum := .rat s.sum

/-- `datetime.timestamp` and `datetime.fromtimestamp` in the local time zone -/
structure SClock where
  toTs : Int → Rat
  fromTs : Rat → Int

/-- utils.py:311-314: 1 and 0 become truth values -/
def boolEntry : SNum → SOut
  | .rat q => if q = 1 then .val (.bool true) else if q = 0 then .val (.bool false) else .num (.rat q)
  | x => .num x

/-- `_boolean_statistics_summary`, utils.py:305-317 -/
def boolSummary (vc : List (Bool × Nat)) : Except Err (Sum10 SOut) := do
  let d := sum10 (← numericSummary (vc.map fun e => ((e.1.toNat : Rat), e.2)))
  .ok { min := boolEntry d.min, max := boolEntry d.max, mean := .num d.mean, median := boolEntry d.median, stdev := .num d.stdev, mode := boolEntry d.mode,
        iqrLow := .num d.iqrLow, iqrHigh := .num d.iqrHigh, iqr := .num d.iqr, sum := .num d.sum }

/-- numbers, `_numeric_statistics_summary`, utils.py:233-298 -/
def numSummary (vc : List (Rat × Nat)) : Except Err (Sum10 SOut) := do
  let d := sum10 (← numericSummary vc)
  .ok { min := .num d.min, max := .num d.max, mean := .num d.mean, median := .num d.median, stdev := .num d.stdev, mode := .num d.mode,
        iqrLow := .num d.iqrLow, iqrHigh := .num d.iqrHigh, iqr := .num d.iqr, sum := .num d.sum }

/-- `d[k] / (24*60*60)` -/
def inDays : SNum → SNum
  | .rat q => .rat (q / 86400)
  | .sqrt q => .sqrt (q / 86400 ^ 2)
  | .pyNone => .pyNone

/-- an entry converted by a function on numbers: None is a TypeError -/
def backEntry (f : Rat → Except Err StVal) : SNum → Except Err SOut
  | .rat q => do .ok (.val (← f q))
  | _ => .error .type

/-- `_datetime_statistics_summary`, utils.py:328-336 -/
def datetimeSummary (clk : SClock) (vc : List (Int × Nat)) : Except Err (Sum10 SOut) := do
  let d := sum10 (← numericSummary (vc.map fun e => (clk.toTs e.1, e.2)))
  let f : Rat → Except Err StVal := fun q => .ok (.datetime (clk.fromTs q))
  .ok { min := ← backEntry f d.min, max := ← backEntry f d.max, mean := ← backEntry f d.mean, median := ← backEntry f d.median,
        stdev := .text (inDays d.stdev) " days", mode := ← backEntry f d.mode, iqrLow := ← backEntry f d.iqrLow, iqrHigh := ← backEntry f d.iqrHigh,
        iqr := .text (inDays d.iqr) " days", sum := .text (inDays d.sum) " days" }

/-- `_date_statistics_summary`, utils.py:360-370: the quartiles stay numbers -/
def dateSummary (clk : SClock) (vc : List (Int × Nat)) : Except Err (Sum10 SOut) := do
  let d := sum10 (← numericSummary (vc.map fun e => (clk.toTs (e.1 * 86400000000), e.2)))
  let f : Rat → Except Err StVal := fun q => .ok (.date (clk.fromTs q / 86400000000))
  .ok { min := ← backEntry f d.min, max := ← backEntry f d.max, mean := ← backEntry f d.mean, median := ← backEntry f d.median,
        stdev := .text (inDays d.stdev) " days", mode := ← backEntry f d.mode, iqrLow := .num d.iqrLow, iqrHigh := .num d.iqrHigh,
        iqr := .text (inDays d.iqr) " days", sum := .text (inDays d.sum) " days" }

/-- seconds of a time, utils.py:340: `microsecond / 1e6` and the last sum are rounded -/
def timeTs (fl : Rat → Rat) (us : Nat) : Rat := fl (((us / 1000000 : Nat) : Rat) + fl (((us % 1000000 : Nat) : Rat) / 1000000))

/-- `int(x)` of a float -/
def intOf (q : Rat) : Int := q.num.tdiv q.den

/-- a time from seconds, utils.py:344-352, the components in microseconds; `time(...)` raises ValueError out of range -/
def timeBack (fl : Rat → Rat) (ts : Rat) : Except Err StVal :=
  let h := ⌊ts / 3600⌋
  let t1 := fl (ts - h * 3600)
  let m := ⌊t1 / 60⌋
  let t2 := fl (t1 - m * 60)
  let s := intOf t2
  let u := intOf (fl (1000000 * fl (t2 - s)))
  if 0 ≤ h ∧ h < 24 ∧ 0 ≤ m ∧ m < 60 ∧ 0 ≤ s ∧ s < 60 ∧ 0 ≤ u ∧ u < 1000000 then .ok (.time (((h * 60 + m) * 60 + s) * 1000000 + u).toNat)
  else .error .value

/-- `_time_statistics_summary`, utils.py:339-357: the quartiles stay numbers -/
def timeSummary (fl : Rat → Rat) (vc : List (Nat × Nat)) : Except Err (Sum10 SOut) := do
  let d := sum10 (← numericSummary (vc.map fun e => (timeTs fl e.1, e.2)))
  .ok { min := ← backEntry (timeBack fl) d.min, max := ← backEntry (timeBack fl) d.max, mean := ← backEntry (timeBack fl) d.mean,
        median := ← backEntry (timeBack fl) d.median, stdev := .text d.stdev " seconds", mode := ← backEntry (timeBack fl) d.mode,
        iqrLow := .num d.iqrLow, iqrHigh := .num d.iqrHigh, iqr := .text d.iqr " seconds", sum := .text d.sum " seconds" }

/-- `sorted(zip(v, c), key=lambda t: t[1], reverse=True)[0]`: the sort is stable, so the first of the greatest count, utils.py:377-378 -/
def firstMax : List (List Char × Nat) → Option (List Char × Nat)
  | [] => none
  | e :: t =>
    match firstMax t with
    | none => some e
    | some m => if e.2 < m.2 then some m else some e

/-- `_string_statistics_summary`, utils.py:373-385 -/
def strSummary (vc : List (List Char × Nat)) : Except Err (Sum10 SOut) := do
  let d := sum10 (← numericSummary (vc.map fun e => ((e.1.length : Rat), e.2)))
  let u := " characters"
  match firstMax vc with
  | none => .error .index
  | some m =>
    .ok { min := .text d.min u, max := .text d.max u, mean := .text d.mean u, median := .text d.median u, stdev := .text d.stdev u, mode := .val (.str m.1),
          iqrLow := .text d.iqrLow u, iqrHigh := .text d.iqrHigh u, iqr := .text d.iqr u, sum := .text d.sum u }

/-- `_timedelta_statistics_summary`, utils.py:320-325: `v.seconds` asks the list of values for its seconds -/
def timedeltaSummary (vc : List (Int × Nat)) : Except Err (Sum10 SOut) :=
  match vc with
  | [] => .error .index
  | _ :: _ => .error .attribute

/-- `_none_type_summary`, utils.py:301 -/
def noneSummary : Sum10 SOut := ⟨.na, .na, .na, .na, .na, .na, .na, .na, .na, .na⟩

/-- the values of one type, with their counts -/
def pickVals {β : Type} (f : StVal → Option β) (vc : List (StVal × Nat)) : List (β × Nat) := vc.filterMap fun e => (f e.1).map fun b => (b, e.2)

/-- the method of a type, utils.py:224-226, 388-398; without one, `int(v, c)` is a TypeError -/
def methodOf (clk : SClock) (fl : Rat → Rat) (k : SKind) (vc : List (StVal × Nat)) : Except Err (Sum10 SOut) :=
  match k with
  | .bool => boolSummary (pickVals (fun | .bool b => some b | _ => none) vc)
  | .int => numSummary (pickVals (fun | .int n => some (n : Rat) | _ => none) vc)
  | .float => numSummary (pickVals (fun | .float q => some q | _ => none) vc)
  | .str => strSummary (pickVals (fun | .str s => some s | _ => none) vc)
  | .date => dateSummary clk (pickVals (fun | .date d => some d | _ => none) vc)
  | .datetime => datetimeSummary clk (pickVals (fun | .datetime us => some us | _ => none) vc)
  | .time => timeSummary fl (pickVals (fun | .time us => some us | _ => none) vc)
  | .timedelta => timedeltaSummary (pickVals (fun | .timedelta us => some us | _ => none) vc)
  | .none => .ok noneSummary
  | .other => .error .type

/-- the dictionary returned -/
structure SumOut where
  entries : Sum10 SOut
  distinct : Nat
  summaryType : SKind
  histogram : List (StVal × Nat)
  deriving DecidableEq

/-- `summary_statistics`, utils.py:188-230; no result stands for the empty dictionary -/
def summaryStatistics (clk : SClock) (fl : Rat → Rat) (vc : List (StVal × Nat)) : Except Err (Option SumOut) :=
  match dominant StVal.kind vc with
  | none => .ok none
  | some (k, sel) => do .ok (some { entries := ← methodOf clk fl k sel, distinct := vc.length, summaryType := k, histogram := vc })

end Tablite
