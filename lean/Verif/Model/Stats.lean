import Verif.Spec.PySlice
import Verif.Model.OrdDict
import Mathlib.Data.List.Sort
import Mathlib.Algebra.Order.Ring.Rat
/-!
# Summary statistics: `tablite/utils.py`

Floating point numbers are modelled by rationals.
-/

namespace Tablite

/-- the loop variables of `_numeric_statistics_summary`, utils.py:237-245 -/
structure StatSt where
  total : Rat := 0
  mode : Option Rat := none
  maxCnt : Int := -1
  cntN : Nat := 0
  mn : Rat := 0
  cstd : Rat := 0
  low : Option Rat := some 0
  median : Option Rat := none
  high : Option Rat := some 0
  prev : Option Rat := none

/-- the three quartile blocks (k = 1, 2, 3), utils.py:252-268.  `vx_0` is None before the first value: arithmetic with it is a TypeError.
The bound `cnt_n - cx` of the median block equals `cnt_0`. -/
def quartBlock (N k : Nat) (cnt0 cntn : Nat) (prev : Option Rat) (vx : Rat) (cur : Option Rat) : Except Err (Option Rat) :=
  let pos : Rat := (N : Rat) * k / 4
  if (cnt0 : Rat) < pos ∧ pos < (cntn : Rat) then .ok (some vx)
  else if (cnt0 : Rat) = pos then
    match prev with
    | none => .error .type
    | some p =>
      let delta : Rat := ((k * (N - 1)) % 4 : Nat)
      .ok (some ((p * (4 - delta) + vx * delta) / 4))
  else .ok cur

/-- `mn += dt / cnt_n`, utils.py:273: ZeroDivisionError as long as all counts are 0 -/
def mnStep (mn dt : Rat) (cntn : Nat) : Except Err Rat := if cntn = 0 then .error .zeroDivision else .ok (mn + dt / cntn)

/-- one turn of the loop, utils.py:248-281 -/
def statStep (N : Nat) (s : StatSt) (e : Rat × Nat) : Except Err StatSt := do
  let cntn := s.cntN + e.2
  let low ← quartBlock N 1 s.cntN cntn s.prev e.1 s.low
  let median ← quartBlock N 2 s.cntN cntn s.prev e.1 s.median
  let high ← quartBlock N 3 s.cntN cntn s.prev e.1 s.high
  let dt := e.2 * (e.1 - s.mn)
  let mn ← mnStep s.mn dt cntn
  .ok { total := s.total + e.1 * e.2
        mode := if s.maxCnt < e.2 then some e.1 else s.mode
        maxCnt := if s.maxCnt < e.2 then e.2 else s.maxCnt
        cntN := cntn
        mn := mn
        cstd := s.cstd + dt * (e.1 - mn)
        low := low, median := median, high := high, prev := some e.1 }

/-- `[v, c] <= [v', c']`: Python compares lists element by element -/
def vcLe (a b : Rat × Nat) : Bool := decide (a.1 < b.1) || (decide (a.1 = b.1) && decide (a.2 ≤ b.2))

/-- the dictionary returned, utils.py:286-297 (`var` in place of its square root) -/
structure Summary where
  min : Rat
  max : Rat
  mean : Rat
  median : Option Rat
  var : Rat
  mode : Option Rat
  iqrLow : Option Rat
  iqrHigh : Option Rat
  sum : Rat
  deriving DecidableEq

/-- `_numeric_statistics_summary`, utils.py:233-298.  `VC[0]` of an empty histogram raises IndexError. -/
def numericSummary (vc : List (Rat × Nat)) : Except Err Summary :=
  let VC := vc.insertionSort (fun a b => vcLe a b = true)
  let N := (vc.map (·.2)).sum
  match VC.head?, VC.getLast? with
  | some a, some b => do
    let s ← VC.foldlM (statStep N) {}
    if N = 0 then .error .type
    else .ok { min := a.1, max := b.1, mean := s.total / N, median := s.median
               var := if 1 < s.cntN then s.cstd / ((s.cntN : Rat) - 1) else 0
               mode := s.mode, iqrLow := s.low, iqrHigh := s.high, sum := s.total }
  | _, _ => .error .index

/-- `max(dtypes, key=dtypes.get)`: the first entry of greatest value -/
def maxKey {τ : Type} : List (τ × Nat) → Option (τ × Nat)
  | [] => none
  | e :: t =>
    match maxKey t with
    | none => some e
    | some m => if e.2 < m.2 then some m else some e

/-- the selection of the dominant type in `summary_statistics`, utils.py:206-222; `none` stands for the empty dictionary -/
def dominant {τ β : Type} [DecidableEq τ] (ty : β → τ) (vc : List (β × Nat)) : Option (τ × List (β × Nat)) :=
  let dtypes := vc.foldl (fun d e => dUpd 0 (ty e.1) (· + e.2) d) []
  if dtypes.all (fun e => e.2 = 0) then none
  else match maxKey dtypes with
    | none => none
    | some m => some (m.1, vc.filter fun e => ty e.1 = m.1)

end Tablite
