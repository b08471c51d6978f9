import Mathlib.Algebra.Order.Ring.Rat
import Mathlib.Algebra.BigOperators.Group.List.Basic
/-!
# Spec vocabulary for statistics of a list of rationals
Independent of the code.
-/

namespace Tablite

/-- the mean -/
def meanOf (qs : List Rat) : Rat := qs.sum / qs.length

/-- the sample variance by its two-pass definition -/
def varianceOf (qs : List Rat) : Rat := (qs.map fun x => (x - meanOf qs) * (x - meanOf qs)).sum / ((qs.length : Rat) - 1)

/-- `m` is the median: the middle of the sorted list, the mean of the two middle values if their number is even -/
def IsMedian (qs : List Rat) (m : Rat) : Prop :=
  ∃ s : List Rat, s.Perm qs ∧ s.Pairwise (· ≤ ·) ∧
    if qs.length % 2 = 1 then s[qs.length / 2]? = some m
    else ∃ a b, s[qs.length / 2 - 1]? = some a ∧ s[qs.length / 2]? = some b ∧ m = (a + b) / 2

/-- at most k quarters of the values are below `q` and at most 4-k quarters above -/
def IsQuartile (k : Nat) (qs : List Rat) (q : Rat) : Prop :=
  4 * qs.countP (fun x => decide (x < q)) ≤ k * qs.length ∧ 4 * qs.countP (fun x => decide (q < x)) ≤ (4 - k) * qs.length

/-- the values a histogram stands for -/
def expand (vc : List (Rat × Nat)) : List Rat := vc.flatMap fun e => List.replicate e.2 e.1

end Tablite
