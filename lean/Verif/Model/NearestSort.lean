import Verif.Model.GroupBy
import Mathlib.Data.List.Sort

/-!
# The order of values in nearest neighbour imputation: `unixSort` in `nimlite/funcs/imputation.nim`

`unixSort` returns the values with their places; `nnSource` and `nnOrder` use the values in the order of the places, so the model returns these.  Nim's
`sort` is stable, as insertion sort is.  Simplified: the table returned by the code has one entry for values that are equal (`1` and `1.0`); the values
given to it are distinct under that equality, `uniqueColumnValues` imputation.nim:21-26 and 166-169.
-/

namespace Tablite

/-- `cmpNonText(this, other) <= 0`, imputation.nim:37-43 -/
def nonTextLe (a b : GVal) : Bool := decide (a.parity < b.parity) || (decide (a.parity = b.parity) && decide (a.toFloat ≤ b.toFloat))

/-- `cmpText(this, other) <= 0`, imputation.nim:45 -/
def textLe (a b : GVal) : Bool := decide (a.text ≤ b.text)

/-- `unixSort`, imputation.nim:47-68: texts stand after all other values -/
def nnSort (values : List GVal) : List GVal :=
  (values.filter fun v => !v.isStr).insertionSort (fun a b => nonTextLe a b = true) ++
    (values.filter fun v => v.isStr).insertionSort (fun a b => textLe a b = true)

end Tablite
