import Verif.Model.Sort
import Verif.Model.OrdDict
/-!
# Sort mode "alphanumeric": `text_sort`, `tablite/sort_utils.py:135-143`

`str` is Python's `str(value)` and `key` is `uca_collator.sort_key`; both are parameters.
-/

namespace Tablite

/-- `text = {str(i): i for i in values}`, sort_utils.py:139: of values with the same text the last one stays -/
def textDict (str : SVal → String) (values : List SVal) : List (String × SVal) := dGroup str .none (fun v _ => v) values

/-- `L = list(text.keys()); L.sort(key=…, reverse=reverse)` and `[text[value] for value in L]`, sort_utils.py:140-142: the entries of the
dictionary in the order of their texts -/
def textList {K : Type} [LinearOrder K] (key : String → K) (str : SVal → String) (reverse : Bool) (values : List SVal) : List SVal :=
  (pySort (fun a b => decide (key a.1 ≤ key b.1)) reverse (textDict str values)).map (·.2)

/-- `text_sort` as lookup function: `d = {text[value]: ix for ix, value in enumerate(L)}`; `ord` is the order of the set
`multitype_set(col)`, the distinct values with their types.  The keys of `d` are compared with Python's `==`. -/
def textRank {K : Type} [LinearOrder K] (key : String → K) (str : SVal → String) (ord : List SVal → List SVal) (reverse : Bool) (col : List SVal) :
    Except Err (SVal → Option Nat) :=
  .ok fun v => eqGet SVal.pyEq v (rankDict SVal.pyEq (textList key str reverse (ord col)))

end Tablite
