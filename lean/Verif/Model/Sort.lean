import Verif.Model.Table
import Mathlib.Data.List.Sort
/-!
# Sorting: `tablite/sortation.py`, `tablite/sort_utils.py`

Python's `list.sort` is modelled by insertion sort: both return the stable sorted permutation.
-/

namespace Tablite

section
variable {ν α : Type} [DecidableEq ν]

/-- `<=` on tuples of ints -/
def lexLe : List Nat → List Nat → Bool
  | [], _ => true
  | _ :: _, [] => false
  | a :: as, b :: bs => if a < b then true else if b < a then false else lexLe as bs

/-- `<=` on the entries `(rank tuple, row)` of `new_order`, sortation.py:63-67 -/
def entryLe (x y : List Nat × Nat) : Bool := if x.1 = y.1 then decide (x.2 ≤ y.2) else lexLe x.1 y.1

/-- `ranks[v2]`: KeyError for a missing value -/
def rankOf (look : α → Option Nat) (v : α) : Except Err Nat :=
  match look v with
  | some r => .ok r
  | none => .error .key

/-- the rank tuples of all rows, sortation.py:39-53: one rank per sort key; a value missing in the dictionary raises KeyError.
`rk reverse values` is the dictionary returned by `sort_rank`, as a lookup function. -/
def rankRows (rk : Bool → List α → Except Err (α → Option Nat)) (t : Tbl ν α) : List (ν × Bool) → List (List Nat) → Except Err (List (List Nat))
  | [], acc => .ok acc
  | (key, reverse) :: rest, acc =>
    match dGet key t with
    | none => .error .value
    | some p => do
      let col := colIter p
      let look ← rk reverse col
      let rs ← col.mapM (rankOf look)
      rankRows rk t rest (List.zipWith (fun tup r => tup ++ [r]) acc rs)

/-- `sort_index`, sortation.py:17-69 -/
def sortIndex (rk : Bool → List α → Except Err (α → Option Nat)) (t : Tbl ν α) (mapping : List (ν × Bool)) : Except Err (List Nat) :=
  if mapping = [] then .error .type
  else if ¬ mapping.all (fun k => k.1 ∈ t.map (·.1)) then .error .value
  else do
    let ranks ← rankRows rk t mapping (List.replicate (tblLen t) [])
    .ok ((ranks.zipIdx.insertionSort (fun x y => entryLe x y = true)).map (·.2))

/-- `sort`, sortation.py:146-162 -/
def tblSort (rk : Bool → List α → Except Err (α → Option Nat)) (ps : Nat) (nul : α) (t : Tbl ν α) (mapping : List (ν × Bool)) : Except Err (Tbl ν α) := do
  let index ← sortIndex rk t mapping
  tblReindex ps nul t (index.map fun (n : Nat) => (n : Int))

/-- `is_sorted`, sortation.py:165-177 -/
def tblIsSorted (rk : Bool → List α → Except Err (α → Option Nat)) (t : Tbl ν α) (mapping : List (ν × Bool)) : Except Err Bool := do
  let index ← sortIndex rk t mapping
  .ok (decide (index = List.range (tblLen t)))

end

/-! ## the ranks of `sort_utils.py` -/

/-- numeric-like types with their typecodes -/
inductive NumTy
  | int | float | time | date | datetime | timedelta
  deriving DecidableEq

/-- a value to be sorted.  `num ty vc full`: a value of a number-like type with its sort value `vc` (`_excel_value_function` or
`_unix_value_function`, which drops microseconds of datetimes) and its exact value `full`. -/
inductive SVal
  | num (ty : NumTy) (vc full : Rat)
  | str (s : String)
  | bool (b : Bool)
  | none
  deriving DecidableEq

/-- int and float compare with each other, other types only with themselves -/
def tyComparable (a b : NumTy) : Bool := decide (a = b) || ((a = .int || a = .float) && (b = .int || b = .float))

/-- Python `==` on these values, the key equality of a dict -/
def SVal.pyEq : SVal → SVal → Bool
  | .num t v f, .num t' v' f' => tyComparable t t' && decide (v = v' ∧ f = f')
  | .num t v f, .bool b => (decide (t = .int) || decide (t = .float)) && decide (v = (if b then 1 else 0) ∧ f = (if b then 1 else 0))
  | .bool b, .num t v f => (decide (t = .int) || decide (t = .float)) && decide (v = (if b then 1 else 0) ∧ f = (if b then 1 else 0))
  | .bool a, .bool b => decide (a = b)
  | .str a, .str b => decide (a = b)
  | .none, .none => true
  | _, _ => false

/-- `d[k] = ix` in a dict whose keys are compared with `eq` -/
def eqSet {κ : Type} (eq : κ → κ → Bool) (k : κ) (ix : Nat) : List (κ × Nat) → List (κ × Nat)
  | [] => [(k, ix)]
  | (k', i) :: rest => if eq k' k then (k', ix) :: rest else (k', i) :: eqSet eq k ix rest

/-- `d[k]` -/
def eqGet {κ : Type} (eq : κ → κ → Bool) (k : κ) : List (κ × Nat) → Option Nat
  | [] => none
  | (k', i) :: rest => if eq k' k then some i else eqGet eq k rest

/-- `{value: ix for ix, value in enumerate(L)}` -/
def rankDict {κ : Type} (eq : κ → κ → Bool) (L : List κ) : List (κ × Nat) := L.zipIdx.foldl (fun d x => eqSet eq x.1 x.2 d) []

section
variable {K : Type} [LinearOrder K]

/-- `L.sort(key=…, reverse=reverse)` with `le` the order of the keys; `reverse=True` is stable as well -/
def pySort {β : Type} (le : β → β → Bool) (reverse : Bool) (l : List β) : List β :=
  if reverse then l.insertionSort (fun a b => le b a = true) else l.insertionSort (fun a b => le a b = true)

/-- `(VC, value)` of a number-like value -/
def numKey : SVal → Rat × Rat
  | .num _ v f => (v, f)
  | _ => (0, 0)

/-- `<=` on such pairs -/
def pairLe (a b : Rat × Rat) : Bool := decide (a.1 < b.1) || (decide (a.1 = b.1) && decide (a.2 ≤ b.2))

/-- order of tuples `(TC, VC, value)` of number-like values with equal typecode -/
def numLe (a b : SVal) : Bool := pairLe (numKey a) (numKey b)

/-- is a number-like value -/
def SVal.isNum : SVal → Bool
  | .num .. => true
  | _ => false

/-- is text -/
def SVal.isStr : SVal → Bool
  | .str _ => true
  | _ => false

/-- is bool or None: both are put into the list `booles`, sort_utils.py:228-231 -/
def SVal.isBoolNone (v : SVal) : Bool := !v.isNum && !v.isStr

/-- the text of a text value -/
def SVal.text : SVal → String
  | .str s => s
  | _ => ""

/-- collation order of texts; `key` is `uca_collator.sort_key` -/
def strLe (key : String → K) (a b : SVal) : Bool := decide (key a.text ≤ key b.text)

/-- `(2, 0, False)`, `(2, 1, True)`, `(3, inf, None)` in order -/
def boolKey : SVal → Nat
  | .bool false => 0
  | .bool true => 1
  | _ => 2

/-- order of these tuples -/
def boolLe (a b : SVal) : Bool := decide (boolKey a ≤ boolKey b)

/-- two number-like values whose tuples cannot be compared: equal sort value but types without `<` -/
def numClash (a b : SVal) : Bool :=
  match a, b with
  | .num t v _, .num t' v' _ => decide (v = v') && !tyComparable t t'
  | _, _ => false

/-- the list `L` of `excel_sort`, sort_utils.py:216-246; `values` are the distinct values.  Comparing values of types without `<` raises
TypeError. -/
def excelList (key : String → K) (reverse : Bool) (values : List SVal) : Except Err (List SVal) :=
  if values.any (fun a => values.any (numClash a)) then .error .type else
    let numeric := pySort numLe reverse (values.filter SVal.isNum)
    let text := pySort (strLe key) reverse (values.filter SVal.isStr)
    let booles := pySort boolLe reverse (values.filter SVal.isBoolNone)
    .ok (if reverse then booles ++ text ++ numeric else numeric ++ text ++ booles)

/-- `excel_sort` as lookup function; `ord` is the order of the set `multitype_set(col)` -/
def excelRank (key : String → K) (ord : List SVal → List SVal) (reverse : Bool) (col : List SVal) : Except Err (SVal → Option Nat) := do
  let L ← excelList key reverse (ord col)
  .ok fun v => eqGet SVal.pyEq v (rankDict SVal.pyEq L)

/-- `_unix_typecodes` of the values that are not text, sort_utils.py:73-83 -/
def unixCode : SVal → Nat
  | .none => 0
  | .bool _ => 1
  | .num .int _ _ => 2
  | .num .float _ _ => 2
  | .num .time _ _ => 3
  | .num .date _ _ => 4
  | .num .datetime _ _ => 5
  | .num .timedelta _ _ => 6
  | .str _ => 7

/-- `(VC, value)` of a value that is not text; there is only one None -/
def unixKey : SVal → Rat × Rat
  | .num _ v f => (v, f)
  | .bool b => (if b then 1 else 0, 0)
  | _ => (0, 0)

/-- order of the tuples `(TC, VC, value)` of `unix_sort` -/
def unixLe (a b : SVal) : Bool :=
  decide (unixCode a < unixCode b) || (decide (unixCode a = unixCode b) && pairLe (unixKey a) (unixKey b))

/-- `unix_sort`, sort_utils.py:146-193; the dictionary is keyed by type and value -/
def unixRank (key : String → K) (ord : List SVal → List SVal) (reverse : Bool) (col : List SVal) : Except Err (SVal → Option Nat) :=
  let values := ord col
  let nonText := pySort unixLe reverse (values.filter fun v => !v.isStr)
  let text := pySort (strLe key) reverse (values.filter SVal.isStr)
  let L := nonText ++ text
  .ok fun v => eqGet (fun a b => decide (a = b)) v (rankDict (fun a b => decide (a = b)) L)

end

end Tablite
