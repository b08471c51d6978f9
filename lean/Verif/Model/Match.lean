import Mathlib.Order.Defs.LinearOrder
import Verif.Model.Where
import Verif.Model.Table
/-!
# `tablite/match.py`

The values of the compared columns are of one type with a total order (numbers without nan, or text); comparing arrays of different types is
not modelled.  The index -1 is `none`.
-/

namespace Tablite

section
variable {α : Type} [LinearOrder α]

/-- `np.searchsorted(sorted_x, y)`: the leftmost place for `y` -/
def searchLeft (s : List α) (y : α) : Nat := (s.takeWhile fun v => v < y).length

/-- one element of `find_indices`, match.py:76-78: `np.take(index, …, mode="clip")` and the mask -/
def findOne (index : List Nat) (x : List α) (y : α) : Except Err (Option Nat) :=
  let sorted := index.filterMap fun i => x[i]?
  let k := searchLeft sorted y
  match index[min k (index.length - 1)]? with
  | none => .error .index
  | some j => match x[j]? with
    | none => .error .index
    | some v => .ok (if v = y then some j else none)

/-- `find_indices(x, y)`, match.py:66-88; `argsort` is `np.argsort`, any order of equal values -/
def findIndices (argsort : List α → List Nat) (x y : List α) : Except Err (List (Option Nat)) := y.mapM (findOne (argsort x) x)

end

/-- `np.where(mask, arg, new)` for one element, match.py:100-101 -/
def orIndex : Option Nat → Option Nat → Option Nat
  | some i, _ => some i
  | none, b => b

/-- `merge_indices(x1, x2)`, match.py:91-102: `np.where` wants equal lengths (the broadcast of a length 1 is not modelled) -/
def mergeIndices (x1 x2 : List (Option Nat)) : Except Err (List (Option Nat)) :=
  if x1.length = x2.length then .ok (x1.zipWith orIndex x2) else .error .value

/-- `np.compress(mask, l)`: IndexError if the mask selects beyond the end -/
def compress {β : Type} (mask : List Bool) (l : List β) : Except Err (List β) :=
  match mask, l with
  | [], _ => .ok []
  | true :: _, [] => .error .index
  | false :: m, [] => compress m []
  | true :: m, v :: l => do .ok (v :: (← compress m l))
  | false :: m, _ :: l => compress m l

/-- `np.take(l, indices)` -/
def npTake {β : Type} (l : List β) (ix : List Nat) : Except Err (List β) :=
  ix.mapM fun i => match l[i]? with
    | some v => .ok v
    | none => .error .index

section
variable {ν α : Type} [DecidableEq ν] [LinearOrder α]

/-- one criterion, match.py:40-49 -/
def matchCriterion (argsort : List α → List Nat) (t o : Tbl ν α) (indices : List (Option Nat)) (crit : ν × ν) : Except Err (List (Option Nat)) :=
  match dGet crit.1 t, dGet crit.2 o with
  | some p, some q => do
    let upd ← findIndices argsort (colIter q) (colIter p)
    mergeIndices indices upd
  | _, _ => .error .value

/-- `match(T, other, *criteria, keep_left, keep_right)`, match.py:6-63, for criteria with operator "==" -/
def tblMatch (ps : Nat) (mk : ν → Nat → ν) (argsort : List α → List Nat) (t o : Tbl ν α) (criteria : List (ν × ν)) (keepLeft keepRight : Option (List ν)) :
    Except Err (Tbl ν α) := do
  let kl := keepLeft.getD (t.map (·.1))
  let kr := keepRight.getD (o.map (·.1))
  if ¬ kl.all (fun x => x ∈ t.map (·.1)) then .error .value
  else if ¬ kr.all (fun x => x ∈ o.map (·.1)) then .error .value
  else do
    let indices ← criteria.foldlM (matchCriterion argsort t o) (List.replicate (tblLen t) none)
    let left ← (t.filter fun c => c.1 ∈ kl).mapM fun c => do
      let v ← compress (indices.map (·.isSome)) (colIter c.2)
      .ok (c.1, v)
    let new := left.foldl (fun new c => tblSet new c.1 (paginate ps c.2)) ([] : Tbl ν α)
    (o.filter fun c => c.1 ∈ kr).foldlM (fun new c => do
      let v ← npTake (colIter c.2) (indices.filterMap id)
      .ok (tblSet new (uniqueName mk c.1 (new.map (·.1))) (paginate ps v))) new

end

end Tablite
