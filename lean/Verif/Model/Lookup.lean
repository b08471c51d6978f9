import Verif.Model.Where
/-!
# `tablite/lookup.py`
-/

namespace Tablite

section
variable {ν α : Type} [DecidableEq ν]

/-- an operand of a criterion: a string, which may name a column (`x`) and is the value `v` otherwise, or any other value -/
inductive Operand (ν α : Type)
  | name (x : ν) (v : α)
  | value (v : α)

/-- a criterion `(left, op, right)`; `op` is an arbitrary boolean function, lookup.py:52-62 -/
structure Criterion (ν α : Type) where
  op : α → α → Bool
  left : Operand ν α
  right : Operand ν α

/-- `set.add` for all elements, in insertion order -/
def pySet (l : List ν) : List ν := l.foldl (fun s x => if x ∈ s then s else s ++ [x]) []

/-- the names among the operands that are columns, lookup.py:50-64; `ord` is the arbitrary iteration order of a Python set -/
def operandColumns (ord : List ν → List ν) (t : Tbl ν α) (l : List (Operand ν α)) : List ν :=
  (ord (pySet (l.filterMap fun o => match o with
    | .name x _ => some x
    | .value _ => none))).filter (fun x => x ∈ t.map (·.1))

/-- `row1d.get(left, left)`, lookup.py:82, 89, 91 -/
def operandGet (names : List ν) (row : List α) : Operand ν α → α
  | .name x v => (dGet x (names.zip row)).getD v
  | .value v => v

/-- lookup.py:89-98: the set of evaluations of a row pair, and the test for all / any -/
def critEval (all : Bool) (crits : List (Criterion ν α)) (ln : List ν) (lrow : List α) (rn : List ν) (rrow : List α) : Bool :=
  let evaluations := crits.map fun c => c.op (operandGet ln lrow c.left) (operandGet rn rrow c.right)
  (all && !evaluations.contains false) || (!all && evaluations.contains true)

/-- the search loop, lookup.py:87-102: index of the first row that matches -/
def firstMatch (p : List α → Bool) : Nat → List (List α) → Option Nat
  | _, [] => none
  | k, r :: rs => if p r then some k else firstMatch p (k + 1) rs

/-- the cached row number, -1 for no match, lookup.py:99-107 -/
def enc : Option Nat → Int
  | some j => (j : Int)
  | none => -1

/-- the row loop, lookup.py:80-107, with the cache keyed by `hash(row)` -/
def lookupLoop {η : Type} [DecidableEq η] (hash : List α → η) (search : List α → Option Nat) : List (η × Int) → List (List α) → List Int
  | _, [] => []
  | cache, r :: rs =>
    match dGet (hash r) cache with
    | some i => i :: lookupLoop hash search cache rs
    | none =>
      let i := enc (search r)
      i :: lookupLoop hash search (cache ++ [(hash r, i)]) rs

/-- `T[names]` for a non-empty list of known names (one column is wrapped into a table again, lookup.py:68-76) -/
def subTable (t : Tbl ν α) (names : List ν) : Tbl ν α := names.map fun x => (x, (dGet x t).getD [])

/-- `_sp_lookup`, lookup.py:113-119: columns of `second` are added to a copy of `T` under fresh names -/
def addColumns (mk : ν → Nat → ν) (t : Tbl ν α) (second : Tbl ν α) : Tbl ν α :=
  second.foldl (fun res c => tblSet res (uniqueName mk c.1 (res.map (·.1))) c.2) t

/-- `lookup`, lookup.py:14-110.  `T[[]]` raises IndexError (base.py:1233 `keys[0]`). -/
def tblLookup {η : Type} [DecidableEq η] (hash : List α → η) (ord : List ν → List ν) (ps : Nat) (mk : ν → Nat → ν) (nul : α)
    (all : Bool) (t o : Tbl ν α) (crits : List (Criterion ν α)) : Except Err (Tbl ν α) :=
  let ln := operandColumns ord t (crits.map (·.left))
  let rn := operandColumns ord o (crits.map (·.right))
  if ln = [] ∨ rn = [] then .error .index else do
    let lrows ← tblRows nul (subTable t ln)
    let rrows ← tblRows nul (subTable o rn)
    let index := lookupLoop hash (fun r => firstMatch (fun q => critEval all crits ln r rn q) 0 rrows) [] lrows
    let second ← tblReindex ps nul o index
    .ok (addColumns mk t second)

end

end Tablite
