import Verif.Model.PyCmp
import Verif.Model.Cast
import Verif.Model.ExprFilter
/-!
# The operators `in` and `not in`, and the filter in Python: `nimlite/pytypes/pycmp.nim`, `tablite/mp_utils.py`, `tablite/redux.py`
-/

namespace Tablite

/-- `toRepr`, pyobjs.nim:57-65; `$` of a float is the parameter `fl`.  Dates outside of the years 1 to 9999 do not come from Python, their text is left empty here. -/
def nimText (fl : Flt → List Char) : PyVal → List Char
  | .none => "None".toList
  | .bool b => if b then "true".toList else "false".toList
  | .int i => nimIntText i
  | .float f => fl f
  | .str s => s.toList
  | .date us => (fmtDate us).toOption.getD []
  | .time us => fmtTime us
  | .datetime us => (fmtDateTime us).toOption.getD []

/-- `contains`, pycmp.nim:181-189; `a in b` on strings is `find(b, a) >= 0`.  Nim searches the bytes of the UTF-8 encodings, which finds the same as a search of
the characters. -/
def nimIn (fl : Flt → List Char) (a b : PyVal) : Bool :=
  match a with
  | .none => decide (b.kind = .none) || isIn (nimText fl a) (nimText fl b)
  | _ => isIn (nimText fl a) (nimText fl b)

/-- `FilterMethods`, filter.nim:9-16 -/
inductive FilterOp
  | cmp (op : CmpOp)
  | isIn
  deriving DecidableEq

/-- `checkExpression`, filter.nim:62-75 -/
def filterCmp (toF : Int → Flt) (fl : Flt → List Char) : FilterOp → PyVal → PyVal → Bool
  | .cmp op, a, b => pyCmp toF op a b
  | .isIn, a, b => nimIn fl a b

section
variable {α : Type}

/-- `_in`, mp_utils.py:13-17; `str` is Python's `str` -/
def pyIn (str : α → List Char) (a b : α) : Bool := isIn (str a) (str b)

/-- `not_in`, mp_utils.py:9-10; `operator.contains(x, y)` is `y in x` -/
def pyNotIn (str : α → List Char) (a b : α) : Bool := !isIn (str b) (str a)

/-! ## `filter_non_primitive`, redux.py:296-343 -/

variable {ν κ : Type} [DecidableEq ν]

/-- `safe_test`, redux.py:248-252; `ev` is the operator, which may raise -/
def safeTest (ev : α → α → Except Err Bool) (a b : α) : Except Err Bool :=
  match ev a b with
  | .error .type => .ok false
  | r => r

/-- the evaluation of one page, redux.py:229-255: elementwise on the arrays, and once more element by element if that raises TypeError -/
def evalPage (ev : α → α → Except Err Bool) (as bs : List α) : Except Err (List Bool) :=
  match (as.zip bs).mapM (fun x => ev x.1 x.2) with
  | .error .type => (as.zip bs).mapM (fun x => safeTest ev x.1 x.2)
  | r => r

/-- `dset_A`, `dset_B`, redux.py:214-223 -/
def operandPage (t : Tbl ν α) (s e : Nat) : FOperand ν α → Except Err (List α)
  | .col x => getSlice ((dGet x t).getD []) { start := some (s : Int), stop := some (e : Int) }
  | .val v => .ok (List.replicate (e - s) v)

/-- one row of the bitmap, redux.py:204-256: `page_steps` covers the rows one after the other, so that the results are put next to each other -/
def exprBits (ev : κ → α → α → Except Err Bool) (ps : Nat) (t : Tbl ν α) (e : FExpr ν α κ) : Except Err (List Bool) :=
  (pageSteps ps (tblLen t)).foldlM (fun bits se => do
    let as ← operandPage t se.1 se.2 e.left
    let bs ← operandPage t se.1 se.2 e.right
    if as.length ≠ bs.length then .error .value else do
      .ok (bits ++ (← evalPage (ev e.op) as bs))) []

/-- `np.all(bitmap, axis=0)` or `np.any(bitmap, axis=0)` for `n` columns, redux.py:290-291 -/
def bitmapMask (all : Bool) (n : Nat) (rows : List (List Bool)) : List Bool :=
  (List.range n).map fun i => if all then rows.all (fun r => r.getD i false) else rows.any (fun r => r.getD i false)

/-- `filter_non_primitive` with a list of expressions, redux.py:296-343, with `get_filter_bitmap`, redux.py:169-260, and `_filter_using_list_of_dicts`,
redux.py:263-294.  Not modelled: the shape of the dictionaries; a `value1` or `value2` of None given together with a column, which is not noticed. -/
def filterNonPrimitive (ev : κ → α → α → Except Err Bool) (ps : Nat) (all : Bool) (t : Tbl ν α) (es : List (FExpr ν α κ)) : Except Err (Tbl ν α × Tbl ν α) :=
  if tblLen t = 0 then .ok (t, t)
  else if ¬ (es.all fun e => operandOk t e.left && operandOk t e.right) then .error .value
  else do
    let rows ← es.mapM (exprBits ev ps t)
    compressBoth ps t (bitmapMask all (tblLen t) rows)

end

end Tablite
