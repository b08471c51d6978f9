/-!
# Comparison of values in filters: `nimlite/pytypes/pycmp.nim`

Floats are modelled as NaN, the two infinities or an exact rational; `toF` converts an int to a float (rounding to 53 bits in Nim, a
parameter here).  Dates, datetimes and times are counted in microseconds.  Strings are compared as in Lean (code points), which is the order
of their UTF-8 bytes used by Nim.
-/

namespace Tablite

/-- a double -/
inductive Flt
  | nan
  | ninf
  | fin (q : Rat)
  | pinf
  deriving DecidableEq

/-- IEEE `<` -/
def Flt.lt : Flt → Flt → Bool
  | .nan, _ => false
  | _, .nan => false
  | .ninf, .ninf => false
  | .ninf, _ => true
  | .fin _, .ninf => false
  | .fin a, .fin b => decide (a < b)
  | .fin _, .pinf => true
  | .pinf, _ => false

/-- IEEE `==` -/
def Flt.eq : Flt → Flt → Bool
  | .nan, _ => false
  | .ninf, .ninf => true
  | .fin a, .fin b => decide (a = b)
  | .pinf, .pinf => true
  | _, _ => false

/-- IEEE `<=` -/
def Flt.le : Flt → Flt → Bool
  | .nan, _ => false
  | _, .nan => false
  | .ninf, _ => true
  | .fin _, .ninf => false
  | .fin a, .fin b => decide (a ≤ b)
  | .fin _, .pinf => true
  | .pinf, .pinf => true
  | .pinf, _ => false

/-- `PY_ObjectND` variants with comparison methods, pytypes/pyobjs.nim -/
inductive PyVal
  | none
  | bool (b : Bool)
  | int (i : Int)
  | float (f : Flt)
  | str (s : String)
  | date (us : Int)
  | time (us : Int)
  | datetime (us : Int)
  deriving DecidableEq

/-- `self.kind` -/
inductive Kind
  | none | bool | int | float | str | date | time | datetime
  deriving DecidableEq

/-- `self.kind` -/
def PyVal.kind : PyVal → Kind
  | .none => .none
  | .bool _ => .bool
  | .int _ => .int
  | .float _ => .float
  | .str _ => .str
  | .date _ => .date
  | .time _ => .time
  | .datetime _ => .datetime

/-- `FilterMethods` without `in`, filter.nim:9-16 -/
inductive CmpOp
  | gt | ge | eq | lt | le | ne
  deriving DecidableEq

/-- the Nim operator on ordered values of one type -/
def ordOp {β : Type} [LT β] [DecidableRel (α := β) (· < ·)] [DecidableEq β] (op : CmpOp) (a b : β) : Bool :=
  match op with
  | .gt => decide (b < a)
  | .ge => decide (b < a) || decide (a = b)
  | .eq => decide (a = b)
  | .lt => decide (a < b)
  | .le => decide (a < b) || decide (a = b)
  | .ne => decide (a ≠ b)

/-- the Nim operator on floats; `a > b` is `b < a` -/
def fltOp (op : CmpOp) (a b : Flt) : Bool :=
  match op with
  | .gt => b.lt a
  | .ge => b.le a
  | .eq => a.eq b
  | .lt => a.lt b
  | .le => a.le b
  | .ne => !a.eq b

/-- the code for `PY_NoneType`, pycmp.nim:178-183 -/
def noneOp (op : CmpOp) (other : PyVal) : Bool :=
  match op with
  | .eq => decide (other.kind = .none)
  | .ne => !decide (other.kind = .none)
  | _ => false

/-- `false < true` for Nim bools -/
def boolNat (b : Bool) : Nat := if b then 1 else 0

/-- the comparison methods generated by `addCmpMethod`, pycmp.nim:33-183: `addSimpleMethod` (same kind and operator on the values),
`addNumericMethod` (same kind, or the other numeric kind after conversion to float, else false) and `addDateMethod`. -/
def pyCmp (toF : Int → Flt) (op : CmpOp) : PyVal → PyVal → Bool
  | .none, o => noneOp op o
  | .bool a, .bool b => ordOp op (boolNat a) (boolNat b)
  | .int a, .int b => ordOp op a b
  | .int a, .float b => fltOp op (toF a) b
  | .float a, .float b => fltOp op a b
  | .float a, .int b => fltOp op a (toF b)
  | .str a, .str b => ordOp op a b
  | .date a, .date b => ordOp op a b
  | .date a, .datetime b => ordOp op a b
  | .datetime a, .datetime b => ordOp op a b
  | .datetime a, .date b => ordOp op a b
  | .time a, .time b => ordOp op a b
  | _, _ => false

end Tablite
