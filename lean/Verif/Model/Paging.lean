import Verif.Spec.PySlice
/-!
# Column paging core

Model of `tablite/base.py` class `Column` (lines 198-1072).  A page is the list of its values, a column is the
list of its pages.  numpy dtype coercion is the identity on values (`Model/TypedCol.lean` has the dtypes; C79, C80 and C81 say when this is so).  Page identity and metadata are left out here
(see `Model/Store.lean`).
-/

namespace Tablite

/-- a column: its pages in order. `tablite/base.py:199-210` (`self.pages`). -/
abbrev Pages (α : Type _) := List (List α)

/-- `Column.__len__`, base.py:212-213: `sum(len(p) for p in self.pages)`. -/
def colLen {α} (pages : Pages α) : Nat := (pages.map List.length).sum

/-- `Column.__iter__`, base.py:711-715: all values page after page. -/
def colIter {α} (pages : Pages α) : List α := pages.flatMap fun p => p

/-- the loop `for end in range(page_size, n + 1, page_size)` of `Column._paginate`, base.py:236-243.
`k` counts the remaining iterations, `start` is the running variable of the code. -/
def paginateLoop {α} (ps : Nat) (values : List α) : Nat → Nat → List (List α)
  | 0, _ => []
  | k + 1, start =>
    let end_ := start + ps
    (values.take end_).drop start :: paginateLoop ps values k end_

/-- `Column._paginate`, base.py:218-244. `n = ceil(len/ps)*ps`; the loop runs over `range(ps, n+1, ps)`, i.e. `ceil(len/ps)`
iterations.  Float division is replaced by exact integer ceiling; page size 0 raises ZeroDivisionError in the code and is excluded
by the theorems (`0 < ps`). -/
def paginate {α} (ps : Nat) (values : List α) : List (List α) :=
  paginateLoop ps values ((values.length + ps - 1) / ps) 0

/-- `Column.extend` with an array/list, base.py:252-269. -/
def extend {α} (ps : Nat) (pages : Pages α) (value : List α) : Pages α :=
  pages ++ paginate ps value

/-- `Column.extend` with a column, base.py:258-260 (pages are shared, not copied). -/
def extendCol {α} (pages other : Pages α) : Pages α := pages ++ other

/-- a Python `range` object -/
structure PyRange where
  start : Int
  stop : Int
  step : Int
  deriving DecidableEq, Repr

/-- `len(range)` -/
def PyRange.len (r : PyRange) : Nat := rangeLen r.start r.stop r.step

/-- `list(range)` -/
def PyRange.toList (r : PyRange) : List Int := rangeList r.start r.stop r.step

/-- `range(0)` -/
def PyRange.empty : PyRange := ⟨0, 0, 1⟩

/-- `math.ceil(x / k)` for `k > 0` (exact instead of float division). -/
def ceilDiv (x k : Int) : Int := -((-x) / k)

/-- flips a descending range to an ascending one with step 1, utils.py:100-103. -/
def flipRange (r : PyRange) : PyRange :=
  if r.step < 1 then ⟨r.stop + 1, r.start + 1, 1⟩ else r

/-- inner search loop of `intercept`, utils.py:153-165: first `n` in `range(x, end, xs)` with `n ≥ y` and `(n-y) % ys == 0`. -/
def interceptSearch (y ys : Int) : List Int → Option Int
  | [] => none
  | n :: ns => if n < y then interceptSearch y ys ns
    else if (n - y) % ys = 0 then some n else interceptSearch y ys ns

/-- `intercept(A, B)`, utils.py:86-167.  The branch for equal steps reads the variable `step` before it is assigned
(utils.py:147), modelled as `Err.unbound`. -/
def intercept (A0 B0 : PyRange) : Except Err PyRange :=
  let A := flipRange A0
  let B := flipRange B0
  if A.len = 0 then .ok .empty
  else if B.len = 0 then .ok .empty
  else if A.stop ≤ B.start then .ok .empty
  else if A.start ≥ B.stop then .ok .empty
  else
    let start := if A.start ≤ B.start then B.start else A.start
    let end_ := if A.stop ≤ B.stop then A.stop else B.stop
    let a_start := ceilDiv (start - A.start) A.step * A.step + A.start
    let b_start := ceilDiv (start - B.start) B.step * B.step + B.start
    if A.step = 1 ∨ B.step = 1 then
      .ok ⟨max a_start b_start, end_, max A.step B.step⟩
    else if A.step = B.step then
      let a := min A.start B.start
      let b := max A.start B.start
      if (b - a) % A.step ≠ 0 then .ok .empty else .error .unbound
    else
      let step := if Int.gcd A.step B.step ≠ 1 then max A.step B.step else A.step * B.step
      let found := if A.step < B.step
        then interceptSearch b_start B.step (rangeList a_start end_ A.step)
        else interceptSearch a_start A.step (rangeList b_start end_ B.step)
      match found with
      | some n => .ok ⟨n, end_, step⟩
      | none => .ok .empty

/-- the page loop of `Column.getpages`, base.py:305-330.  `start` is the running page start; `sa`, `so` are
`scan_item.start`, `scan_item.stop`.  Errors of `intercept` propagate. -/
def getpagesLoop {α} (isRev : Bool) (r : PyRange) : Int → Pages α → Except Err (List (List α))
  | _, [] => .ok []
  | start, page :: rest =>
    let end_ := start + page.length
    if isRev && decide (start > r.start) then .ok []
    else if isRev && decide (end_ < r.stop) then getpagesLoop isRev r end_ rest
    else if !isRev && decide (start > r.stop) then .ok []
    else if !isRev && decide (end_ < r.start) then getpagesLoop isRev r end_ rest
    else do
      let ro ← intercept ⟨start, end_, 1⟩ r
      let more ← getpagesLoop isRev r end_ rest
      if ro.len = 0 then .ok more
      else if ro.len = page.length then .ok (page :: more)
      else .ok (pySlice page { start := some (ro.start - start), stop := some (ro.stop - start), step := some ro.step } :: more)

/-- `is_reversed`, base.py:299: `False if (item.step is None or item.step > 0) else True`. -/
def isReversed (s : PySlice) : Bool :=
  match s.step with
  | none => false
  | some k => !decide (k > 0)

/-- `Column.getpages` for a slice, base.py:277-339; `slice.indices` raises ValueError for step 0. -/
def getpages {α} (pages : Pages α) (s : PySlice) : Except Err (List (List α)) :=
  if s.step = some 0 then .error .value else do
    let (a, b, k) := s.indices (colLen pages)
    let out ← getpagesLoop (isReversed s) ⟨a, b, k⟩ 0 pages
    .ok (if isReversed s then out.reverse.map List.reverse else out)

/-- `Column.__getitem__` with a slice, base.py:356-393: the fragments concatenated. -/
def getSlice {α} (pages : Pages α) (s : PySlice) : Except Err (List α) := do
  let frags ← getpages pages s
  .ok frags.flatten

/-- `Column.__getitem__` with an integer, base.py:294-296 and 356-393: the integer becomes the slice `item:item+1:1`. -/
def getInt {α} (pages : Pages α) (i : Int) : Except Err α := do
  let item := if i < 0 then (colLen pages : Int) + i else i
  let arr ← getSlice pages { start := some item, stop := some (item + 1), step := some 1 }
  match arr with
  | [] => .error .index
  | v :: _ => .ok v

end Tablite
