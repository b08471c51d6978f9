import Verif.Model.Table
/-!
# Filtering: `nimlite/funcs/filter.nim`, `tablite/redux.py`
-/

namespace Tablite

section
variable {ν α κ : Type} [DecidableEq ν]

/-! ## `redux.py` -/

/-- `np.compress(mask, data)` -/
def npCompress (mask : List Bool) (data : List α) : List α := ((mask.zip data).filter (·.1)).map (·.2)

/-- `mask[start:end] = f(mask[start:end], data)` for all pages of a column, redux.py:74-83.  `h` combines the mask bit with the value. -/
def maskLoop (h : Bool → α → Bool) : Nat → Pages α → List Bool → List Bool
  | _, [], mask => mask
  | start, page :: rest, mask =>
    let end_ := start + page.length
    let mask' := mask.take start ++ List.zipWith h ((mask.take end_).drop start) page ++ mask.drop end_
    maskLoop h end_ rest mask'

/-- `_compress_one` for one column, redux.py:134-141 -/
def compressCol (ps : Nat) (n : Nat) (mask : List Bool) (pages : Pages α) : Except Err (Pages α) :=
  (pageSteps ps n).foldlM (fun new se => do
    let data ← getSlice pages { start := some (se.1 : Int), stop := some (se.2 : Int) }
    .ok (extend ps new (npCompress ((mask.take se.2).drop se.1) data))) []

/-- `_compress_one`, redux.py:130-142 -/
def compressOne (ps : Nat) (t : Tbl ν α) (mask : List Bool) : Except Err (Tbl ν α) :=
  t.mapM fun c => do .ok (c.1, ← compressCol ps (tblLen t) mask c.2)

/-- `compress_both`, redux.py:145-166 -/
def compressBoth (ps : Nat) (t : Tbl ν α) (mask : List Bool) : Except Err (Tbl ν α × Tbl ν α) := do
  let true_ ← compressOne ps t mask
  let false_ ← compressOne ps t (mask.map (!·))
  .ok (true_, false_)

/-- `filter_all`, redux.py:34-85.  A condition on a column is a predicate: `v == x` or the given function. -/
def filterAll (ps : Nat) (t : Tbl ν α) (kw : List (ν × (α → Bool))) : Except Err (Tbl ν α) :=
  if ¬ kw.all (fun k => k.1 ∈ t.map (·.1)) then .error .value else do
    let mask := kw.foldl (fun m k => maskLoop (fun b v => b && k.2 v) 0 ((dGet k.1 t).getD []) m) (List.replicate (tblLen t) true)
    compressOne ps t mask

/-- `filter_any`, redux.py:107-127; an unknown column raises KeyError -/
def filterAny (ps : Nat) (t : Tbl ν α) (kw : List (ν × (α → Bool))) : Except Err (Tbl ν α) :=
  if ¬ kw.all (fun k => k.1 ∈ t.map (·.1)) then .error .key else do
    let mask := kw.foldl (fun m k => maskLoop (fun b v => b || k.2 v) 0 ((dGet k.1 t).getD []) m) (List.replicate (tblLen t) false)
    compressOne ps t mask

/-- `drop`, redux.py:88-104; `eq` is numpy's elementwise `==` -/
def dropRows (eq : α → α → Bool) (ps : Nat) (t : Tbl ν α) (args : List α) : Except Err (Tbl ν α) :=
  let mask := t.foldl (fun m c => maskLoop (fun b v => args.foldl (fun b a => b || eq v a) b) 0 c.2 m) (List.replicate (tblLen t) false)
  compressOne ps t (mask.map (!·))

/-! ## `filter.nim` -/

/-- `ExpressionValue`, filter.nim:22: a column name or a value -/
inductive FOperand (ν α : Type)
  | col (x : ν)
  | val (v : α)

/-- `Expression`, filter.nim:23; `κ` is the type of operators -/
structure FExpr (ν α κ : Type) where
  left : FOperand ν α
  op : κ
  right : FOperand ν α

/-- `exprCols.add(c)` if not present, filter.nim:139-140 -/
def addCol (cols : List ν) : FOperand ν α → List ν
  | .col x => if x ∈ cols then cols else cols ++ [x]
  | .val _ => cols

/-- the columns used by the expressions, filter.nim:127-202 -/
def exprCols (es : List (FExpr ν α κ)) : List ν := es.foldl (fun cs e => addCol (addCol cs e.left) e.right) []

/-- `extractValue`, filter.nim:52-60 (a missing name would be index -1; excluded by the column check) -/
def extractValue (nul : α) (cols : List ν) (row : List α) : FOperand ν α → α
  | .val v => v
  | .col x => (dGet x (cols.zip row)).getD nul

/-- `checkExpressions`, filter.nim:62-82 -/
def checkExprs (nul : α) (cmp : κ → α → α → Bool) (all : Bool) (es : List (FExpr ν α κ)) (cols : List ν) (row : List α) : Bool :=
  let f := fun e : FExpr ν α κ => cmp e.op (extractValue nul cols row e.left) (extractValue nul cols row e.right)
  if all then es.all f else es.any f

/-- `page[slice]` for a list of indices -/
def takeAt (page : List α) (idx : List Nat) : Except Err (List α) :=
  idx.mapM fun i => match page[i]? with
    | some v => .ok v
    | none => .error .index

/-- first loop of `dumpPage`, filter.nim:232-239: the page containing row `offset`.  Running out of pages is an index error. -/
def skipPages (offset : Nat) : Nat → Pages α → Except Err (Nat × Pages α)
  | _, [] => .error .index
  | cur, p :: ps => if offset < cur + p.length then .ok (offset - cur, p :: ps) else skipPages offset (cur + p.length) ps

/-- `dumpSlice`, filter.nim:221-230: a page is written unless the slice is empty -/
def dumpSlice (page : List α) (idx : List Nat) : Except Err (Pages α) :=
  if idx.length > 0 then do .ok [← takeAt page idx] else .ok []

/-- second loop of `dumpPage`, filter.nim:245-264; returns the pages appended to the pass and the fail column -/
def dumpLoop (bitmask : List Bool) : Nat → Nat → Nat → Pages α → Except Err (Pages α × Pages α)
  | _, 0, _, _ => .ok ([], [])
  | _, _ + 1, _, [] => .error .index
  | maskOffset, left + 1, ind, page :: rest => do
    let len := page.length - ind
    let sliceLen := min (left + 1) len
    let bits := ((bitmask.drop maskOffset).take sliceLen).zipIdx
    let valid := (bits.filter (·.1)).map fun b => b.2 + ind
    let invalid := (bits.filter (!·.1)).map fun b => b.2 + ind
    let p ← dumpSlice page valid
    let f ← dumpSlice page invalid
    let (ps, fs) ← dumpLoop bitmask (maskOffset + sliceLen) (left + 1 - sliceLen) 0 rest
    .ok (p ++ ps, f ++ fs)

/-- `dumpPage`, filter.nim:216-264 -/
def dumpPage (offset bitNum : Nat) (bitmask : List Bool) (pages : Pages α) : Except Err (Pages α × Pages α) := do
  let (ind, rest) ← skipPages offset 0 pages
  dumpLoop bitmask 0 bitNum ind rest

/-- state of the main loop, filter.nim:212-214: mask buffer, used bits, offset, and for each column the pass and fail pages so far -/
structure FState (α : Type) where
  bitmask : List Bool
  bitNum : Nat
  offset : Nat
  out : List (Pages α × Pages α)

/-- `dumpPages`, filter.nim:266-268 -/
def dumpPages (cols : List (Pages α)) (s : FState α) : Except Err (List (Pages α × Pages α)) :=
  (cols.zip s.out).mapM fun c => do
    let (p, f) ← dumpPage s.offset s.bitNum s.bitmask c.1
    .ok (c.2.1 ++ p, c.2.2 ++ f)

/-- the main loop, filter.nim:280-293; `bits` are the results of `checkExpressions` for the rows -/
def filterLoop (ps : Nat) (cols : List (Pages α)) : List Bool → FState α → Except Err (FState α)
  | [], s => .ok s
  | b :: bs, s => do
    let s := { s with bitmask := s.bitmask.set s.bitNum b, bitNum := s.bitNum + 1 }
    if s.bitNum ≥ ps then do
      let out ← dumpPages cols s
      filterLoop ps cols bs { s with out := out, offset := s.offset + s.bitNum, bitNum := 0 }
    else filterLoop ps cols bs s

/-- the remaining bits after the loop, filter.nim:291-293 -/
def filterFinish (cols : List (Pages α)) (s : FState α) : Except Err (List (Pages α × Pages α)) :=
  if s.bitNum > 0 then dumpPages cols s else .ok s.out

/-- an operand that names a column must name an existing one, filter.nim:134-137 -/
def operandOk (t : Tbl ν α) : FOperand ν α → Bool
  | .col x => x ∈ t.map (·.1)
  | .val _ => true

/-- `filter` on a list of expressions: redux.py:382-400 (a table without rows is copied twice) and filter.nim:84-308.  If no expression names
a column, `iterateRows` never finishes: the loop runs until the pages are exhausted and stops with an index error. -/
def tblFilter (nul : α) (cmp : κ → α → α → Bool) (ps : Nat) (all : Bool) (t : Tbl ν α) (es : List (FExpr ν α κ)) : Except Err (Tbl ν α × Tbl ν α) :=
  if tblLen t = 0 then .ok (t, t)
  else if es = [] then .ok (t, [])
  else if ¬ (t.all fun c => colLen c.2 = ((t.head?).elim 0 fun c => colLen c.2)) then .error .value
  else if ¬ (es.all fun e => operandOk t e.left && operandOk t e.right) then .error .value
  else if exprCols es = [] then .error .index
  else do
    let its ← tblPick t (exprCols es)
    let bits := (zipRows (tblLen t) its).map (checkExprs nul cmp all es (exprCols es))
    let s ← filterLoop ps (t.map (·.2)) bits { bitmask := List.replicate ps false, bitNum := 0, offset := 0, out := t.map fun _ => ([], []) }
    let out ← filterFinish (t.map (·.2)) s
    .ok ((t.zip out).map fun x => (x.1.1, x.2.1), (t.zip out).map fun x => (x.1.1, x.2.2))

end

end Tablite
